import Verif.Proofs.FaultsRun
import Verif.Proofs.RunApi

/-!
# Runs with a hash unit, compared with runs without errors

A run of the code as a tree of its calls of hash functions (`Program`).  If the unit answers correctly at the calls of
a run without errors, its run returns the same (`Program.agree`).  A run in which the unit made no error at the
calls of a set `B` is a run of a unit that makes no errors there (`Program.mend`).
-/

namespace Fips205.Model
open Fips205

/-- A call of a hash function as the code makes it: the parts of the input, the length of the output. -/
inductive Query where
  | sha256 (x : List (List UInt8))
  | sha512 (x : List (List UInt8))
  | shake128 (x : List (List UInt8)) (n : Nat)
  | shake256 (x : List (List UInt8)) (n : Nat)

/-- The length of the output. -/
def Query.len : Query → Nat
  | .sha256 _ => 32
  | .sha512 _ => 64
  | .shake128 _ n | .shake256 _ n => n

/-- Which function is called, and with what input. -/
def Query.call : Query → Call
  | .sha256 x => ⟨.sha256, x.flatten⟩
  | .sha512 x => ⟨.sha512, x.flatten⟩
  | .shake128 x _ => ⟨.shake128, x.flatten⟩
  | .shake256 x _ => ⟨.shake256, x.flatten⟩

/-- The right answer. -/
def Query.right (P : Spec.Prims) : (q : Query) → Vector UInt8 q.len
  | .sha256 x => P.sha256 x.flatten
  | .sha512 x => P.sha512 x.flatten
  | .shake128 x n => P.shake128 x.flatten n
  | .shake256 x n => P.shake256 x.flatten n

variable {bd : Build} {τ α β : Type}

/-- The answer of a unit. -/
def HashUnit.answer (U : HashUnit τ) : (q : Query) → τ → Vector UInt8 q.len × τ
  | .sha256 x => U.sha256 x
  | .sha512 x => U.sha512 x
  | .shake128 x n => U.shake128 x n
  | .shake256 x n => U.shake256 x n

/-- The unit with given answers. -/
def HashUnit.ofAnswer (f : (q : Query) → τ → Vector UInt8 q.len × τ) : HashUnit τ where
  sha256 x := f (.sha256 x)
  sha512 x := f (.sha512 x)
  shake128 x n := f (.shake128 x n)
  shake256 x n := f (.shake256 x n)

@[simp] theorem HashUnit.answer_ofAnswer (f : (q : Query) → τ → Vector UInt8 q.len × τ) (q : Query) :
    (HashUnit.ofAnswer f).answer q = f q := by
  cases q <;> rfl

/-- The unit `U` together with the list of the calls it has answered wrongly, measured against `P`. -/
def watching (U : HashUnit τ) (P : Spec.Prims) : HashUnit (τ × List Call) :=
  .ofAnswer fun q s =>
    ((U.answer q s.1).1, (U.answer q s.1).2, if (U.answer q s.1).1 = q.right P then s.2 else s.2 ++ [q.call])

open scoped Classical in
/-- The unit `U` with its errors at the calls in `B` corrected. -/
noncomputable def mended (U : HashUnit τ) (P : Spec.Prims) (B : Call → Prop) : HashUnit τ :=
  .ofAnswer fun q s => (if B q.call then q.right P else (U.answer q s).1, (U.answer q s).2)

/-- `U` makes no error at the call `c`. -/
def RightAt (U : HashUnit τ) (P : Spec.Prims) (c : Call) : Prop :=
  ∀ q h, q.call = c → (U.answer q h).1 = q.right P

theorem mended_right (U : HashUnit τ) (P : Spec.Prims) {B : Call → Prop} {c : Call} (hc : B c) :
    RightAt (mended U P B) P c := by
  rintro q h rfl
  simp [mended, hc]

/-- The code as a tree of its calls. -/
inductive Program (bd : Build) (α : Type) : Type where
  | ret (v : α) : Program bd α
  | stop (p : Panic) : Program bd α
  | ask (q : Query) (k : Vector UInt8 q.len → Program bd α) : Program bd α

namespace Program

/-- One program after another. -/
def bind : Program bd α → (α → Program bd β) → Program bd β
  | ret v, f => f v
  | stop p, _ => stop p
  | ask q k, f => ask q fun v => (k v).bind f

instance : Monad (Program bd) where
  pure := ret
  bind := bind

instance : Rust (Program bd) where
  panic := stop
  leak _ := ret ()
  build := bd

/-- The hash crates, as calls. -/
def crypto : Crypto (Program bd) where
  sha256 x := ask (.sha256 x) ret
  sha512 x := ask (.sha512 x) ret
  shake128 x n := ask (.shake128 x n) ret
  shake256 x n := ask (.shake256 x n) ret

/-- The run with right answers and the log of calls. -/
def logged (P : Spec.Prims) : Program bd α → LogExec bd α
  | ret v => ([], .ok v)
  | stop p => ([], .error p)
  | ask q k => (q.call :: ((k (q.right P)).logged P).1, ((k (q.right P)).logged P).2)

/-- The run with a unit. -/
def withUnit (U : HashUnit τ) : Program bd α → UnitExec bd τ α
  | ret v => fun s => .ok (v, s)
  | stop p => fun _ => .error p
  | ask q k => fun s => (k (U.answer q s).1).withUnit U (U.answer q s).2

theorem withUnit_ask (U : HashUnit τ) (q : Query) (k : Vector UInt8 q.len → Program bd α) (s : τ) :
    (ask q k).withUnit U s = (k (U.answer q s).1).withUnit U (U.answer q s).2 := rfl

theorem logged_bind (P : Spec.Prims) (t : Program bd α) (f : α → Program bd β) :
    (t.bind f).logged P = t.logged P >>= fun v => (f v).logged P := by
  induction t with
  | ret v => rfl
  | stop p => rfl
  | ask q k ih =>
    rw [bind, logged, ih, logged]
    change _ = (match ((k (q.right P)).logged P).2 with | .error e => _ | .ok v => _)
    generalize (k (q.right P)).logged P = x
    obtain ⟨L, _ | v⟩ := x <;> rfl

theorem withUnit_bind (U : HashUnit τ) (t : Program bd α) (f : α → Program bd β) :
    (t.bind f).withUnit U = t.withUnit U >>= fun v => (f v).withUnit U := by
  induction t with
  | ret v => rfl
  | stop p => rfl
  | ask q k ih =>
    funext s
    rw [bind, withUnit_ask, ih]
    rfl

/-- Runs with a log. -/
def toLog (P : Spec.Prims) : RustHom (Program bd) (LogExec bd) where
  app t := t.logged P
  map_pure _ := rfl
  map_bind := logged_bind P
  map_panic _ := rfl
  map_leak _ _ := rfl
  map_build := rfl

/-- Runs with a unit. -/
def toUnit (U : HashUnit τ) : RustHom (Program bd) (UnitExec bd τ) where
  app t := t.withUnit U
  map_pure _ := rfl
  map_bind := withUnit_bind U
  map_panic _ := rfl
  map_leak _ _ := rfl
  map_build := rfl

theorem toLog_crypto (P : Spec.Prims) : (toLog P : RustHom (Program bd) _).crypto crypto = recording P := rfl

theorem toUnit_crypto (U : HashUnit τ) : (toUnit U : RustHom (Program bd) _).crypto crypto = U.crypto := rfl

/-- A unit that makes no error at the calls of the right run runs like it. -/
theorem agree {U : HashUnit τ} {P : Spec.Prims} (t : Program bd α) : ∀ {L : List Call} {v : α},
    t.logged P = (L, .ok v) → (∀ c ∈ L, RightAt U P c) → ∀ h, ∃ h', t.withUnit U h = .ok (v, h') := by
  induction t with
  | ret w =>
    rintro L v e - h
    obtain rfl := Except.ok.inj (Prod.mk.inj e).2
    exact ⟨h, rfl⟩
  | stop p =>
    rintro L v e - h
    exact absurd (Prod.mk.inj e).2 (by rintro ⟨⟩)
  | ask q k ih =>
    rintro L v e hL h
    obtain ⟨rfl, e2⟩ := Prod.mk.inj e
    have h1 := hL q.call (List.mem_cons_self ..) q h rfl
    rw [withUnit_ask, h1]
    exact ih _ (L := ((k (q.right P)).logged P).1) (Prod.ext rfl e2) (fun c hc => hL c (List.mem_cons_of_mem _ hc)) _

/-- The run of a watched unit is the run of the unit. -/
theorem watch {U : HashUnit τ} {P : Spec.Prims} (t : Program bd α) : ∀ {h h' : τ} {e e' : List Call} {v : α},
    t.withUnit (watching U P) (h, e) = .ok (v, h', e') → t.withUnit U h = .ok (v, h') ∧ e ⊆ e' := by
  induction t with
  | ret w =>
    intro h h' e e' v hr
    have hr := Except.ok.inj hr
    simp only [Prod.mk.injEq] at hr
    obtain ⟨rfl, rfl, rfl⟩ := hr
    exact ⟨rfl, fun _ h => h⟩
  | stop p => rintro h h' e e' v ⟨⟩
  | ask q k ih =>
    intro h h' e e' v hr
    rw [withUnit_ask, watching, HashUnit.answer_ofAnswer, ← watching] at hr
    obtain ⟨h1, h2⟩ := ih _ hr
    refine ⟨h1, fun c hc => h2 ?_⟩
    split
    · exact hc
    · exact List.mem_append_left _ hc

/-- What is on the list are errors. -/
theorem watch_errors {U : HashUnit τ} {P : Spec.Prims} (t : Program bd α) :
    ∀ {h h' : τ} {e e' : List Call} {v : α}, t.withUnit (watching U P) (h, e) = .ok (v, h', e') →
      ∀ c ∈ e', c ∈ e ∨ ¬ RightAt U P c := by
  induction t with
  | ret w =>
    intro h h' e e' v hr c hc
    have hr := Except.ok.inj hr
    simp only [Prod.mk.injEq] at hr
    obtain ⟨rfl, rfl, rfl⟩ := hr
    exact .inl hc
  | stop p => rintro h h' e e' v ⟨⟩
  | ask q k ih =>
    intro h h' e e' v hr c hc
    rw [withUnit_ask, watching, HashUnit.answer_ofAnswer, ← watching] at hr
    rcases ih _ hr c hc with h1 | h1
    · split at h1
      · exact .inl h1
      · next hne =>
        rcases List.mem_append.mp h1 with h2 | h2
        · exact .inl h2
        · exact .inr fun hr => hne (hr q h (List.mem_singleton.mp h2).symm)
    · exact .inr h1

open scoped Classical in
/-- If it made no error in `B`, it is the run of a unit without errors there. -/
theorem mend {U : HashUnit τ} {P : Spec.Prims} {B : Call → Prop} (t : Program bd α) :
    ∀ {h h' : τ} {e e' : List Call} {v : α}, t.withUnit (watching U P) (h, e) = .ok (v, h', e') →
      (∀ c ∈ e', ¬ B c) → t.withUnit (mended U P B) h = .ok (v, h') := by
  induction t with
  | ret w =>
    intro h h' e e' v hr _
    have hr := Except.ok.inj hr
    simp only [Prod.mk.injEq] at hr
    obtain ⟨rfl, rfl, rfl⟩ := hr
    rfl
  | stop p => rintro h h' e e' v ⟨⟩
  | ask q k ih =>
    intro h h' e e' v hr hB
    rw [withUnit_ask, watching, HashUnit.answer_ofAnswer, ← watching] at hr
    have h2 := (watch _ hr).2
    have h1 := ih _ hr hB
    rw [withUnit_ask, mended, HashUnit.answer_ofAnswer, ← mended]
    have : (if B q.call then q.right P else (U.answer q h).1) = (U.answer q h).1 := by
      split
      · next hb =>
        by_contra hne
        exact hB q.call (h2 (by rw [if_neg (Ne.symm hne)]; simp)) hb
      · rfl
    simp only [this]
    exact h1

end Program
end Fips205.Model
