import Verif.Proofs.Trace
import Verif.Spec.Calls
import Mathlib.Data.List.Forall2

/-!
# Executions with the calls of the hash functions

`LogExec b` records every call of a hash function with its input.  `Visits At S Q x`: the run `x` returns
a value satisfying `Q`, and the calls it made are, one by one, calls at places (in the sense of `At`) that
are pairwise distinct and together make up the set `S`.
-/

namespace Fips205.Model
open Fips205

/-- Executions of the code in build `b` with the calls of hash functions made on the way. -/
def LogExec (_b : Build) (α : Type) : Type := List Call × Except Panic α

namespace LogExec
variable {b : Build} {α β : Type}

/-- The calls that were made, in order. -/
def log (x : LogExec b α) : List Call := x.1

/-- How the execution ended. -/
def result (x : LogExec b α) : Except Panic α := x.2

instance : Monad (LogExec b) where
  pure v := ([], .ok v)
  bind x f := match x.2 with
    | .error e => (x.1, .error e)
    | .ok v => (x.1 ++ (f v).1, (f v).2)

instance : Rust (LogExec b) where
  panic p := ([], .error p)
  leak _ := ([], .ok ())
  build := b

theorem bind_ok {x : LogExec b α} {t : List Call} {v : α} (h : x = (t, .ok v))
    (f : α → LogExec b β) : x >>= f = (t ++ (f v).1, (f v).2) := by
  rw [h]; rfl

instance : LawfulMonad (LogExec b) := LawfulMonad.mk'
  (id_map := by
    rintro α ⟨t, r⟩
    cases r with
    | error e => rfl
    | ok v => exact Prod.ext (List.append_nil _) rfl)
  (pure_bind := fun _ _ => rfl)
  (bind_assoc := by
    rintro α β γ ⟨t, r⟩ f g
    cases r with
    | error e => rfl
    | ok v =>
      rw [bind_ok rfl, bind_ok rfl]
      generalize f v = y
      obtain ⟨t', r'⟩ := y
      cases r' with
      | error e => rfl
      | ok w => exact Prod.ext (List.append_assoc _ _ _) rfl)

theorem emit_eq (tr : List Leak) : (emit tr : LogExec b Unit) = pure () := by
  induction tr with
  | nil => rfl
  | cons e es ih => rw [emit, ih]; rfl

/-- Code that refines a function by the rules of `Returns` calls no hash function. -/
theorem returns_iff {x : LogExec b α} {P : α → Prop} :
    Returns x P ↔ ∃ v, x = pure v ∧ P v := by
  constructor
  · rintro ⟨tr, v, h, hp⟩
    exact ⟨v, by rw [h, emit_eq, pure_bind], hp⟩
  · rintro ⟨v, h, hp⟩
    exact h ▸ Returns.pure hp

/-- Record a call. -/
def call (alg : Spec.PreHash) (input : List UInt8) (v : α) : LogExec b α := ([⟨alg, input⟩], .ok v)

end LogExec

/-- The external hash crates computing the functions `P`; every call is recorded. -/
def recording {b : Build} (P : Spec.Prims) : Crypto (LogExec b) where
  sha256 x := LogExec.call .sha256 x.flatten (P.sha256 x.flatten)
  sha512 x := LogExec.call .sha512 x.flatten (P.sha512 x.flatten)
  shake128 x n := LogExec.call .shake128 x.flatten (P.shake128 x.flatten n)
  shake256 x n := LogExec.call .shake256 x.flatten (P.shake256 x.flatten n)

/-! ## The places visited by a run -/

section
variable {b : Build} {α β σ : Type} {At : Place → Call → Prop}

/-- The run returns a value satisfying `Q`; its calls are calls at the places of `S`, one call at each. -/
def Visits (At : Place → Call → Prop) (S : Place → Prop) (Q : α → Prop) (x : LogExec b α) : Prop :=
  ∃ v L xs, x = (L, .ok v) ∧ Q v ∧ xs.Nodup ∧ (∀ p, p ∈ xs ↔ S p) ∧ List.Forall₂ At xs L

namespace Visits

theorem pure {Q : α → Prop} {v : α} {S : Place → Prop} (h : Q v) (hS : ∀ p, ¬ S p) :
    Visits At S Q (Pure.pure v : LogExec b α) :=
  ⟨v, [], [], rfl, h, List.nodup_nil, fun p => by simp [hS p], .nil⟩

theorem congr {S S' : Place → Prop} {Q : α → Prop} {x : LogExec b α} (h : Visits At S Q x)
    (hS : ∀ p, S p ↔ S' p) : Visits At S' Q x := by
  obtain ⟨v, L, xs, h1, h2, h3, h4, h5⟩ := h
  exact ⟨v, L, xs, h1, h2, h3, fun p => (h4 p).trans (hS p), h5⟩

theorem mono {S : Place → Prop} {Q Q' : α → Prop} {x : LogExec b α} (h : Visits At S Q x)
    (hQ : ∀ v, Q v → Q' v) : Visits At S Q' x := by
  obtain ⟨v, L, xs, h1, h2, h3, h4, h5⟩ := h
  exact ⟨v, L, xs, h1, hQ v h2, h3, h4, h5⟩

theorem bind (S S' : Place → Prop) {S'' : Place → Prop} {P : α → Prop} {Q : β → Prop}
    {x : LogExec b α} {f : α → LogExec b β} (h : Visits At S P x) (hd : ∀ p, S p → S' p → False)
    (hu : ∀ p, S'' p ↔ S p ∨ S' p) (hf : ∀ v, P v → Visits At S' Q (f v)) :
    Visits At S'' Q (x >>= f) := by
  obtain ⟨v, L, xs, rfl, h2, h3, h4, h5⟩ := h
  obtain ⟨w, L', ys, h1', h2', h3', h4', h5'⟩ := hf v h2
  refine ⟨w, L ++ L', xs ++ ys, ?_, h2', ?_, ?_, List.rel_append h5 h5'⟩
  · rw [LogExec.bind_ok rfl, h1']
  · rw [List.nodup_append]
    refine ⟨h3, h3', ?_⟩
    rintro p hp q hq rfl
    exact hd p ((h4 p).mp hp) ((h4' p).mp hq)
  · intro p
    rw [List.mem_append, h4, h4', hu]

/-- A step without calls. -/
theorem ret {S : Place → Prop} {P : α → Prop} {Q : β → Prop} {x : LogExec b α}
    {f : α → LogExec b β} (h : Returns x P) (hf : ∀ v, P v → Visits At S Q (f v)) :
    Visits At S Q (x >>= f) := by
  obtain ⟨v, rfl, hv⟩ := LogExec.returns_iff.mp h
  exact hf v hv

/-- The set of places of the rest depends on the result. -/
theorem bindE {ω : Type} (S : Place → Prop) (S' : ω → Place → Prop) {S'' : ω → Place → Prop}
    {P : α → Prop} {Q : β → Prop} {x : LogExec b α} {f : α → LogExec b β} (h : Visits At S P x)
    (hd : ∀ w p, S p → S' w p → False) (hu : ∀ w p, S'' w p ↔ S p ∨ S' w p)
    (hf : ∀ v, P v → ∃ w, Visits At (S' w) Q (f v)) : ∃ w, Visits At (S'' w) Q (x >>= f) := by
  obtain ⟨v, L, xs, rfl, h2, h3, h4, h5⟩ := h
  obtain ⟨w, hw⟩ := hf v h2
  exact ⟨w, bind S (S' w) (P := (· = v)) ⟨v, L, xs, rfl, rfl, h3, h4, h5⟩ (hd w) (hu w)
    (by rintro _ rfl; exact hw)⟩

theorem retE {ω : Type} {S : ω → Place → Prop} {P : α → Prop} {Q : β → Prop} {x : LogExec b α}
    {f : α → LogExec b β} (h : Returns x P) (hf : ∀ v, P v → ∃ w, Visits At (S w) Q (f v)) :
    ∃ w, Visits At (S w) Q (x >>= f) := by
  obtain ⟨v, rfl, hv⟩ := LogExec.returns_iff.mp h
  exact hf v hv

/-- The last step calls. -/
theorem last {S : Place → Prop} {P : α → Prop} {Q : β → Prop} {x : LogExec b α}
    {f : α → LogExec b β} (h : Visits At S P x) (hf : ∀ v, P v → Returns (f v) Q) :
    Visits At S Q (x >>= f) := by
  refine bind S (fun _ => False) h (by simp) (by simp) fun v hv => ?_
  obtain ⟨w, hw, hQ⟩ := LogExec.returns_iff.mp (hf v hv)
  rw [hw]
  exact pure hQ (by simp)

theorem tail {S : Place → Prop} {Q : α → Prop} {x : LogExec b α}
    (h : Visits At S Q (x >>= Pure.pure)) : Visits At S Q x := by simpa using h

theorem call {alg : Spec.PreHash} {input : List UInt8} {v : α} {Q : α → Prop} {x : Place}
    (h : At x ⟨alg, input⟩) (hQ : Q v) :
    Visits At (· = x) Q (LogExec.call alg input v : LogExec b α) :=
  ⟨v, [⟨alg, input⟩], [x], rfl, hQ, by simp, fun p => by simp, .cons h .nil⟩

/-! ## Steps without calls -/

section
variable {S : Place → Prop} {Q : β → Prop}

theorem leak {e : Leak} {f : Unit → LogExec b β} (hf : Visits At S Q (f ())) :
    Visits At S Q (Rust.leak e >>= f) := hf

theorem addU32 {x y : UInt32} (h : x.toNat + y.toNat < 2 ^ 32) {f : UInt32 → LogExec b β}
    (hf : Visits At S Q (f (x + y))) : Visits At S Q (Model.addU32 x y >>= f) := by
  rwa [addU32_ok h, pure_bind]

theorem subU32 {x y : UInt32} (h : y.toNat ≤ x.toNat) {f : UInt32 → LogExec b β}
    (hf : Visits At S Q (f (x - y))) : Visits At S Q (Model.subU32 x y >>= f) := by
  rwa [subU32_ok h, pure_bind]

theorem mulU32 {x y : UInt32} (h : x.toNat * y.toNat < 2 ^ 32) {f : UInt32 → LogExec b β}
    (hf : Visits At S Q (f (x * y))) : Visits At S Q (Model.mulU32 x y >>= f) := by
  rwa [mulU32_ok h, pure_bind]

theorem divU32 {x y : UInt32} (h : y ≠ 0) {f : UInt32 → LogExec b β}
    (hf : Visits At S Q (f (x / y))) : Visits At S Q (Model.divU32 x y >>= f) := by
  rwa [divU32_ok h, pure_bind]

theorem shlU32 {x y : UInt32} (h : y.toNat < 32) {f : UInt32 → LogExec b β}
    (hf : Visits At S Q (f (x <<< y))) : Visits At S Q (Model.shlU32 x y >>= f) := by
  rwa [shlU32_ok h, pure_bind]

theorem shrU32 {x y : UInt32} (h : y.toNat < 32) {f : UInt32 → LogExec b β}
    (hf : Visits At S Q (f (x >>> y))) : Visits At S Q (Model.shrU32 x y >>= f) := by
  rwa [shrU32_ok h, pure_bind]

theorem subU64 {x y : UInt64} (h : y.toNat ≤ x.toNat) {f : UInt64 → LogExec b β}
    (hf : Visits At S Q (f (x - y))) : Visits At S Q (Model.subU64 x y >>= f) := by
  rwa [subU64_ok h, pure_bind]

theorem shlU64 {x : UInt64} {y : UInt32} (h : y.toNat < 64) {f : UInt64 → LogExec b β}
    (hf : Visits At S Q (f (x <<< y.toUInt64))) : Visits At S Q (Model.shlU64 x y >>= f) := by
  rwa [shlU64_ok h, pure_bind]

theorem shrU64 {x : UInt64} {y : UInt32} (h : y.toNat < 64) {f : UInt64 → LogExec b β}
    (hf : Visits At S Q (f (x >>> y.toUInt64))) : Visits At S Q (Model.shrU64 x y >>= f) := by
  rwa [shrU64_ok h, pure_bind]

theorem asUsize {x : UInt32} (h : x.toNat < 2 ^ 16) {f : Nat → LogExec b β}
    (hf : Visits At S Q (f x.toNat)) : Visits At S Q (Model.asUsize x >>= f) := by
  rwa [asUsize_ok h, pure_bind]

theorem subUsize {x y : Nat} (h : y ≤ x) (hx : x < 2 ^ 16) {f : Nat → LogExec b β}
    (hf : Visits At S Q (f (x - y))) : Visits At S Q (Model.subUsize x y >>= f) := by
  rwa [subUsize_ok h hx, pure_bind]

theorem u32TryFromUnwrap {x : Nat} (h : x < 2 ^ 32) {f : UInt32 → LogExec b β}
    (hf : ∀ y : UInt32, y.toNat = x → Visits At S Q (f y)) :
    Visits At S Q (Model.u32TryFromUnwrap x >>= f) := by
  rw [u32TryFromUnwrap_ok h, pure_bind]
  exact hf _ (by rw [UInt32.toNat_ofNat', Nat.mod_eq_of_lt h])

theorem vget {n : Nat} {v : Vector α n} {i : Nat} (hi : i < n) {f : α → LogExec b β}
    (hf : Visits At S Q (f v[i])) : Visits At S Q (Model.vget v i >>= f) :=
  ret (P := (· = v[i])) (Returns.tail (Returns.vget hi (Returns.pure rfl))) fun _ h => h ▸ hf

theorem vset {n : Nat} {v : Vector α n} {i : Nat} {x : α} (hi : i < n)
    {f : Vector α n → LogExec b β} (hf : Visits At S Q (f (v.set i x))) :
    Visits At S Q (Model.vset v i x >>= f) :=
  ret (P := (· = v.set i x)) (Returns.tail (Returns.vset hi (Returns.pure rfl))) fun _ h => h ▸ hf

theorem slice {s : List α} {lo hi : Nat} (h1 : lo ≤ hi) (h2 : hi ≤ s.length)
    {f : List α → LogExec b β} (hf : Visits At S Q (f ((s.drop lo).take (hi - lo)))) :
    Visits At S Q (Model.slice s lo hi >>= f) :=
  ret (P := (· = (s.drop lo).take (hi - lo))) (Returns.tail (Returns.slice h1 h2 (Returns.pure rfl)))
    fun _ h => h ▸ hf

theorem copyFromSlice {n : Nat} {s : List α} (h : s.length = n) {f : Vector α n → LogExec b β}
    (hf : ∀ v : Vector α n, v.toList = s → Visits At S Q (f v)) :
    Visits At S Q (Model.copyFromSlice n s >>= f) :=
  ret (Returns.tail (Returns.copyFromSlice h fun _ hv => Returns.pure hv)) hf

theorem debugAssert {c : LogExec b Bool} {f : Unit → LogExec b β} (hc : Returns c (· = true))
    (hf : Visits At S Q (f ())) : Visits At S Q (Model.debugAssert c >>= f) :=
  ret (P := fun _ => True) (Returns.tail (Returns.debugAssert hc (Returns.pure trivial))) fun _ _ => hf

end

/-! ## Loops

Iteration `i` visits the places of `T i w` for some `w`. -/

/-- The places visited by iterations `lo`, ..., `hi - 1`. -/
def iter {ω : Type} (T : Nat → ω → Place → Prop) (w : Nat → ω) (lo hi : Nat) (p : Place) : Prop :=
  ∃ i, lo ≤ i ∧ i < hi ∧ T i (w i) p

variable {ω : Type} {T : Nat → ω → Place → Prop}

theorem loopFrom [Inhabited ω] {body : Nat → σ → LogExec b σ} (I : Nat → σ → Prop) :
    ∀ (c lo : Nat) (s : σ), I lo s →
      (∀ i s, lo ≤ i → i < lo + c → I i s → ∃ w, Visits At (T i w) (I (i + 1)) (body i s)) →
      (∀ i i' w w' p, lo ≤ i → i < i' → i' < lo + c → T i w p → T i' w' p → False) →
      ∃ w, Visits At (iter T w lo (lo + c)) (I (lo + c)) (Model.loopFrom body c lo s)
  | 0, lo, _, h0, _, _ =>
    ⟨fun _ => default, pure h0 (by rintro p ⟨i, h1, h2, _⟩; omega)⟩
  | c + 1, lo, s, h0, hs, hd => by
    obtain ⟨w0, h⟩ := hs lo s (Nat.le_refl _) (by omega) h0
    obtain ⟨s', L, xs, e1, e2, e3, e4, e5⟩ := h
    obtain ⟨w, h'⟩ := loopFrom I c (lo + 1) s' e2 (fun i s h1 h2 => hs i s (by omega) (by omega))
      (fun i i' w w' p h1 h2 h3 => hd i i' w w' p (by omega) h2 (by omega))
    refine ⟨fun i => if i = lo then w0 else w i, ?_⟩
    rw [show lo + 1 + c = lo + (c + 1) by omega] at h'
    refine bind (T lo w0) (iter T w (lo + 1) (lo + (c + 1))) (P := (· = s'))
      ⟨s', L, xs, e1, rfl, e3, e4, e5⟩ ?_ ?_ ?_
    · rintro p h1 ⟨i, h2, h3, h4⟩
      exact hd lo i w0 (w i) p (Nat.le_refl _) (by omega) (by omega) h1 h4
    · intro p
      constructor
      · rintro ⟨i, h1, h2, h3⟩
        by_cases hi : i = lo
        · subst hi; left; simpa using h3
        · right; exact ⟨i, by omega, h2, by simpa [hi] using h3⟩
      · rintro (h | ⟨i, h1, h2, h3⟩)
        · exact ⟨lo, by omega, by omega, by simpa using h⟩
        · exact ⟨i, by omega, h2, by simpa [show i ≠ lo by omega] using h3⟩
    · rintro _ rfl
      exact h'

theorem loopFromE [Inhabited ω] {ε : Type} {body : Nat → σ → LogExec b (Except ε σ)}
    (I : Nat → σ → Prop) :
    ∀ (c lo : Nat) (s : σ), I lo s →
      (∀ i s, lo ≤ i → i < lo + c → I i s →
        ∃ w, Visits At (T i w) (fun r => ∃ s', r = .ok s' ∧ I (i + 1) s') (body i s)) →
      (∀ i i' w w' p, lo ≤ i → i < i' → i' < lo + c → T i w p → T i' w' p → False) →
      ∃ w, Visits At (iter T w lo (lo + c)) (fun r => ∃ s', r = .ok s' ∧ I (lo + c) s')
        (Model.loopFromE body c lo s)
  | 0, lo, s, h0, _, _ =>
    ⟨fun _ => default, pure ⟨s, rfl, h0⟩ (by rintro p ⟨i, h1, h2, _⟩; omega)⟩
  | c + 1, lo, s, h0, hs, hd => by
    obtain ⟨w0, h⟩ := hs lo s (Nat.le_refl _) (by omega) h0
    obtain ⟨_, L, xs, e1, ⟨s', rfl, e2⟩, e3, e4, e5⟩ := h
    obtain ⟨w, h'⟩ := loopFromE I c (lo + 1) s' e2 (fun i s h1 h2 => hs i s (by omega) (by omega))
      (fun i i' w w' p h1 h2 h3 => hd i i' w w' p (by omega) h2 (by omega))
    refine ⟨fun i => if i = lo then w0 else w i, ?_⟩
    rw [show lo + 1 + c = lo + (c + 1) by omega] at h'
    refine bind (T lo w0) (iter T w (lo + 1) (lo + (c + 1))) (P := (· = .ok s'))
      ⟨.ok s', L, xs, e1, rfl, e3, e4, e5⟩ ?_ ?_ ?_
    · rintro p h1 ⟨i, h2, h3, h4⟩
      exact hd lo i w0 (w i) p (Nat.le_refl _) (by omega) (by omega) h1 h4
    · intro p
      constructor
      · rintro ⟨i, h1, h2, h3⟩
        by_cases hi : i = lo
        · subst hi; left; simpa using h3
        · right; exact ⟨i, by omega, h2, by simpa [hi] using h3⟩
      · rintro (h | ⟨i, h1, h2, h3⟩)
        · exact ⟨lo, by omega, by omega, by simpa using h⟩
        · exact ⟨i, by omega, h2, by simpa [show i ≠ lo by omega] using h3⟩
    · rintro _ rfl
      exact leak h'

theorem toNat_ofNat_of_lt {i : Nat} {hi : UInt32} (h : i < hi.toNat) : (UInt32.ofNat i).toNat = i := by
  have := hi.toNat_lt
  rw [UInt32.toNat_ofNat', Nat.mod_eq_of_lt (by omega)]

theorem forU32E [Inhabited ω] {ε : Type} {lo hi : UInt32} {s : σ}
    {body : UInt32 → σ → LogExec b (Except ε σ)} (I : Nat → σ → Prop)
    (hle : lo.toNat ≤ hi.toNat) (h0 : I lo.toNat s)
    (hs : ∀ (i : UInt32) s, lo.toNat ≤ i.toNat → i.toNat < hi.toNat → I i.toNat s →
      ∃ w, Visits At (T i.toNat w) (fun r => ∃ s', r = .ok s' ∧ I (i.toNat + 1) s') (body i s))
    (hd : ∀ i i' w w' p, lo.toNat ≤ i → i < i' → i' < hi.toNat → T i w p → T i' w' p → False) :
    ∃ w, Visits At (iter T w lo.toNat hi.toNat) (fun r => ∃ s', r = .ok s' ∧ I hi.toNat s')
      (Model.forU32E lo hi s body) := by
  obtain ⟨w, h⟩ := loopFromE (At := At) (T := T) (body := fun i => body (UInt32.ofNat i)) I
    (hi.toNat - lo.toNat) lo.toNat s h0
    (fun i s h1 h2 hI => by
      have hi' := toNat_ofNat_of_lt (i := i) (hi := hi) (by omega)
      have := hs (UInt32.ofNat i) s (by omega) (by omega) (by rwa [hi'])
      rwa [hi'] at this)
    (fun i i' w w' p h1 h2 h3 => hd i i' w w' p h1 h2 (by omega))
  rw [show lo.toNat + (hi.toNat - lo.toNat) = hi.toNat by omega] at h
  exact ⟨w, leak h⟩

/-- Iteration `i` visits the places of `T i`. -/
theorem forU32 {T : Nat → Place → Prop} {lo hi : UInt32} {s : σ} {body : UInt32 → σ → LogExec b σ}
    (I : Nat → σ → Prop) (hle : lo.toNat ≤ hi.toNat) (h0 : I lo.toNat s)
    (hs : ∀ (i : UInt32) s, lo.toNat ≤ i.toNat → i.toNat < hi.toNat → I i.toNat s →
      Visits At (T i.toNat) (I (i.toNat + 1)) (body i s))
    (hd : ∀ i i' p, lo.toNat ≤ i → i < i' → i' < hi.toNat → T i p → T i' p → False) :
    Visits At (fun p => ∃ i, lo.toNat ≤ i ∧ i < hi.toNat ∧ T i p) (I hi.toNat)
      (Model.forU32 lo hi s body) := by
  obtain ⟨w, h⟩ := loopFrom (At := At) (ω := Unit) (T := fun i _ => T i)
    (body := fun i => body (UInt32.ofNat i)) I (hi.toNat - lo.toNat) lo.toNat s h0
    (fun i s h1 h2 hI => by
      have hi' := toNat_ofNat_of_lt (i := i) (hi := hi) (by omega)
      have := hs (UInt32.ofNat i) s (by omega) (by omega) (by rwa [hi'])
      rw [hi'] at this
      exact ⟨(), this⟩)
    (fun i i' _ _ p h1 h2 h3 => hd i i' p h1 h2 (by omega))
  rw [show lo.toNat + (hi.toNat - lo.toNat) = hi.toNat by omega] at h
  exact leak h

theorem forU32E' {T : Nat → Place → Prop} {ε : Type} {lo hi : UInt32} {s : σ}
    {body : UInt32 → σ → LogExec b (Except ε σ)} (I : Nat → σ → Prop)
    (hle : lo.toNat ≤ hi.toNat) (h0 : I lo.toNat s)
    (hs : ∀ (i : UInt32) s, lo.toNat ≤ i.toNat → i.toNat < hi.toNat → I i.toNat s →
      Visits At (T i.toNat) (fun r => ∃ s', r = .ok s' ∧ I (i.toNat + 1) s') (body i s))
    (hd : ∀ i i' p, lo.toNat ≤ i → i < i' → i' < hi.toNat → T i p → T i' p → False) :
    Visits At (fun p => ∃ i, lo.toNat ≤ i ∧ i < hi.toNat ∧ T i p)
      (fun r => ∃ s', r = .ok s' ∧ I hi.toNat s') (Model.forU32E lo hi s body) := by
  obtain ⟨w, h⟩ := forU32E (At := At) (ω := Unit) (T := fun i _ => T i) I hle h0
    (fun i s h1 h2 hI => ⟨(), hs i s h1 h2 hI⟩) (fun i i' _ _ p h1 h2 h3 => hd i i' p h1 h2 h3)
  exact h

theorem forUsize {T : Nat → Place → Prop} {lo hi : Nat} {s : σ} {body : Nat → σ → LogExec b σ}
    (I : Nat → σ → Prop) (hle : lo ≤ hi) (h0 : I lo s)
    (hs : ∀ i s, lo ≤ i → i < hi → I i s → Visits At (T i) (I (i + 1)) (body i s))
    (hd : ∀ i i' p, lo ≤ i → i < i' → i' < hi → T i p → T i' p → False) :
    Visits At (fun p => ∃ i, lo ≤ i ∧ i < hi ∧ T i p) (I hi) (Model.forUsize lo hi s body) := by
  obtain ⟨w, h⟩ := loopFrom (At := At) (ω := Unit) (T := fun i _ => T i)
    (body := body) I (hi - lo) lo s h0
    (fun i s h1 h2 hI => ⟨(), hs i s h1 (by omega) hI⟩)
    (fun i i' _ _ p h1 h2 h3 => hd i i' p h1 h2 (by omega))
  rw [show lo + (hi - lo) = hi by omega] at h
  exact leak h

theorem foldlM {T : Nat → Place → Prop} {ε : Type} {body : σ → ε → LogExec b σ}
    (I : Nat → σ → Prop) :
    ∀ (xs : List ε) (k : Nat) (s : σ), I k s →
      (∀ i s (hi : i < xs.length), I (k + i) s →
        Visits At (T (k + i)) (I (k + i + 1)) (body s xs[i])) →
      (∀ i i' p, k ≤ i → i < i' → i' < k + xs.length → T i p → T i' p → False) →
      Visits At (fun p => ∃ i, k ≤ i ∧ i < k + xs.length ∧ T i p) (I (k + xs.length))
        (xs.foldlM body s)
  | [], _, s, h0, _, _ => pure h0 (by rintro p ⟨i, h1, h2, _⟩; simp at h2; omega)
  | x :: xs, k, s, h0, hs, hd => by
    rw [List.foldlM_cons]
    refine bind (T k) (fun p => ∃ i, k + 1 ≤ i ∧ i < k + 1 + xs.length ∧ T i p)
      (hs 0 s (by simp) h0) ?_ ?_ fun s' hs' => ?_
    · rintro p h1 ⟨i, h2, h3, h4⟩
      exact hd k i p (Nat.le_refl _) (by omega) (by simp; omega) h1 h4
    · intro p
      simp only [List.length_cons]
      constructor
      · rintro ⟨i, h1, h2, h3⟩
        by_cases hi : i = k
        · left; exact hi ▸ h3
        · right; exact ⟨i, by omega, by omega, h3⟩
      · rintro (h | ⟨i, h1, h2, h3⟩)
        · exact ⟨k, by omega, by omega, h⟩
        · exact ⟨i, by omega, by omega, h3⟩
    · have := foldlM I xs (k + 1) s' hs' (fun i s hi hI => by
        have := hs (i + 1) s (by simpa using hi) (by rwa [← Nat.add_assoc, Nat.add_right_comm])
        simpa [Nat.add_assoc, Nat.add_comm 1 i] using this)
        (fun i i' p h1 h2 h3 => hd i i' p (by omega) h2 (by simp; omega))
      simpa [Nat.add_assoc, Nat.add_comm 1] using this

theorem forEach {T : Nat → Place → Prop} {ε : Type} {xs : List ε} {s : σ}
    {body : ε → σ → LogExec b σ} (I : Nat → σ → Prop) (h0 : I 0 s)
    (hs : ∀ i s (hi : i < xs.length), I i s → Visits At (T i) (I (i + 1)) (body xs[i] s))
    (hd : ∀ i i' p, i < i' → i' < xs.length → T i p → T i' p → False) :
    Visits At (fun p => ∃ i, i < xs.length ∧ T i p) (I xs.length) (Model.forEach xs s body) := by
  refine leak ?_
  have := foldlM (At := At) (T := T) (body := fun s x => body x s) I xs 0 s h0
    (fun i s hi hI => by simpa using hs i s hi (by simpa using hI))
    (fun i i' p _ h2 h3 => hd i i' p h2 (by simpa using h3))
  simpa using this

end Visits
end

end Fips205.Model
