import Verif.Proofs.Lib
import Verif.Proofs.Hom

/-!
# Runs with a hash unit that errs

`UnitExec`: the code calls a hash unit that has a state and answers as it likes.  `Ends x P`: from every state
of the unit the run `x` returns, without a panic, a value that satisfies `P`.
-/

namespace Fips205.Model
open Fips205

set_option linter.unusedSectionVars false

/-- A hash unit with a state of type `τ`: each answer has the right length and is otherwise arbitrary; it may
depend on everything that happened before. -/
structure HashUnit (τ : Type) where
  sha256 : List (List UInt8) → τ → Vector UInt8 32 × τ
  sha512 : List (List UInt8) → τ → Vector UInt8 64 × τ
  shake128 : List (List UInt8) → (n : Nat) → τ → Vector UInt8 n × τ
  shake256 : List (List UInt8) → (n : Nat) → τ → Vector UInt8 n × τ

/-- Runs of the code in build `bd` with such a unit. -/
def UnitExec (_bd : Build) (τ α : Type) : Type := τ → Except Panic (α × τ)

variable {bd : Build} {τ : Type}

/-- Go on with the value and the state of the unit, or stop at a panic. -/
def UnitExec.next {α β τ : Type} (f : α → τ → Except Panic (β × τ)) : Except Panic (α × τ) → Except Panic (β × τ)
  | .error e => .error e
  | .ok (v, s) => f v s

instance : Monad (UnitExec bd τ) where
  pure v := fun s => .ok (v, s)
  bind x f := fun s => UnitExec.next f (x s)

instance : LawfulMonad (UnitExec bd τ) := by
  refine LawfulMonad.mk' _ ?_ ?_ ?_
  · intro α x
    funext s
    change UnitExec.next (fun v s => .ok (v, s)) (x s) = x s
    cases x s <;> rfl
  · intros; rfl
  · intro α β γ x f g
    funext s
    change UnitExec.next g (UnitExec.next f (x s)) = UnitExec.next (fun v s => UnitExec.next g (f v s)) (x s)
    cases x s <;> rfl

instance : Rust (UnitExec bd τ) where
  panic p := fun _ => .error p
  leak _ := fun s => .ok ((), s)
  build := bd

/-- The hash crates, computed by the unit. -/
def HashUnit.crypto (U : HashUnit τ) : Crypto (UnitExec bd τ) where
  sha256 x := fun s => .ok (U.sha256 x s)
  sha512 x := fun s => .ok (U.sha512 x s)
  shake128 x n := fun s => .ok (U.shake128 x n s)
  shake256 x n := fun s => .ok (U.shake256 x n s)

/-- From every state of the unit, `x` returns a value satisfying `P`. -/
def Ends {α : Type} (x : UnitExec bd τ α) (P : α → Prop) : Prop :=
  ∀ s, ∃ v s', x s = .ok (v, s') ∧ P v

local notation "m" => UnitExec bd τ

section
variable {α β σ : Type}

theorem Ends.pure {v : α} {P : α → Prop} (h : P v) : Ends (Pure.pure v : m α) P :=
  fun s => ⟨v, s, rfl, h⟩

theorem Ends.bind {x : m α} {f : α → m β} {P : α → Prop} {Q : β → Prop}
    (hx : Ends x P) (hf : ∀ v, P v → Ends (f v) Q) : Ends (x >>= f) Q := by
  intro s
  obtain ⟨v, s1, h1, h2⟩ := hx s
  obtain ⟨w, s2, h3, h4⟩ := hf v h2 s1
  refine ⟨w, s2, ?_, h4⟩
  change UnitExec.next f (x s) = _
  rw [h1]
  exact h3

theorem Ends.mono {x : m α} {P Q : α → Prop} (hx : Ends x P) (h : ∀ v, P v → Q v) : Ends x Q := fun s => by
  obtain ⟨v, s1, h1, h2⟩ := hx s
  exact ⟨v, s1, h1, h v h2⟩

theorem Ends.leak {e : Leak} {f : Unit → m β} {Q : β → Prop} (hf : Ends (f ()) Q) :
    Ends (Rust.leak e >>= f) Q := hf

/-- Code that calls no hash function. -/
theorem Ends.of {x : m α} {P : α → Prop} (h : Returns x P) : Ends x P := by
  obtain ⟨tr, v, rfl, hv⟩ := h
  induction tr with
  | nil => simpa [emit] using Ends.pure hv
  | cons e es ih =>
    simp only [emit, bind_assoc]
    exact Ends.leak ih

/-! Continuation-passing forms -/

theorem Ends.addU32 {a b : UInt32} (h : a.toNat + b.toNat < 2 ^ 32) {f : UInt32 → m β} {Q : β → Prop}
    (hf : Ends (f (a + b)) Q) : Ends (addU32 a b >>= f) Q := by
  rwa [addU32_ok h, pure_bind]
theorem Ends.subU32 {a b : UInt32} (h : b.toNat ≤ a.toNat) {f : UInt32 → m β} {Q : β → Prop}
    (hf : Ends (f (a - b)) Q) : Ends (subU32 a b >>= f) Q := by
  rwa [subU32_ok h, pure_bind]
theorem Ends.mulU32 {a b : UInt32} (h : a.toNat * b.toNat < 2 ^ 32) {f : UInt32 → m β} {Q : β → Prop}
    (hf : Ends (f (a * b)) Q) : Ends (mulU32 a b >>= f) Q := by
  rwa [mulU32_ok h, pure_bind]
theorem Ends.divU32 {a b : UInt32} (h : b ≠ 0) {f : UInt32 → m β} {Q : β → Prop}
    (hf : Ends (f (a / b)) Q) : Ends (divU32 a b >>= f) Q := by
  rwa [divU32_ok h, pure_bind]
theorem Ends.shlU32 {a b : UInt32} (h : b.toNat < 32) {f : UInt32 → m β} {Q : β → Prop}
    (hf : Ends (f (a <<< b)) Q) : Ends (shlU32 a b >>= f) Q := by
  rwa [shlU32_ok h, pure_bind]
theorem Ends.shrU32 {a b : UInt32} (h : b.toNat < 32) {f : UInt32 → m β} {Q : β → Prop}
    (hf : Ends (f (a >>> b)) Q) : Ends (shrU32 a b >>= f) Q := by
  rwa [shrU32_ok h, pure_bind]
theorem Ends.addU64 {a b : UInt64} (h : a.toNat + b.toNat < 2 ^ 64) {f : UInt64 → m β} {Q : β → Prop}
    (hf : Ends (f (a + b)) Q) : Ends (addU64 a b >>= f) Q := by
  rwa [addU64_ok h, pure_bind]
theorem Ends.subU64 {a b : UInt64} (h : b.toNat ≤ a.toNat) {f : UInt64 → m β} {Q : β → Prop}
    (hf : Ends (f (a - b)) Q) : Ends (subU64 a b >>= f) Q := by
  rwa [subU64_ok h, pure_bind]
theorem Ends.shlU64 {a : UInt64} {b : UInt32} (h : b.toNat < 64) {f : UInt64 → m β} {Q : β → Prop}
    (hf : Ends (f (a <<< b.toUInt64)) Q) : Ends (shlU64 a b >>= f) Q := by
  rwa [shlU64_ok h, pure_bind]
theorem Ends.shrU64 {a : UInt64} {b : UInt32} (h : b.toNat < 64) {f : UInt64 → m β} {Q : β → Prop}
    (hf : Ends (f (a >>> b.toUInt64)) Q) : Ends (shrU64 a b >>= f) Q := by
  rwa [shrU64_ok h, pure_bind]
theorem Ends.addUsize {a b : Nat} (h : a + b < 2 ^ 16) {f : Nat → m β} {Q : β → Prop}
    (hf : Ends (f (a + b)) Q) : Ends (addUsize a b >>= f) Q := by
  rwa [addUsize_ok h, pure_bind]
theorem Ends.mulUsize {a b : Nat} (h : a * b < 2 ^ 16) {f : Nat → m β} {Q : β → Prop}
    (hf : Ends (f (a * b)) Q) : Ends (mulUsize a b >>= f) Q := by
  rwa [mulUsize_ok h, pure_bind]
theorem Ends.divUsize {a b : Nat} (h : b ≠ 0) {f : Nat → m β} {Q : β → Prop}
    (hf : Ends (f (a / b)) Q) : Ends (divUsize a b >>= f) Q := by
  rwa [divUsize_ok h, pure_bind]
theorem Ends.subUsize {a b : Nat} (h : b ≤ a) (ha : a < 2 ^ 16) {f : Nat → m β} {Q : β → Prop}
    (hf : Ends (f (a - b)) Q) : Ends (subUsize a b >>= f) Q := by
  rwa [subUsize_ok h ha, pure_bind]
theorem Ends.asUsize {x : UInt32} (h : x.toNat < 2 ^ 16) {f : Nat → m β} {Q : β → Prop}
    (hf : Ends (f x.toNat) Q) : Ends (asUsize x >>= f) Q := by
  rwa [asUsize_ok h, pure_bind]
theorem Ends.u32TryFromUnwrap {x : Nat} (h : x < 2 ^ 32) {f : UInt32 → m β} {Q : β → Prop}
    (hf : ∀ y : UInt32, y.toNat = x → Ends (f y) Q) :
    Ends (u32TryFromUnwrap x >>= f) Q := by
  rw [u32TryFromUnwrap_ok h, pure_bind]
  exact hf _ (by rw [UInt32.toNat_ofNat', Nat.mod_eq_of_lt h])

/-! ## Assertions, indexing, slicing -/

theorem Ends.debugAssert {c : m Bool} {f : Unit → m β} {Q : β → Prop}
    (hc : Ends c (· = true)) (hf : Ends (f ()) Q) : Ends (debugAssert c >>= f) Q := by
  refine Ends.bind (P := fun _ => True) ?_ (fun _ _ => hf)
  unfold Model.debugAssert
  split
  · refine hc.bind fun b hb => ?_
    subst hb
    exact Ends.pure trivial
  · exact Ends.pure trivial

theorem Ends.vget {n : Nat} {v : Vector α n} {i : Nat} (hi : i < n) {f : α → m β}
    {Q : β → Prop} (hf : Ends (f v[i]) Q) : Ends (vget v i >>= f) Q := by
  rw [Model.vget, bind_assoc]
  refine Ends.leak ?_
  simpa [hi] using hf

theorem Ends.vset {n : Nat} {v : Vector α n} {i : Nat} {x : α} (hi : i < n)
    {f : Vector α n → m β} {Q : β → Prop} (hf : Ends (f (v.set i x)) Q) :
    Ends (vset v i x >>= f) Q := by
  rw [Model.vset, bind_assoc]
  refine Ends.leak ?_
  simpa [hi] using hf

theorem Ends.lget {v : List α} {i : Nat} (hi : i < v.length) {f : α → m β}
    {Q : β → Prop} (hf : Ends (f v[i]) Q) : Ends (lget v i >>= f) Q := by
  rw [Model.lget, bind_assoc]
  refine Ends.leak ?_
  simpa [hi] using hf

theorem Ends.slice {s : List α} {lo hi : Nat} (h1 : lo ≤ hi) (h2 : hi ≤ s.length)
    {f : List α → m β} {Q : β → Prop} (hf : Ends (f ((s.drop lo).take (hi - lo))) Q) :
    Ends (slice s lo hi >>= f) Q := by
  rw [Model.slice, bind_assoc]
  refine Ends.leak ?_
  simpa [h1, h2] using hf

theorem Ends.copyFromSlice {n : Nat} {s : List α} (h : s.length = n)
    {f : Vector α n → m β} {Q : β → Prop} (hf : ∀ v : Vector α n, v.toList = s → Ends (f v) Q) :
    Ends (copyFromSlice n s >>= f) Q := by
  rw [Model.copyFromSlice, dif_pos h, pure_bind]
  exact hf _ (by simp [Vector.toList])

theorem Ends.writeSlice {n : Nat} {v : Vector α n} {lo hi : Nat} {s : List α} (h1 : lo ≤ hi)
    (h2 : hi ≤ n) (h3 : s.length = hi - lo) {f : Vector α n → m β} {Q : β → Prop}
    (hf : ∀ w : Vector α n, w.toList = v.toList.take lo ++ s ++ v.toList.drop hi → Ends (f w) Q) :
    Ends (writeSlice v lo hi s >>= f) Q := by
  rw [Model.writeSlice, bind_assoc]
  refine Ends.leak ?_
  rw [dif_pos ⟨h1, h2⟩, dif_pos h3, pure_bind]
  exact hf _ (by simp [Vector.toList])

/-- Turn a statement about `x` into one about `x >>= pure`. -/
theorem Ends.tail {x : m α} {Q : α → Prop} (h : Ends (x >>= Pure.pure) Q) : Ends x Q := by
  simpa using h

/-! ## Loops -/

theorem Ends.loopFrom {body : Nat → σ → m σ} (I : Nat → σ → Prop) :
    ∀ (c lo : Nat) (s : σ), I lo s →
      (∀ i s, lo ≤ i → i < lo + c → I i s → Ends (body i s) (I (i + 1))) →
      Ends (loopFrom body c lo s) (I (lo + c))
  | 0, _, _, h0, _ => Ends.pure h0
  | c + 1, lo, s, h0, hs => by
    refine (hs lo s (Nat.le_refl _) (by omega) h0).bind fun s' hs' => ?_
    have := Ends.loopFrom I c (lo + 1) s' hs' fun i s h1 h2 => hs i s (by omega) (by omega)
    rwa [show lo + 1 + c = lo + (c + 1) by omega] at this

theorem Ends.forUsize {lo hi : Nat} {s : σ} {body : Nat → σ → m σ} (I : Nat → σ → Prop)
    (hle : lo ≤ hi) (h0 : I lo s)
    (hs : ∀ i s, lo ≤ i → i < hi → I i s → Ends (body i s) (I (i + 1))) :
    Ends (forUsize lo hi s body) (I hi) := by
  refine Ends.leak ?_
  have := Ends.loopFrom (body := body) I (hi - lo) lo s h0 fun i s h1 h2 =>
    hs i s h1 (by omega)
  rwa [show lo + (hi - lo) = hi by omega] at this

theorem Ends.forU32 {lo hi : UInt32} {s : σ} {body : UInt32 → σ → m σ} (I : Nat → σ → Prop)
    (hle : lo.toNat ≤ hi.toNat) (h0 : I lo.toNat s)
    (hs : ∀ (i : UInt32) s, lo.toNat ≤ i.toNat → i.toNat < hi.toNat → I i.toNat s →
      Ends (body i s) (I (i.toNat + 1))) :
    Ends (forU32 lo hi s body) (I hi.toNat) := by
  refine Ends.leak ?_
  have := Ends.loopFrom (body := fun i => body (UInt32.ofNat i)) I (hi.toNat - lo.toNat) lo.toNat
    s h0 fun i s h1 h2 hI => by
      have hi' : (UInt32.ofNat i).toNat = i := by
        have := hi.toNat_lt
        rw [UInt32.toNat_ofNat', Nat.mod_eq_of_lt (by omega)]
      have := hs (UInt32.ofNat i) s (by omega) (by omega) (by rwa [hi'])
      rwa [hi'] at this
  rwa [show lo.toNat + (hi.toNat - lo.toNat) = hi.toNat by omega] at this

theorem Ends.loopFromE {ε : Type} {body : Nat → σ → m (Except ε σ)} (I : Nat → σ → Prop) :
    ∀ (c lo : Nat) (s : σ), I lo s →
      (∀ i s, lo ≤ i → i < lo + c → I i s →
        Ends (body i s) (fun r => ∃ s', r = .ok s' ∧ I (i + 1) s')) →
      Ends (loopFromE body c lo s) (fun r => ∃ s', r = .ok s' ∧ I (lo + c) s')
  | 0, _, s, h0, _ => Ends.pure ⟨s, rfl, h0⟩
  | c + 1, lo, s, h0, hs => by
    refine (hs lo s (Nat.le_refl _) (by omega) h0).bind fun r hr => ?_
    obtain ⟨s', rfl, hs'⟩ := hr
    have := Ends.loopFromE I c (lo + 1) s' hs' fun i s h1 h2 => hs i s (by omega) (by omega)
    rw [show lo + 1 + c = lo + (c + 1) by omega] at this
    exact Ends.leak this

theorem Ends.forU32E {ε : Type} {lo hi : UInt32} {s : σ} {body : UInt32 → σ → m (Except ε σ)}
    (I : Nat → σ → Prop) (hle : lo.toNat ≤ hi.toNat) (h0 : I lo.toNat s)
    (hs : ∀ (i : UInt32) s, lo.toNat ≤ i.toNat → i.toNat < hi.toNat → I i.toNat s →
      Ends (body i s) (fun r => ∃ s', r = .ok s' ∧ I (i.toNat + 1) s')) :
    Ends (forU32E lo hi s body) (fun r => ∃ s', r = .ok s' ∧ I hi.toNat s') := by
  refine Ends.leak ?_
  have := Ends.loopFromE (body := fun i => body (UInt32.ofNat i)) I (hi.toNat - lo.toNat)
    lo.toNat s h0 fun i s h1 h2 hI => by
      have hi' : (UInt32.ofNat i).toNat = i := by
        have := hi.toNat_lt
        rw [UInt32.toNat_ofNat', Nat.mod_eq_of_lt (by omega)]
      have := hs (UInt32.ofNat i) s (by omega) (by omega) (by rwa [hi'])
      rwa [hi'] at this
  rwa [show lo.toNat + (hi.toNat - lo.toNat) = hi.toNat by omega] at this

theorem Ends.foldlM {ε : Type} {body : σ → ε → m σ} (I : Nat → σ → Prop) :
    ∀ (xs : List ε) (k : Nat) (s : σ), I k s →
      (∀ i s (hi : i < xs.length), I (k + i) s → Ends (body s xs[i]) (I (k + i + 1))) →
      Ends (xs.foldlM body s) (I (k + xs.length))
  | [], _, s, h0, _ => Ends.pure h0
  | x :: xs, k, s, h0, hs => by
    rw [List.foldlM_cons]
    refine (hs 0 s (by simp) h0).bind fun s' hs' => ?_
    have := Ends.foldlM I xs (k + 1) s' hs' fun i s hi hI => by
      have := hs (i + 1) s (by simpa using hi) (by rwa [← Nat.add_assoc, Nat.add_right_comm])
      simpa [Nat.add_assoc, Nat.add_comm 1 i] using this
    simpa [Nat.add_assoc, Nat.add_comm 1] using this

theorem Ends.forEach {ε : Type} {xs : List ε} {s : σ} {body : ε → σ → m σ}
    (I : Nat → σ → Prop) (h0 : I 0 s)
    (hs : ∀ i s (hi : i < xs.length), I i s → Ends (body xs[i] s) (I (i + 1))) :
    Ends (forEach xs s body) (I xs.length) := by
  refine Ends.leak ?_
  have := Ends.foldlM (body := fun s x => body x s) I xs 0 s h0 fun i s hi hI => by
    simpa using hs i s hi (by simpa using hI)
  simpa using this

/-- `while`: an invariant and a measure that decreases and bounds the fuel. -/
theorem Ends.whileFuel {cond : σ → Bool} {body : σ → m σ} (I : σ → Prop) (μ : σ → Nat)
    (hs : ∀ s, I s → cond s = true → Ends (body s) (fun s' => I s' ∧ μ s' < μ s)) :
    ∀ (fuel : Nat) (s : σ), I s → μ s < fuel →
      Ends (whileFuel cond body fuel s) (fun s' => I s' ∧ cond s' = false)
  | 0, s, _, hf => absurd hf (by omega)
  | f + 1, s, h0, hf => by
    refine Ends.leak ?_
    cases hc : cond s
    · simpa using Ends.pure ⟨h0, hc⟩
    · simp only [if_true]
      refine (hs s h0 hc).bind fun s' hs' => ?_
      exact Ends.whileFuel I μ hs f s' hs'.1 (by have := hs'.2; omega)

end

end Fips205.Model
