import Verif.Model.Rust

/-!
# A program logic for the modelled code

`Returns x P`: the computation `x` does not panic; it only emits leakage and returns a value that
satisfies `P`.  The rules hold in every lawful monad with the effects of `Rust`, for every build.
-/

namespace Fips205.Model

set_option linter.unusedSectionVars false

section
variable {m : Type → Type} [Rust m]

/-- Emit a list of observations. -/
def emit : List Leak → m Unit
  | [] => pure ()
  | e :: es => do leak e; emit es

/-- `x` emits some leakage and returns a value satisfying `P`. -/
def Returns {α : Type} (x : m α) (P : α → Prop) : Prop :=
  ∃ tr v, x = (emit tr >>= fun _ => pure v) ∧ P v

variable [LawfulMonad m] {α β σ : Type}

theorem emit_append (a b : List Leak) :
    (emit (a ++ b) : m Unit) = (emit a >>= fun _ => emit b) := by
  induction a with
  | nil => simp [emit]
  | cons e es ih => simp [emit, ih]

theorem Returns.pure {v : α} {P : α → Prop} (h : P v) : Returns (Pure.pure v : m α) P :=
  ⟨[], v, by simp [emit], h⟩

theorem Returns.bind {x : m α} {f : α → m β} {P : α → Prop} {Q : β → Prop}
    (hx : Returns x P) (hf : ∀ v, P v → Returns (f v) Q) : Returns (x >>= f) Q := by
  obtain ⟨t1, v, rfl, hv⟩ := hx
  obtain ⟨t2, w, hw, hq⟩ := hf v hv
  exact ⟨t1 ++ t2, w, by simp [emit_append, hw], hq⟩

theorem Returns.mono {x : m α} {P Q : α → Prop} (hx : Returns x P) (h : ∀ v, P v → Q v) :
    Returns x Q := by
  obtain ⟨t, v, hx, hv⟩ := hx
  exact ⟨t, v, hx, h v hv⟩

/-- If `x` is known to return, continue with its value. -/
theorem Returns.seq {x : m α} {f : α → m β} {v : α} {Q : β → Prop}
    (hx : Returns x (· = v)) (hf : Returns (f v) Q) : Returns (x >>= f) Q :=
  hx.bind fun _ h => h ▸ hf

theorem Returns.leak {e : Leak} {f : Unit → m β} {Q : β → Prop} (hf : Returns (f ()) Q) :
    Returns (Rust.leak e >>= f) Q := by
  refine Returns.bind (P := fun _ => True) ⟨[e], (), ?_, trivial⟩ (fun _ _ => hf)
  simp [emit]

/-! ## Arithmetic -/

theorem ovf_false {c : Bool} {v : α} (h : c = false) : (ovf c v : m α) = Pure.pure v := by
  simp [ovf, h]

theorem addU32_ok {a b : UInt32} (h : a.toNat + b.toNat < 2 ^ 32) :
    (addU32 a b : m UInt32) = Pure.pure (a + b) := ovf_false (by simpa using h)
theorem subU32_ok {a b : UInt32} (h : b.toNat ≤ a.toNat) :
    (subU32 a b : m UInt32) = Pure.pure (a - b) := ovf_false (by simpa using h)
theorem mulU32_ok {a b : UInt32} (h : a.toNat * b.toNat < 2 ^ 32) :
    (mulU32 a b : m UInt32) = Pure.pure (a * b) := ovf_false (by simpa using h)
theorem divU32_ok {a b : UInt32} (h : b ≠ 0) :
    (divU32 a b : m UInt32) = Pure.pure (a / b) := by simp [divU32, h]
theorem shlU32_ok {a b : UInt32} (h : b.toNat < 32) :
    (shlU32 a b : m UInt32) = Pure.pure (a <<< b) := ovf_false (by simpa using h)
theorem shrU32_ok {a b : UInt32} (h : b.toNat < 32) :
    (shrU32 a b : m UInt32) = Pure.pure (a >>> b) := ovf_false (by simpa using h)
theorem addU64_ok {a b : UInt64} (h : a.toNat + b.toNat < 2 ^ 64) :
    (addU64 a b : m UInt64) = Pure.pure (a + b) := ovf_false (by simpa using h)
theorem subU64_ok {a b : UInt64} (h : b.toNat ≤ a.toNat) :
    (subU64 a b : m UInt64) = Pure.pure (a - b) := ovf_false (by simpa using h)
theorem shlU64_ok {a : UInt64} {b : UInt32} (h : b.toNat < 64) :
    (shlU64 a b : m UInt64) = Pure.pure (a <<< b.toUInt64) := ovf_false (by simpa using h)
theorem shrU64_ok {a : UInt64} {b : UInt32} (h : b.toNat < 64) :
    (shrU64 a b : m UInt64) = Pure.pure (a >>> b.toUInt64) := ovf_false (by simpa using h)

theorem pow16_le : 2 ^ 16 ≤ 2 ^ (Rust.build m).usizeBits :=
  Nat.pow_le_pow_right (by decide) (Rust.build m).usizeBits_ge

theorem addUsize_ok {a b : Nat} (h : a + b < 2 ^ 16) :
    (addUsize a b : m Nat) = Pure.pure (a + b) := by
  have := pow16_le (m := m)
  rw [addUsize, ovf_false (by simp; omega), Nat.mod_eq_of_lt (by omega)]
theorem subUsize_ok {a b : Nat} (h : b ≤ a) (ha : a < 2 ^ 16) :
    (subUsize a b : m Nat) = Pure.pure (a - b) := by
  have := pow16_le (m := m)
  rw [subUsize, ovf_false (by simp; omega)]
  congr 1
  rw [show 2 ^ (Rust.build m).usizeBits + a - b = (a - b) + 2 ^ (Rust.build m).usizeBits by omega,
    Nat.add_mod_right, Nat.mod_eq_of_lt (by omega)]
theorem mulUsize_ok {a b : Nat} (h : a * b < 2 ^ 16) :
    (mulUsize a b : m Nat) = Pure.pure (a * b) := by
  have := pow16_le (m := m)
  rw [mulUsize, ovf_false (by simp; omega), Nat.mod_eq_of_lt (by omega)]
theorem divUsize_ok {a b : Nat} (h : b ≠ 0) :
    (divUsize a b : m Nat) = Pure.pure (a / b) := by simp [divUsize, h]
theorem asUsize_ok {x : UInt32} (h : x.toNat < 2 ^ 16) :
    (asUsize x : m Nat) = Pure.pure x.toNat := by
  have := pow16_le (m := m)
  rw [asUsize, Nat.mod_eq_of_lt (by omega)]
theorem u32TryFromUnwrap_ok {x : Nat} (h : x < 2 ^ 32) :
    (u32TryFromUnwrap x : m UInt32) = Pure.pure (UInt32.ofNat x) := by
  simp [u32TryFromUnwrap]; intro; omega

/-! Continuation-passing forms -/

theorem Returns.addU32 {a b : UInt32} (h : a.toNat + b.toNat < 2 ^ 32) {f : UInt32 → m β} {Q : β → Prop}
    (hf : Returns (f (a + b)) Q) : Returns (addU32 a b >>= f) Q := by
  rwa [addU32_ok h, pure_bind]
theorem Returns.subU32 {a b : UInt32} (h : b.toNat ≤ a.toNat) {f : UInt32 → m β} {Q : β → Prop}
    (hf : Returns (f (a - b)) Q) : Returns (subU32 a b >>= f) Q := by
  rwa [subU32_ok h, pure_bind]
theorem Returns.mulU32 {a b : UInt32} (h : a.toNat * b.toNat < 2 ^ 32) {f : UInt32 → m β} {Q : β → Prop}
    (hf : Returns (f (a * b)) Q) : Returns (mulU32 a b >>= f) Q := by
  rwa [mulU32_ok h, pure_bind]
theorem Returns.divU32 {a b : UInt32} (h : b ≠ 0) {f : UInt32 → m β} {Q : β → Prop}
    (hf : Returns (f (a / b)) Q) : Returns (divU32 a b >>= f) Q := by
  rwa [divU32_ok h, pure_bind]
theorem Returns.shlU32 {a b : UInt32} (h : b.toNat < 32) {f : UInt32 → m β} {Q : β → Prop}
    (hf : Returns (f (a <<< b)) Q) : Returns (shlU32 a b >>= f) Q := by
  rwa [shlU32_ok h, pure_bind]
theorem Returns.shrU32 {a b : UInt32} (h : b.toNat < 32) {f : UInt32 → m β} {Q : β → Prop}
    (hf : Returns (f (a >>> b)) Q) : Returns (shrU32 a b >>= f) Q := by
  rwa [shrU32_ok h, pure_bind]
theorem Returns.addU64 {a b : UInt64} (h : a.toNat + b.toNat < 2 ^ 64) {f : UInt64 → m β} {Q : β → Prop}
    (hf : Returns (f (a + b)) Q) : Returns (addU64 a b >>= f) Q := by
  rwa [addU64_ok h, pure_bind]
theorem Returns.subU64 {a b : UInt64} (h : b.toNat ≤ a.toNat) {f : UInt64 → m β} {Q : β → Prop}
    (hf : Returns (f (a - b)) Q) : Returns (subU64 a b >>= f) Q := by
  rwa [subU64_ok h, pure_bind]
theorem Returns.shlU64 {a : UInt64} {b : UInt32} (h : b.toNat < 64) {f : UInt64 → m β} {Q : β → Prop}
    (hf : Returns (f (a <<< b.toUInt64)) Q) : Returns (shlU64 a b >>= f) Q := by
  rwa [shlU64_ok h, pure_bind]
theorem Returns.shrU64 {a : UInt64} {b : UInt32} (h : b.toNat < 64) {f : UInt64 → m β} {Q : β → Prop}
    (hf : Returns (f (a >>> b.toUInt64)) Q) : Returns (shrU64 a b >>= f) Q := by
  rwa [shrU64_ok h, pure_bind]
theorem Returns.addUsize {a b : Nat} (h : a + b < 2 ^ 16) {f : Nat → m β} {Q : β → Prop}
    (hf : Returns (f (a + b)) Q) : Returns (addUsize a b >>= f) Q := by
  rwa [addUsize_ok h, pure_bind]
theorem Returns.mulUsize {a b : Nat} (h : a * b < 2 ^ 16) {f : Nat → m β} {Q : β → Prop}
    (hf : Returns (f (a * b)) Q) : Returns (mulUsize a b >>= f) Q := by
  rwa [mulUsize_ok h, pure_bind]
theorem Returns.divUsize {a b : Nat} (h : b ≠ 0) {f : Nat → m β} {Q : β → Prop}
    (hf : Returns (f (a / b)) Q) : Returns (divUsize a b >>= f) Q := by
  rwa [divUsize_ok h, pure_bind]
theorem Returns.subUsize {a b : Nat} (h : b ≤ a) (ha : a < 2 ^ 16) {f : Nat → m β} {Q : β → Prop}
    (hf : Returns (f (a - b)) Q) : Returns (subUsize a b >>= f) Q := by
  rwa [subUsize_ok h ha, pure_bind]
theorem Returns.asUsize {x : UInt32} (h : x.toNat < 2 ^ 16) {f : Nat → m β} {Q : β → Prop}
    (hf : Returns (f x.toNat) Q) : Returns (asUsize x >>= f) Q := by
  rwa [asUsize_ok h, pure_bind]
theorem Returns.u32TryFromUnwrap {x : Nat} (h : x < 2 ^ 32) {f : UInt32 → m β} {Q : β → Prop}
    (hf : ∀ y : UInt32, y.toNat = x → Returns (f y) Q) :
    Returns (u32TryFromUnwrap x >>= f) Q := by
  rw [u32TryFromUnwrap_ok h, pure_bind]
  exact hf _ (by rw [UInt32.toNat_ofNat', Nat.mod_eq_of_lt h])

/-! ## Assertions, indexing, slicing -/

theorem Returns.debugAssert {c : m Bool} {f : Unit → m β} {Q : β → Prop}
    (hc : Returns c (· = true)) (hf : Returns (f ()) Q) : Returns (debugAssert c >>= f) Q := by
  refine Returns.bind (P := fun _ => True) ?_ (fun _ _ => hf)
  unfold Model.debugAssert
  split
  · refine hc.bind fun b hb => ?_
    subst hb
    exact Returns.pure trivial
  · exact Returns.pure trivial

theorem Returns.vget {n : Nat} {v : Vector α n} {i : Nat} (hi : i < n) {f : α → m β}
    {Q : β → Prop} (hf : Returns (f v[i]) Q) : Returns (vget v i >>= f) Q := by
  rw [Model.vget, bind_assoc]
  refine Returns.leak ?_
  simpa [hi] using hf

theorem Returns.vset {n : Nat} {v : Vector α n} {i : Nat} {x : α} (hi : i < n)
    {f : Vector α n → m β} {Q : β → Prop} (hf : Returns (f (v.set i x)) Q) :
    Returns (vset v i x >>= f) Q := by
  rw [Model.vset, bind_assoc]
  refine Returns.leak ?_
  simpa [hi] using hf

theorem Returns.lget {v : List α} {i : Nat} (hi : i < v.length) {f : α → m β}
    {Q : β → Prop} (hf : Returns (f v[i]) Q) : Returns (lget v i >>= f) Q := by
  rw [Model.lget, bind_assoc]
  refine Returns.leak ?_
  simpa [hi] using hf

theorem Returns.slice {s : List α} {lo hi : Nat} (h1 : lo ≤ hi) (h2 : hi ≤ s.length)
    {f : List α → m β} {Q : β → Prop} (hf : Returns (f ((s.drop lo).take (hi - lo))) Q) :
    Returns (slice s lo hi >>= f) Q := by
  rw [Model.slice, bind_assoc]
  refine Returns.leak ?_
  simpa [h1, h2] using hf

theorem Returns.copyFromSlice {n : Nat} {s : List α} (h : s.length = n)
    {f : Vector α n → m β} {Q : β → Prop} (hf : ∀ v : Vector α n, v.toList = s → Returns (f v) Q) :
    Returns (copyFromSlice n s >>= f) Q := by
  rw [Model.copyFromSlice, dif_pos h, pure_bind]
  exact hf _ (by simp [Vector.toList])

theorem Returns.writeSlice {n : Nat} {v : Vector α n} {lo hi : Nat} {s : List α} (h1 : lo ≤ hi)
    (h2 : hi ≤ n) (h3 : s.length = hi - lo) {f : Vector α n → m β} {Q : β → Prop}
    (hf : ∀ w : Vector α n, w.toList = v.toList.take lo ++ s ++ v.toList.drop hi → Returns (f w) Q) :
    Returns (writeSlice v lo hi s >>= f) Q := by
  rw [Model.writeSlice, bind_assoc]
  refine Returns.leak ?_
  rw [dif_pos ⟨h1, h2⟩, dif_pos h3, pure_bind]
  exact hf _ (by simp [Vector.toList])

/-- Turn a statement about `x` into one about `x >>= pure`. -/
theorem Returns.tail {x : m α} {Q : α → Prop} (h : Returns (x >>= Pure.pure) Q) : Returns x Q := by
  simpa using h

/-! ## Loops -/

theorem Returns.loopFrom {body : Nat → σ → m σ} (I : Nat → σ → Prop) :
    ∀ (c lo : Nat) (s : σ), I lo s →
      (∀ i s, lo ≤ i → i < lo + c → I i s → Returns (body i s) (I (i + 1))) →
      Returns (loopFrom body c lo s) (I (lo + c))
  | 0, _, _, h0, _ => Returns.pure h0
  | c + 1, lo, s, h0, hs => by
    refine (hs lo s (Nat.le_refl _) (by omega) h0).bind fun s' hs' => ?_
    have := Returns.loopFrom I c (lo + 1) s' hs' fun i s h1 h2 => hs i s (by omega) (by omega)
    rwa [show lo + 1 + c = lo + (c + 1) by omega] at this

theorem Returns.forUsize {lo hi : Nat} {s : σ} {body : Nat → σ → m σ} (I : Nat → σ → Prop)
    (hle : lo ≤ hi) (h0 : I lo s)
    (hs : ∀ i s, lo ≤ i → i < hi → I i s → Returns (body i s) (I (i + 1))) :
    Returns (forUsize lo hi s body) (I hi) := by
  refine Returns.leak ?_
  have := Returns.loopFrom (body := body) I (hi - lo) lo s h0 fun i s h1 h2 =>
    hs i s h1 (by omega)
  rwa [show lo + (hi - lo) = hi by omega] at this

theorem Returns.forU32 {lo hi : UInt32} {s : σ} {body : UInt32 → σ → m σ} (I : Nat → σ → Prop)
    (hle : lo.toNat ≤ hi.toNat) (h0 : I lo.toNat s)
    (hs : ∀ (i : UInt32) s, lo.toNat ≤ i.toNat → i.toNat < hi.toNat → I i.toNat s →
      Returns (body i s) (I (i.toNat + 1))) :
    Returns (forU32 lo hi s body) (I hi.toNat) := by
  refine Returns.leak ?_
  have := Returns.loopFrom (body := fun i => body (UInt32.ofNat i)) I (hi.toNat - lo.toNat) lo.toNat
    s h0 fun i s h1 h2 hI => by
      have hi' : (UInt32.ofNat i).toNat = i := by
        have := hi.toNat_lt
        rw [UInt32.toNat_ofNat', Nat.mod_eq_of_lt (by omega)]
      have := hs (UInt32.ofNat i) s (by omega) (by omega) (by rwa [hi'])
      rwa [hi'] at this
  rwa [show lo.toNat + (hi.toNat - lo.toNat) = hi.toNat by omega] at this

theorem Returns.loopFromE {ε : Type} {body : Nat → σ → m (Except ε σ)} (I : Nat → σ → Prop) :
    ∀ (c lo : Nat) (s : σ), I lo s →
      (∀ i s, lo ≤ i → i < lo + c → I i s →
        Returns (body i s) (fun r => ∃ s', r = .ok s' ∧ I (i + 1) s')) →
      Returns (loopFromE body c lo s) (fun r => ∃ s', r = .ok s' ∧ I (lo + c) s')
  | 0, _, s, h0, _ => Returns.pure ⟨s, rfl, h0⟩
  | c + 1, lo, s, h0, hs => by
    refine (hs lo s (Nat.le_refl _) (by omega) h0).bind fun r hr => ?_
    obtain ⟨s', rfl, hs'⟩ := hr
    have := Returns.loopFromE I c (lo + 1) s' hs' fun i s h1 h2 => hs i s (by omega) (by omega)
    rw [show lo + 1 + c = lo + (c + 1) by omega] at this
    exact Returns.leak this

theorem Returns.forU32E {ε : Type} {lo hi : UInt32} {s : σ} {body : UInt32 → σ → m (Except ε σ)}
    (I : Nat → σ → Prop) (hle : lo.toNat ≤ hi.toNat) (h0 : I lo.toNat s)
    (hs : ∀ (i : UInt32) s, lo.toNat ≤ i.toNat → i.toNat < hi.toNat → I i.toNat s →
      Returns (body i s) (fun r => ∃ s', r = .ok s' ∧ I (i.toNat + 1) s')) :
    Returns (forU32E lo hi s body) (fun r => ∃ s', r = .ok s' ∧ I hi.toNat s') := by
  refine Returns.leak ?_
  have := Returns.loopFromE (body := fun i => body (UInt32.ofNat i)) I (hi.toNat - lo.toNat)
    lo.toNat s h0 fun i s h1 h2 hI => by
      have hi' : (UInt32.ofNat i).toNat = i := by
        have := hi.toNat_lt
        rw [UInt32.toNat_ofNat', Nat.mod_eq_of_lt (by omega)]
      have := hs (UInt32.ofNat i) s (by omega) (by omega) (by rwa [hi'])
      rwa [hi'] at this
  rwa [show lo.toNat + (hi.toNat - lo.toNat) = hi.toNat by omega] at this

theorem Returns.foldlM {ε : Type} {body : σ → ε → m σ} (I : Nat → σ → Prop) :
    ∀ (xs : List ε) (k : Nat) (s : σ), I k s →
      (∀ i s (hi : i < xs.length), I (k + i) s → Returns (body s xs[i]) (I (k + i + 1))) →
      Returns (xs.foldlM body s) (I (k + xs.length))
  | [], _, s, h0, _ => Returns.pure h0
  | x :: xs, k, s, h0, hs => by
    rw [List.foldlM_cons]
    refine (hs 0 s (by simp) h0).bind fun s' hs' => ?_
    have := Returns.foldlM I xs (k + 1) s' hs' fun i s hi hI => by
      have := hs (i + 1) s (by simpa using hi) (by rwa [← Nat.add_assoc, Nat.add_right_comm])
      simpa [Nat.add_assoc, Nat.add_comm 1 i] using this
    simpa [Nat.add_assoc, Nat.add_comm 1] using this

theorem Returns.forEach {ε : Type} {xs : List ε} {s : σ} {body : ε → σ → m σ}
    (I : Nat → σ → Prop) (h0 : I 0 s)
    (hs : ∀ i s (hi : i < xs.length), I i s → Returns (body xs[i] s) (I (i + 1))) :
    Returns (forEach xs s body) (I xs.length) := by
  refine Returns.leak ?_
  have := Returns.foldlM (body := fun s x => body x s) I xs 0 s h0 fun i s hi hI => by
    simpa using hs i s hi (by simpa using hI)
  simpa using this

/-- `while`: an invariant and a measure that decreases and bounds the fuel. -/
theorem Returns.whileFuel {cond : σ → Bool} {body : σ → m σ} (I : σ → Prop) (μ : σ → Nat)
    (hs : ∀ s, I s → cond s = true → Returns (body s) (fun s' => I s' ∧ μ s' < μ s)) :
    ∀ (fuel : Nat) (s : σ), I s → μ s < fuel →
      Returns (whileFuel cond body fuel s) (fun s' => I s' ∧ cond s' = false)
  | 0, s, _, hf => absurd hf (by omega)
  | f + 1, s, h0, hf => by
    refine Returns.leak ?_
    cases hc : cond s
    · simpa using Returns.pure ⟨h0, hc⟩
    · simp only [if_true]
      refine (hs s h0 hc).bind fun s' hs' => ?_
      exact Returns.whileFuel I μ hs f s' hs'.1 (by have := hs'.2; omega)

end

/-! ## The plain execution monad -/

/-- Executions of the code in build `b`, ignoring leakage: the code returns a value or panics. -/
def Exec (_b : Build) (α : Type) : Type := Except Panic α

instance (b : Build) : Monad (Exec b) := inferInstanceAs (Monad (Except Panic))
instance (b : Build) : LawfulMonad (Exec b) := inferInstanceAs (LawfulMonad (Except Panic))
instance (b : Build) : Rust (Exec b) where
  panic p := (Except.error p : Except Panic _)
  leak _ := (Except.ok () : Except Panic _)
  build := b

/-- The computation returned `v`. -/
abbrev Exec.ret {b : Build} {α : Type} (v : α) : Exec b α := (Except.ok v : Except Panic α)

theorem Exec.emit_eq {b : Build} (tr : List Leak) : (emit tr : Exec b Unit) = pure () := by
  induction tr with
  | nil => rfl
  | cons e es ih => rw [emit, ih]; rfl

theorem Exec.returns_iff {b : Build} {α : Type} {x : Exec b α} {P : α → Prop} :
    Returns x P ↔ ∃ v, x = pure v ∧ P v := by
  constructor
  · rintro ⟨tr, v, h, hp⟩
    exact ⟨v, by rw [h, Exec.emit_eq, pure_bind], hp⟩
  · rintro ⟨v, h, hp⟩
    exact h ▸ Returns.pure hp

theorem Exec.pure_inj {b : Build} {α : Type} {v w : α} (h : (pure v : Exec b α) = pure w) :
    v = w := by
  injection h

theorem Exec.panic_ne_pure {b : Build} {α : Type} {p : Panic} {w : α} :
    (panic p : Exec b α) ≠ pure w := by
  intro h; injection h

end Fips205.Model
