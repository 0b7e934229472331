import Verif.Proofs.Consistent

/-! # Vocabulary of the properties, and a concrete instance to show they are not vacuous -/

namespace Fips205.Props
open Fips205 Fips205.Model

/-- An RNG without effects other than on its own state: it may fail at any point. -/
structure PureRng (σ : Type) where
  fill : σ → {n : Nat} → Vector UInt8 n → σ × Except Unit (Vector UInt8 n)

/-- Such an RNG in any build. -/
def PureRng.lift {m : Type → Type} [Rust m] {σ : Type} (r : PureRng σ) : Rng m σ where
  tryFill s {_n} buf := pure (r.fill s buf)

/-- Every signature `sk` makes, in whatever build, pure or pre-hash, hedged or not, with whatever RNG,
is accepted by `pk` in every build. -/
def SignsFor (P : Spec.Prims) {ps : ParamSet} (sk : PrivateKey ps.params) (pk : PublicKey ps.params) :
    Prop :=
  ∀ (b b' : Build) (σ : Type) (rng : Rng (Exec b) σ) (s s' : σ) (msg ctx : List UInt8) (hedged : Bool)
    (sig : Vector UInt8 ps.params.SIG_LEN),
    (sk.try_sign_with_rng (crypto P) rng s msg ctx hedged = pure (s', .ok sig) →
      pk.verify (crypto P) msg sig ctx = (pure true : Exec b' Bool)) ∧
    (∀ ph, sk.try_hash_sign_with_rng (crypto P) rng s msg ctx ph hedged = pure (s', .ok sig) →
      pk.hash_verify (crypto P) msg sig ctx ph = (pure true : Exec b' Bool))

/-- `(pk, sk)` is a key pair returned by one of the two key generation functions. -/
inductive Generated (P : Spec.Prims) {ps : ParamSet} (pk : PublicKey ps.params)
    (sk : PrivateKey ps.params) : Prop
  | rng {b : Build} {σ : Type} (rng : Rng (Exec b) σ) (s s' : σ)
      (h : try_keygen_with_rng ps.params (crypto P) rng s = pure (s', .ok (pk, sk)))
  | seeds {b : Build} {n : Nat} (sk_seed sk_prf pk_seed : Vector UInt8 n)
      (h : (keygen_with_seeds ps.params (crypto P) sk_seed sk_prf pk_seed : Exec b _) = pure (pk, sk))

theorem Generated.keyPair {P : Spec.Prims} {ps : ParamSet} {pk : PublicKey ps.params}
    {sk : PrivateKey ps.params} (h : Generated P pk sk) : ∃ a c d, (pk, sk) = keyPair ps P a c d := by
  cases h with
  | rng rng s s' h =>
    obtain ⟨_, _, a, c, d, _, _, _, h⟩ := try_keygen_ok h
    exact ⟨a, c, d, h⟩
  | @seeds b n a c d h =>
    by_cases hn : n = ps.params.N
    · subst hn
      rw [exec_keygen_with_seeds] at h
      exact ⟨a, c, d, (Exec.pure_inj h).symm⟩
    · rw [exec_keygen_with_seeds_panics hn] at h
      exact absurd h Exec.panic_ne_pure

theorem Generated.consistent {P : Spec.Prims} {ps : ParamSet} {pk : PublicKey ps.params}
    {sk : PrivateKey ps.params} (h : Generated P pk sk) :
    Consistent P ps sk ∧ sk.get_public_key = pk := by
  obtain ⟨a, c, d, h⟩ := h.keyPair
  rw [Model.keyPair, Prod.mk.injEq] at h
  rw [h.1, h.2]
  exact ⟨rfl, rfl⟩

theorem _root_.Fips205.Model.Consistent.signsFor {P : Spec.Prims} {ps : ParamSet} {sk : PrivateKey ps.params}
    (h : Consistent P ps sk) : SignsFor P sk sk.get_public_key := by
  intro b b' σ rng s s' msg ctx hedged sig
  constructor
  · intro hs
    obtain ⟨hc, o, _, rfl⟩ := try_sign_ok hs
    rw [exec_verify, Spec.verify, if_neg (by omega)]
    exact congrArg _ (verifyInternal_sigVec h _ _)
  · intro ph hs
    obtain ⟨hc, o, _, rfl⟩ := try_hash_sign_ok hs
    rw [exec_hash_verify, Spec.hashVerify, if_neg (by omega)]
    exact congrArg _ (verifyInternal_sigVec h _ _)

/-! ## A concrete instance -/

/-- A 64-bit build with all checks. -/
def demoBuild : Build := ⟨true, true, 64, by decide⟩

/-- Toy hash functions, different from each other and sensitive to every input byte. -/
def demoMix (seed : Nat) (x : List UInt8) (i : Nat) : UInt8 :=
  UInt8.ofNat (x.foldl (fun t y => (31 * t + y.toNat + 7) % 65521) seed / (i + 1))

def demoPrims : Spec.Prims where
  sha256 x := Vector.ofFn fun i => demoMix 1 x i
  sha512 x := Vector.ofFn fun i => demoMix 2 x i
  shake128 x _ := Vector.ofFn fun i => demoMix 3 x i
  shake256 x _ := Vector.ofFn fun i => demoMix 4 x i

/-- A toy RNG: fills with its counter. -/
def demoRng : PureRng Nat where
  fill s {n} _ := (s + 1, .ok (Vector.replicate n (UInt8.ofNat s)))

/-- An RNG that always fails. -/
def brokenRng : PureRng Nat where
  fill s {_} _ := (s + 1, .error ())

/-- The key pair `demoRng` gives. -/
def demoKeys (ps : ParamSet) : PublicKey ps.params × PrivateKey ps.params :=
  keyPair ps demoPrims (Vector.replicate _ 0) (Vector.replicate _ 1) (Vector.replicate _ 2)

theorem demo_keygen (ps : ParamSet) (b : Build) :
    try_keygen_with_rng ps.params (crypto demoPrims) (demoRng.lift : Rng (Exec b) Nat) 0 =
      pure (3, .ok (demoKeys ps)) := by
  rw [exec_try_keygen_with_rng]
  rfl

theorem demo_generated (ps : ParamSet) : Generated demoPrims (demoKeys ps).1 (demoKeys ps).2 :=
  .rng _ _ _ (demo_keygen ps demoBuild)

theorem demo_sign (ps : ParamSet) (b : Build) (hedged : Bool) :
    ∃ s' sig, (demoKeys ps).2.try_sign_with_rng (crypto demoPrims) (demoRng.lift : Rng (Exec b) Nat) 3
      [104, 105] [9] hedged = pure (s', .ok sig) := by
  rw [exec_try_sign_with_rng]
  cases hedged
  · exact ⟨_, _, rfl⟩
  · exact ⟨_, _, rfl⟩

theorem demo_hash_sign (ps : ParamSet) (b : Build) (ph : Ph) (hedged : Bool) :
    ∃ s' sig, (demoKeys ps).2.try_hash_sign_with_rng (crypto demoPrims)
      (demoRng.lift : Rng (Exec b) Nat) 3 [104, 105] [9] ph hedged = pure (s', .ok sig) := by
  rw [exec_try_hash_sign_with_rng]
  cases hedged
  · exact ⟨_, _, rfl⟩
  · exact ⟨_, _, rfl⟩

end Fips205.Props
