import Verif.Props.ApiGame

/-!
# The game with the functions of the API, key generation included

As `Verif.Props.ApiGame`, but the key is made with `try_keygen_with_rng`, from three strings of the random number
generator.
-/

namespace Fips205.Props
open Fips205 Fips205.Model

variable {ps : ParamSet} {L B w : Nat}

section
variable {m : Type → Type} [Rust m] (C : Crypto m)

/-- A generator that fills buffers with these strings, one after the other, then fails. -/
def tapeRng : Rng m (List (List UInt8)) where
  tryFill s {n} _ := pure (match s with
    | [] => ([], .error ())
    | x :: s => (s, .ok (toVec n x)))

/-- The game: key generation (`src/lib.rs:186-203`) with a generator that provides `coins`, then the game with this key.
There is no outcome if key generation fails. -/
def genGame {q Q : Nat} (ask : Query B → m (Fin (256 ^ w))) (A : PublicKey ps.params → ApiForger ps L B w q Q)
    (coins : Fin (256 ^ ps.sp.n) × Fin (256 ^ ps.sp.n) × Fin (256 ^ ps.sp.n)) : m (Option (ApiOutcome ps L)) := do
  let (_, r) ← try_keygen_with_rng ps.params C tapeRng
    [Spec.toByte coins.1 ps.sp.n, Spec.toByte coins.2.1 ps.sp.n, Spec.toByte coins.2.2 ps.sp.n]
  match r with
  | .error _ => pure none
  | .ok (pk, sk) => do
    let o ← (A pk).attack C ask pk sk []
    pure (some o)

end

/-- The game when the hash functions are `P0` with the first `w` bytes given by `O`, in the build `b`. -/
def romGenGame {q Q : Nat} (b : Build) (P0 : Spec.Prims) (A : PublicKey ps.params → ApiForger ps L B w q Q)
    (coins : Fin (256 ^ ps.sp.n) × Fin (256 ^ ps.sp.n) × Fin (256 ^ ps.sp.n)) (O : Query B → Fin (256 ^ w)) :
    Exec b (Option (ApiOutcome ps L)) :=
  genGame (crypto (withHash P0 O)) (fun y => pure (O y)) A coins

end Fips205.Props
