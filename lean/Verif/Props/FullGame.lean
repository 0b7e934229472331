import Verif.Props.RomGame

/-!
# The game with the code as it is

The forger of `Verif.Props.RomGame` against the table of hash functions of the code: nothing in it is replaced.  Only
SHA-256, SHA-512 and SHAKE are random functions.
-/

namespace Fips205.Props
open Fips205 Fips205.Model

variable {ps : ParamSet} {S : Finset (List UInt8)} {B w : Nat}

/-- A forger who may ask for `q` signatures and for `Q` values, of `w` bytes, of the hash functions. -/
inductive FullForger (ps : ParamSet) (S : Finset (List UInt8)) (B w : Nat) : Nat → Nat → Type
  /-- stop with a forgery -/
  | forge {q Q : Nat} (sig : Vector UInt8 ps.params.SIG_LEN) (mp : Pieces S) : FullForger ps S B w q Q
  /-- ask for a signature: not hedged, or hedged with these bytes from the random number generator -/
  | sign {q Q : Nat} (rnd : Option (Vector UInt8 ps.params.N)) (mp : Pieces S)
      (next : Except String (Vector UInt8 ps.params.SIG_LEN) → FullForger ps S B w q Q) : FullForger ps S B w (q + 1) Q
  /-- evaluate a hash function -/
  | call {q Q : Nat} (y : Query B) (next : Fin (256 ^ w) → FullForger ps S B w q Q) : FullForger ps S B w q (Q + 1)

/-- A generator that fills buffers with these bytes. -/
def chosenRng {m : Type → Type} [Rust m] (rnd : List UInt8) : Rng m Unit where
  tryFill _ {n} _ := pure ((), .ok (toVec n rnd))

/-- The game with a key. Signing and verification are as in `src/lib.rs:212-223` and `281-291`, for any formatted
message. -/
def FullForger.attack {m : Type → Type} [Rust m] (P : Spec.Prims) (O : Query B → Fin (256 ^ w)) (pk : PublicKey ps.params)
    (sk : PrivateKey ps.params) : {q Q : Nat} → FullForger ps S B w q Q →
    List (Vector UInt8 ps.params.SIG_LEN × List UInt8) → m (Outcome ps)
  | _, _, .forge sig mp, asked => do
    let s ← SlhDsaSig.deserialize ps.params.A ps.params.D ps.params.HP ps.params.K ps.params.LEN ps.params.N sig.toList
    let ok ← slh_verify ps.params.H (HASHERS ps.params (crypto P)) mp.1 s pk.key
    pure { sig, msg := mp.1.flatten, accepted := ok, asked }
  | _, _, .sign rnd mp next, asked => do
    let (_, r) ← slh_sign_with_rng ps.params.A ps.params.D ps.params.H ps.params.HP
      (chosenRng ((rnd.map Vector.toList).getD [])) () (HASHERS ps.params (crypto P)) mp.1 sk.key rnd.isSome
    let r ← mapSerialize ps.params r
    let asked := match r with
      | .ok sig => (sig, mp.1.flatten) :: asked
      | .error _ => asked
    (next r).attack P O pk sk asked
  | _, _, .call y next, asked => (next (O y)).attack P O pk sk asked

/-- The game: key generation (`src/traits.rs:147-151`) with the hash functions `O` and the secret seeds `s` and `k`, then
the game with this key. -/
def fullGame {m : Type → Type} [Rust m] {q Q : Nat} (P0 : Spec.Prims) (pk_seed : Vector UInt8 ps.params.N)
    (A : PublicKey ps.params → FullForger ps S B w q Q) (s k : Fin (256 ^ ps.sp.n)) (O : Query B → Fin (256 ^ w)) :
    m (Outcome ps) := do
  let (pk, sk) ← keygen_with_seeds ps.params (crypto (withHash P0 O)) (toVec ps.params.N (Spec.toByte s ps.sp.n))
    (toVec ps.params.N (Spec.toByte k ps.sp.n)) pk_seed
  (A pk).attack (withHash P0 O) O pk sk []

end Fips205.Props
