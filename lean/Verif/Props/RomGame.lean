import Verif.Props.Game
import Verif.Spec.Calls

/-!
# The game with random hash functions

The forger of `Verif.Props.Game` is also given the hash functions, as random functions to evaluate; the key is
generated by the code with these functions and a random secret seed.
-/

namespace Fips205.Props
open Fips205 Fips205.Model

/-- Calls of the hash functions with inputs of at most `B` bytes. -/
abbrev Query (B : Nat) : Type := { c : Call // c.input.length ≤ B }

/-- A call, as such. (Longer inputs are not told apart; at the places of a key there are none.) -/
def Query.of (B : Nat) (c : Call) : Query B :=
  if h : c.input.length ≤ B then ⟨c, h⟩ else ⟨⟨c.alg, []⟩, Nat.zero_le _⟩

/-- The hash functions `P0` with the first `n` bytes of their output replaced by what `O` says. -/
def withHash {B n : Nat} (P0 : Spec.Prims) (O : Query B → Fin (256 ^ n)) : Spec.Prims where
  sha256 X := toVec 32 (Spec.toByte (O (.of B ⟨.sha256, X⟩)) n ++ (P0.sha256 X).toList.drop n)
  sha512 X := toVec 64 (Spec.toByte (O (.of B ⟨.sha512, X⟩)) n ++ (P0.sha512 X).toList.drop n)
  shake128 X k := toVec k (Spec.toByte (O (.of B ⟨.shake128, X⟩)) n ++ (P0.shake128 X k).toList.drop n)
  shake256 X k := toVec k (Spec.toByte (O (.of B ⟨.shake256, X⟩)) n ++ (P0.shake256 X k).toList.drop n)

variable {ps : ParamSet} {S : Finset (List UInt8)} {B : Nat}

/-- A forger who may ask for `q` signatures, for `T` digests more, and for `Q` values of the hash functions. -/
inductive RomForger (ps : ParamSet) (S : Finset (List UInt8)) (B : Nat) : Nat → Nat → Nat → Type
  /-- stop with a forgery -/
  | forge {q T Q : Nat} (sig : Vector UInt8 ps.params.SIG_LEN) (mp : Pieces S) : RomForger ps S B q T Q
  /-- evaluate `H_msg` -/
  | hash {q T Q : Nat} (R : Vector UInt8 ps.params.N) (mp : Pieces S)
      (next : Vector UInt8 ps.params.M → RomForger ps S B q T Q) : RomForger ps S B q (T + 1) Q
  /-- ask for a signature -/
  | sign {q T Q : Nat} (mp : Pieces S)
      (next : Except String (Vector UInt8 ps.params.SIG_LEN) → RomForger ps S B q T Q) : RomForger ps S B (q + 1) T Q
  /-- evaluate a hash function -/
  | call {q T Q : Nat} (y : Query B) (next : Fin (256 ^ ps.sp.n) → RomForger ps S B q T Q) :
      RomForger ps S B q T (Q + 1)

/-- The forger, when the hash functions are given. -/
def RomForger.run (O : Query B → Fin (256 ^ ps.sp.n)) : {q T Q : Nat} → RomForger ps S B q T Q → Forger ps S q T
  | _, _, _, .forge sig mp => .forge sig mp
  | _, _, _, .hash R mp next => .hash R mp fun d => (next d).run O
  | _, _, _, .sign mp next => .sign mp fun r => (next r).run O
  | _, _, _, .call y next => (next (O y)).run O

/-- The game: key generation (`src/traits.rs:147-151`) with the hash functions `O` and the secret seed `s`, then the game
of `Forger.attack`. -/
def romGame {m : Type → Type} [Rust m] {q T Q : Nat} (P0 : Spec.Prims) (sk_prf pk_seed : Vector UInt8 ps.params.N)
    (A : PublicKey ps.params → RomForger ps S B q T Q) (s : Fin (256 ^ ps.sp.n)) (O : Query B → Fin (256 ^ ps.sp.n))
    (H : MsgHash ps S) (ρ : Fin q → Fin (256 ^ ps.sp.n)) : m (Outcome ps) := do
  let (pk, sk) ← keygen_with_seeds ps.params (crypto (withHash P0 O)) (toVec ps.params.N (Spec.toByte s ps.sp.n)) sk_prf
    pk_seed
  ((A pk).run O).attack (withHash P0 O) pk sk H ρ []

end Fips205.Props
