import Verif.Props.RomGame

/-!
# The game with the functions of the API

The forger of `Verif.Props.FullGame` uses the API: contexts, pure and pre-hash signatures with any of the four
pre-hash functions, hedged or not.  The hash functions are given by the external crates `C`; the forger may call them,
too.
-/

namespace Fips205.Props
open Fips205 Fips205.Model

/-- What a signature is made for: pure, or with a pre-hash function; a context; a message of at most `L` bytes. -/
structure SigRequest (L : Nat) where
  ph : Option Ph
  ctx : List UInt8
  msg : List UInt8
  short : msg.length ≤ L

variable {ps : ParamSet} {L B w : Nat}

/-- A forger who may ask for `q` signatures and for `Q` values, of `w` bytes, of the hash functions. -/
inductive ApiForger (ps : ParamSet) (L B w : Nat) : Nat → Nat → Type
  /-- stop with a forgery -/
  | forge {q Q : Nat} (x : SigRequest L) (sig : Vector UInt8 ps.params.SIG_LEN) : ApiForger ps L B w q Q
  /-- ask for a signature, hedged or not; `rnd` is what the random number generator does -/
  | sign {q Q : Nat} (x : SigRequest L) (hedged : Bool) (rnd : Except Unit (Vector UInt8 ps.params.N))
      (next : Except String (Vector UInt8 ps.params.SIG_LEN) → ApiForger ps L B w q Q) : ApiForger ps L B w (q + 1) Q
  /-- evaluate a hash function -/
  | call {q Q : Nat} (y : Query B) (next : Fin (256 ^ w) → ApiForger ps L B w q Q) : ApiForger ps L B w q (Q + 1)

/-- How the game ended. -/
structure ApiOutcome (ps : ParamSet) (L : Nat) where
  /-- the forgery -/
  x : SigRequest L
  sig : Vector UInt8 ps.params.SIG_LEN
  /-- whether verification accepted it -/
  accepted : Bool
  /-- the signatures handed out -/
  asked : List (SigRequest L × Vector UInt8 ps.params.SIG_LEN)

/-- The forgery is accepted and was not handed out. -/
def ApiOutcome.Forged (o : ApiOutcome ps L) : Prop := o.accepted = true ∧ (o.x, o.sig) ∉ o.asked

section
variable {m : Type → Type} [Rust m] (C : Crypto m)

/-- A generator that fails, or fills buffers with these bytes. -/
def fixedRng {N : Nat} (rnd : Except Unit (Vector UInt8 N)) : Rng m Unit where
  tryFill _ {n} _ := pure ((), rnd.map fun v => toVec n v.toList)

/-- A request to sign. -/
def SigRequest.sign (x : SigRequest L) (sk : PrivateKey ps.params) (hedged : Bool)
    (rnd : Except Unit (Vector UInt8 ps.params.N)) : m (Unit × Except String (Vector UInt8 ps.params.SIG_LEN)) :=
  match x.ph with
  | none => sk.try_sign_with_rng C (fixedRng rnd) () x.msg x.ctx hedged
  | some ph => sk.try_hash_sign_with_rng C (fixedRng rnd) () x.msg x.ctx ph hedged

/-- Verification of a signature. -/
def SigRequest.verify (x : SigRequest L) (pk : PublicKey ps.params) (sig : Vector UInt8 ps.params.SIG_LEN) : m Bool :=
  match x.ph with
  | none => pk.verify C x.msg sig x.ctx
  | some ph => pk.hash_verify C x.msg sig x.ctx ph

/-- The game with a key; `ask` answers the forger's calls of the hash functions. -/
def ApiForger.attack (ask : Query B → m (Fin (256 ^ w))) (pk : PublicKey ps.params) (sk : PrivateKey ps.params) :
    {q Q : Nat} → ApiForger ps L B w q Q → List (SigRequest L × Vector UInt8 ps.params.SIG_LEN) → m (ApiOutcome ps L)
  | _, _, .forge x sig, asked => do
    let ok ← x.verify C pk sig
    pure { x, sig, accepted := ok, asked }
  | _, _, .sign x hedged rnd next, asked => do
    let (_, r) ← x.sign C sk hedged rnd
    let asked := match r with
      | .ok sig => (x, sig) :: asked
      | .error _ => asked
    (next r).attack ask pk sk asked
  | _, _, .call y next, asked => do
    let v ← ask y
    (next v).attack ask pk sk asked

/-- The game: key generation (`src/traits.rs:147-151`) with the secret seeds `s` and `k`, then the game with this key. -/
def apiGame {q Q : Nat} (ask : Query B → m (Fin (256 ^ w))) (pk_seed : Vector UInt8 ps.params.N)
    (A : PublicKey ps.params → ApiForger ps L B w q Q) (s k : Fin (256 ^ ps.sp.n)) : m (ApiOutcome ps L) := do
  let (pk, sk) ← keygen_with_seeds ps.params C (toVec ps.params.N (Spec.toByte s ps.sp.n))
    (toVec ps.params.N (Spec.toByte k ps.sp.n)) pk_seed
  (A pk).attack C ask pk sk []

end

/-- The game when the hash functions are `P0` with the first `w` bytes given by `O`, in the build `b`. -/
def romApiGame {q Q : Nat} (b : Build) (P0 : Spec.Prims) (O : Query B → Fin (256 ^ w))
    (pk_seed : Vector UInt8 ps.params.N) (A : PublicKey ps.params → ApiForger ps L B w q Q) (s k : Fin (256 ^ ps.sp.n)) :
    Exec b (ApiOutcome ps L) :=
  apiGame (crypto (withHash P0 O)) (fun y => pure (O y)) pk_seed A s k

end Fips205.Props
