import Verif.Props.MultiGame

/-!
# The game of who wants a private key

As `Verif.Props.MultiGame`: many keys are made with `try_keygen_with_rng`; the player gets the public keys, signatures and
some of the private keys.  In the end they present the bytes of a private key for one of the other public keys.
-/

namespace Fips205.Props
open Fips205 Fips205.Model

variable {U : Nat} {sets : Fin U → ParamSet} {L B w : Nat}

/-- A player who may ask for `q` signatures in all and for `Q` values, of `w` bytes, of the hash functions. The key `u` is
one for the parameter set `sets u`. -/
inductive Recoverer (sets : Fin U → ParamSet) (L B w : Nat) : Nat → Nat → Type
  /-- stop with a private key for the public key `u` -/
  | present {q Q : Nat} (u : Fin U) (v : Vector UInt8 (sets u).params.SK_LEN) : Recoverer sets L B w q Q
  /-- ask for a signature with the key `u`, hedged or not; `rnd` is what the random number generator does -/
  | sign {q Q : Nat} (u : Fin U) (x : SigRequest L) (hedged : Bool) (rnd : Except Unit (Vector UInt8 (sets u).params.N))
      (next : Except String (Vector UInt8 (sets u).params.SIG_LEN) → Recoverer sets L B w q Q) :
      Recoverer sets L B w (q + 1) Q
  /-- get the private key `u` -/
  | expose {q Q : Nat} (u : Fin U) (next : PrivateKey (sets u).params → Recoverer sets L B w q Q) :
      Recoverer sets L B w q Q
  /-- evaluate a hash function -/
  | call {q Q : Nat} (y : Query B) (next : Fin (256 ^ w) → Recoverer sets L B w q Q) : Recoverer sets L B w q (Q + 1)

/-- How the game ended. -/
structure RecoverOutcome (sets : Fin U → ParamSet) where
  /-- the public key for which a private key was presented -/
  u : Fin U
  pk : PublicKey (sets u).params
  /-- what decoding the private key gave -/
  found : Except String (PrivateKey (sets u).params)
  /-- the keys handed out -/
  exposed : List (Fin U)

/-- The private key is accepted, `get_public_key` gives the public key, and the private key was not handed out. -/
def RecoverOutcome.Won (o : RecoverOutcome sets) : Prop :=
  (∃ sk, o.found = .ok sk ∧ sk.get_public_key = o.pk) ∧ o.u ∉ o.exposed

section
variable {m : Type → Type} [Rust m] (C : Crypto m)

/-- The game with these keys; `ask` answers the player's calls of the hash functions.  The private key is decoded with
`try_from_bytes` (`src/lib.rs:369-383`). -/
def Recoverer.attack (ask : Query B → m (Fin (256 ^ w))) (keys : Keys sets) :
    {q Q : Nat} → Recoverer sets L B w q Q → List (Fin U) → m (RecoverOutcome sets)
  | _, _, .present u v, exposed => do
    let found ← PrivateKey.try_from_bytes (p := (sets u).params) C v
    pure { u, pk := (keys u).1, found, exposed }
  | _, _, .sign u x hedged rnd next, exposed => do
    let (_, r) ← x.sign C (keys u).2 hedged rnd
    (next r).attack ask keys exposed
  | _, _, .expose u next, exposed => (next (keys u).2).attack ask keys (u :: exposed)
  | _, _, .call y next, exposed => do
    let v ← ask y
    (next v).attack ask keys exposed

/-- The game: key generation with a generator that provides `coins`, then the game with these keys.  There is no outcome
if key generation fails. -/
def recoverGame {q Q : Nat} (ask : Query B → m (Fin (256 ^ w)))
    (A : ((u : Fin U) → PublicKey (sets u).params) → Recoverer sets L B w q Q) (coins : Coins sets) :
    m (Option (RecoverOutcome sets)) := do
  let r ← genKeys C sets coins.tape
  match r with
  | none => pure none
  | some keys => do
    let o ← (A fun u => (keys u).1).attack C ask keys []
    pure (some o)

end

/-- The game when the hash functions are `P0` with the first `w` bytes given by `O`, in the build `b`. -/
def romRecoverGame {q Q : Nat} (b : Build) (P0 : Spec.Prims)
    (A : ((u : Fin U) → PublicKey (sets u).params) → Recoverer sets L B w q Q) (coins : Coins sets)
    (O : Query B → Fin (256 ^ w)) : Exec b (Option (RecoverOutcome sets)) :=
  recoverGame (crypto (withHash P0 O)) (fun y => pure (O y)) A coins

end Fips205.Props
