import Verif.Props.GenGame

/-!
# The game with many keys

As `Verif.Props.GenGame`, but with any number of keys, for the same or for different parameter sets.  They are made with
`try_keygen_with_rng`, one after the other, from the strings of one random number generator.  The forger gets all public
keys, has signatures made with any of the private keys, and may get some of the private keys.
-/

namespace Fips205.Props
open Fips205 Fips205.Model

variable {U : Nat} {sets : Fin U → ParamSet} {L B w : Nat}

/-- A forger who may ask for `q` signatures in all and for `Q` values, of `w` bytes, of the hash functions. The key `u` is
one for the parameter set `sets u`. -/
inductive MultiForger (sets : Fin U → ParamSet) (L B w : Nat) : Nat → Nat → Type
  /-- stop with a forgery for the key `u` -/
  | forge {q Q : Nat} (u : Fin U) (x : SigRequest L) (sig : Vector UInt8 (sets u).params.SIG_LEN) :
      MultiForger sets L B w q Q
  /-- ask for a signature with the key `u`, hedged or not; `rnd` is what the random number generator does -/
  | sign {q Q : Nat} (u : Fin U) (x : SigRequest L) (hedged : Bool) (rnd : Except Unit (Vector UInt8 (sets u).params.N))
      (next : Except String (Vector UInt8 (sets u).params.SIG_LEN) → MultiForger sets L B w q Q) :
      MultiForger sets L B w (q + 1) Q
  /-- get the private key `u` -/
  | expose {q Q : Nat} (u : Fin U) (next : PrivateKey (sets u).params → MultiForger sets L B w q Q) :
      MultiForger sets L B w q Q
  /-- evaluate a hash function -/
  | call {q Q : Nat} (y : Query B) (next : Fin (256 ^ w) → MultiForger sets L B w q Q) : MultiForger sets L B w q (Q + 1)

/-- A signature handed out: the key, the request, the signature. -/
abbrev Handed (sets : Fin U → ParamSet) (L : Nat) : Type :=
  (u : Fin U) × SigRequest L × Vector UInt8 (sets u).params.SIG_LEN

/-- How the game ended. -/
structure MultiOutcome (sets : Fin U → ParamSet) (L : Nat) where
  /-- the forgery -/
  u : Fin U
  x : SigRequest L
  sig : Vector UInt8 (sets u).params.SIG_LEN
  /-- whether verification accepted it -/
  accepted : Bool
  /-- the signatures handed out -/
  asked : List (Handed sets L)
  /-- the keys handed out -/
  exposed : List (Fin U)

/-- The forgery is accepted, was not handed out, and the private key was not handed out. -/
def MultiOutcome.Forged (o : MultiOutcome sets L) : Prop :=
  o.accepted = true ∧ ⟨o.u, o.x, o.sig⟩ ∉ o.asked ∧ o.u ∉ o.exposed

/-- One key pair for each user. -/
abbrev Keys (sets : Fin U → ParamSet) : Type := (u : Fin U) → PublicKey (sets u).params × PrivateKey (sets u).params

section
variable {m : Type → Type} [Rust m] (C : Crypto m)

/-- The game with these keys; `ask` answers the forger's calls of the hash functions. -/
def MultiForger.attack (ask : Query B → m (Fin (256 ^ w))) (keys : Keys sets) :
    {q Q : Nat} → MultiForger sets L B w q Q → List (Handed sets L) → List (Fin U) → m (MultiOutcome sets L)
  | _, _, .forge u x sig, asked, exposed => do
    let ok ← x.verify C (keys u).1 sig
    pure { u, x, sig, accepted := ok, asked, exposed }
  | _, _, .sign u x hedged rnd next, asked, exposed => do
    let (_, r) ← x.sign C (keys u).2 hedged rnd
    let asked := match r with
      | .ok sig => ⟨u, x, sig⟩ :: asked
      | .error _ => asked
    (next r).attack ask keys asked exposed
  | _, _, .expose u next, asked, exposed => (next (keys u).2).attack ask keys asked (u :: exposed)
  | _, _, .call y next, asked, exposed => do
    let v ← ask y
    (next v).attack ask keys asked exposed

/-- Key generation (`src/lib.rs:186-203`) for all users, one after the other. -/
def genKeys : {U : Nat} → (sets : Fin U → ParamSet) → List (List UInt8) → m (Option (Keys sets))
  | 0, _, _ => pure (some fun u => u.elim0)
  | _ + 1, sets, s => do
    let (s, r) ← try_keygen_with_rng (sets 0).params C tapeRng s
    match r with
    | .error _ => pure none
    | .ok kp => do
      let rest ← genKeys (fun u => sets u.succ) s
      pure (rest.map fun f => Fin.cons kp f)

/-- What key generation draws: three strings for each key. -/
abbrev Coins (sets : Fin U → ParamSet) : Type :=
  (u : Fin U) → Fin (256 ^ (sets u).sp.n) × Fin (256 ^ (sets u).sp.n) × Fin (256 ^ (sets u).sp.n)

/-- ... one after the other. -/
def Coins.tape (coins : Coins sets) : List (List UInt8) :=
  (List.finRange U).flatMap fun u => [Spec.toByte (coins u).1 (sets u).sp.n, Spec.toByte (coins u).2.1 (sets u).sp.n,
    Spec.toByte (coins u).2.2 (sets u).sp.n]

/-- The game: key generation with a generator that provides `coins`, then the game with these keys.  There is no outcome
if key generation fails. -/
def multiGame {q Q : Nat} (ask : Query B → m (Fin (256 ^ w)))
    (A : ((u : Fin U) → PublicKey (sets u).params) → MultiForger sets L B w q Q) (coins : Coins sets) :
    m (Option (MultiOutcome sets L)) := do
  let r ← genKeys C sets coins.tape
  match r with
  | none => pure none
  | some keys => do
    let o ← (A fun u => (keys u).1).attack C ask keys [] []
    pure (some o)

end

/-- The game when the hash functions are `P0` with the first `w` bytes given by `O`, in the build `b`. -/
def romMultiGame {q Q : Nat} (b : Build) (P0 : Spec.Prims)
    (A : ((u : Fin U) → PublicKey (sets u).params) → MultiForger sets L B w q Q) (coins : Coins sets)
    (O : Query B → Fin (256 ^ w)) : Exec b (Option (MultiOutcome sets L)) :=
  multiGame (crypto (withHash P0 O)) (fun y => pure (O y)) A coins

end Fips205.Props
