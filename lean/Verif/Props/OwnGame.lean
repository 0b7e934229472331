import Verif.Props.ApiGame

/-!
# The game of the claimant

Who may choose everything but the random bytes of the signer: a private key and a request.  The request is signed with
the key, hedged.  They see the signature, and win if they have another public key or another request for which
verification accepts it.
-/

namespace Fips205.Props
open Fips205 Fips205.Model

variable {ps : ParamSet} {L B w : Nat}

/-- A player who has seen the signature and may ask for `Q` values, of `w` bytes, of the hash functions. -/
inductive Claimant (ps : ParamSet) (L B w : Nat) : Nat → Type
  /-- stop with a public key and a request -/
  | claim {Q : Nat} (pk : Vector UInt8 ps.params.PK_LEN) (y : SigRequest L) : Claimant ps L B w Q
  /-- evaluate a hash function -/
  | call {Q : Nat} (y : Query B) (next : Fin (256 ^ w) → Claimant ps L B w Q) : Claimant ps L B w (Q + 1)

/-- A player before the signature is made, with `Q` values in all. -/
inductive Chooser (ps : ParamSet) (L B w : Nat) : Nat → Type
  /-- have the request signed with the private key -/
  | sign {Q : Nat} (sk : Vector UInt8 ps.params.SK_LEN) (x : SigRequest L)
      (next : Vector UInt8 ps.params.SIG_LEN → Claimant ps L B w Q) : Chooser ps L B w Q
  /-- evaluate a hash function -/
  | call {Q : Nat} (y : Query B) (next : Fin (256 ^ w) → Chooser ps L B w Q) : Chooser ps L B w (Q + 1)

/-- How the game ended, if a signature was made. -/
structure OwnOutcome (ps : ParamSet) (L : Nat) where
  /-- the public key of the signer, and the request -/
  pk : PublicKey ps.params
  x : SigRequest L
  /-- the public key and the request of the player -/
  pk' : PublicKey ps.params
  y : SigRequest L
  /-- whether verification accepted the signature for these -/
  accepted : Bool

/-- The signature is accepted for another public key or another request. -/
def OwnOutcome.Won (o : OwnOutcome ps L) : Prop := o.accepted = true ∧ (o.pk' ≠ o.pk ∨ o.y ≠ o.x)

section
variable {m : Type → Type} [Rust m] (C : Crypto m)

/-- The verdict about a claim. -/
def ownVerdict (pk : PublicKey ps.params) (x : SigRequest L) (sig : Vector UInt8 ps.params.SIG_LEN) (y : SigRequest L)
    (r : Except String (PublicKey ps.params)) : m (Option (OwnOutcome ps L)) :=
  match r with
  | .error _ => pure none
  | .ok pk' => do
    let accepted ← y.verify C pk' sig
    pure (some { pk, x, pk', y, accepted })

/-- The game after the signature was made. -/
def Claimant.play (ask : Query B → m (Fin (256 ^ w))) (pk : PublicKey ps.params) (x : SigRequest L)
    (sig : Vector UInt8 ps.params.SIG_LEN) : {Q : Nat} → Claimant ps L B w Q → m (Option (OwnOutcome ps L))
  | _, .claim v y => do
    let r ← PublicKey.try_from_bytes (p := ps.params) v
    ownVerdict C pk x sig y r
  | _, .call y next => do
    let u ← ask y
    (next u).play ask pk x sig

/-- The signature is made: hedged, with the random bytes `v`. -/
def ownSign (v : Vector UInt8 ps.params.N) (x : SigRequest L) (r : Except String (PrivateKey ps.params)) :
    m (Option (PrivateKey ps.params × Vector UInt8 ps.params.SIG_LEN)) :=
  match r with
  | .error _ => pure none
  | .ok sk => do
    let (_, r) ← x.sign C sk true (.ok v)
    match r with
    | .error _ => pure none
    | .ok sig => pure (some (sk, sig))

/-- The game goes on if a signature was made. -/
def ownNext (ask : Query B → m (Fin (256 ^ w))) (x : SigRequest L) {Q : Nat}
    (next : Vector UInt8 ps.params.SIG_LEN → Claimant ps L B w Q)
    (r : Option (PrivateKey ps.params × Vector UInt8 ps.params.SIG_LEN)) : m (Option (OwnOutcome ps L)) :=
  match r with
  | none => pure none
  | some (sk, sig) => (next sig).play C ask sk.get_public_key x sig

/-- The game: the private key is decoded by `try_from_bytes` (`src/lib.rs:369-383`), the request signed by
`try_sign_with_rng` or `try_hash_sign_with_rng` (`src/lib.rs:212-246`), the public key of the signer is that of
`get_public_key` (`src/lib.rs:249-251`). -/
def Chooser.play (ask : Query B → m (Fin (256 ^ w))) (v : Vector UInt8 ps.params.N) :
    {Q : Nat} → Chooser ps L B w Q → m (Option (OwnOutcome ps L))
  | _, .sign sk x next => do
    let r ← PrivateKey.try_from_bytes (p := ps.params) C sk
    let r ← ownSign C v x r
    ownNext C ask x next r
  | _, .call y next => do
    let u ← ask y
    (next u).play ask v

end

/-- The game when the hash functions are `P0` with the first `w` bytes given by `O`, in the build `b`, with the random
bytes `v`. -/
def romOwnGame {Q : Nat} (b : Build) (P0 : Spec.Prims) (A : Chooser ps L B w Q) (v : Fin (256 ^ ps.sp.n))
    (O : Query B → Fin (256 ^ w)) : Exec b (Option (OwnOutcome ps L)) :=
  A.play (crypto (withHash P0 O)) (fun y => pure (O y)) (toVec _ (Spec.toByte v ps.sp.n))

end Fips205.Props
