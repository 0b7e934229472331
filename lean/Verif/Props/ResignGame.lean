import Verif.Props.OwnGame

/-!
# The game of the resigner

Who chooses a private key and a list of messages, one of which is drawn at random and signed with the key, hedged.
They see the signature, but not which message it was.  They win if they have a public key and a signature that is
accepted for the message; another public key, or another context or way to sign, than those of the signer.
-/

namespace Fips205.Props
open Fips205 Fips205.Model

variable {ps : ParamSet} {L W B w Q' : Nat}

/-- How a message is signed: pure, or with a pre-hash function; and the context. -/
structure SignMode where
  ph : Option Ph
  ctx : List UInt8

/-- Messages of at most `L` bytes, of which one is drawn. -/
structure Choice (L W : Nat) where
  msg : Fin W → List UInt8
  inj : ∀ i j, msg i = msg j → i = j
  short : ∀ i, (msg i).length ≤ L

/-- The request to sign the message that was drawn. -/
def SignMode.request (x : SignMode) (c : Choice L W) (i : Fin W) : SigRequest L := ⟨x.ph, x.ctx, c.msg i, c.short i⟩

/-- A player who has seen the signature and may ask for `Q` values, of `w` bytes, of the hash functions. -/
inductive Resigner (ps : ParamSet) (B w : Nat) : Nat → Type
  /-- stop with a public key and a signature -/
  | present {Q : Nat} (pk : Vector UInt8 ps.params.PK_LEN) (y : SignMode) (sig : Vector UInt8 ps.params.SIG_LEN) :
      Resigner ps B w Q
  /-- evaluate a hash function -/
  | call {Q : Nat} (y : Query B) (next : Fin (256 ^ w) → Resigner ps B w Q) : Resigner ps B w (Q + 1)

/-- What is signed, and the player after that. -/
structure Draft (ps : ParamSet) (L W B w Q' : Nat) where
  sk : Vector UInt8 ps.params.SK_LEN
  x : SignMode
  c : Choice L W
  next : Vector UInt8 ps.params.SIG_LEN → Resigner ps B w Q'

/-- A player before the signature is made, with `Q` values until then and `Q'` afterwards. -/
inductive Drafter (ps : ParamSet) (L W B w Q' : Nat) : Nat → Type
  /-- have one of the messages signed with the private key -/
  | sign {Q : Nat} (a : Draft ps L W B w Q') : Drafter ps L W B w Q' Q
  /-- evaluate a hash function -/
  | call {Q : Nat} (y : Query B) (next : Fin (256 ^ w) → Drafter ps L W B w Q' Q) : Drafter ps L W B w Q' (Q + 1)

section
variable {m : Type → Type} [Rust m] (C : Crypto m)

/-- The game after the signature was made. -/
def Resigner.play (ask : Query B → m (Fin (256 ^ w))) (pk : PublicKey ps.params) (x : SignMode) (c : Choice L W)
    (i : Fin W) : {Q : Nat} → Resigner ps B w Q → m (Option (OwnOutcome ps L))
  | _, .present v y sig => do
    let r ← PublicKey.try_from_bytes (p := ps.params) v
    ownVerdict C pk (x.request c i) sig (y.request c i) r
  | _, .call y next => do
    let u ← ask y
    (next u).play ask pk x c i

/-- The game goes on if a signature was made. -/
def resignNext (ask : Query B → m (Fin (256 ^ w))) (a : Draft ps L W B w Q') (i : Fin W)
    (r : Option (PrivateKey ps.params × Vector UInt8 ps.params.SIG_LEN)) : m (Option (OwnOutcome ps L)) :=
  match r with
  | none => pure none
  | some (sk, sig) => (a.next sig).play C ask sk.get_public_key a.x a.c i

/-- The game: the private key is decoded by `try_from_bytes` (`src/lib.rs:369-383`), message number `i` signed by
`try_sign_with_rng` or `try_hash_sign_with_rng` (`src/lib.rs:212-246`), hedged, with the random bytes `v`; the public
key of the signer is that of `get_public_key` (`src/lib.rs:249-251`). -/
def Drafter.play (ask : Query B → m (Fin (256 ^ w))) (i : Fin W) (v : Vector UInt8 ps.params.N) :
    {Q : Nat} → Drafter ps L W B w Q' Q → m (Option (OwnOutcome ps L))
  | _, .sign a => do
    let r ← PrivateKey.try_from_bytes (p := ps.params) C a.sk
    let r ← ownSign C v (a.x.request a.c i) r
    resignNext C ask a i r
  | _, .call y next => do
    let u ← ask y
    (next u).play ask i v

end

/-- The game when the hash functions are `P0` with the first `w` bytes given by `O`, in the build `b`, with message
number `i` and the random bytes `v`. -/
def romResignGame {Q : Nat} (b : Build) (P0 : Spec.Prims) (A : Drafter ps L W B w Q' Q) (i : Fin W)
    (v : Fin (256 ^ ps.sp.n)) (O : Query B → Fin (256 ^ w)) : Exec b (Option (OwnOutcome ps L)) :=
  A.play (crypto (withHash P0 O)) (fun y => pure (O y)) i (toVec _ (Spec.toByte v ps.sp.n))

end Fips205.Props
