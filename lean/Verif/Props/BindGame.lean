import Verif.Props.ApiGame

/-!
# The game of the repudiator

Who may choose everything: the bytes of the public key, a signature, and two requests, each with mode, context and
message.  They win if verification accepts the signature for both.
-/

namespace Fips205.Props
open Fips205 Fips205.Model

variable {ps : ParamSet} {L B w : Nat}

/-- A player who may ask for `Q` values, of `w` bytes, of the hash functions. -/
inductive Repudiator (ps : ParamSet) (L B w : Nat) : Nat → Type
  /-- stop with a public key, a signature and two requests -/
  | claim {Q : Nat} (pk : Vector UInt8 ps.params.PK_LEN) (sig : Vector UInt8 ps.params.SIG_LEN) (x y : SigRequest L) :
      Repudiator ps L B w Q
  /-- evaluate a hash function -/
  | call {Q : Nat} (y : Query B) (next : Fin (256 ^ w) → Repudiator ps L B w Q) : Repudiator ps L B w (Q + 1)

/-- How the game ended. -/
structure ClaimOutcome (L : Nat) where
  x : SigRequest L
  y : SigRequest L
  /-- whether verification accepted the signature for the first request -/
  first : Bool
  /-- whether verification accepted it for the second request -/
  second : Bool

/-- The signature is accepted for two requests that differ in mode, context or message. -/
def ClaimOutcome.Won (o : ClaimOutcome L) : Prop := o.first = true ∧ o.second = true ∧ o.x ≠ o.y

section
variable {m : Type → Type} [Rust m] (C : Crypto m)

/-- The verdicts about a claim. -/
def judge (r : Except String (PublicKey ps.params)) (sig : Vector UInt8 ps.params.SIG_LEN) (x y : SigRequest L) :
    m (ClaimOutcome L) :=
  match r with
  | .error _ => pure { x, y, first := false, second := false }
  | .ok pk => do
    let first ← x.verify C pk sig
    let second ← y.verify C pk sig
    pure { x, y, first, second }

/-- The game: the public key is decoded by `try_from_bytes` (`src/lib.rs:346-351`); `ask` answers the calls of the hash
functions. -/
def Repudiator.play (ask : Query B → m (Fin (256 ^ w))) : {Q : Nat} → Repudiator ps L B w Q → m (ClaimOutcome L)
  | _, .claim pk sig x y => do
    let r ← PublicKey.try_from_bytes (p := ps.params) pk
    judge C r sig x y
  | _, .call y next => do
    let v ← ask y
    (next v).play ask

end

/-- The game when the hash functions are `P0` with the first `w` bytes given by `O`, in the build `b`. -/
def romClaimGame {Q : Nat} (b : Build) (P0 : Spec.Prims) (O : Query B → Fin (256 ^ w)) (A : Repudiator ps L B w Q) :
    Exec b (ClaimOutcome L) :=
  A.play (crypto (withHash P0 O)) fun y => pure (O y)

end Fips205.Props
