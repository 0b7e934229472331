import Verif.Props.ApiGame

/-!
# The game of the duplicator

Who may choose everything: the bytes of two private keys.  They win if both are accepted, have the same `PK.root` and
differ in `SK.seed` or `PK.seed`.
-/

namespace Fips205.Props
open Fips205 Fips205.Model

variable {ps : ParamSet} {B w : Nat}

/-- A player who may ask for `Q` values, of `w` bytes, of the hash functions. -/
inductive Duplicator (ps : ParamSet) (B w : Nat) : Nat → Type
  /-- stop with two private keys -/
  | present {Q : Nat} (v v' : Vector UInt8 ps.params.SK_LEN) : Duplicator ps B w Q
  /-- evaluate a hash function -/
  | call {Q : Nat} (y : Query B) (next : Fin (256 ^ w) → Duplicator ps B w Q) : Duplicator ps B w (Q + 1)

/-- How the game ended. -/
structure DupOutcome (ps : ParamSet) where
  /-- the bytes of the two private keys -/
  v : Vector UInt8 ps.params.SK_LEN
  v' : Vector UInt8 ps.params.SK_LEN
  /-- whether the first was accepted -/
  first : Bool
  /-- whether the second was accepted -/
  second : Bool

/-- Both private keys are accepted; the last `n` bytes, the root, are the same, and the bytes differ at a place that is not
one of the `n` bytes of `SK.prf`. -/
def DupOutcome.Won (o : DupOutcome ps) : Prop :=
  o.first = true ∧ o.second = true ∧ o.v.toList.drop (3 * ps.sp.n) = o.v'.toList.drop (3 * ps.sp.n) ∧
    ∃ i, (i < ps.sp.n ∨ 2 * ps.sp.n ≤ i) ∧ o.v.toList[i]? ≠ o.v'.toList[i]?

section
variable {m : Type → Type} [Rust m] (C : Crypto m)

/-- Whether a private key was accepted. -/
def accepts {α : Type} : Except String α → Bool
  | .error _ => false
  | .ok _ => true

/-- The game: the private keys are decoded by `try_from_bytes` (`src/lib.rs:369-383`). -/
def Duplicator.play (ask : Query B → m (Fin (256 ^ w))) : {Q : Nat} → Duplicator ps B w Q → m (DupOutcome ps)
  | _, .present v v' => do
    let r ← PrivateKey.try_from_bytes (p := ps.params) C v
    let r' ← PrivateKey.try_from_bytes (p := ps.params) C v'
    pure { v, v', first := accepts r, second := accepts r' }
  | _, .call y next => do
    let u ← ask y
    (next u).play ask

end

/-- The game when the hash functions are `P0` with the first `w` bytes given by `O`, in the build `b`. -/
def romDupGame {Q : Nat} (b : Build) (P0 : Spec.Prims) (O : Query B → Fin (256 ^ w)) (A : Duplicator ps B w Q) :
    Exec b (DupOutcome ps) :=
  A.play (crypto (withHash P0 O)) fun y => pure (O y)

end Fips205.Props
