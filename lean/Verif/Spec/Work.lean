import Verif.Spec.Forgery
import Verif.Spec.Places

/-! # Which places of a key its three operations have to visit

Used to state C47. -/

namespace Fips205
open Spec

/-- The place belongs to the XMSS trees of layer `j`. -/
def Place.InLayer (j : Nat) : Place → Prop
  | .wotsHash j' .. => j' = j
  | .wotsPk j' .. => j' = j
  | .tree j' .. => j' = j
  | .wotsPrf j' .. => j' = j
  | .forsTree .. => False
  | .forsRoots .. => False
  | .forsPrf .. => False

/-- The place belongs to FORS key `l` of tree `t`, or to an XMSS tree between that key and the root. -/
def Place.OnPath (p : Params) (t l : Nat) : Place → Prop
  | .wotsHash j t' .. => t' = htTree p t j
  | .wotsPk j t' .. => t' = htTree p t j
  | .tree j t' .. => t' = htTree p t j
  | .wotsPrf j t' .. => t' = htTree p t j
  | .forsTree t' l' .. => t' = t ∧ l' = l
  | .forsRoots t' l' => t' = t ∧ l' = l
  | .forsPrf t' l' _ => t' = t ∧ l' = l

/-- The place lies on the way from what the signature contains to the public key: the chains from the
digits on, and the nodes above the leaves that are used. -/
def Place.Climbed (c : Attempt) (digit : Nat → Nat → Nat) : Place → Prop
  | .wotsHash j t l i s => t = htTree c.p c.t j ∧ l = c.leaf j ∧ digit j i ≤ s
  | .wotsPk j t l => t = htTree c.p c.t j ∧ l = c.leaf j
  | .tree j t k i => t = htTree c.p c.t j ∧ i = c.leaf j / 2 ^ k
  | .forsTree t l k x => t = c.t ∧ l = c.l ∧ ∃ i, i < c.p.k ∧ x = c.fLeaf i / 2 ^ k
  | .forsRoots t l => t = c.t ∧ l = c.l
  | .wotsPrf .. => False
  | .forsPrf .. => False

/-- Key generation: the tree at the top. -/
def keygenPlaces (p : Params) (x : Place) : Prop := x.Exists p ∧ x.InLayer (p.d - 1)

/-- Verification: what lies between the signature and the public key. -/
def verifyPlaces (c : Attempt) (x : Place) : Prop := x.Exists c.p ∧ x.Climbed c c.vDigit

/-- Signing: the FORS key and all trees on the path, except what the signature leaves to the verifier in
the tree at the top.  (In the other trees the signer computes that as well, for it is what the next
layer signs.) -/
def signPlaces (c : Attempt) (x : Place) : Prop :=
  x.Exists c.p ∧ x.OnPath c.p c.t c.l ∧ ¬ (x.InLayer (c.p.d - 1) ∧ x.Climbed c c.hDigit)

end Fips205
