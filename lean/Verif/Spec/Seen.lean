import Verif.Spec.Work

/-! # What two verifications under one public key have in common

Everything here is computed from the signatures and the public key.  Used to state C60. -/

namespace Fips205.Spec.Attempt
open Fips205

/-- What the verifier hashes at a place between the signature and the public key. -/
def seen (c : Attempt) : Place → Bytes
  | .wotsHash j _ _ i s => c.vChain j i s
  | .wotsPk j _ _ => concat c.p.len fun i => c.vChain j i (w - 1)
  | .tree j _ k _ => children (c.leaf j / 2 ^ (k - 1)) (c.vXmss j (k - 1)) (c.vAuth j (k - 1))
  | .forsTree _ _ 0 x => c.vSecret (x / 2 ^ c.p.a)
  | .forsTree _ _ (k + 1) x =>
    let i := x / 2 ^ (c.p.a - (k + 1))
    children (c.fLeaf i / 2 ^ k) (c.vFors i k) (c.vForsAuth i k)
  | .forsRoots .. => concat c.p.k fun i => c.vFors i c.p.a
  | .wotsPrf .. => []
  | .forsPrf .. => []

/-- At some place both verifications hash, different things, with the same result. -/
def Collision (c c' : Attempt) : Prop :=
  ∃ x, verifyPlaces c x ∧ verifyPlaces c' x ∧ c.seen x ≠ c'.seen x ∧
    hashAt c.hf c.PKseed x (c.seen x) = hashAt c.hf c.PKseed x (c'.seen x)

/-- Both signatures use the same one-time key of the hypertree, and arrive at the same public key of it, with
different values. -/
def Reuse (c c' : Attempt) : Prop :=
  ∃ j < c.p.d, htTree c.p c.t j = htTree c.p c'.t j ∧ c.leaf j = c'.leaf j ∧ c.vMsg j ≠ c'.vMsg j ∧
    ∀ i < c.p.len, c.vChain j i (w - 1) = c'.vChain j i (w - 1)

end Fips205.Spec.Attempt
