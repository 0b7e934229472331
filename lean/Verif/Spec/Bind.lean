import Verif.Spec.Seen

/-! # What one signature accepted for two messages shows

Everything here is computed from the signature and the public key.  Used to state C76. -/

namespace Fips205.Spec.Attempt
open Fips205

/-- The two verifications hash something, not the same thing at the same place, with the same result. -/
def Clash (c c' : Attempt) : Prop :=
  ∃ x x', verifyPlaces c x ∧ verifyPlaces c' x' ∧ (x ≠ x' ∨ c.seen x ≠ c'.seen x') ∧
    hashAt c.hf c.PKseed x (c.seen x) = hashAt c.hf c.PKseed x' (c'.seen x')

/-- A WOTS+ chain comes back to a value it had before. -/
def Loop (c : Attempt) : Prop :=
  ∃ j < c.p.d, ∃ i < c.p.len, ∃ s s', c.vDigit j i ≤ s ∧ s < s' ∧ s' ≤ w - 1 ∧ c.vChain j i s = c.vChain j i s'

end Fips205.Spec.Attempt
