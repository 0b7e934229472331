import Verif.Spec.Forgery

/-!
# Which hash functions the parts of the scheme depend on

FORS, WOTS+, XMSS and the hypertree use `PRF`, `F`, `H` and `T` only, not `H_msg` and `PRF_msg`.
-/

namespace Fips205.Spec

/-- Two instantiations with the same `PRF`, `F`, `H`, `T`. -/
structure SameTrees (hf hf' : HashFns) : Prop where
  PRF : hf.PRF = hf'.PRF
  F : hf.F = hf'.F
  H : hf.H = hf'.H
  T : hf.T = hf'.T

variable {p : Params} {hf hf' : HashFns} (E : SameTrees hf hf')
include E

theorem SameTrees.chain : chain hf = chain hf' := by
  funext X i s PKseed ADRS
  induction s with
  | zero => rfl
  | succ s ih => rw [Spec.chain, Spec.chain, ih, E.F]

theorem SameTrees.climb : climb hf = climb hf' := by
  funext PKseed idx AUTH levels ADRS node
  simp only [Spec.climb, E.H]

theorem SameTrees.wotsPKgen : wotsPKgen p hf = wotsPKgen p hf' := by
  funext SKseed PKseed ADRS
  simp only [Spec.wotsPKgen, E.chain, E.PRF, E.T]

theorem SameTrees.wotsSign : wotsSign p hf = wotsSign p hf' := by
  funext M SKseed PKseed ADRS
  simp only [Spec.wotsSign, E.chain, E.PRF]

theorem SameTrees.wotsPkFromSig : wotsPkFromSig p hf = wotsPkFromSig p hf' := by
  funext sig M PKseed ADRS
  simp only [Spec.wotsPkFromSig, E.chain, E.T]

theorem SameTrees.xmssNode : xmssNode p hf = xmssNode p hf' := by
  funext SKseed i z PKseed ADRS
  induction z generalizing i with
  | zero => rw [Spec.xmssNode, Spec.xmssNode, E.wotsPKgen]
  | succ z ih => rw [Spec.xmssNode, Spec.xmssNode, ih, ih, E.H]

theorem SameTrees.xmssSign : xmssSign p hf = xmssSign p hf' := by
  funext M SKseed idx PKseed ADRS
  simp only [Spec.xmssSign, E.wotsSign, E.xmssNode]

theorem SameTrees.xmssPkFromSig : xmssPkFromSig p hf = xmssPkFromSig p hf' := by
  funext idx SIG M PKseed ADRS
  simp only [Spec.xmssPkFromSig, E.wotsPkFromSig, E.climb]

theorem SameTrees.htSign : htSign p hf = htSign p hf' := by
  funext M SKseed PKseed idxTree idxLeaf
  rw [Spec.htSign, Spec.htSign]
  generalize p.d = left
  generalize 0 = j
  induction left generalizing j M idxTree idxLeaf with
  | zero => rfl
  | succ left ih => simp only [Spec.htSignFrom, E.xmssSign, E.xmssPkFromSig, ih]

theorem SameTrees.forsSKgen : forsSKgen hf = forsSKgen hf' := by
  funext SKseed PKseed ADRS idx
  simp only [Spec.forsSKgen, E.PRF]

theorem SameTrees.forsNode : forsNode hf = forsNode hf' := by
  funext SKseed i z PKseed ADRS
  induction z generalizing i with
  | zero => rw [Spec.forsNode, Spec.forsNode, E.F, E.forsSKgen]
  | succ z ih => rw [Spec.forsNode, Spec.forsNode, ih, ih, E.H]

theorem SameTrees.forsSign : forsSign p hf = forsSign p hf' := by
  funext md SKseed PKseed ADRS
  simp only [Spec.forsSign, E.forsSKgen, E.forsNode]

theorem SameTrees.forsPkFromSig : forsPkFromSig p hf = forsPkFromSig p hf' := by
  funext SIG md PKseed ADRS
  simp only [Spec.forsPkFromSig, E.F, E.T, E.climb]

theorem SameTrees.pkRoot : pkRoot p hf = pkRoot p hf' := by
  funext SKseed PKseed
  simp only [Spec.pkRoot, E.xmssNode]

/-- A signature depends on `H_msg` through the digest only. -/
theorem SameTrees.signWithR {R M SKseed PKseed PKroot : Bytes}
    (h : hf.Hmsg R PKseed PKroot M = hf'.Hmsg R PKseed PKroot M) :
    signWithR p hf R M SKseed PKseed PKroot = signWithR p hf' R M SKseed PKseed PKroot := by
  simp only [Spec.signWithR, h, E.forsSign, E.forsPkFromSig, E.htSign]

theorem SameTrees.htVerify : htVerify p hf = htVerify p hf' := by
  funext M SIG PKseed idxTree idxLeaf PKroot
  rw [Spec.htVerify, Spec.htVerify]
  congr 1
  generalize p.d = left
  generalize 0 = j
  induction left generalizing j M idxTree idxLeaf with
  | zero => rfl
  | succ left ih => simp only [Spec.htRootFrom, E.xmssPkFromSig, ih]

/-- Verification too. -/
theorem SameTrees.verifyInternal {M SIG PKseed PKroot : Bytes} (h : hf.Hmsg (slice SIG 0 p.n) PKseed PKroot M =
      hf'.Hmsg (slice SIG 0 p.n) PKseed PKroot M) :
    verifyInternal p hf M SIG PKseed PKroot = verifyInternal p hf' M SIG PKseed PKroot := by
  simp only [Spec.verifyInternal, h, E.forsPkFromSig, E.htVerify]

end Fips205.Spec
