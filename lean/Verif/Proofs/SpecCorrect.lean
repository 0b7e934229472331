import Verif.Proofs.Api

/-! # The specification is correct: what is signed verifies -/

namespace Fips205.Spec

/-- The hash functions produce outputs of the lengths the standard requires. -/
structure Valid (hf : HashFns) (n m : Nat) : Prop where
  PRFmsg : ∀ a b c, (hf.PRFmsg a b c).length = n
  Hmsg : ∀ a b c d, (hf.Hmsg a b c d).length = m
  PRF : ∀ a b c, (hf.PRF a b c).length = n
  F : ∀ a b c, (hf.F a b c).length = n
  H : ∀ a b c, (hf.H a b c).length = n
  T : ∀ a b c, (hf.T a b c).length = n

/-- Parameters for which the address fields are large enough. -/
structure Params.WF (p : Params) : Prop where
  hp_le : p.hp ≤ 31
  d_pos : 1 ≤ p.d
  h_eq : p.h = p.d * p.hp
  fors : p.k * 2 ^ p.a < 2 ^ 32
  md : (p.k * p.a + 7) / 8 ≤ p.m

section
variable {p : Params} {hf : HashFns}

/-! ## WOTS+ -/

theorem chain_add (X : Bytes) (i s t : Nat) (PKseed ADRS : Bytes) :
    chain hf (chain hf X i s PKseed ADRS) (i + s) t PKseed ADRS =
      chain hf X i (s + t) PKseed ADRS := by
  induction t with
  | zero => rfl
  | succ t ih => rw [chain, ih, ← Nat.add_assoc, chain, Nat.add_assoc]

theorem chain_length {n m : Nat} (V : Valid hf n m) {X : Bytes} (hX : X.length = n) (i s : Nat)
    (PKseed ADRS : Bytes) : (chain hf X i s PKseed ADRS).length = n := by
  cases s with
  | zero => exact hX
  | succ s => exact V.F _ _ _

theorem wotsSign_slice {m : Nat} (V : Valid hf p.n m) (M SKseed PKseed ADRS : Bytes) {i : Nat}
    (hi : i < p.len) :
    slice (wotsSign p hf M SKseed PKseed ADRS) (i * p.n) ((i + 1) * p.n) =
      chain hf (hf.PRF PKseed SKseed (setChainAddress (wotsSkAdrs ADRS) i)) 0
        ((wotsDigits p M).getD i 0) PKseed (setChainAddress ADRS i) := by
  rw [wotsSign]
  exact slice_concat (fun j _ => chain_length V (V.PRF _ _ _) _ _ _ _) hi

theorem wotsSign_length {m : Nat} (V : Valid hf p.n m) (M SKseed PKseed ADRS : Bytes) :
    (wotsSign p hf M SKseed PKseed ADRS).length = p.len * p.n :=
  concat_length fun _ _ => chain_length V (V.PRF _ _ _) _ _ _ _

/-- The public key computed from a WOTS+ signature is the public key. -/
theorem wots_correct {m : Nat} (V : Valid hf p.n m) (M SKseed PKseed ADRS : Bytes) :
    wotsPkFromSig p hf (wotsSign p hf M SKseed PKseed ADRS) M PKseed ADRS =
      wotsPKgen p hf SKseed PKseed ADRS := by
  rw [wotsPkFromSig, wotsPKgen]
  refine congrArg _ (concat_congr fun i hi => ?_)
  rw [wotsSign_slice V _ _ _ _ hi]
  have hd : (wotsDigits p M).getD i 0 < 16 := Model.wotsDigits_lt i
  have := chain_add (hf := hf) (hf.PRF PKseed SKseed (setChainAddress (wotsSkAdrs ADRS) i)) 0
    ((wotsDigits p M).getD i 0) (w - 1 - (wotsDigits p M).getD i 0) PKseed (setChainAddress ADRS i)
  rw [Nat.zero_add, show (wotsDigits p M).getD i 0 + (w - 1 - (wotsDigits p M).getD i 0) = w - 1 by
    rw [w]; omega] at this
  exact this

/-! ## Merkle trees -/

/-- Climbing the honest path computes the nodes of the tree. -/
theorem climb_tree {PKseed : Bytes} {idx T : Nat} {AUTH : Nat → Bytes} {B node : Bytes}
    (hB : B.length = 32) (hT : T < 2 ^ 32) {levels : Nat}
    (hbits : ∀ k < levels, (idx / 2 ^ k) % 2 = (T / 2 ^ k) % 2) (nd : Nat → Nat → Bytes)
    (hnd : ∀ i k, nd i (k + 1) = hf.H PKseed (setTreeIndex (setTreeHeight B (k + 1)) i)
      (nd (2 * i) k ++ nd (2 * i + 1) k))
    (hauth : ∀ k < levels, AUTH k = nd (sibling (T / 2 ^ k)) k) (hnode : node = nd T 0) :
    ∀ k ≤ levels, (climb hf PKseed idx AUTH k (setTreeIndex (setTreeHeight B 0) T) node).2 =
      nd (T / 2 ^ k) k := by
  intro k
  induction k with
  | zero => intro _; simp [climb_zero, hnode]
  | succ k ih =>
    intro hk
    rw [climb_node hB hT hbits hk, ih (by omega), hauth k hk, hnd]
    have e : T / 2 ^ (k + 1) = T / 2 ^ k / 2 := by rw [Nat.pow_succ, Nat.div_div_eq_div_mul]
    rw [e, sibling]
    generalize T / 2 ^ k = x
    congr 1
    by_cases h : x % 2 = 0
    · rw [if_pos h, if_pos h, show 2 * (x / 2) = x by omega]
    · rw [if_neg h, if_neg h, show 2 * (x / 2) = x - 1 by omega, show x - 1 + 1 = x by omega]

theorem xmssNode_length {m : Nat} (V : Valid hf p.n m) (SKseed : Bytes) (i z : Nat)
    (PKseed ADRS : Bytes) : (xmssNode p hf SKseed i z PKseed ADRS).length = p.n := by
  cases z with
  | zero => exact V.T _ _ _
  | succ z => exact V.H _ _ _

theorem xmssSign_length {m : Nat} (V : Valid hf p.n m) (M SKseed : Bytes) (idx : Nat)
    (PKseed ADRS : Bytes) : (xmssSign p hf M SKseed idx PKseed ADRS).length = p.xmssLen := by
  rw [xmssSign, List.length_append, wotsSign_length V,
    concat_length (n := p.n) fun _ _ => xmssNode_length V _ _ _ _ _, Params.xmssLen]
  ring

theorem xmssSign_wots {m : Nat} (V : Valid hf p.n m) (M SKseed : Bytes) (idx : Nat)
    (PKseed ADRS : Bytes) : slice (xmssSign p hf M SKseed idx PKseed ADRS) 0 (p.len * p.n) =
      wotsSign p hf M SKseed PKseed (setKeyPairAddress (setTypeAndClear ADRS WOTS_HASH) idx) := by
  have := slice_zero_append
    (wotsSign p hf M SKseed PKseed (setKeyPairAddress (setTypeAndClear ADRS WOTS_HASH) idx))
    (concat p.hp fun j => xmssNode p hf SKseed (sibling (idx / 2 ^ j)) j PKseed ADRS)
  rwa [wotsSign_length V] at this

theorem xmssSign_auth {m : Nat} (V : Valid hf p.n m) (M SKseed : Bytes) (idx : Nat)
    (PKseed ADRS : Bytes) {k : Nat} (hk : k < p.hp) :
    slice (slice (xmssSign p hf M SKseed idx PKseed ADRS) (p.len * p.n) ((p.len + p.hp) * p.n))
      (k * p.n) ((k + 1) * p.n) = xmssNode p hf SKseed (sibling (idx / 2 ^ k)) k PKseed ADRS := by
  have := slice_append_right
    (wotsSign p hf M SKseed PKseed (setKeyPairAddress (setTypeAndClear ADRS WOTS_HASH) idx))
    (concat p.hp fun j => xmssNode p hf SKseed (sibling (idx / 2 ^ j)) j PKseed ADRS) 0 (p.hp * p.n)
  rw [wotsSign_length V, Nat.add_zero, ← Nat.add_mul] at this
  rw [xmssSign, this]
  have hl : (concat p.hp fun j => xmssNode p hf SKseed (sibling (idx / 2 ^ j)) j PKseed ADRS).length =
    p.hp * p.n := concat_length fun _ _ => xmssNode_length V _ _ _ _ _
  have e := slice_all (concat p.hp fun j => xmssNode p hf SKseed (sibling (idx / 2 ^ j)) j PKseed ADRS)
  rw [hl] at e
  rw [e]
  exact slice_concat (fun _ _ => xmssNode_length V _ _ _ _ _) hk

theorem xmss_adrs {ADRS : Bytes} (hA : ADRS.length = 32) (idx : Nat) :
    setTypeAndClear (setKeyPairAddress (setTypeAndClear ADRS WOTS_HASH) idx) TREE =
      setTypeAndClear ADRS TREE := by
  rw [setTypeAndClear_setKeyPairAddress (setTypeAndClear_length hA _),
    setTypeAndClear_setTypeAndClear hA]

/-- The root computed from an XMSS signature is the root of the tree. -/
theorem xmss_correct {m : Nat} (W : p.WF) (V : Valid hf p.n m) (M SKseed : Bytes) {idx : Nat}
    (hidx : idx < 2 ^ p.hp) (PKseed : Bytes) {ADRS : Bytes} (hA : ADRS.length = 32) :
    xmssPkFromSig p hf idx (xmssSign p hf M SKseed idx PKseed ADRS) M PKseed ADRS =
      xmssNode p hf SKseed 0 p.hp PKseed ADRS := by
  have h31 : 2 ^ p.hp ≤ 2 ^ 31 := Nat.pow_le_pow_right (by decide) W.hp_le
  rw [xmssPkFromSig]
  rw [xmssSign_wots V, wots_correct V, xmss_adrs hA, ← setTreeHeight_setTypeAndClear hA TREE]
  have := climb_tree (hf := hf) (PKseed := PKseed) (idx := idx) (T := idx)
    (AUTH := fun k => slice (slice (xmssSign p hf M SKseed idx PKseed ADRS) (p.len * p.n)
      ((p.len + p.hp) * p.n)) (k * p.n) ((k + 1) * p.n))
    (setTypeAndClear_length hA TREE) (by omega) (fun _ _ => rfl)
    (fun i k => xmssNode p hf SKseed i k PKseed ADRS) (fun i k => rfl)
    (fun k hk => xmssSign_auth V _ _ _ _ _ hk) rfl p.hp (Nat.le_refl _)
  rw [Nat.div_eq_of_lt hidx] at this
  exact this

/-! ## The hypertree -/

theorem signSig_slice {m : Nat} (V : Valid hf p.n m) (SKseed PKseed M : Bytes) (t l : Nat) {j : Nat}
    (hj : j < p.d) : slice (htSign p hf M SKseed PKseed t l) (j * p.xmssLen) ((j + 1) * p.xmssLen) =
      signSig p hf SKseed PKseed M t l j := by
  rw [htSign_eq]
  exact slice_concat (fun _ _ => xmssSign_length V _ _ _ _ _) hj

theorem htSign_length {m : Nat} (V : Valid hf p.n m) (SKseed PKseed M : Bytes) (t l : Nat) :
    (htSign p hf M SKseed PKseed t l).length = p.d * p.xmssLen := by
  rw [htSign_eq]
  exact concat_length fun _ _ => xmssSign_length V _ _ _ _ _

theorem rootMsg_sign {m : Nat} (V : Valid hf p.n m) (SKseed PKseed M : Bytes) (t l : Nat) :
    ∀ j ≤ p.d, rootMsg p hf PKseed (htSign p hf M SKseed PKseed t l) M t l j =
      signMsg p hf SKseed PKseed M t l j := by
  intro j
  induction j with
  | zero => intro _; rfl
  | succ j ih =>
    intro hj
    rw [rootMsg, ih (by omega), signSig_slice V _ _ _ _ _ (by omega)]
    rfl

theorem signMsg_succ {m : Nat} (W : p.WF) (V : Valid hf p.n m) (SKseed PKseed M : Bytes) (t : Nat)
    {l : Nat} (hl : l < 2 ^ p.hp) (j : Nat) :
    signMsg p hf SKseed PKseed M t l (j + 1) =
      xmssNode p hf SKseed 0 p.hp PKseed (htAdrs j (htTree p t j)) :=
  xmss_correct W V _ _ (htLeaf_lt p hl j) _ (htAdrs_length _ _)

theorem htAdrs_zero_tree (j : Nat) : htAdrs j 0 = setLayerAddress zeroAdrs j := rfl

theorem htTree_top (W : p.WF) {t : Nat} (ht : t < 2 ^ (p.h - p.hp)) : htTree p t (p.d - 1) = 0 := by
  refine Nat.div_eq_of_lt ?_
  have : p.h - p.hp = p.hp * (p.d - 1) := by
    rw [W.h_eq, Nat.mul_sub_one, Nat.mul_comm]
  rwa [← this]

theorem ht_correct {m : Nat} (W : p.WF) (V : Valid hf p.n m) (SKseed PKseed M : Bytes) {t l : Nat}
    (ht : t < 2 ^ (p.h - p.hp)) (hl : l < 2 ^ p.hp) :
    htVerify p hf M (htSign p hf M SKseed PKseed t l) PKseed t l (pkRoot p hf SKseed PKseed) = true := by
  have hd := W.d_pos
  have := signMsg_succ W V SKseed PKseed M t hl (p.d - 1)
  rw [Nat.sub_add_cancel hd, htTree_top W ht, htAdrs_zero_tree] at this
  rw [htVerify_eq, rootMsg_sign V _ _ _ _ _ _ (Nat.le_refl _), this, pkRoot]
  exact beq_self_eq_true _

/-! ## FORS -/

theorem forsNode_length {m : Nat} (V : Valid hf p.n m) (SKseed : Bytes) (i z : Nat)
    (PKseed ADRS : Bytes) : (forsNode hf SKseed i z PKseed ADRS).length = p.n := by
  cases z with
  | zero => exact V.F _ _ _
  | succ z => exact V.H _ _ _

theorem forsSign_length {m : Nat} (V : Valid hf p.n m) (md SKseed PKseed ADRS : Bytes) :
    (forsSign p hf md SKseed PKseed ADRS).length = p.k * ((p.a + 1) * p.n) := by
  refine concat_length fun i _ => ?_
  rw [List.length_append, forsSKgen, V.PRF,
    concat_length (n := p.n) fun _ _ => forsNode_length V _ _ _ _ _]
  ring

/-- Splitting `Spec.verifyInternal`. -/
theorem verifyInternal_append {M R SIGfors SIGht PKseed PKroot : Bytes} (h1 : R.length = p.n)
    (h2 : SIGfors.length = p.k * ((p.a + 1) * p.n)) (h3 : SIGht.length = p.d * p.xmssLen)
    (W : p.WF) :
    verifyInternal p hf M (R ++ SIGfors ++ SIGht) PKseed PKroot =
      let digest := hf.Hmsg R PKseed PKroot M
      htVerify p hf (forsPkFromSig p hf SIGfors (digestMd p digest) PKseed
        (forsAdrs (digestTree p digest) (digestLeaf p digest))) SIGht PKseed (digestTree p digest)
        (digestLeaf p digest) PKroot := by
  have e1 : (1 + p.k * (1 + p.a)) * p.n = (R ++ SIGfors).length := by
    rw [List.length_append, h1, h2]; ring
  have e2 : (1 + p.k * (1 + p.a) + p.h + p.d * p.len) * p.n = (R ++ SIGfors).length + SIGht.length := by
    rw [List.length_append, h1, h2, h3, Params.xmssLen, W.h_eq]; ring
  have e3 : (R ++ SIGfors ++ SIGht).length = p.sigLen := by
    rw [List.length_append, ← e2, Params.sigLen]
  have s1 : slice (R ++ SIGfors ++ SIGht) 0 p.n = R := by
    rw [List.append_assoc, ← h1]; exact slice_zero_append _ _
  have s2 : slice (R ++ SIGfors ++ SIGht) p.n ((1 + p.k * (1 + p.a)) * p.n) = SIGfors := by
    rw [e1, slice_append_left _ (Nat.le_refl _)]
    have := slice_append_right R SIGfors 0 SIGfors.length
    rwa [Nat.add_zero, ← List.length_append, slice_all, h1] at this
  have s3 : slice (R ++ SIGfors ++ SIGht) ((1 + p.k * (1 + p.a)) * p.n)
      ((1 + p.k * (1 + p.a) + p.h + p.d * p.len) * p.n) = SIGht := by
    rw [e1, e2]
    have := slice_append_right (R ++ SIGfors) SIGht 0 SIGht.length
    rwa [Nat.add_zero, slice_all] at this
  rw [verifyInternal, if_neg (by rw [e3]; simp), s1, s2, s3]

theorem digestTree_lt (digest : Bytes) : digestTree p digest < 2 ^ (p.h - p.h / p.d) :=
  Nat.mod_lt _ (Nat.two_pow_pos _)

theorem digestLeaf_lt (digest : Bytes) : digestLeaf p digest < 2 ^ (p.h / p.d) :=
  Nat.mod_lt _ (Nat.two_pow_pos _)

theorem Params.WF.hd (W : p.WF) : p.h / p.d = p.hp := by
  rw [W.h_eq, Nat.mul_div_cancel_left _ W.d_pos]

/-- FIPS 205 is correct: a signature verifies under the public key with the same seeds, for any
randomizer. -/
theorem signWithR_correct {m : Nat} (W : p.WF) (V : Valid hf p.n m) {R : Bytes} (hR : R.length = p.n)
    (M SKseed PKseed : Bytes) :
    verifyInternal p hf M (signWithR p hf R M SKseed PKseed (pkRoot p hf SKseed PKseed)) PKseed
      (pkRoot p hf SKseed PKseed) = true := by
  rw [signWithR]
  rw [verifyInternal_append hR (forsSign_length V _ _ _ _) (htSign_length V _ _ _ _ _) W]
  refine ht_correct W V _ _ _ ?_ ?_
  · have := digestTree_lt (p := p) (hf.Hmsg R PKseed (pkRoot p hf SKseed PKseed) M)
    rwa [W.hd] at this
  · have := digestLeaf_lt (p := p) (hf.Hmsg R PKseed (pkRoot p hf SKseed PKseed) M)
    rwa [W.hd] at this

theorem signInternal_correct {m : Nat} (W : p.WF) (V : Valid hf p.n m)
    (M SKseed SKprf PKseed optRand : Bytes) :
    verifyInternal p hf M (signInternal p hf M SKseed SKprf PKseed (pkRoot p hf SKseed PKseed) optRand)
      PKseed (pkRoot p hf SKseed PKseed) = true :=
  signWithR_correct W V (V.PRFmsg _ _ _) _ _ _

end

/-! ## The hash functions of section 11 -/

theorem shakeFns_valid (P : Prims) (n m : Nat) : Valid (shakeFns P n m) n m := by
  constructor <;> intros <;> simp [shakeFns]

theorem mgf1_length {hash : Bytes → Bytes} {hLen : Nat} (h : ∀ x, (hash x).length = hLen)
    (hpos : 0 < hLen) (seed : Bytes) (len : Nat) : (mgf1 hash hLen seed len).length = len := by
  rw [mgf1, trunc, List.length_take, concat_length fun _ _ => h _]
  have := Nat.lt_div_mul_add (a := len + hLen - 1) hpos
  omega

theorem trunc_length {l : Nat} {X : Bytes} (h : l ≤ X.length) : (trunc l X).length = l := by
  rw [trunc, List.length_take]; omega

theorem sha256'_length (P : Prims) (x : Bytes) : (sha256' P x).length = 32 := by simp [sha256']
theorem sha512'_length (P : Prims) (x : Bytes) : (sha512' P x).length = 64 := by simp [sha512']

theorem sha2Cat1Fns_valid (P : Prims) {n : Nat} (hn : n ≤ 32) (m : Nat) :
    Valid (sha2Cat1Fns P n m) n m := by
  constructor <;> intros
  · exact trunc_length (by rw [hmac]; rwa [sha256'_length])
  · exact mgf1_length (sha256'_length P) (by decide) _ _
  all_goals exact trunc_length (by rwa [sha256'_length])

theorem sha2Cat35Fns_valid (P : Prims) {n : Nat} (hn : n ≤ 32) (m : Nat) :
    Valid (sha2Cat35Fns P n m) n m := by
  have hn' : n ≤ 64 := by omega
  constructor <;> intros
  · exact trunc_length (by rw [hmac]; rwa [sha512'_length])
  · exact mgf1_length (sha512'_length P) (by decide) _ _
  · exact trunc_length (by rwa [sha256'_length])
  · exact trunc_length (by rwa [sha256'_length])
  · exact trunc_length (by rwa [sha512'_length])
  · exact trunc_length (by rwa [sha512'_length])

end Fips205.Spec

namespace Fips205.Model
open Fips205

theorem ParamSet.wf (ps : ParamSet) : ps.sp.WF := by
  constructor <;> cases ps <;> decide

theorem ParamSet.valid (ps : ParamSet) (P : Spec.Prims) : Spec.Valid (ps.hf P) ps.sp.n ps.sp.m := by
  cases ps
  · exact Spec.sha2Cat1Fns_valid P (by decide) _
  · exact Spec.shakeFns_valid P _ _
  · exact Spec.sha2Cat1Fns_valid P (by decide) _
  · exact Spec.shakeFns_valid P _ _
  · exact Spec.sha2Cat35Fns_valid P (by decide) _
  · exact Spec.shakeFns_valid P _ _
  · exact Spec.sha2Cat35Fns_valid P (by decide) _
  · exact Spec.shakeFns_valid P _ _
  · exact Spec.sha2Cat35Fns_valid P (by decide) _
  · exact Spec.shakeFns_valid P _ _
  · exact Spec.sha2Cat35Fns_valid P (by decide) _
  · exact Spec.shakeFns_valid P _ _

end Fips205.Model
