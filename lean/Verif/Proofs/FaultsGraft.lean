import Verif.Proofs.FaultsAgree
import Verif.Proofs.SpecCorrect

/-!
# Signing with a hash unit that errs, as far as verification sees it

Signing computes the root of every lower tree from the signature it has just made, so an error below the top tree is
signed like the right value.
-/

namespace Fips205.Spec.Run

variable {p : Params} {h : Fns}

/-! ## The calls of the top layer are calls of key generation -/

theorem chain_log_mono (X : Bytes) (i : Nat) (PKseed ADRS : Bytes) {s s' : Nat} (hs : s ≤ s') :
    (chain h X i s PKseed ADRS).log ⊆ (chain h X i s' PKseed ADRS).log := by
  induction s' with
  | zero =>
    obtain rfl : s = 0 := by omega
    exact fun _ h => h
  | succ s' ih =>
    by_cases he : s = s' + 1
    · subst he
      exact fun _ h => h
    · refine List.Subset.trans (ih (by omega)) ?_
      rw [chain.eq_2, log_bind]
      exact List.subset_append_left _ _

theorem wotsSign_log_sub (M SKseed PKseed ADRS : Bytes) :
    (wotsSign p h M SKseed PKseed ADRS).log ⊆ (wotsPKgen p h SKseed PKseed ADRS).log := by
  rw [wotsSign, wotsPKgen, log_bind, concat_log, concat_log]
  intro c hc
  refine List.mem_append_left _ ?_
  rw [List.mem_flatMap] at hc ⊢
  obtain ⟨i, hi, hc⟩ := hc
  refine ⟨i, hi, ?_⟩
  rw [log_bind] at hc ⊢
  rcases List.mem_append.mp hc with hc | hc
  · exact List.mem_append_left _ hc
  · refine List.mem_append_right _ (chain_log_mono _ _ _ _ ?_ hc)
    have : (wotsDigits p M).getD i 0 < 16 := Model.wotsDigits_lt i
    have hw : w = 16 := rfl
    omega

theorem xmssNode_log_sub (SKseed PKseed ADRS : Bytes) : ∀ (k z i j : Nat), j / 2 ^ k = i →
    (xmssNode p h SKseed j z PKseed ADRS).log ⊆ (xmssNode p h SKseed i (z + k) PKseed ADRS).log := by
  intro k
  induction k with
  | zero =>
    intro z i j hj
    rw [Nat.pow_zero, Nat.div_one] at hj
    subst hj
    exact fun _ h => h
  | succ k ih =>
    intro z i j hj
    have h1 := ih z (j / 2 ^ k) j rfl
    refine List.Subset.trans h1 ?_
    have h2 : j / 2 ^ k / 2 = i := by rw [Nat.div_div_eq_div_mul, ← Nat.pow_succ, hj]
    generalize j / 2 ^ k = x at h2
    rw [← Nat.add_assoc, xmssNode, log_bind, log_bind]
    rcases Nat.mod_two_eq_zero_or_one x with hx | hx
    · rw [show x = 2 * i by omega]
      exact List.subset_append_left _ _
    · rw [show x = 2 * i + 1 by omega]
      exact fun c hc => List.mem_append_right _ (List.mem_append_left _ hc)

theorem sibling_div {x k : Nat} (hk : x < 2 ^ k) (h1 : 1 ≤ k) : sibling x / 2 ^ k = 0 := by
  refine Nat.div_eq_of_lt ?_
  obtain ⟨k, rfl⟩ : ∃ k', k = k' + 1 := ⟨k - 1, by omega⟩
  rw [Nat.pow_succ] at hk ⊢
  unfold sibling
  split <;> omega

theorem xmssSign_log_sub (M SKseed PKseed ADRS : Bytes) {idx : Nat} (hidx : idx < 2 ^ p.hp) :
    (xmssSign p h M SKseed idx PKseed ADRS).log ⊆ (xmssNode p h SKseed 0 p.hp PKseed ADRS).log := by
  rw [xmssSign, log_bind, log_bind, concat_log]
  intro c hc
  rcases List.mem_append.mp hc with hc | hc
  · obtain ⟨j, hj, hc⟩ := List.mem_flatMap.mp hc
    have hj := List.mem_range.mp hj
    have := xmssNode_log_sub (p := p) (h := h) SKseed PKseed ADRS (p.hp - j) j 0 (sibling (idx / 2 ^ j))
      (sibling_div (Nat.div_lt_of_lt_mul (by rwa [← Nat.pow_add, Nat.add_sub_cancel' (Nat.le_of_lt hj)])) (by omega)) hc
    rwa [Nat.add_sub_cancel' (Nat.le_of_lt hj)] at this
  · rcases List.mem_append.mp hc with hc | hc
    · have h1 := wotsSign_log_sub _ _ _ _ hc
      have := xmssNode_log_sub (p := p) (h := h) SKseed PKseed ADRS p.hp 0 0 idx (Nat.div_eq_of_lt hidx) h1
      rwa [Nat.zero_add] at this
    · cases hc

/-- The calls of a verification, by the parts of the signature. -/
theorem verifyInternal_log {M R SIGfors SIGht PKseed PKroot : Bytes} (h1 : R.length = p.n)
    (h2 : SIGfors.length = p.k * ((p.a + 1) * p.n)) (h3 : SIGht.length = p.d * p.xmssLen) (W : p.WF) :
    (verifyInternal p h M (R ++ SIGfors ++ SIGht) PKseed PKroot).log =
      let digest := h.vals.Hmsg R PKseed PKroot M
      let ADRS := forsAdrs (digestTree p digest) (digestLeaf p digest)
      (h.Hmsg R PKseed PKroot M).log ++ ((forsPkFromSig p h SIGfors (digestMd p digest) PKseed ADRS).log ++
      (htVerify p h (Spec.forsPkFromSig p h.vals SIGfors (digestMd p digest) PKseed ADRS) SIGht PKseed
        (digestTree p digest) (digestLeaf p digest) PKroot).log) := by
  have e1 : (1 + p.k * (1 + p.a)) * p.n = (R ++ SIGfors).length := by
    rw [List.length_append, h1, h2]; ring
  have e2 : (1 + p.k * (1 + p.a) + p.h + p.d * p.len) * p.n = (R ++ SIGfors).length + SIGht.length := by
    rw [List.length_append, h1, h2, h3, Params.xmssLen, W.h_eq]; ring
  have e3 : (R ++ SIGfors ++ SIGht).length = p.sigLen := by
    rw [List.length_append, ← e2, Params.sigLen]
  have s1 : slice (R ++ SIGfors ++ SIGht) 0 p.n = R := by
    rw [List.append_assoc, ← h1]; exact slice_zero_append _ _
  have s2 : slice (R ++ SIGfors ++ SIGht) p.n ((1 + p.k * (1 + p.a)) * p.n) = SIGfors := by
    rw [e1, slice_append_left _ (Nat.le_refl _)]
    have := slice_append_right R SIGfors 0 SIGfors.length
    rwa [Nat.add_zero, ← List.length_append, slice_all, h1] at this
  have s3 : slice (R ++ SIGfors ++ SIGht) ((1 + p.k * (1 + p.a)) * p.n)
      ((1 + p.k * (1 + p.a) + p.h + p.d * p.len) * p.n) = SIGht := by
    rw [e1, e2]
    have := slice_append_right (R ++ SIGfors) SIGht 0 SIGht.length
    rwa [Nat.add_zero, slice_all] at this
  rw [verifyInternal, if_neg (by rw [e3]; simp), s1, s2, s3]
  simp only [log_bind, forsPkFromSig_val]
  rfl

end Fips205.Spec.Run

namespace Fips205.Spec

/-- The message of layer `j` of a verification, from the signatures `S j` of the layers. -/
def graftMsg (p : Params) (hf : HashFns) (PKseed : Bytes) (S : Nat → Bytes) (M : Bytes) (t l : Nat) : Nat → Bytes
  | 0 => M
  | j + 1 => xmssPkFromSig p hf (htLeaf p t l j) (S j) (graftMsg p hf PKseed S M t l j) PKseed (htAdrs j (htTree p t j))

theorem graftMsg_congr {p : Params} {hf : HashFns} {PKseed : Bytes} {S S' : Nat → Bytes} {M : Bytes} {t l : Nat} :
    ∀ {j : Nat}, (∀ k < j, S k = S' k) → graftMsg p hf PKseed S M t l j = graftMsg p hf PKseed S' M t l j
  | 0, _ => rfl
  | j + 1, h => by
    rw [graftMsg, graftMsg, graftMsg_congr fun k hk => h k (by omega), h j (by omega)]

theorem rootMsg_eq_graftMsg (p : Params) (hf : HashFns) (PKseed SIG M : Bytes) (t l : Nat) : ∀ j,
    rootMsg p hf PKseed SIG M t l j =
      graftMsg p hf PKseed (fun j => slice SIG (j * p.xmssLen) ((j + 1) * p.xmssLen)) M t l j
  | 0 => rfl
  | j + 1 => by rw [rootMsg, graftMsg, rootMsg_eq_graftMsg]

end Fips205.Spec

namespace Fips205.Model
open Fips205

variable {bd : Build} {τ α : Type} {K LEN M N A D H HP : Nat} {p : Spec.Params} {P : Spec.Prims} {U : HashUnit τ}
  {hs : Hashers (Program bd) K LEN M N} {hr : Spec.Run.Fns}

/-- Code that returns in any case, and what it returns if the unit makes no error at its calls. -/
theorem Ends.right {t : Program bd α} {L : List Call} {Q R : α → Prop} (hm : Makes L Q (t.logged P))
    (he : Ends (t.withUnit U) R) :
    Ends (t.withUnit U) (fun v => R v ∧ ((∀ c ∈ L, RightAt U P c) → Q v)) := by
  intro h
  obtain ⟨v, h', e, hv⟩ := he h
  refine ⟨v, h', e, hv, fun hL => ?_⟩
  obtain ⟨w, ew, hw⟩ := hm
  obtain ⟨h2, e2⟩ := t.agree ew hL h
  rw [e] at e2
  obtain ⟨rfl, -⟩ := Prod.mk.inj (Except.ok.inj e2)
  exact hw

section
variable (hp : Matches p K LEN M N A D H HP) (R : HashersRun ((Program.toLog P).hashers hs) hr)
  (E : HashersEnd ((Program.toUnit U).hashers hs))
include hp R E

theorem xmss_sign_right {msg : List UInt8} (hmsg : msg.length = N) (sk_seed : List UInt8) {idx : UInt32}
    (hidx : idx.toNat < 2 ^ HP) (pk_seed : List UInt8) (adrs : Adrs) :
    Ends (xmss_sign HP ((Program.toUnit U).hashers hs) msg sk_seed idx pk_seed adrs) (fun v =>
      (∀ c ∈ (Spec.Run.xmssSign p hr msg sk_seed idx.toNat pk_seed adrs.bytes32).log, RightAt U P c) →
        v.bytes = Spec.xmssSign p hr.vals msg sk_seed idx.toNat pk_seed adrs.bytes32) := by
  have h1 := xmss_sign_does hp R hmsg sk_seed hidx pk_seed adrs
  have h2 := xmss_sign_ends hp E hmsg sk_seed hidx pk_seed adrs
  rw [← RustHom.map_xmss_sign] at h1 h2 ⊢
  exact (Ends.right h1 h2).mono fun _ h => h.2

theorem xmss_pk_from_sig_right {idx : UInt32} (sig : XmssSig HP LEN N) {msg : List UInt8} (hmsg : msg.length = N)
    (pk_seed : List UInt8) (adrs : Adrs) :
    Ends (xmss_pk_from_sig ((Program.toUnit U).hashers hs) idx sig msg pk_seed adrs) (fun v =>
      (∀ c ∈ (Spec.Run.xmssPkFromSig p hr idx.toNat sig.bytes msg pk_seed adrs.bytes32).log, RightAt U P c) →
        v.toList = Spec.xmssPkFromSig p hr.vals idx.toNat sig.bytes msg pk_seed adrs.bytes32) := by
  have h1 := xmss_pk_from_sig_does hp R (idx := idx) sig hmsg pk_seed adrs
  have h2 := xmss_pk_from_sig_ends hp E (idx := idx) sig hmsg pk_seed adrs
  rw [← RustHom.map_xmss_pk_from_sig] at h1 h2 ⊢
  exact (Ends.right h1 h2).mono fun _ h => h.2

theorem fors_pk_from_sig_right (sig : ForsSig A K N) {md : List UInt8} (hmd : md.length = (K * A + 7) / 8)
    (pk_seed : List UInt8) (adrs : Adrs) :
    Ends (fors_pk_from_sig ((Program.toUnit U).hashers hs) sig md pk_seed adrs) (fun v =>
      (∀ c ∈ (Spec.Run.forsPkFromSig p hr sig.bytes md pk_seed adrs.bytes32).log, RightAt U P c) →
        v.key.toList = Spec.forsPkFromSig p hr.vals sig.bytes md pk_seed adrs.bytes32) := by
  have h1 := fors_pk_from_sig_does hp R sig hmd pk_seed adrs
  have h2 := fors_pk_from_sig_ends hp E sig hmd pk_seed adrs
  rw [← RustHom.map_fors_pk_from_sig] at h1 h2 ⊢
  exact (Ends.right h1 h2).mono fun _ h => h.2

omit hp E in
theorem h_msg_right (E : HashersEnd ((Program.toUnit U).hashers hs)) (r pk_seed pk_root : List UInt8)
    {ms : List (List UInt8)} (hms : ms.length ≤ 5) :
    Ends (((Program.toUnit U).hashers hs).h_msg r pk_seed pk_root ms) (fun v =>
      (∀ c ∈ (hr.Hmsg r pk_seed pk_root ms.flatten).log, RightAt U P c) →
        v.toList = hr.vals.Hmsg r pk_seed pk_root ms.flatten) :=
  (Ends.right (t := hs.h_msg r pk_seed pk_root ms) (R.h_msg _ _ _ _ hms) (E.h_msg _ _ _ _ hms)).mono fun _ h => h.2

end

/-- The signatures of the layers. -/
def layerSig (sigs : Vector (XmssSig HP LEN N) D) (k : Nat) : List UInt8 :=
  if h : k < D then sigs[k].bytes else []

theorem layerSig_set {sigs : Vector (XmssSig HP LEN N) D} {j k : Nat} (hj : j < D) (sig : XmssSig HP LEN N) (hk : k ≠ j) :
    layerSig (sigs.set j sig) k = layerSig sigs k := by
  unfold layerSig
  split
  · rw [Vector.getElem_set_ne _ _ (Ne.symm hk)]
  · rfl

theorem layerSig_self {sigs : Vector (XmssSig HP LEN N) D} {j : Nat} (hj : j < D) (sig : XmssSig HP LEN N) :
    layerSig (sigs.set j sig) j = sig.bytes := by
  rw [layerSig, dif_pos hj, Vector.getElem_set_self]

/-- The unit makes no error at the calls that verification makes in the layers below `j`. -/
def LowerRight (U : HashUnit τ) (P : Spec.Prims) (p : Spec.Params) (hr : Spec.Run.Fns) (pk_seed : List UInt8)
    (S : Nat → List UInt8) (msg : List UInt8) (t l j : Nat) : Prop :=
  ∀ k < j, ∀ c ∈ (Spec.Run.xmssPkFromSig p hr (Spec.htLeaf p t l k) (S k)
    (Spec.graftMsg p hr.vals pk_seed S msg t l k) pk_seed (Spec.htAdrs k (Spec.htTree p t k))).log, RightAt U P c

theorem LowerRight.congr {pk_seed : List UInt8} {S S' : Nat → List UInt8} {msg : List UInt8} {t l j : Nat}
    (h : LowerRight U P p hr pk_seed S msg t l j) (hS : ∀ k < j, S k = S' k) :
    LowerRight U P p hr pk_seed S' msg t l j := by
  intro k hk c hc
  refine h k hk c ?_
  rwa [hS k hk, Spec.graftMsg_congr (S' := S') fun i hi => hS i (by omega)]

theorem ht_sign_right (W : p.WF) (hp : Matches p K LEN M N A D H HP) (R : HashersRun ((Program.toLog P).hashers hs) hr)
    (E : HashersEnd ((Program.toUnit U).hashers hs)) {m : Nat} (V : Spec.Valid hr.vals p.n m)
    {msg : List UInt8} (hmsg : msg.length = N) (sk_seed pk_seed : List UInt8) {idx_tree : UInt64}
    (htree : idx_tree.toNat < 2 ^ (p.h - p.hp))
    {idx_leaf : UInt32} (hleaf : idx_leaf.toNat < 2 ^ HP) (pk_root : List UInt8) :
    Ends (ht_sign D HP ((Program.toUnit U).hashers hs) msg sk_seed pk_seed idx_tree idx_leaf) (fun r => ∃ v, r = .ok v ∧
      ((∀ c ∈ (Spec.Run.htVerify p hr msg v.bytes pk_seed idx_tree.toNat idx_leaf.toNat pk_root).log, RightAt U P c) →
        (∀ c ∈ (Spec.Run.pkRoot p hr sk_seed pk_seed).log, RightAt U P c) →
        Spec.htVerify p hr.vals msg v.bytes pk_seed idx_tree.toNat idx_leaf.toNat
          (Spec.pkRoot p hr.vals sk_seed pk_seed) = true)) := by
  unfold ht_sign
  have hHP := hp.HP_le
  have hHP1 := hp.HP_ge
  have hD := hp.D_le
  have hD2 := hp.D_ge
  refine Ends.u32TryFromUnwrap (by omega) fun d32 hd => ?_
  refine Ends.u32TryFromUnwrap (by omega) fun hp32 hh => ?_
  have hadrs0 : (Adrs.default.set_tree_address idx_tree).bytes32 =
      Spec.htAdrs 0 (Spec.htTree p idx_tree.toNat 0) := by
    rw [Adrs.to_32_set_tree_address Adrs.f1Zero_default, Adrs.to_32_default, Spec.htTree_zero,
      Spec.htAdrs_zero]
  have hf1 : (Adrs.default.set_tree_address idx_tree).f1Zero := Adrs.f1Zero_default
  dsimp only
  generalize Adrs.default.set_tree_address idx_tree = adrs0 at *
  refine (xmss_sign_ends hp E hmsg _ hleaf _ _).bind fun sig0 _ => ?_
  refine Ends.vset (by omega) ?_
  refine (xmss_pk_from_sig_right hp R E (idx := idx_leaf) sig0 hmsg pk_seed adrs0).bind fun root0 hroot0 => ?_
  rw [hadrs0] at hroot0
  have htl : ∀ j, Spec.htLeaf p idx_tree.toNat idx_leaf.toNat j < 2 ^ HP := by
    have := Spec.htLeaf_lt p (t := idx_tree.toNat) (l := idx_leaf.toNat) (by rwa [hp.hp])
    rwa [hp.hp] at this
  have htop : Spec.htTree p idx_tree.toNat (D - 1) = 0 := by rw [← hp.d]; exact Spec.htTree_top W htree
  refine Ends.bind (Ends.forU32E (fun j (st : HtSignState D HP LEN N) =>
    1 ≤ j ∧ st.idx_tree.toNat = Spec.htTree p idx_tree.toNat (j - 1) ∧
    st.adrs.bytes32 = Spec.htAdrs (j - 1) (Spec.htTree p idx_tree.toNat (j - 1)) ∧
    st.adrs.f1Zero ∧
    (j < D → LowerRight U P p hr pk_seed (layerSig st.sig_ht) msg idx_tree.toNat idx_leaf.toNat j →
      st.root.toList = Spec.graftMsg p hr.vals pk_seed (layerSig st.sig_ht) msg idx_tree.toNat idx_leaf.toNat j) ∧
    (j = D → LowerRight U P p hr pk_seed (layerSig st.sig_ht) msg idx_tree.toNat idx_leaf.toNat (D - 1) →
      (∀ c ∈ (Spec.Run.pkRoot p hr sk_seed pk_seed).log, RightAt U P c) →
      layerSig st.sig_ht (D - 1) = Spec.xmssSign p hr.vals
        (Spec.graftMsg p hr.vals pk_seed (layerSig st.sig_ht) msg idx_tree.toNat idx_leaf.toNat (D - 1)) sk_seed
        (Spec.htLeaf p idx_tree.toNat idx_leaf.toNat (D - 1)) pk_seed (Spec.htAdrs (D - 1) 0)))
    ?_ ?_ ?_) ?_
  · rw [hd]; simp; omega
  · refine ⟨by simp, by simp [Spec.htTree_zero], hadrs0, hf1, fun _ hl => ?_, fun h => ?_⟩
    · have := hl 0 (by simp)
      dsimp only at this ⊢
      rw [layerSig_self (by omega)] at this
      rw [hroot0 this]
      change _ = Spec.graftMsg _ _ _ _ _ _ _ (0 + 1)
      rw [Spec.graftMsg, layerSig_self (by omega)]
      rfl
    · have h : 1 = D := h
      omega
  · rintro j ⟨itree, a, sigs, root⟩ hj1 hj2 ⟨-, h1, h2, h3, h5, -⟩
    rw [hd] at hj2
    have hj1 : 1 ≤ j.toNat := hj1
    obtain ⟨jj, hjj⟩ : ∃ jj, j.toNat = jj + 1 := ⟨j.toNat - 1, by omega⟩
    simp only [hjj, Nat.add_sub_cancel] at h1 h2 h5 ⊢
    simp only at h3
    have h5 := h5 (by omega)
    obtain ⟨m1, m2⟩ := mask64 (hp32 := hp32) (by omega) (by omega)
    have m2 := m2 itree
    rw [hh] at m2
    refine Ends.shlU64 (by omega) ?_
    refine Ends.subU64 (by rwa [UInt64.le_iff_toNat_le] at m1) ?_
    have hlt : (itree &&& ((1 <<< hp32.toUInt64) - 1)).toNat < 2 ^ HP := by
      rw [m2]; exact Nat.mod_lt _ (Nat.two_pow_pos _)
    have h2HP : 2 ^ HP ≤ 2 ^ 31 := Nat.pow_le_pow_right (by decide) (by omega)
    rw [u32TryFromU64, if_pos (by omega)]
    refine Ends.leak ?_
    dsimp only
    have hle : (itree &&& ((1 <<< hp32.toUInt64) - 1)).toUInt32.toNat =
        Spec.htLeaf p idx_tree.toNat idx_leaf.toNat (jj + 1) := by
      rw [UInt64.toNat_toUInt32, Nat.mod_eq_of_lt (by omega), m2, Spec.htLeaf, h1, hp.hp]
    generalize (itree &&& ((1 <<< hp32.toUInt64) - 1)).toUInt32 = leaf at *
    refine Ends.shrU64 (by omega) ?_
    have htr : (itree >>> hp32.toUInt64).toNat = Spec.htTree p idx_tree.toNat (jj + 1) := by
      rw [UInt64.toNat_shiftRight, UInt32.toNat_toUInt64, Nat.mod_eq_of_lt (by omega : _ < 64),
        Nat.shiftRight_eq_div_pow, h1, Spec.htTree_succ, hp.hp, hh]
    generalize itree >>> hp32.toUInt64 = itree' at *
    have ha : ((a.set_layer_address j).set_tree_address itree').bytes32 =
        Spec.htAdrs (jj + 1) (Spec.htTree p idx_tree.toNat (jj + 1)) := by
      rw [Adrs.to_32_set_tree_address (a := a.set_layer_address j) h3, Adrs.to_32_set_layer_address, h2, hjj, htr,
        Spec.htAdrs_step]
    have ha1 : ((a.set_layer_address j).set_tree_address itree').f1Zero := h3
    generalize (a.set_layer_address j).set_tree_address itree' = a' at *
    have e := xmss_sign_right hp R E (msg := root.toList) (by simp) sk_seed (idx := leaf)
      (by rw [hle]; exact htl _) pk_seed a'
    rw [ha, hle] at e
    refine e.bind fun sig hsig => ?_
    refine Ends.asUsize (by omega) ?_
    refine Ends.vset hj2 ?_
    refine Ends.subU32 (by rw [hd]; simp; omega) ?_
    refine Ends.leak ?_
    have hd1 : (d32 - 1).toNat = D - 1 := by
      rw [UInt32.toNat_sub_of_le _ _ (by rw [UInt32.le_iff_toNat_le, hd]; simp; omega), hd]; rfl
    have hS : ∀ k < jj + 1, layerSig (sigs.set j.toNat sig) k = layerSig sigs k :=
      fun k hk => layerSig_set hj2 sig (by omega)
    have hS2 : layerSig (sigs.set j.toNat sig) (jj + 1) = sig.bytes := by
      rw [← hjj]; exact layerSig_self hj2 sig
    have hg := Spec.graftMsg_congr (p := p) (hf := hr.vals) (PKseed := pk_seed) (M := msg) (t := idx_tree.toNat)
      (l := idx_leaf.toNat) hS
    have hroot : LowerRight U P p hr pk_seed (layerSig (sigs.set j.toNat sig)) msg idx_tree.toNat idx_leaf.toNat (jj + 1) →
        root.toList = Spec.graftMsg p hr.vals pk_seed (layerSig (sigs.set j.toNat sig)) msg idx_tree.toNat
          idx_leaf.toNat (jj + 1) := fun hl => by
      rw [hg]
      exact h5 (hl.congr hS)
    have hll : j < d32 - 1 ↔ jj + 1 + 1 < D := by
      rw [UInt32.lt_iff_toNat_lt, hd1, hjj]
      omega
    by_cases hlast : j < d32 - 1
    · rw [if_pos hlast]
      have e2 := xmss_pk_from_sig_right hp R E (idx := leaf) sig (msg := root.toList) (by simp) pk_seed a'
      rw [ha, hle] at e2
      refine e2.bind fun root' hroot' =>
        Ends.pure ⟨_, rfl, by omega, htr, ha, ha1, fun _ hl => ?_, fun h => ?_⟩
      · have hr1 := hroot fun k hk => hl k (by omega)
        have := hl (jj + 1) (by omega)
        dsimp only at this ⊢
        rw [hS2, ← hr1] at this
        rw [hroot' this, Spec.graftMsg, hS2, ← hr1]
      · have := hll.mp hlast
        omega
    · rw [if_neg hlast]
      refine Ends.pure ⟨_, rfl, by omega, htr, ha, ha1, fun h => absurd (hll.mpr h) hlast, fun hD' hl ht => ?_⟩
      have hDj : D - 1 = jj + 1 := by omega
      rw [hDj] at hl htop ⊢
      rw [htop] at hsig
      have hr1 := hroot hl
      dsimp only
      rw [hS2, ← hr1]
      refine hsig fun c hc => ht c ?_
      have := Spec.Run.xmssSign_log_sub (p := p) (h := hr) _ _ _ _ (by rw [hp.hp]; exact htl _) hc
      rw [Spec.Run.pkRoot, hp.d, hDj]
      exact this
  · rintro _ ⟨st, rfl, -, -, -, -, -, h⟩
    refine Ends.pure ⟨_, rfl, fun hv ht => ?_⟩
    have hxl : p.xmssLen = (HP + LEN) * N := by rw [Spec.Params.xmssLen, hp.hp, hp.len_eq, hp.n]
    have hslice : ∀ k < D, Spec.slice (HtSig.bytes ⟨st.sig_ht⟩) (k * p.xmssLen) ((k + 1) * p.xmssLen) =
        layerSig st.sig_ht k := by
      intro k hk
      rw [hxl, HtSig.slice_bytes _ hk, layerSig, dif_pos hk]
    have hroot : ∀ k ≤ D, Spec.rootMsg p hr.vals pk_seed (HtSig.bytes ⟨st.sig_ht⟩) msg idx_tree.toNat idx_leaf.toNat k =
        Spec.graftMsg p hr.vals pk_seed (layerSig st.sig_ht) msg idx_tree.toNat idx_leaf.toNat k := by
      intro k hk
      rw [Spec.rootMsg_eq_graftMsg]
      exact Spec.graftMsg_congr fun i hi => hslice i (by omega)
    have hlow : LowerRight U P p hr pk_seed (layerSig st.sig_ht) msg idx_tree.toNat idx_leaf.toNat (D - 1) := by
      intro k hk c hc
      refine hv c ?_
      rw [Spec.Run.htVerify_log, List.mem_flatMap]
      refine ⟨k, by rw [List.mem_range', hp.d]; exact ⟨k, by omega, by omega⟩, ?_⟩
      rwa [Spec.Run.rootLayer, hslice k (by omega), hroot k (by omega)]
    have h := h (by rw [hd]) hlow ht
    rw [Spec.htVerify_eq, hp.d, hroot D (Nat.le_refl _)]
    obtain ⟨D', rfl⟩ : ∃ D', D = D' + 1 := ⟨D - 1, by omega⟩
    simp only [Nat.add_sub_cancel] at h htop
    rw [Spec.graftMsg, htop, h, Spec.xmss_correct W V _ _ (by rw [hp.hp]; exact htl _) _ (Spec.htAdrs_length _ _),
      Spec.htAdrs_zero_tree, Spec.pkRoot, hp.d, Nat.add_sub_cancel]
    exact beq_self_eq_true _

theorem slh_sign_internal_right (W : p.WF) (hp : Matches p K LEN M N A D H HP)
    (R : HashersRun ((Program.toLog P).hashers hs) hr) (E : HashersEnd ((Program.toUnit U).hashers hs)) {m : Nat}
    (V : Spec.Valid hr.vals p.n m) {msg : List (List UInt8)} (hmsg : msg.length ≤ 5) (sk : SlhPrivateKey N)
    (hroot : sk.pk_root.toList = Spec.pkRoot p hr.vals sk.sk_seed.toList sk.pk_seed.toList)
    (opt_rand : Vector UInt8 N) :
    Ends (slh_sign_internal A D H HP ((Program.toUnit U).hashers hs) msg sk opt_rand) (fun r => ∃ sig, r = .ok sig ∧
      ((∀ c ∈ (Spec.Run.verifyInternal p hr msg.flatten sig.bytes sk.pk_seed.toList sk.pk_root.toList).log,
          RightAt U P c) →
        (∀ c ∈ (Spec.Run.pkRoot p hr sk.sk_seed.toList sk.pk_seed.toList).log, RightAt U P c) →
        Spec.verifyInternal p hr.vals msg.flatten sig.bytes sk.pk_seed.toList sk.pk_root.toList = true)) := by
  unfold slh_sign_internal
  have hDl := hp.D_le
  have hHeq := hp.H_eq
  have hDHP : D * HP ≤ 255 * 31 := Nat.mul_le_mul hp.D_le hp.HP_le
  refine Ends.u32TryFromUnwrap (by omega) fun d32 hd => ?_
  refine Ends.u32TryFromUnwrap (by omega) fun h32 hh => ?_
  refine (E.prf_msg _ _ _ hmsg).bind fun r _ => ?_
  refine (h_msg_right R E _ _ _ hmsg).bind fun digest hdig => ?_
  refine (Ends.of (slh_split_returns hp hd hh digest)).bind ?_
  rintro ⟨md, itree, ileaf⟩ ⟨h1, h2, h3, h4, h5⟩
  simp only at h1 h2 h3 h4 h5
  dsimp only
  have h2HP : 2 ^ HP ≤ 2 ^ 31 := Nat.pow_le_pow_right (by decide) hp.HP_le
  have hl : ileaf.toUInt32.toNat = ileaf.toNat := by
    rw [UInt64.toNat_toUInt32, Nat.mod_eq_of_lt (by omega)]
  have hadr := to_32_fors_adrs itree ileaf.toUInt32
  generalize ((Adrs.default.set_tree_address itree).set_type_and_clear FORS_TREE).set_key_pair_address
      ileaf.toUInt32 = adrs at *
  refine (fors_sign_ends hp E h2 _ _ _).bind ?_
  rintro _ ⟨fs, rfl⟩
  refine Ends.leak ?_
  dsimp only
  refine (fors_pk_from_sig_right hp R E fs h2 _ _).bind fun pkf hpkf => ?_
  have htree : itree.toNat < 2 ^ (p.h - p.hp) := by
    have := Spec.digestTree_lt (p := p) digest.toList
    rwa [W.hd, ← h3] at this
  refine (ht_sign_right W hp R E V (by simp) _ _ htree (by rw [hl]; exact h5) sk.pk_root.toList).bind ?_
  rintro _ ⟨hts, rfl, hht⟩
  refine Ends.leak (Ends.pure ⟨_, rfl, fun hv ht => ?_⟩)
  have l1 : r.toList.length = p.n := by rw [Vector.length_toList, hp.n]
  have l2 : fs.bytes.length = p.k * ((p.a + 1) * p.n) := by rw [ForsSig.bytes_length, hp.k, hp.a, hp.n]
  have l3 : hts.bytes.length = p.d * p.xmssLen := by
    rw [HtSig.bytes_length, hp.d, Spec.Params.xmssLen, hp.hp, hp.len_eq, hp.n]
  rw [SlhDsaSig.bytes, Spec.Run.verifyInternal_log l1 l2 l3 W] at hv
  dsimp only at hv
  have hdig := hdig fun c hc => hv c (List.mem_append_left _ hc)
  rw [← hdig, ← h1, ← h3, ← h4, ← hl, ← hadr] at hv
  have hpkf := hpkf fun c hc => hv c (List.mem_append_right _ (List.mem_append_left _ hc))
  rw [← hpkf] at hv
  have hht := hht (fun c hc => hv c (List.mem_append_right _ (List.mem_append_right _ hc))) ht
  rw [SlhDsaSig.bytes, Spec.verifyInternal_append l1 l2 l3 W]
  dsimp only
  rw [← hdig, ← h1, ← h3, ← h4, ← hl, ← hadr, ← hpkf, hroot]
  exact hht

end Fips205.Model
