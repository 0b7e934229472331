import Verif.Proofs.RunXmss

/-! # The calls made by `src/hypertree.rs` -/

namespace Fips205.Spec.Run

variable (p : Params) (h : Fns)

/-- The calls made in layer `j` of `d` by signing. -/
def signLayer (SKseed PKseed M : Bytes) (t l d j : Nat) : List Call :=
  let Mj := signMsg p h.vals SKseed PKseed M t l j
  (xmssSign p h Mj SKseed (htLeaf p t l j) PKseed (htAdrs j (htTree p t j))).log ++
  if j + 1 < d then
    (xmssPkFromSig p h (htLeaf p t l j) (signSig p h.vals SKseed PKseed M t l j) Mj PKseed
      (htAdrs j (htTree p t j))).log
  else []

theorem signLayer_zero (SKseed PKseed M : Bytes) (t l : Nat) {d : Nat} (hd : 2 ≤ d) :
    signLayer p h SKseed PKseed M t l d 0 =
      (xmssSign p h M SKseed l PKseed (htAdrs 0 (htTree p t 0))).log ++
      (xmssPkFromSig p h l (Spec.xmssSign p h.vals M SKseed l PKseed (htAdrs 0 (htTree p t 0))) M PKseed
        (htAdrs 0 (htTree p t 0))).log := by
  unfold signLayer
  dsimp only
  rw [if_pos (by omega)]
  rfl

theorem htSignFrom_log (SKseed PKseed M : Bytes) (t l : Nat) : ∀ left j,
    (htSignFrom p h SKseed PKseed left j (signMsg p h.vals SKseed PKseed M t l j) (htTree p t j)
      (htLeaf p t l j)).log =
        (List.range' j left).flatMap (signLayer p h SKseed PKseed M t l (j + left)) := by
  intro left
  induction left with
  | zero => intro j; rfl
  | succ left ih =>
    intro j
    have := ih (j + 1)
    rw [htTree_succ, htLeaf] at this
    rw [htSignFrom, List.range'_succ, List.flatMap_cons, log_bind, signLayer, List.append_assoc]
    congr 1
    by_cases h0 : left = 0
    · subst h0
      rw [if_pos rfl, if_neg (by omega)]
      rfl
    · rw [if_neg h0, if_pos (by omega), log_bind, log_bind, log_pure, List.append_nil, xmssSign_val,
        xmssPkFromSig_val]
      refine congrArg₂ _ rfl ?_
      rw [show j + (left + 1) = j + 1 + left by omega, ← this]
      rfl

theorem htSign_log (SKseed PKseed M : Bytes) (t l : Nat) :
    (htSign p h M SKseed PKseed t l).log =
      (List.range' 0 p.d).flatMap (signLayer p h SKseed PKseed M t l p.d) := by
  have := htSignFrom_log p h SKseed PKseed M t l p.d 0
  rw [htTree_zero, Nat.zero_add] at this
  exact this

/-- The calls made in layer `j` by verification. -/
def rootLayer (PKseed SIG M : Bytes) (t l j : Nat) : List Call :=
  (xmssPkFromSig p h (htLeaf p t l j) (slice SIG (j * p.xmssLen) ((j + 1) * p.xmssLen))
    (rootMsg p h.vals PKseed SIG M t l j) PKseed (htAdrs j (htTree p t j))).log

theorem rootLayer_zero (PKseed SIG M : Bytes) (t l : Nat) :
    rootLayer p h PKseed SIG M t l 0 =
      (xmssPkFromSig p h l (slice SIG (0 * p.xmssLen) ((0 + 1) * p.xmssLen)) M PKseed
        (htAdrs 0 (htTree p t 0))).log := rfl

theorem htRootFrom_log (PKseed SIG M : Bytes) (t l : Nat) : ∀ left j,
    (htRootFrom p h PKseed left j (rootMsg p h.vals PKseed SIG M t l j) SIG (htTree p t j)
      (htLeaf p t l j)).log = (List.range' j left).flatMap (rootLayer p h PKseed SIG M t l) := by
  intro left
  induction left with
  | zero => intro j; rfl
  | succ left ih =>
    intro j
    have := ih (j + 1)
    rw [htTree_succ, htLeaf] at this
    rw [htRootFrom, List.range'_succ, List.flatMap_cons, log_bind, ← this, xmssPkFromSig_val]
    rfl

theorem htVerify_log (M SIG PKseed PKroot : Bytes) (t l : Nat) :
    (htVerify p h M SIG PKseed t l PKroot).log =
      (List.range' 0 p.d).flatMap (rootLayer p h PKseed SIG M t l) := by
  have := htRootFrom_log p h PKseed SIG M t l p.d 0
  rw [htTree_zero] at this
  rw [htVerify, log_bind, log_pure, List.append_nil]
  exact this

end Fips205.Spec.Run

namespace Fips205.Model
open Fips205

set_option linter.unusedSectionVars false

variable {b : Build} {K LEN M N A D H HP : Nat} {p : Spec.Params} {hs : Hashers (LogExec b) K LEN M N}
  {hr : Spec.Run.Fns}

theorem range'_first {d : Nat} (hd : 1 ≤ d) : List.range' 0 d = 0 :: List.range' 1 (d - 1) := by
  obtain ⟨k, rfl⟩ : ∃ k, d = k + 1 := ⟨d - 1, by omega⟩
  rfl

theorem ht_sign_does (hp : Matches p K LEN M N A D H HP) (R : HashersRun hs hr)
    {msg : List UInt8} (hmsg : msg.length = N) (sk_seed pk_seed : List UInt8) (idx_tree : UInt64)
    {idx_leaf : UInt32} (hleaf : idx_leaf.toNat < 2 ^ HP) :
    Makes (Spec.Run.htSign p hr msg sk_seed pk_seed idx_tree.toNat idx_leaf.toNat).log
      (fun r => ∃ v, r = .ok v ∧
        v.bytes = Spec.htSign p hr.vals msg sk_seed pk_seed idx_tree.toNat idx_leaf.toNat)
      (ht_sign D HP hs msg sk_seed pk_seed idx_tree idx_leaf) := by
  unfold ht_sign
  have hHP := hp.HP_le
  have hHP1 := hp.HP_ge
  have hD := hp.D_le
  have hD2 := hp.D_ge
  refine Makes.u32TryFromUnwrap (by omega) fun d32 hd => ?_
  refine Makes.u32TryFromUnwrap (by omega) fun hp32 hh => ?_
  have hadrs0 : (Adrs.default.set_tree_address idx_tree).bytes32 =
      Spec.htAdrs 0 (Spec.htTree p idx_tree.toNat 0) := by
    rw [Adrs.to_32_set_tree_address Adrs.f1Zero_default, Adrs.to_32_default, Spec.htTree_zero,
      Spec.htAdrs_zero]
  have hf1 : (Adrs.default.set_tree_address idx_tree).f1Zero := Adrs.f1Zero_default
  dsimp only
  generalize Adrs.default.set_tree_address idx_tree = adrs0 at *
  rw [Spec.Run.htSign_log, hp.d, range'_first (by omega), List.flatMap_cons,
    Spec.Run.signLayer_zero _ _ _ _ _ _ _ hD2, List.append_assoc]
  have e0 := xmss_sign_does hp R hmsg sk_seed hleaf pk_seed adrs0
  rw [hadrs0] at e0
  refine e0.bind fun sig0 hsig0 => ?_
  refine Makes.vset (by omega) ?_
  have e1 := xmss_pk_from_sig_does hp R (idx := idx_leaf) sig0 hmsg pk_seed adrs0
  rw [hadrs0, hsig0] at e1
  refine e1.bind fun root0 hroot0 => ?_
  have htl : ∀ j, Spec.htLeaf p idx_tree.toNat idx_leaf.toNat j < 2 ^ HP := by
    have := Spec.htLeaf_lt p (t := idx_tree.toNat) (l := idx_leaf.toNat) (by rwa [hp.hp])
    rwa [hp.hp] at this
  refine Makes.last ((Makes.forU32E
    (Spec.Run.signLayer p hr sk_seed pk_seed msg idx_tree.toNat idx_leaf.toNat D)
    (fun j (st : HtSignState D HP LEN N) =>
    1 ≤ j ∧ st.idx_tree.toNat = Spec.htTree p idx_tree.toNat (j - 1) ∧
    st.adrs.bytes32 = Spec.htAdrs (j - 1) (Spec.htTree p idx_tree.toNat (j - 1)) ∧
    st.adrs.f1Zero ∧
    (∀ k (hk : k < D), k < j → st.sig_ht[k].bytes =
      Spec.signSig p hr.vals sk_seed pk_seed msg idx_tree.toNat idx_leaf.toNat k) ∧
    (j < D → st.root.toList =
      Spec.signMsg p hr.vals sk_seed pk_seed msg idx_tree.toNat idx_leaf.toNat j))
    ?_ ?_ ?_).congr ?_) ?_
  · rw [hd]; simp; omega
  · refine ⟨by simp, by simp [Spec.htTree_zero], hadrs0, hf1, ?_, fun _ => hroot0⟩
    exact vset_step (g := XmssSig.bytes) (i := 0) (by omega) (fun k hk h => by omega) hsig0
  · rintro j ⟨itree, a, sigs, root⟩ hj1 hj2 ⟨-, h1, h2, h3, h4, h5⟩
    rw [hd] at hj2
    have hj1 : 1 ≤ j.toNat := hj1
    obtain ⟨jj, hjj⟩ : ∃ jj, j.toNat = jj + 1 := ⟨j.toNat - 1, by omega⟩
    simp only [hjj, Nat.add_sub_cancel] at h1 h2 h4 h5 ⊢
    simp only at h3
    have h5 := h5 (by omega)
    obtain ⟨m1, m2⟩ := mask64 (hp32 := hp32) (by omega) (by omega)
    have m2 := m2 itree
    rw [hh] at m2
    refine Makes.shlU64 (by omega) ?_
    refine Makes.subU64 (by rwa [UInt64.le_iff_toNat_le] at m1) ?_
    have hlt : (itree &&& ((1 <<< hp32.toUInt64) - 1)).toNat < 2 ^ HP := by
      rw [m2]; exact Nat.mod_lt _ (Nat.two_pow_pos _)
    have h2HP : 2 ^ HP ≤ 2 ^ 31 := Nat.pow_le_pow_right (by decide) (by omega)
    rw [u32TryFromU64, if_pos (by omega)]
    refine Makes.leak ?_
    dsimp only
    have hle : (itree &&& ((1 <<< hp32.toUInt64) - 1)).toUInt32.toNat =
        Spec.htLeaf p idx_tree.toNat idx_leaf.toNat (jj + 1) := by
      rw [UInt64.toNat_toUInt32, Nat.mod_eq_of_lt (by omega), m2, Spec.htLeaf, h1, hp.hp]
    generalize (itree &&& ((1 <<< hp32.toUInt64) - 1)).toUInt32 = leaf at *
    refine Makes.shrU64 (by omega) ?_
    have htr : (itree >>> hp32.toUInt64).toNat = Spec.htTree p idx_tree.toNat (jj + 1) := by
      rw [UInt64.toNat_shiftRight, UInt32.toNat_toUInt64, Nat.mod_eq_of_lt (by omega : _ < 64),
        Nat.shiftRight_eq_div_pow, h1, Spec.htTree_succ, hp.hp, hh]
    generalize itree >>> hp32.toUInt64 = itree' at *
    have ha : ((a.set_layer_address j).set_tree_address itree').bytes32 =
        Spec.htAdrs (jj + 1) (Spec.htTree p idx_tree.toNat (jj + 1)) := by
      rw [Adrs.to_32_set_tree_address (a := a.set_layer_address j) h3, Adrs.to_32_set_layer_address, h2, hjj, htr,
        Spec.htAdrs_step]
    have ha1 : ((a.set_layer_address j).set_tree_address itree').f1Zero := h3
    generalize (a.set_layer_address j).set_tree_address itree' = a' at *
    have e := xmss_sign_does hp R (msg := root.toList) (by simp) sk_seed (idx := leaf)
      (by rw [hle]; exact htl _) pk_seed a'
    rw [ha, hle, h5] at e
    rw [h5]
    unfold Spec.Run.signLayer
    dsimp only
    refine e.bind fun sig hsig => ?_
    refine Makes.asUsize (by omega) ?_
    refine Makes.vset hj2 ?_
    refine Makes.subU32 (by rw [hd]; simp; omega) ?_
    refine Makes.leak ?_
    have hd1 : (d32 - 1).toNat = D - 1 := by
      rw [UInt32.toNat_sub_of_le _ _ (by rw [UInt32.le_iff_toNat_le, hd]; simp; omega), hd]; rfl
    have hstep : ∀ k (hk : k < D), k < jj + 1 + 1 → (sigs.set j.toNat sig)[k].bytes =
        Spec.signSig p hr.vals sk_seed pk_seed msg idx_tree.toNat idx_leaf.toNat k :=
      fun k hk hkj =>
        vset_step (g := XmssSig.bytes) hj2 (by rw [hjj]; exact h4) (by rw [hjj]; exact hsig) k hk
          (by omega)
    have hll : j < d32 - 1 ↔ jj + 1 + 1 < D := by
      rw [UInt32.lt_iff_toNat_lt, hd1, hjj]
      omega
    by_cases hlast : j < d32 - 1
    · rw [if_pos hlast, if_pos (hll.mp hlast)]
      have e2 := xmss_pk_from_sig_does hp R (idx := leaf) sig (msg := root.toList) (by simp) pk_seed a'
      rw [ha, hle, h5, hsig] at e2
      refine e2.last fun root' hroot' =>
        Returns.pure ⟨_, rfl, by omega, htr, ha, ha1, hstep, fun _ => ?_⟩
      rw [hroot']
      rfl
    · rw [if_neg hlast, if_neg (fun h => hlast (hll.mpr h))]
      refine Makes.pure ⟨_, rfl, by omega, htr, ha, ha1, hstep, fun h => absurd h ?_⟩
      rw [hll] at hlast
      omega
  · rw [hd]
    rfl
  · rintro _ ⟨st, rfl, -, -, -, -, h, -⟩
    refine Returns.pure ⟨_, rfl, ?_⟩
    rw [HtSig.bytes, Spec.htSign_eq, hp.d]
    exact flatMap_eq_concat fun k hk => h k hk (by omega)

theorem ht_verify_does (hp : Matches p K LEN M N A D H HP) (R : HashersRun hs hr)
    {msg : List UInt8} (hmsg : msg.length = N) (sig : HtSig D HP LEN N) (pk_seed : List UInt8)
    (idx_tree : UInt64) (idx_leaf : UInt32) (pk_root : Vector UInt8 N) :
    Makes (Spec.Run.htVerify p hr msg sig.bytes pk_seed idx_tree.toNat idx_leaf.toNat pk_root.toList).log
      (· = Spec.htVerify p hr.vals msg sig.bytes pk_seed idx_tree.toNat idx_leaf.toNat
        pk_root.toList)
      (ht_verify hs msg sig pk_seed idx_tree idx_leaf pk_root) := by
  unfold ht_verify
  have hHP := hp.HP_le
  have hHP1 := hp.HP_ge
  have hD := hp.D_le
  have hD2 := hp.D_ge
  refine Makes.u32TryFromUnwrap (by omega) fun d32 hd => ?_
  refine Makes.u32TryFromUnwrap (by omega) fun hp32 hh => ?_
  have hadrs0 : (Adrs.default.set_tree_address idx_tree).bytes32 =
      Spec.htAdrs 0 (Spec.htTree p idx_tree.toNat 0) := by
    rw [Adrs.to_32_set_tree_address Adrs.f1Zero_default, Adrs.to_32_default, Spec.htTree_zero,
      Spec.htAdrs_zero]
  have hf1 : (Adrs.default.set_tree_address idx_tree).f1Zero := Adrs.f1Zero_default
  dsimp only
  generalize Adrs.default.set_tree_address idx_tree = adrs0 at *
  have hxl : p.xmssLen = (HP + LEN) * N := by rw [Spec.Params.xmssLen, hp.hp, hp.len_eq, hp.n]
  have hslice : ∀ j (hj : j < D), sig.xmss_sigs[j].bytes =
      Spec.slice sig.bytes (j * p.xmssLen) ((j + 1) * p.xmssLen) := by
    intro j hj; rw [hxl, sig.slice_bytes hj]
  rw [Spec.Run.htVerify_log, hp.d, range'_first (by omega), List.flatMap_cons,
    Spec.Run.rootLayer_zero]
  refine Makes.vget (by omega) ?_
  have e0 := xmss_pk_from_sig_does hp R (idx := idx_leaf) sig.xmss_sigs[0] hmsg pk_seed adrs0
  rw [hadrs0, hslice] at e0
  refine e0.bind fun root0 hroot0 => ?_
  refine Makes.last ((Makes.forU32E
    (Spec.Run.rootLayer p hr pk_seed sig.bytes msg idx_tree.toNat idx_leaf.toNat)
    (fun j (st : HtVerifyState N) =>
    1 ≤ j ∧ st.idx_tree.toNat = Spec.htTree p idx_tree.toNat (j - 1) ∧
    st.adrs.bytes32 = Spec.htAdrs (j - 1) (Spec.htTree p idx_tree.toNat (j - 1)) ∧
    st.adrs.f1Zero ∧
    st.node.toList = Spec.rootMsg p hr.vals pk_seed sig.bytes msg idx_tree.toNat idx_leaf.toNat j)
    ?_ ?_ ?_).congr ?_) ?_
  · rw [hd]; simp; omega
  · exact ⟨by simp, by simp [Spec.htTree_zero], hadrs0, hf1, hroot0⟩
  · rintro j ⟨itree, a, root⟩ hj1 hj2 ⟨-, h1, h2, h3, h5⟩
    rw [hd] at hj2
    have hj1 : 1 ≤ j.toNat := hj1
    obtain ⟨jj, hjj⟩ : ∃ jj, j.toNat = jj + 1 := ⟨j.toNat - 1, by omega⟩
    simp only [hjj, Nat.add_sub_cancel] at h1 h2 h5 ⊢
    simp only at h3
    obtain ⟨m1, m2⟩ := mask64 (hp32 := hp32) (by omega) (by omega)
    have m2 := m2 itree
    rw [hh] at m2
    refine Makes.shlU64 (by omega) ?_
    refine Makes.subU64 (by rwa [UInt64.le_iff_toNat_le] at m1) ?_
    have hlt : (itree &&& ((1 <<< hp32.toUInt64) - 1)).toNat < 2 ^ HP := by
      rw [m2]; exact Nat.mod_lt _ (Nat.two_pow_pos _)
    have h2HP : 2 ^ HP ≤ 2 ^ 31 := Nat.pow_le_pow_right (by decide) (by omega)
    rw [u32TryFromU64, if_pos (by omega)]
    refine Makes.leak ?_
    dsimp only
    have hle : (itree &&& ((1 <<< hp32.toUInt64) - 1)).toUInt32.toNat =
        Spec.htLeaf p idx_tree.toNat idx_leaf.toNat (jj + 1) := by
      rw [UInt64.toNat_toUInt32, Nat.mod_eq_of_lt (by omega), m2, Spec.htLeaf, h1, hp.hp]
    generalize (itree &&& ((1 <<< hp32.toUInt64) - 1)).toUInt32 = leaf at *
    refine Makes.shrU64 (by omega) ?_
    have htr : (itree >>> hp32.toUInt64).toNat = Spec.htTree p idx_tree.toNat (jj + 1) := by
      rw [UInt64.toNat_shiftRight, UInt32.toNat_toUInt64, Nat.mod_eq_of_lt (by omega : _ < 64),
        Nat.shiftRight_eq_div_pow, h1, Spec.htTree_succ, hp.hp, hh]
    generalize itree >>> hp32.toUInt64 = itree' at *
    have ha : ((a.set_layer_address j).set_tree_address itree').bytes32 =
        Spec.htAdrs (jj + 1) (Spec.htTree p idx_tree.toNat (jj + 1)) := by
      rw [Adrs.to_32_set_tree_address (a := a.set_layer_address j) h3, Adrs.to_32_set_layer_address, h2, hjj, htr,
        Spec.htAdrs_step]
    have ha1 : ((a.set_layer_address j).set_tree_address itree').f1Zero := h3
    generalize (a.set_layer_address j).set_tree_address itree' = a' at *
    refine Makes.asUsize (by omega) ?_
    refine Makes.vget hj2 ?_
    have e := xmss_pk_from_sig_does hp R (idx := leaf) sig.xmss_sigs[j.toNat] (msg := root.toList)
      (by simp) pk_seed a'
    have hsl : sig.xmss_sigs[j.toNat].bytes =
        Spec.slice sig.bytes ((jj + 1) * p.xmssLen) ((jj + 1 + 1) * p.xmssLen) := by
      rw [hslice _ hj2, hjj]
    rw [ha, hle, h5, hsl] at e
    rw [h5]
    refine e.last fun root' hroot' =>
      Returns.pure ⟨_, rfl, by omega, htr, ha, ha1, ?_⟩
    rw [hroot']
    rfl
  · rw [hd]
    rfl
  · rintro _ ⟨st, rfl, -, -, -, -, h⟩
    refine Returns.leak (Returns.pure ?_)
    rw [hd] at h
    rw [Spec.htVerify_eq, hp.d, ← h, Bool.eq_iff_iff, decide_eq_true_iff, beq_iff_eq,
      Vector.toList_inj]

end Fips205.Model
