import Verif.Proofs.RunWots

/-! # The calls made by `src/xmss.rs` -/

namespace Fips205.Spec.Run

/-- A step of `climb`. -/
def climbStep (h : Fns) (PKseed : Bytes) (idx : Nat) (AUTH : Nat → Bytes) (k : Nat) (st : Bytes × Bytes) :
    Run (Bytes × Bytes) :=
  let ADRS := setTreeHeight st.1 (k + 1)
  if (idx / 2 ^ k) % 2 = 0 then do
    let ADRS := setTreeIndex ADRS (getTreeIndex ADRS / 2)
    let node ← h.H PKseed ADRS (st.2 ++ AUTH k)
    pure (ADRS, node)
  else do
    let ADRS := setTreeIndex ADRS ((getTreeIndex ADRS - 1) / 2)
    let node ← h.H PKseed ADRS (AUTH k ++ st.2)
    pure (ADRS, node)

theorem climb_log (h : Fns) (PKseed : Bytes) (idx : Nat) (AUTH : Nat → Bytes) (levels : Nat)
    (ADRS node : Bytes) :
    (climb h PKseed idx AUTH levels ADRS node).log = (List.range levels).flatMap fun k =>
      (climbStep h PKseed idx AUTH k (Spec.climb h.vals PKseed idx AUTH k ADRS node)).log := by
  induction levels with
  | zero => rfl
  | succ k ih =>
    rw [climb, log_bind, ih, climb_val, List.range_succ, List.flatMap_append]
    simp only [List.flatMap_cons, List.flatMap_nil, List.append_nil]
    rfl

end Fips205.Spec.Run

namespace Fips205.Model
open Fips205

set_option linter.unusedSectionVars false

variable {b : Build} {K LEN M N A D H HP : Nat} {p : Spec.Params} {hs : Hashers (LogExec b) K LEN M N}
  {hr : Spec.Run.Fns}

theorem xmss_node_does (hp : Matches p K LEN M N A D H HP) (R : HashersRun hs hr)
    (sk_seed pk_seed : List UInt8) (adrs : Adrs) : ∀ (n : Nat) (i z : UInt32), z.toNat = n →
    (i.toNat + 1) * 2 ^ n ≤ 2 ^ 32 →
    Makes (Spec.Run.xmssNode p hr sk_seed i.toNat n pk_seed adrs.bytes32).log
      (fun v => v.toList = Spec.xmssNode p hr.vals sk_seed i.toNat n pk_seed adrs.bytes32)
      (xmss_node hs sk_seed i z pk_seed adrs) := by
  intro n
  induction n with
  | zero =>
    intro i z hz _
    have := u32_eq_zero hz
    subst this
    rw [xmss_node]
    refine Makes.leak ?_
    simp only [dite_true]
    have e := wots_pkgen_does hp R sk_seed pk_seed
      ((adrs.set_type_and_clear WOTS_HASH).set_key_pair_address i)
    rw [Adrs.to_32_set_key_pair_address, Adrs.to_32_set_type_and_clear] at e
    refine e.last fun pk hpk => Returns.pure ?_
    rw [hpk]
    rfl
  | succ n ih =>
    intro i z hz hi
    rw [xmss_node]
    refine Makes.leak ?_
    have hz0 : z ≠ 0 := by rintro rfl; simp at hz
    rw [dif_neg hz0]
    have hz1 : (z - 1).toNat = n := by
      rw [UInt32.toNat_sub_of_le _ _ (by rw [UInt32.le_iff_toNat_le]; simp; omega), hz]; simp
    have hpow : 1 ≤ 2 ^ n := Nat.one_le_two_pow
    have hi2 : (2 * i.toNat + 2) * 2 ^ n ≤ 2 ^ 32 := by
      rw [Nat.pow_succ] at hi
      calc (2 * i.toNat + 2) * 2 ^ n = (i.toNat + 1) * (2 ^ n * 2) := by ring
        _ ≤ _ := hi
    have hi3 : 2 * i.toNat + 2 ≤ 2 ^ 32 :=
      Nat.le_trans (Nat.le_mul_of_pos_right _ (by omega)) hi2
    have e1 : (2 * i).toNat = 2 * i.toNat := by
      rw [UInt32.toNat_mul, Nat.mod_eq_of_lt (by simp; omega)]; simp
    have e2 : (2 * i + 1).toNat = 2 * i.toNat + 1 := by
      rw [UInt32.toNat_add, e1, Nat.mod_eq_of_lt (by simp; omega)]; simp
    have i1 := ih (2 * i) (z - 1) hz1 (by
      rw [e1]
      exact Nat.le_trans (Nat.mul_le_mul_right _ (by omega)) hi2)
    have i2 := ih (2 * i + 1) (z - 1) hz1 (by rw [e2]; exact hi2)
    rw [e1] at i1
    rw [e2] at i2
    rw [Spec.Run.xmssNode, Spec.Run.log_bind, Spec.Run.log_bind, Spec.Run.xmssNode_val,
      Spec.Run.xmssNode_val]
    refine Makes.mulU32 (by simp; omega) ?_
    refine i1.bind fun l hl => ?_
    refine Makes.mulU32 (by simp; omega) ?_
    refine Makes.addU32 (by rw [e1]; simp; omega) ?_
    refine i2.bind fun r hr => ?_
    have e := R.h pk_seed (((adrs.set_type_and_clear TREE).set_tree_height z).set_tree_index i)
      l.toList r.toList
    rw [Adrs.to_32_set_tree_index, Adrs.to_32_set_tree_height,
      Adrs.to_32_set_type_and_clear, hz, hl, hr] at e
    rw [hl, hr]
    exact e

theorem xmss_sign_does (hp : Matches p K LEN M N A D H HP) (R : HashersRun hs hr)
    {msg : List UInt8} (hmsg : msg.length = N) (sk_seed : List UInt8) {idx : UInt32}
    (hidx : idx.toNat < 2 ^ HP) (pk_seed : List UInt8) (adrs : Adrs) :
    Makes (Spec.Run.xmssSign p hr msg sk_seed idx.toNat pk_seed adrs.bytes32).log
      (fun v => v.bytes = Spec.xmssSign p hr.vals msg sk_seed idx.toNat pk_seed adrs.bytes32)
      (xmss_sign HP hs msg sk_seed idx pk_seed adrs) := by
  unfold xmss_sign
  have hHP := hp.HP_le
  refine Makes.u32TryFromUnwrap (by omega) fun hp32 hh => ?_
  rw [Spec.Run.xmssSign, Spec.Run.log_bind]
  refine Makes.bind ((Makes.forU32
    (fun j => (Spec.Run.xmssNode p hr sk_seed (Spec.sibling (idx.toNat / 2 ^ j)) j pk_seed adrs.bytes32).log)
    (fun j (auth : Vector (Vector UInt8 N) HP) =>
    ∀ k (hk : k < HP), k < j → auth[k].toList =
      Spec.xmssNode p hr.vals sk_seed (Spec.sibling (idx.toNat / 2 ^ k)) k pk_seed adrs.bytes32)
    (by simp) (by simp) ?_).congr ?_) ?_
  · intro j auth _ hj h3
    rw [hh] at hj
    have hk := shr_toNat idx j (by omega)
    have hks : (idx >>> j ^^^ 1).toNat = Spec.sibling (idx.toNat / 2 ^ j.toNat) := by
      rw [xor_one_toNat, hk]
    have hlt : idx.toNat / 2 ^ j.toNat < 2 ^ (HP - j.toNat) := by
      rw [Nat.div_lt_iff_lt_mul (Nat.two_pow_pos _), ← Nat.pow_add]
      rwa [show HP - j.toNat + j.toNat = HP by omega]
    have hsl := sibling_lt (by omega) hlt
    refine Makes.shrU32 (by omega) ?_
    have e := xmss_node_does hp R sk_seed pk_seed adrs j.toNat (idx >>> j ^^^ 1) j rfl (by
      rw [hks]
      calc _ ≤ 2 ^ (HP - j.toNat) * 2 ^ j.toNat := Nat.mul_le_mul_right _ hsl
        _ = 2 ^ HP := by rw [← Nat.pow_add]; congr 1; omega
        _ ≤ 2 ^ 32 := Nat.pow_le_pow_right (by decide) (by omega))
    rw [hks] at e
    refine e.last fun node hnode => ?_
    refine Returns.asUsize (by omega) ?_
    refine Returns.tail (Returns.vset hj (Returns.pure ?_))
    exact set_step hj h3 hnode
  · rw [Spec.Run.concat_log, hp.hp, hh, List.range_eq_range']
    rfl
  · intro auth hauth
    have e := wots_sign_does hp R hmsg sk_seed pk_seed
      ((adrs.set_type_and_clear WOTS_HASH).set_key_pair_address idx)
    rw [Adrs.to_32_set_key_pair_address, Adrs.to_32_set_type_and_clear] at e
    refine (e.last fun sw hsw => Returns.pure ?_).congr ?_
    · rw [XmssSig.bytes, hsw, Spec.xmssSign, hp.hp,
        absorbAll_eq fun k hk => hauth k hk (by omega)]
      rfl
    · rw [Spec.Run.log_bind, Spec.Run.log_pure, List.append_nil]
      rfl

theorem xmss_pk_from_sig_does (hp : Matches p K LEN M N A D H HP) (R : HashersRun hs hr)
    {idx : UInt32} (sig : XmssSig HP LEN N) {msg : List UInt8} (hmsg : msg.length = N)
    (pk_seed : List UInt8) (adrs : Adrs) :
    Makes (Spec.Run.xmssPkFromSig p hr idx.toNat sig.bytes msg pk_seed adrs.bytes32).log
      (fun v => v.toList =
        Spec.xmssPkFromSig p hr.vals idx.toNat sig.bytes msg pk_seed adrs.bytes32)
      (xmss_pk_from_sig hs idx sig msg pk_seed adrs) := by
  unfold xmss_pk_from_sig
  have hHP := hp.HP_le
  have hlen := adrs.length_bytes32
  have eA : (adrs.set_type_and_clear WOTS_HASH |>.set_key_pair_address idx).bytes32 =
      Spec.setKeyPairAddress (Spec.setTypeAndClear adrs.bytes32 Spec.WOTS_HASH) idx.toNat := by
    rw [Adrs.to_32_set_key_pair_address, Adrs.to_32_set_type_and_clear]; rfl
  have hAl := Spec.setKeyPairAddress_length
    (Spec.setTypeAndClear_length hlen Spec.WOTS_HASH) idx.toNat
  have eB : (((adrs.set_type_and_clear WOTS_HASH).set_key_pair_address idx).set_type_and_clear
      TREE |>.set_tree_index idx).bytes32 = Spec.setTreeIndex (Spec.setTypeAndClear
        (Spec.setKeyPairAddress (Spec.setTypeAndClear adrs.bytes32 Spec.WOTS_HASH) idx.toNat)
        Spec.TREE) idx.toNat := by
    rw [Adrs.to_32_set_tree_index, Adrs.to_32_set_type_and_clear, eA]; rfl
  have hBl := Spec.setTypeAndClear_length hAl Spec.TREE
  have hB0 := Spec.setTreeHeight_setTypeAndClear hAl Spec.TREE
  have hwl : (absorbAll sig.sig_wots.data).length = p.len * p.n := by
    rw [absorbAll_length, hp.len_eq, hp.n]
  have hal : (absorbAll sig.auth).length = HP * N := absorbAll_length _
  have hs1 : Spec.slice sig.bytes 0 (p.len * p.n) = absorbAll sig.sig_wots.data := by
    rw [← hwl]; exact Spec.slice_zero_append _ _
  have hs2 : Spec.slice sig.bytes (p.len * p.n) ((p.len + p.hp) * p.n) = absorbAll sig.auth := by
    have := Spec.slice_append_right (absorbAll sig.sig_wots.data) (absorbAll sig.auth) 0 (HP * N)
    rw [Nat.add_zero, hwl, ← hal, Spec.slice_all, hal] at this
    rw [Nat.add_mul, hp.hp]
    rw [show HP * p.n = HP * N by rw [hp.n]]
    exact this
  rw [Spec.Run.xmssPkFromSig, Spec.xmssPkFromSig]
  dsimp only
  rw [hs1, hs2, hp.hp, ← eA, Spec.Run.log_bind, Spec.Run.log_bind, Spec.Run.log_pure, List.append_nil,
    Spec.Run.wotsPkFromSig_val, Spec.Run.climb_log]
  refine Makes.u32TryFromUnwrap (by omega) fun hp32 hh => ?_
  refine (wots_pk_from_sig_does hp R _ hmsg _ _).bind fun pk hpk => ?_
  rw [← hpk]
  generalize (adrs.set_type_and_clear WOTS_HASH).set_key_pair_address idx = adrsA at *
  rw [← eA] at hB0 eB hBl
  generalize (adrsA.set_type_and_clear TREE).set_tree_index idx = adrsB at *
  generalize hB : Spec.setTypeAndClear adrsA.bytes32 Spec.TREE = sB at *
  have hT : idx.toNat < 2 ^ 32 := idx.toNat_lt
  refine Makes.last ((Makes.forU32 (fun k => (Spec.Run.climbStep hr pk_seed idx.toNat
      (fun k => Spec.slice (absorbAll sig.auth) (k * p.n) ((k + 1) * p.n)) k
      (Spec.climb hr.vals pk_seed idx.toNat
      (fun k => Spec.slice (absorbAll sig.auth) (k * p.n) ((k + 1) * p.n)) k
      (Spec.setTreeIndex sB idx.toNat) pk.val.toList)).log)
    (fun k (st : Adrs × Vector UInt8 N) =>
    (st.1.bytes32, st.2.toList) = Spec.climb hr.vals pk_seed idx.toNat
      (fun k => Spec.slice (absorbAll sig.auth) (k * p.n) ((k + 1) * p.n)) k
      (Spec.setTreeIndex sB idx.toNat) pk.val.toList)
    (by simp) (by rw [eB]; rfl) ?_).congr ?_) ?_
  · rintro k ⟨a, node⟩ - hk hst
    rw [hh] at hk
    have hk1 : (k + 1).toNat = k.toNat + 1 := by
      rw [UInt32.toNat_add, Nat.mod_eq_of_lt (by simp; omega)]; rfl
    have hadr := Spec.climb_adrs (hf := hr.vals) (PKseed := pk_seed)
      (AUTH := fun k => Spec.slice (absorbAll sig.auth) (k * p.n) ((k + 1) * p.n))
      (node := pk.val.toList) hBl hT (levels := HP) (idx := idx.toNat) (fun _ _ => rfl) k.toNat
      (by omega)
    rw [hB0, ← hst] at hadr
    dsimp only at hadr ⊢
    refine Makes.addU32 (by simp; omega) ?_
    refine Makes.shrU32 (by omega) ?_
    refine Makes.leak ?_
    have hsh := shr_toNat idx k (by omega)
    have hget : (a.set_tree_height (k + 1)).get_tree_index.toNat = idx.toNat / 2 ^ k.toNat := by
      rw [Adrs.toNat_get_tree_index, Adrs.to_32_set_tree_height,
        Spec.getTreeIndex_setTreeHeight (Adrs.length_bytes32 _), hadr,
        Spec.getTreeIndex_setTreeIndex (Spec.setTreeHeight_length hBl _)
          (Nat.lt_of_le_of_lt (Nat.div_le_self _ _) hT)]
    have hget' := hget
    rw [Adrs.toNat_get_tree_index, Adrs.to_32_set_tree_height, hk1] at hget'
    rw [and_one_eq, hsh, Spec.climb_succ, ← hst, Spec.climbStep, Spec.Run.climbStep]
    dsimp only
    rw [hget', hp.n]
    by_cases hbit : idx.toNat / 2 ^ k.toNat % 2 = 0
    · rw [if_pos hbit, if_pos hbit, if_pos (by simpa using hbit)]
      refine Makes.divU32 (by decide) ?_
      refine Makes.asUsize (by omega) ?_
      refine Makes.vget hk ?_
      have e := R.h pk_seed ((a.set_tree_height (k + 1)).set_tree_index
        ((a.set_tree_height (k + 1)).get_tree_index / 2)) node.toList sig.auth[k.toNat].toList
      rw [Adrs.to_32_set_tree_index, Adrs.to_32_set_tree_height, UInt32.toNat_div, hget, hk1,
        ← slice_absorbAll _ hk] at e
      rw [Spec.Run.log_bind, Spec.Run.log_pure, List.append_nil, ← slice_absorbAll _ hk]
      refine e.last fun v hv => Returns.pure ?_
      dsimp only
      rw [hv, Adrs.to_32_set_tree_index, Adrs.to_32_set_tree_height, UInt32.toNat_div, hget, hk1]
      rfl
    · rw [if_neg hbit, if_neg hbit, if_neg (by simpa using hbit)]
      have hsub : ((a.set_tree_height (k + 1)).get_tree_index - 1).toNat =
          idx.toNat / 2 ^ k.toNat - 1 := by
        rw [UInt32.toNat_sub_of_le _ _ (by rw [UInt32.le_iff_toNat_le, hget]; simp; omega), hget]
        rfl
      refine Makes.subU32 (by rw [hget]; simp; omega) ?_
      refine Makes.divU32 (by decide) ?_
      refine Makes.asUsize (by omega) ?_
      refine Makes.vget hk ?_
      have e := R.h pk_seed ((a.set_tree_height (k + 1)).set_tree_index
        (((a.set_tree_height (k + 1)).get_tree_index - 1) / 2)) sig.auth[k.toNat].toList node.toList
      rw [Adrs.to_32_set_tree_index, Adrs.to_32_set_tree_height, UInt32.toNat_div, hsub, hk1,
        ← slice_absorbAll _ hk] at e
      rw [Spec.Run.log_bind, Spec.Run.log_pure, List.append_nil, ← slice_absorbAll _ hk]
      refine e.last fun v hv => Returns.pure ?_
      dsimp only
      rw [hv, Adrs.to_32_set_tree_index, Adrs.to_32_set_tree_height, UInt32.toNat_div, hsub, hk1]
      rfl
  · rw [hh, List.range_eq_range']
    rfl
  · rintro ⟨a, node⟩ hst
    refine Returns.pure ?_
    rw [hh] at hst
    exact congrArg Prod.snd hst

end Fips205.Model
