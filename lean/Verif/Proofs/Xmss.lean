import Verif.Proofs.Wots
import Verif.Proofs.Climb
import Verif.Model.Xmss
import Mathlib.Data.Nat.Bitwise

/-! # Refinement of `src/xmss.rs` -/

namespace Fips205.Model
open Fips205

set_option linter.unusedSectionVars false

/-- The bytes of an XMSS signature. -/
def XmssSig.bytes {HP LEN N : Nat} (s : XmssSig HP LEN N) : List UInt8 :=
  absorbAll s.sig_wots.data ++ absorbAll s.auth

variable {m : Type → Type} [Rust m] [LawfulMonad m] {K LEN M N A D H HP : Nat}
  {p : Spec.Params} {hs : Hashers m K LEN M N} {hf : Spec.HashFns}

theorem Matches.len_eq (hp : Matches p K LEN M N A D H HP) : p.len = LEN := by
  rw [hp.len, Spec.Params.len, Spec.Params.len1, hp.n]; rfl

theorem u32_eq_zero {z : UInt32} (h : z.toNat = 0) : z = 0 :=
  UInt32.toNat_inj.mp (by simpa using h)

theorem xmss_node_returns (hp : Matches p K LEN M N A D H HP) (R : HashersRefine hs hf)
    (sk_seed pk_seed : List UInt8) (adrs : Adrs) : ∀ (n : Nat) (i z : UInt32), z.toNat = n →
    (i.toNat + 1) * 2 ^ n ≤ 2 ^ 32 →
    Returns (xmss_node hs sk_seed i z pk_seed adrs)
      (fun v => v.toList = Spec.xmssNode p hf sk_seed i.toNat n pk_seed adrs.bytes32) := by
  intro n
  induction n with
  | zero =>
    intro i z hz _
    have := u32_eq_zero hz
    subst this
    rw [xmss_node]
    refine Returns.leak ?_
    simp only [dite_true]
    refine (wots_pkgen_returns hp R _ _ _).bind fun pk hpk => Returns.pure ?_
    rw [hpk, Adrs.to_32_set_key_pair_address, Adrs.to_32_set_type_and_clear]
    rfl
  | succ n ih =>
    intro i z hz hi
    rw [xmss_node]
    refine Returns.leak ?_
    have hz0 : z ≠ 0 := by rintro rfl; simp at hz
    rw [dif_neg hz0]
    have hz1 : (z - 1).toNat = n := by
      rw [UInt32.toNat_sub_of_le _ _ (by rw [UInt32.le_iff_toNat_le]; simp; omega), hz]; simp
    have hpow : 1 ≤ 2 ^ n := Nat.one_le_two_pow
    have hi2 : (2 * i.toNat + 2) * 2 ^ n ≤ 2 ^ 32 := by
      rw [Nat.pow_succ] at hi
      calc (2 * i.toNat + 2) * 2 ^ n = (i.toNat + 1) * (2 ^ n * 2) := by ring
        _ ≤ _ := hi
    have hi3 : 2 * i.toNat + 2 ≤ 2 ^ 32 :=
      Nat.le_trans (Nat.le_mul_of_pos_right _ (by omega)) hi2
    have e1 : (2 * i).toNat = 2 * i.toNat := by
      rw [UInt32.toNat_mul, Nat.mod_eq_of_lt (by simp; omega)]; simp
    have e2 : (2 * i + 1).toNat = 2 * i.toNat + 1 := by
      rw [UInt32.toNat_add, e1, Nat.mod_eq_of_lt (by simp; omega)]; simp
    refine Returns.mulU32 (by simp; omega) ?_
    refine (ih (2 * i) (z - 1) hz1 ?_).bind fun l hl => ?_
    · rw [e1]
      exact Nat.le_trans (Nat.mul_le_mul_right _ (by omega)) hi2
    refine Returns.mulU32 (by simp; omega) ?_
    refine Returns.addU32 (by rw [e1]; simp; omega) ?_
    refine (ih (2 * i + 1) (z - 1) hz1 ?_).bind fun r hr => ?_
    · rw [e2]; exact hi2
    refine (R.h _ _ _ _).mono fun v hv => ?_
    rw [hv, hl, hr, e1, e2, Adrs.to_32_set_tree_index, Adrs.to_32_set_tree_height,
      Adrs.to_32_set_type_and_clear, hz]
    rfl

theorem xor_one_toNat (x : UInt32) : (x ^^^ 1).toNat = Spec.sibling x.toNat := by
  rw [UInt32.toNat_xor, Spec.sibling]
  simp only [UInt32.reduceToNat]
  split
  · rename_i h
    rw [Nat.xor_one_of_even (Nat.even_iff.mpr h)]
  · rename_i h
    rw [Nat.xor_one_of_odd (Nat.odd_iff.mpr (by omega))]

theorem sibling_lt {x n : Nat} (hn : 1 ≤ n) (h : x < 2 ^ n) : Spec.sibling x < 2 ^ n := by
  obtain ⟨k, rfl⟩ : ∃ k, n = k + 1 := ⟨n - 1, by omega⟩
  rw [Nat.pow_succ] at *
  unfold Spec.sibling
  split <;> omega

theorem shr_toNat (x j : UInt32) (hj : j.toNat < 32) : (x >>> j).toNat = x.toNat / 2 ^ j.toNat := by
  rw [UInt32.toNat_shiftRight, Nat.mod_eq_of_lt hj, Nat.shiftRight_eq_div_pow]

theorem xmss_sign_returns (hp : Matches p K LEN M N A D H HP) (R : HashersRefine hs hf)
    {msg : List UInt8} (hmsg : msg.length = N) (sk_seed : List UInt8) {idx : UInt32}
    (hidx : idx.toNat < 2 ^ HP) (pk_seed : List UInt8) (adrs : Adrs) :
    Returns (xmss_sign HP hs msg sk_seed idx pk_seed adrs)
      (fun v => v.bytes = Spec.xmssSign p hf msg sk_seed idx.toNat pk_seed adrs.bytes32) := by
  unfold xmss_sign
  have hHP := hp.HP_le
  refine Returns.u32TryFromUnwrap (by omega) fun hp32 hh => ?_
  refine Returns.bind (Returns.forU32 (fun j (auth : Vector (Vector UInt8 N) HP) =>
    ∀ k (hk : k < HP), k < j → auth[k].toList =
      Spec.xmssNode p hf sk_seed (Spec.sibling (idx.toNat / 2 ^ k)) k pk_seed adrs.bytes32)
    (by simp) (by simp) ?_) ?_
  · intro j auth _ hj h3
    rw [hh] at hj
    have hk := shr_toNat idx j (by omega)
    have hks : (idx >>> j ^^^ 1).toNat = Spec.sibling (idx.toNat / 2 ^ j.toNat) := by
      rw [xor_one_toNat, hk]
    have hlt : idx.toNat / 2 ^ j.toNat < 2 ^ (HP - j.toNat) := by
      rw [Nat.div_lt_iff_lt_mul (Nat.two_pow_pos _), ← Nat.pow_add]
      rwa [show HP - j.toNat + j.toNat = HP by omega]
    have hsl := sibling_lt (by omega) hlt
    refine Returns.shrU32 (by omega) ?_
    refine (xmss_node_returns hp R _ _ _ j.toNat _ j rfl ?_).bind fun node hnode => ?_
    · rw [hks]
      calc _ ≤ 2 ^ (HP - j.toNat) * 2 ^ j.toNat := Nat.mul_le_mul_right _ hsl
        _ = 2 ^ HP := by rw [← Nat.pow_add]; congr 1; omega
        _ ≤ 2 ^ 32 := Nat.pow_le_pow_right (by decide) (by omega)
    refine Returns.asUsize (by omega) ?_
    refine Returns.tail (Returns.vset hj (Returns.pure ?_))
    refine set_step hj h3 ?_
    rw [hnode, hks]
  · intro auth hauth
    refine (wots_sign_returns hp R hmsg _ _ _).bind fun sw hsw => Returns.pure ?_
    rw [XmssSig.bytes, hsw, Spec.xmssSign, hp.hp,
      absorbAll_eq fun k hk => hauth k hk (by omega), Adrs.to_32_set_key_pair_address,
      Adrs.to_32_set_type_and_clear]
    rfl

theorem and_one_eq {t : UInt32} : ((t &&& 1) == 0) = decide (t.toNat % 2 = 0) := by
  rw [beq_eq_decide]
  congr 1
  rw [← UInt32.toNat_inj, UInt32.toNat_and]
  simp

theorem xmss_pk_from_sig_returns (hp : Matches p K LEN M N A D H HP) (R : HashersRefine hs hf)
    {idx : UInt32} (sig : XmssSig HP LEN N) {msg : List UInt8} (hmsg : msg.length = N)
    (pk_seed : List UInt8) (adrs : Adrs) :
    Returns (xmss_pk_from_sig hs idx sig msg pk_seed adrs)
      (fun v => v.toList =
        Spec.xmssPkFromSig p hf idx.toNat sig.bytes msg pk_seed adrs.bytes32) := by
  unfold xmss_pk_from_sig
  have hHP := hp.HP_le
  have hlen := adrs.length_bytes32
  refine Returns.u32TryFromUnwrap (by omega) fun hp32 hh => ?_
  refine (wots_pk_from_sig_returns hp R _ hmsg _ _).bind fun pk hpk => ?_
  dsimp only
  have eA : (adrs.set_type_and_clear WOTS_HASH |>.set_key_pair_address idx).bytes32 =
      Spec.setKeyPairAddress (Spec.setTypeAndClear adrs.bytes32 Spec.WOTS_HASH) idx.toNat := by
    rw [Adrs.to_32_set_key_pair_address, Adrs.to_32_set_type_and_clear]; rfl
  have hAl := Spec.setKeyPairAddress_length
    (Spec.setTypeAndClear_length hlen Spec.WOTS_HASH) idx.toNat
  have eB : (((adrs.set_type_and_clear WOTS_HASH).set_key_pair_address idx).set_type_and_clear
      TREE |>.set_tree_index idx).bytes32 = Spec.setTreeIndex (Spec.setTypeAndClear
        (Spec.setKeyPairAddress (Spec.setTypeAndClear adrs.bytes32 Spec.WOTS_HASH) idx.toNat)
        Spec.TREE) idx.toNat := by
    rw [Adrs.to_32_set_tree_index, Adrs.to_32_set_type_and_clear, eA]; rfl
  have hBl := Spec.setTypeAndClear_length hAl Spec.TREE
  have hB0 := Spec.setTreeHeight_setTypeAndClear hAl Spec.TREE
  generalize (adrs.set_type_and_clear WOTS_HASH).set_key_pair_address idx = adrsA at *
  generalize (adrsA.set_type_and_clear TREE).set_tree_index idx = adrsB at *
  generalize hA : Spec.setKeyPairAddress (Spec.setTypeAndClear adrs.bytes32 Spec.WOTS_HASH)
    idx.toNat = sA at *
  generalize hB : Spec.setTypeAndClear sA Spec.TREE = sB at *
  have hwl : (absorbAll sig.sig_wots.data).length = p.len * p.n := by
    rw [absorbAll_length, hp.len_eq, hp.n]
  have hal : (absorbAll sig.auth).length = HP * N := absorbAll_length _
  have hs1 : Spec.slice sig.bytes 0 (p.len * p.n) = absorbAll sig.sig_wots.data := by
    rw [← hwl]; exact Spec.slice_zero_append _ _
  have hs2 : Spec.slice sig.bytes (p.len * p.n) ((p.len + p.hp) * p.n) = absorbAll sig.auth := by
    have := Spec.slice_append_right (absorbAll sig.sig_wots.data) (absorbAll sig.auth) 0 (HP * N)
    rw [Nat.add_zero, hwl, ← hal, Spec.slice_all, hal] at this
    rw [Nat.add_mul, hp.hp]
    rw [show HP * p.n = HP * N by rw [hp.n]]
    exact this
  have hT : idx.toNat < 2 ^ 32 := idx.toNat_lt
  refine Returns.bind (Returns.forU32 (fun k (st : Adrs × Vector UInt8 N) =>
    (st.1.bytes32, st.2.toList) = Spec.climb hf pk_seed idx.toNat
      (fun k => Spec.slice (absorbAll sig.auth) (k * p.n) ((k + 1) * p.n)) k
      (Spec.setTreeIndex sB idx.toNat) pk.val.toList)
    (by simp) (by rw [eB]; rfl) ?_) ?_
  · rintro k ⟨a, node⟩ - hk hst
    rw [hh] at hk
    have hk1 : (k + 1).toNat = k.toNat + 1 := by
      rw [UInt32.toNat_add, Nat.mod_eq_of_lt (by simp; omega)]; rfl
    have hadr := Spec.climb_adrs (hf := hf) (PKseed := pk_seed)
      (AUTH := fun k => Spec.slice (absorbAll sig.auth) (k * p.n) ((k + 1) * p.n))
      (node := pk.val.toList) hBl hT (levels := HP) (idx := idx.toNat) (fun _ _ => rfl) k.toNat
      (by omega)
    rw [hB0, ← hst] at hadr
    dsimp only at hadr ⊢
    refine Returns.addU32 (by simp; omega) ?_
    refine Returns.shrU32 (by omega) ?_
    refine Returns.leak ?_
    have hsh := shr_toNat idx k (by omega)
    have hget : (a.set_tree_height (k + 1)).get_tree_index.toNat = idx.toNat / 2 ^ k.toNat := by
      rw [Adrs.toNat_get_tree_index, Adrs.to_32_set_tree_height,
        Spec.getTreeIndex_setTreeHeight (Adrs.length_bytes32 _), hadr,
        Spec.getTreeIndex_setTreeIndex (Spec.setTreeHeight_length hBl _)
          (Nat.lt_of_le_of_lt (Nat.div_le_self _ _) hT)]
    have hget' := hget
    rw [Adrs.toNat_get_tree_index, Adrs.to_32_set_tree_height, hk1] at hget'
    rw [and_one_eq, hsh, Spec.climb_succ, ← hst, Spec.climbStep]
    dsimp only
    rw [hget', hp.n]
    by_cases hbit : idx.toNat / 2 ^ k.toNat % 2 = 0
    · rw [if_pos (by simpa using hbit), if_pos hbit]
      refine Returns.divU32 (by decide) ?_
      refine Returns.asUsize (by omega) ?_
      refine Returns.vget hk ?_
      refine (R.h _ _ _ _).bind fun v hv => Returns.pure ?_
      dsimp only
      rw [hv, Adrs.to_32_set_tree_index, Adrs.to_32_set_tree_height, UInt32.toNat_div, hget, hk1,
        slice_absorbAll _ hk]
      rfl
    · rw [if_neg (by simpa using hbit), if_neg hbit]
      have hsub : ((a.set_tree_height (k + 1)).get_tree_index - 1).toNat =
          idx.toNat / 2 ^ k.toNat - 1 := by
        rw [UInt32.toNat_sub_of_le _ _ (by rw [UInt32.le_iff_toNat_le, hget]; simp; omega), hget]
        rfl
      refine Returns.subU32 (by rw [hget]; simp; omega) ?_
      refine Returns.divU32 (by decide) ?_
      refine Returns.asUsize (by omega) ?_
      refine Returns.vget hk ?_
      refine (R.h _ _ _ _).bind fun v hv => Returns.pure ?_
      dsimp only
      rw [hv, Adrs.to_32_set_tree_index, Adrs.to_32_set_tree_height, UInt32.toNat_div, hsub, hk1,
        slice_absorbAll _ hk]
      rfl
  · rintro ⟨a, node⟩ hst
    refine Returns.pure ?_
    rw [hh] at hst
    rw [Spec.xmssPkFromSig]
    dsimp only
    rw [hA, hB, hs1, hs2, hp.hp, ← eA]
    have : node.toList = _ := congrArg Prod.snd hst
    rw [this, hpk]
    rfl

end Fips205.Model
