import Verif.Proofs.RunHt

/-! # The calls made by `src/fors.rs` -/

namespace Fips205.Model
open Fips205

set_option linter.unusedSectionVars false

variable {b : Build} {K LEN M N A D H HP : Nat} {p : Spec.Params} {hs : Hashers (LogExec b) K LEN M N}
  {hr : Spec.Run.Fns}

theorem fors_sk_gen_does (R : HashersRun hs hr) (sk_seed pk_seed : List UInt8) (adrs : Adrs)
    (idx : UInt32) :
    Makes (Spec.Run.forsSKgen hr sk_seed pk_seed adrs.bytes32 idx.toNat).log
      (fun v => v.toList = Spec.forsSKgen hr.vals sk_seed pk_seed adrs.bytes32 idx.toNat)
      (fors_sk_gen hs sk_seed pk_seed adrs idx) := by
  unfold fors_sk_gen
  have e := R.prf pk_seed sk_seed
    (((adrs.set_type_and_clear FORS_PRF).set_key_pair_address adrs.get_key_pair_address).set_tree_index idx)
  rw [Adrs.to_32_set_tree_index, Adrs.to_32_set_key_pair_address,
    Adrs.to_32_set_type_and_clear, Adrs.toNat_get_key_pair_address] at e
  exact e

theorem fors_node_does (R : HashersRun hs hr) (sk_seed pk_seed : List UInt8) (adrs : Adrs) :
    ∀ (n : Nat) (i z : UInt32), z.toNat = n → (i.toNat + 1) * 2 ^ n ≤ 2 ^ 32 →
    Makes (Spec.Run.forsNode hr sk_seed i.toNat n pk_seed adrs.bytes32).log
      (fun r => ∃ v, r = .ok v ∧
        v.toList = Spec.forsNode hr.vals sk_seed i.toNat n pk_seed adrs.bytes32)
      (fors_node hs sk_seed i z pk_seed adrs) := by
  intro n
  induction n with
  | zero =>
    intro i z hz _
    have := u32_eq_zero hz
    subst this
    rw [fors_node]
    refine Makes.leak ?_
    simp only [dite_true]
    rw [Spec.Run.forsNode, Spec.Run.log_bind, Spec.Run.forsSKgen_val]
    refine (fors_sk_gen_does R _ _ _ _).bind fun sk hsk => ?_
    have e := R.f pk_seed ((adrs.set_tree_height 0).set_tree_index i) sk.toList
    rw [Adrs.to_32_set_tree_index, Adrs.to_32_set_tree_height, hsk] at e
    rw [hsk]
    exact e.last fun v hv => Returns.pure ⟨v, rfl, hv⟩
  | succ n ih =>
    intro i z hz hi
    rw [fors_node]
    refine Makes.leak ?_
    have hz0 : z ≠ 0 := by rintro rfl; simp at hz
    rw [dif_neg hz0]
    have hz1 : (z - 1).toNat = n := by
      rw [UInt32.toNat_sub_of_le _ _ (by rw [UInt32.le_iff_toNat_le]; simp; omega), hz]; simp
    have hpow : 1 ≤ 2 ^ n := Nat.one_le_two_pow
    have hi2 : (2 * i.toNat + 2) * 2 ^ n ≤ 2 ^ 32 := by
      rw [Nat.pow_succ] at hi
      calc (2 * i.toNat + 2) * 2 ^ n = (i.toNat + 1) * (2 ^ n * 2) := by ring
        _ ≤ _ := hi
    have hi3 : 2 * i.toNat + 2 ≤ 2 ^ 32 :=
      Nat.le_trans (Nat.le_mul_of_pos_right _ (by omega)) hi2
    have e1 : (2 * i).toNat = 2 * i.toNat := by
      rw [UInt32.toNat_mul, Nat.mod_eq_of_lt (by simp; omega)]; simp
    have e2 : (2 * i + 1).toNat = 2 * i.toNat + 1 := by
      rw [UInt32.toNat_add, e1, Nat.mod_eq_of_lt (by simp; omega)]; simp
    have i1 := ih (2 * i) (z - 1) hz1 (by
      rw [e1]
      exact Nat.le_trans (Nat.mul_le_mul_right _ (by omega)) hi2)
    have i2 := ih (2 * i + 1) (z - 1) hz1 (by rw [e2]; exact hi2)
    rw [e1] at i1
    rw [e2] at i2
    rw [Spec.Run.forsNode, Spec.Run.log_bind, Spec.Run.log_bind, Spec.Run.forsNode_val,
      Spec.Run.forsNode_val]
    refine Makes.mulU32 (by simp; omega) ?_
    refine i1.bind ?_
    rintro _ ⟨l, rfl, hl⟩
    refine Makes.leak ?_
    dsimp only
    refine Makes.mulU32 (by simp; omega) ?_
    refine Makes.addU32 (by rw [e1]; simp; omega) ?_
    refine i2.bind ?_
    rintro _ ⟨r, rfl, hr⟩
    refine Makes.leak ?_
    dsimp only
    have e := R.h pk_seed ((adrs.set_tree_height z).set_tree_index i) l.toList r.toList
    rw [Adrs.to_32_set_tree_index, Adrs.to_32_set_tree_height, hz, hl, hr] at e
    rw [hl, hr]
    exact e.last fun v hv => Returns.pure ⟨v, rfl, hv⟩

theorem fors_digits_makes (hp : Matches p K LEN M N A D H HP) {md : List UInt8}
    (hmd : md.length = (K * A + 7) / 8) {a32 k32 : UInt32} (ha : a32.toNat = A) (hk : k32.toNat = K)
    {β : Type} {f : List UInt32 → LogExec b β} {L : List Call} {Q : β → Prop}
    (h : ∀ new : List UInt32, new.length = K → new.map UInt32.toNat = Spec.base2b md p.a p.k →
      Makes L Q (f new)) :
    Makes L Q (base_2b md a32 k32 (Vector.replicate K (0 : UInt32)).toList >>= f) := by
  have hA := hp.A_lt
  have hK := hp.K_le
  have hKA : K * A ≤ 255 * 15 := Nat.mul_le_mul hK (by omega)
  refine Makes.ret (base_2b_returns (by rw [ha]; exact hp.A_ge) (by omega) (by omega) (by simp [hk])
    (by simp; omega) (by simp [ha]; omega)) fun new hnew => h new ?_ ?_
  · have := congrArg List.length hnew
    rwa [List.length_map, base2b_length, hk] at this
  · rw [hnew, ha, hk, hp.a, hp.k]

theorem fors_sign_does (hp : Matches p K LEN M N A D H HP) (R : HashersRun hs hr)
    {md : List UInt8} (hmd : md.length = (K * A + 7) / 8) (sk_seed : List UInt8) (adrs : Adrs)
    (pk_seed : List UInt8) :
    Makes (Spec.Run.forsSign p hr md sk_seed pk_seed adrs.bytes32).log
      (fun r => ∃ v, r = .ok v ∧
        v.bytes = Spec.forsSign p hr.vals md sk_seed pk_seed adrs.bytes32)
      (fors_sign A hs md sk_seed adrs pk_seed) := by
  unfold fors_sign
  rw [Spec.Run.forsSign]
  dsimp only
  rw [Spec.Run.concat_log]
  have hA := hp.A_lt
  have hK := hp.K_le
  have hb := hp.fors_bound
  refine Makes.u32TryFromUnwrap (by omega) fun a32 ha => ?_
  refine Makes.u32TryFromUnwrap (by omega) fun k32 hk => ?_
  refine fors_digits_makes hp hmd ha hk fun new hl hnew => ?_
  refine Makes.copyFromSlice hl fun indices hind => ?_
  have hd : ∀ i (hi : i < K), indices[i].toNat = (Spec.base2b md p.a p.k).getD i 0 :=
    fun i hi => digit_of (by rw [hind, hnew]) hi
  generalize hdg : Spec.base2b md p.a p.k = ds at *
  have hdlt : ∀ i (hi : i < K), indices[i].toNat < 2 ^ A := by
    intro i hi; rw [hd i hi, ← hdg, hp.a]; exact base2b_getD_lt
  let fsk : Nat → List UInt8 := fun i =>
    Spec.forsSKgen hr.vals sk_seed pk_seed adrs.bytes32 (i * 2 ^ A + ds.getD i 0)
  let fau : Nat → Nat → List UInt8 := fun i j =>
    Spec.forsNode hr.vals sk_seed (i * 2 ^ (A - j) + Spec.sibling (ds.getD i 0 / 2 ^ j)) j pk_seed
      adrs.bytes32
  refine Makes.mono ((Makes.forU32E
    (fun i => (Spec.Run.forsSKgen hr sk_seed pk_seed adrs.bytes32 (i * 2 ^ A + ds.getD i 0)).log ++
      (List.range A).flatMap fun j => (Spec.Run.forsNode hr sk_seed
        (i * 2 ^ (A - j) + Spec.sibling (ds.getD i 0 / 2 ^ j)) j pk_seed adrs.bytes32).log)
    (fun i (s : ForsSig A K N) =>
    (∀ k (hk : k < K), k < i → s.private_key_value[k].toList = fsk k) ∧
    (∀ k (hk : k < K) j (hj : j < A), k < i → s.auth[k].tree[j].toList = fau k j))
    ?_ ?_ ?_).congr ?_) ?_
  · simp
  · exact ⟨by simp, by simp⟩
  · rintro i s - hi ⟨h1, h2⟩
    rw [hk] at hi
    have hbi := fors_index_bound hi (Nat.zero_le A) (hdlt i.toNat hi)
    simp only [Nat.sub_zero, Nat.pow_zero, Nat.mul_one] at hbi
    have hsh := shl_toNat (x := i) (j := a32) (by omega) (by rw [ha]; omega)
    rw [ha] at hsh
    have hidx : (i <<< a32 + indices[i.toNat]).toNat = i.toNat * 2 ^ A + ds.getD i.toNat 0 := by
      rw [UInt32.toNat_add, hsh, Nat.mod_eq_of_lt (by omega), hd _ hi]
    refine Makes.shlU32 (by omega) ?_
    refine Makes.asUsize (by omega) ?_
    refine Makes.vget hi ?_
    refine Makes.addU32 (by omega) ?_
    have e := fors_sk_gen_does R sk_seed pk_seed adrs (i <<< a32 + indices[i.toNat])
    rw [hidx] at e
    refine e.bind fun sk hsk => ?_
    refine Makes.asUsize (by omega) ?_
    refine Makes.vset hi ?_
    refine Makes.mono ((Makes.forU32E
      (fun j => (Spec.Run.forsNode hr sk_seed
        (i.toNat * 2 ^ (A - j) + Spec.sibling (ds.getD i.toNat 0 / 2 ^ j)) j pk_seed adrs.bytes32).log)
      (fun j (s : ForsSig A K N) =>
      (∀ k (hk : k < K), k < i.toNat + 1 → s.private_key_value[k].toList = fsk k) ∧
      (∀ k (hk : k < K) j' (hj : j' < A), k < i.toNat ∨ (k = i.toNat ∧ j' < j) →
        s.auth[k].tree[j'].toList = fau k j'))
      ?_ ?_ ?_).congr ?_) ?_
    · simp
    · refine ⟨set_step hi h1 hsk, ?_⟩
      intro k hk j' hj' h
      refine h2 k hk j' hj' ?_
      simp at h; exact h
    · rintro j s - hj ⟨h3, h4⟩
      rw [ha] at hj
      have hbs : Spec.sibling (indices[i.toNat].toNat / 2 ^ j.toNat) < 2 ^ (A - j.toNat) := by
        refine sibling_lt (by omega) ?_
        rw [Nat.div_lt_iff_lt_mul (Nat.two_pow_pos _), ← Nat.pow_add,
          show A - j.toNat + j.toNat = A by omega]
        exact hdlt _ hi
      have hbj := fors_index_bound hi (Nat.le_of_lt hj) hbs
      have hbj2 : i.toNat * 2 ^ (A - j.toNat) +
          Spec.sibling (indices[i.toNat].toNat / 2 ^ j.toNat) + 1 ≤ K * 2 ^ A :=
        Nat.le_trans (Nat.le_mul_of_pos_right _ (Nat.two_pow_pos _)) hbj
      have haj : (a32 - j).toNat = A - j.toNat := by
        rw [UInt32.toNat_sub_of_le _ _ (by rw [UInt32.le_iff_toNat_le]; omega), ha]
      have hsh2 := shl_toNat (x := i) (j := a32 - j) (by omega) (by rw [haj]; omega)
      rw [haj] at hsh2
      have hx : (indices[i.toNat] >>> j ^^^ 1).toNat =
          Spec.sibling (indices[i.toNat].toNat / 2 ^ j.toNat) := by
        rw [xor_one_toNat, shr_toNat _ _ (by omega)]
      have hidx2 : (i <<< (a32 - j) + (indices[i.toNat] >>> j ^^^ 1)).toNat =
          i.toNat * 2 ^ (A - j.toNat) +
            Spec.sibling (indices[i.toNat].toNat / 2 ^ j.toNat) := by
        rw [UInt32.toNat_add, hsh2, hx, Nat.mod_eq_of_lt (by omega)]
      refine Makes.asUsize (by omega) ?_
      refine Makes.vget hi ?_
      refine Makes.shrU32 (by omega) ?_
      refine Makes.subU32 (by omega) ?_
      refine Makes.shlU32 (by omega) ?_
      refine Makes.addU32 (by rw [hsh2, hx]; omega) ?_
      have e := fors_node_does R sk_seed pk_seed adrs j.toNat _ j rfl
        (show ((i <<< (a32 - j) + (indices[i.toNat] >>> j ^^^ 1)).toNat + 1) * 2 ^ j.toNat ≤ 2 ^ 32 by
          rw [hidx2]; omega)
      rw [hidx2, hd _ hi] at e
      refine e.last ?_
      rintro _ ⟨node, rfl, hnode⟩
      refine Returns.leak ?_
      dsimp only
      refine Returns.asUsize (by omega) ?_
      refine Returns.asUsize (by omega) ?_
      refine Returns.vget hi ?_
      refine Returns.vset hj ?_
      refine Returns.vset hi (Returns.pure ⟨_, rfl, h3, ?_⟩)
      intro k hk j' hj' h
      dsimp only
      rw [Vector.getElem_set]
      split
      · rename_i e
        subst e
        dsimp only
        rw [Vector.getElem_set]
        split
        · rename_i e
          subst e
          exact hnode
        · exact h4 _ hi j' hj' (by omega)
      · exact h4 k hk j' hj' (by omega)
    · rw [ha, List.range_eq_range']
      rfl
    · rintro _ ⟨s', rfl, h3, h4⟩
      exact ⟨s', rfl, h3, fun k hk j hj h => h4 k hk j hj (by omega)⟩
  · rw [hk, hp.k, hp.a]
    refine Eq.trans ?_ (congrArg _ List.range_eq_range'.symm)
    refine List.flatMap_congr fun i _ => ?_
    rw [Spec.Run.log_bind, Spec.Run.log_bind, Spec.Run.log_pure, List.append_nil, Spec.Run.concat_log]
  · rintro _ ⟨s, rfl, h1, h2⟩
    refine ⟨s, rfl, ?_⟩
    rw [Spec.forsSign, hdg, ForsSig.bytes, hp.k, hp.a]
    refine flatMap_eq_concat fun k hk' => ?_
    rw [Vector.getElem_zip, forsPart]
    dsimp only
    rw [h1 k hk' (by omega), absorbAll_eq fun j hj => h2 k hk' j hj (by omega)]

theorem fors_pk_from_sig_does (hp : Matches p K LEN M N A D H HP) (R : HashersRun hs hr)
    (sig : ForsSig A K N) {md : List UInt8} (hmd : md.length = (K * A + 7) / 8)
    (pk_seed : List UInt8) (adrs : Adrs) :
    Makes (Spec.Run.forsPkFromSig p hr sig.bytes md pk_seed adrs.bytes32).log
      (fun v => v.key.toList =
        Spec.forsPkFromSig p hr.vals sig.bytes md pk_seed adrs.bytes32)
      (fors_pk_from_sig hs sig md pk_seed adrs) := by
  unfold fors_pk_from_sig
  have hA := hp.A_lt
  have hK := hp.K_le
  have hb := hp.fors_bound
  have hlen := adrs.length_bytes32
  refine Makes.u32TryFromUnwrap (by omega) fun a32 ha => ?_
  refine Makes.u32TryFromUnwrap (by omega) fun k32 hk => ?_
  refine fors_digits_makes hp hmd ha hk fun new hl hnew => ?_
  refine Makes.copyFromSlice hl fun indices hind => ?_
  have hd : ∀ i (hi : i < K), indices[i].toNat = (Spec.base2b md p.a p.k).getD i 0 :=
    fun i hi => digit_of (by rw [hind, hnew]) hi
  generalize hdg : Spec.base2b md p.a p.k = ds at *
  have hdlt : ∀ i (hi : i < K), indices[i].toNat < 2 ^ A := by
    intro i hi; rw [hd i hi, ← hdg, hp.a]; exact base2b_getD_lt
  -- the parts of the signature
  have hsk : ∀ i (hi : i < K), Spec.slice sig.bytes (i * (p.a + 1) * p.n) ((i * (p.a + 1) + 1) * p.n) =
      sig.private_key_value[i].toList := by
    intro i hi
    have := congrArg (fun x => Spec.slice x 0 N) (sig.slice_bytes hi)
    rw [Spec.slice_slice _ (by rw [Nat.succ_mul, Nat.succ_mul]; omega)] at this
    rw [hp.a, hp.n]
    have e : Spec.slice (sig.private_key_value[i].toList ++ absorbAll sig.auth[i].tree) 0 N =
        sig.private_key_value[i].toList := by
      have := Spec.slice_zero_append sig.private_key_value[i].toList (absorbAll sig.auth[i].tree)
      rwa [Vector.length_toList] at this
    rw [← e, ← this]
    congr 1 <;> ring
  have hau : ∀ i (hi : i < K), Spec.slice sig.bytes ((i * (p.a + 1) + 1) * p.n)
      ((i + 1) * (p.a + 1) * p.n) = absorbAll sig.auth[i].tree := by
    intro i hi
    have := congrArg (fun x => Spec.slice x N (N + A * N)) (sig.slice_bytes hi)
    rw [Spec.slice_slice _ (by rw [Nat.succ_mul, Nat.succ_mul]; omega)] at this
    rw [hp.a, hp.n]
    have e := Spec.slice_append_right sig.private_key_value[i].toList (absorbAll sig.auth[i].tree)
      0 (A * N)
    have hal : (absorbAll sig.auth[i].tree).length = A * N := absorbAll_length _
    rw [Vector.length_toList, ← hal, Spec.slice_all, hal] at e
    rw [← e, show N + 0 = N from rfl, ← this]
    congr 1 <;> ring
  let fpk : Nat → List UInt8 := fun i =>
    let sk := Spec.slice sig.bytes (i * (p.a + 1) * p.n) ((i * (p.a + 1) + 1) * p.n)
    let AUTH := Spec.slice sig.bytes ((i * (p.a + 1) + 1) * p.n) ((i + 1) * (p.a + 1) * p.n)
    let ADRS := Spec.setTreeIndex (Spec.setTreeHeight adrs.bytes32 0)
      (i * 2 ^ p.a + ds.getD i 0)
    let node := hr.vals.F pk_seed ADRS sk
    (Spec.climb hr.vals pk_seed (ds.getD i 0) (fun j => Spec.slice AUTH (j * p.n) ((j + 1) * p.n)) p.a
      ADRS node).2
  let flog : Nat → List Call := fun i =>
    let sk := Spec.slice sig.bytes (i * (p.a + 1) * p.n) ((i * (p.a + 1) + 1) * p.n)
    let AUTH := Spec.slice sig.bytes ((i * (p.a + 1) + 1) * p.n) ((i + 1) * (p.a + 1) * p.n)
    let ADRS := Spec.setTreeIndex (Spec.setTreeHeight adrs.bytes32 0)
      (i * 2 ^ p.a + ds.getD i 0)
    (hr.F pk_seed ADRS sk).log ++
    (Spec.Run.climb hr pk_seed (ds.getD i 0) (fun j => Spec.slice AUTH (j * p.n) ((j + 1) * p.n)) p.a
      ADRS (hr.F pk_seed ADRS sk).val).log
  have hval : ∀ i, ((do
      let node ← hr.F pk_seed (Spec.setTreeIndex (Spec.setTreeHeight adrs.bytes32 0) (i * 2 ^ p.a + ds.getD i 0))
        (Spec.slice sig.bytes (i * (p.a + 1) * p.n) ((i * (p.a + 1) + 1) * p.n))
      let st ← Spec.Run.climb hr pk_seed (ds.getD i 0) (fun j => Spec.slice
        (Spec.slice sig.bytes ((i * (p.a + 1) + 1) * p.n) ((i + 1) * (p.a + 1) * p.n)) (j * p.n) ((j + 1) * p.n))
        p.a (Spec.setTreeIndex (Spec.setTreeHeight adrs.bytes32 0) (i * 2 ^ p.a + ds.getD i 0)) node
      pure st.2 : Spec.Run (List UInt8)).log = flog i) := by
    intro i
    rw [Spec.Run.log_bind, Spec.Run.log_bind, Spec.Run.log_pure, List.append_nil]
  have hrun : (Spec.Run.forsPkFromSig p hr sig.bytes md pk_seed adrs.bytes32).log =
      (List.range K).flatMap flog ++ (hr.T pk_seed (Spec.setKeyPairAddress
        (Spec.setTypeAndClear adrs.bytes32 Spec.FORS_ROOTS) (Spec.getKeyPairAddress adrs.bytes32))
        (Spec.concat K fpk)).log := by
    rw [Spec.Run.forsPkFromSig]
    dsimp only
    rw [Spec.Run.log_bind, Spec.Run.concat_log, Spec.Run.concat_val, hdg, hp.k]
    refine congrArg₂ _ (List.flatMap_congr fun i _ => hval i)
      (congrArg (fun x => (hr.T pk_seed (Spec.setKeyPairAddress
        (Spec.setTypeAndClear adrs.bytes32 Spec.FORS_ROOTS) (Spec.getKeyPairAddress adrs.bytes32)) x).log)
        (congrArg _ (funext fun i => ?_)))
    rw [Spec.Run.val_bind, Spec.Run.val_bind, Spec.Run.val_pure, Spec.Run.climb_val]
    rfl
  rw [hrun]
  refine Makes.bind ((Makes.forU32 flog (fun i (st : Adrs × Vector (Vector UInt8 N) K) =>
    EqT st.1 adrs ∧ ∀ k (hk : k < K), k < i → st.2[k].toList = fpk k)
    ?_ ?_ ?_).congr ?_) ?_
  · simp
  · exact ⟨EqT.refl _, by simp⟩
  · rintro i ⟨a, root⟩ - hi ⟨h1, h2⟩
    rw [hk] at hi
    simp only at h1 h2
    have hbi := fors_index_bound hi (Nat.zero_le A) (hdlt i.toNat hi)
    simp only [Nat.sub_zero, Nat.pow_zero, Nat.mul_one] at hbi
    have hsh := shl_toNat (x := i) (j := a32) (by omega) (by rw [ha]; omega)
    rw [ha] at hsh
    have hidx : (i <<< a32 + indices[i.toNat]).toNat = i.toNat * 2 ^ A + ds.getD i.toNat 0 := by
      rw [UInt32.toNat_add, hsh, Nat.mod_eq_of_lt (by omega), hd _ hi]
    refine Makes.asUsize (by omega) ?_
    refine Makes.vget hi ?_
    refine Makes.shlU32 (by omega) ?_
    refine Makes.asUsize (by omega) ?_
    refine Makes.vget hi ?_
    refine Makes.addU32 (by omega) ?_
    have ha0 : ((a.set_tree_height 0).set_tree_index (i <<< a32 + indices[i.toNat])).bytes32 =
        Spec.setTreeIndex (Spec.setTreeHeight adrs.bytes32 0)
          (i.toNat * 2 ^ A + ds.getD i.toNat 0) := by
      rw [h1, Adrs.to_32_set_tree_index, Adrs.to_32_set_tree_height, hidx]; rfl
    have h1' := h1.step 0 (i <<< a32 + indices[i.toNat])
    generalize (a.set_tree_height 0).set_tree_index (i <<< a32 + indices[i.toNat]) = a0 at *
    have hlog : flog i.toNat = (hr.F pk_seed a0.bytes32 sig.private_key_value[i.toNat].toList).log ++
        (List.range A).flatMap fun j => (Spec.Run.climbStep hr pk_seed (ds.getD i.toNat 0)
          (fun j => Spec.slice (absorbAll sig.auth[i.toNat].tree) (j * p.n) ((j + 1) * p.n)) j
          (Spec.climb hr.vals pk_seed (ds.getD i.toNat 0)
            (fun j => Spec.slice (absorbAll sig.auth[i.toNat].tree) (j * p.n) ((j + 1) * p.n)) j
            (Spec.setTreeIndex (Spec.setTreeHeight adrs.bytes32 0)
              (i.toNat * 2 ^ A + ds.getD i.toNat 0))
            (hr.vals.F pk_seed (Spec.setTreeIndex (Spec.setTreeHeight adrs.bytes32 0)
              (i.toNat * 2 ^ A + ds.getD i.toNat 0)) sig.private_key_value[i.toNat].toList))).log := by
      dsimp only [flog]
      rw [hsk _ hi, hau _ hi, hp.a, Spec.Run.climb_log, ha0]
      rfl
    rw [hlog]
    refine (R.f pk_seed a0 sig.private_key_value[i.toNat].toList).bind fun node0 hnode0 => ?_
    refine Makes.asUsize (by omega) ?_
    refine Makes.vget hi ?_
    rw [ha0] at hnode0
    have hT : i.toNat * 2 ^ A + ds.getD i.toNat 0 < 2 ^ 32 := by rw [← hidx]; exact UInt32.toNat_lt _
    refine Makes.last ((Makes.forU32 (fun j => (Spec.Run.climbStep hr pk_seed (ds.getD i.toNat 0)
          (fun j => Spec.slice (absorbAll sig.auth[i.toNat].tree) (j * p.n) ((j + 1) * p.n)) j
          (Spec.climb hr.vals pk_seed (ds.getD i.toNat 0)
            (fun j => Spec.slice (absorbAll sig.auth[i.toNat].tree) (j * p.n) ((j + 1) * p.n)) j
            (Spec.setTreeIndex (Spec.setTreeHeight adrs.bytes32 0)
              (i.toNat * 2 ^ A + ds.getD i.toNat 0))
            (hr.vals.F pk_seed (Spec.setTreeIndex (Spec.setTreeHeight adrs.bytes32 0)
              (i.toNat * 2 ^ A + ds.getD i.toNat 0)) sig.private_key_value[i.toNat].toList))).log)
      (fun j (st : Adrs × Vector UInt8 N) =>
      EqT st.1 adrs ∧ (st.1.bytes32, st.2.toList) = Spec.climb hr.vals pk_seed (ds.getD i.toNat 0)
        (fun j => Spec.slice (absorbAll sig.auth[i.toNat].tree) (j * p.n) ((j + 1) * p.n)) j
        (Spec.setTreeIndex (Spec.setTreeHeight adrs.bytes32 0)
          (i.toNat * 2 ^ A + ds.getD i.toNat 0))
        (hr.vals.F pk_seed (Spec.setTreeIndex (Spec.setTreeHeight adrs.bytes32 0)
          (i.toNat * 2 ^ A + ds.getD i.toNat 0)) sig.private_key_value[i.toNat].toList))
      ?_ ?_ ?_).congr ?_) ?_
    · simp
    · exact ⟨h1', by rw [ha0, hnode0]; rfl⟩
    · rintro j ⟨a, node⟩ - hj ⟨h3, hst⟩
      rw [ha] at hj
      simp only at h3
      have hj1 : (j + 1).toNat = j.toNat + 1 := by
        rw [UInt32.toNat_add, Nat.mod_eq_of_lt (by simp; omega)]; rfl
      have hadr := Spec.climb_adrs (hf := hr.vals) (PKseed := pk_seed)
        (AUTH := fun j => Spec.slice (absorbAll sig.auth[i.toNat].tree) (j * p.n) ((j + 1) * p.n))
        (node := hr.vals.F pk_seed (Spec.setTreeIndex (Spec.setTreeHeight adrs.bytes32 0)
          (i.toNat * 2 ^ A + ds.getD i.toNat 0)) sig.private_key_value[i.toNat].toList)
        hlen hT (levels := A) (idx := ds.getD i.toNat 0) (fun k hk => fors_bits hk) j.toNat
        (by omega)
      rw [← hst] at hadr
      dsimp only at hadr ⊢
      have hget : (a.set_tree_height (j + 1)).get_tree_index.toNat =
          (i.toNat * 2 ^ A + ds.getD i.toNat 0) / 2 ^ j.toNat := by
        rw [Adrs.toNat_get_tree_index, Adrs.to_32_set_tree_height,
          Spec.getTreeIndex_setTreeHeight (Adrs.length_bytes32 _), hadr,
          Spec.getTreeIndex_setTreeIndex (Spec.setTreeHeight_length hlen _)
            (Nat.lt_of_le_of_lt (Nat.div_le_self _ _) hT)]
      have hget' := hget
      rw [Adrs.toNat_get_tree_index, Adrs.to_32_set_tree_height, hj1] at hget'
      refine Makes.addU32 (by simp; omega) ?_
      refine Makes.asUsize (by omega) ?_
      refine Makes.vget hi ?_
      refine Makes.shrU32 (by omega) ?_
      refine Makes.leak ?_
      have hsh' := shr_toNat indices[i.toNat] j (by omega)
      have hbit := fors_bits (i := i.toNat) (d := ds.getD i.toNat 0) (k := j.toNat) (a := A) hj
      rw [and_one_eq, hsh', hd _ hi, Spec.climb_succ, ← hst, Spec.climbStep, Spec.Run.climbStep]
      dsimp only
      rw [hget', hp.n]
      by_cases hc : ds.getD i.toNat 0 / 2 ^ j.toNat % 2 = 0
      · rw [if_pos hc, if_pos hc, if_pos (by simpa using hc)]
        refine Makes.divU32 (by decide) ?_
        refine Makes.asUsize (by omega) ?_
        refine Makes.vget hj ?_
        have e := R.h pk_seed ((a.set_tree_height (j + 1)).set_tree_index
          ((a.set_tree_height (j + 1)).get_tree_index / 2)) node.toList
          sig.auth[i.toNat].tree[j.toNat].toList
        rw [Adrs.to_32_set_tree_index, Adrs.to_32_set_tree_height, UInt32.toNat_div, hget, hj1,
          ← slice_absorbAll _ hj] at e
        rw [Spec.Run.log_bind, Spec.Run.log_pure, List.append_nil, ← slice_absorbAll _ hj]
        refine e.last fun v hv => Returns.pure ⟨h3.step _ _, ?_⟩
        dsimp only
        rw [hv, Adrs.to_32_set_tree_index, Adrs.to_32_set_tree_height, UInt32.toNat_div, hget, hj1]
        rfl
      · rw [if_neg hc, if_neg hc, if_neg (by simpa using hc)]
        have hsub : ((a.set_tree_height (j + 1)).get_tree_index - 1).toNat =
            (i.toNat * 2 ^ A + ds.getD i.toNat 0) / 2 ^ j.toNat - 1 := by
          rw [UInt32.toNat_sub_of_le _ _ (by rw [UInt32.le_iff_toNat_le, hget, show (1 : UInt32).toNat = 1 from rfl]; omega), hget]
          rfl
        refine Makes.subU32 (by rw [hget, show (1 : UInt32).toNat = 1 from rfl]; omega) ?_
        refine Makes.divU32 (by decide) ?_
        refine Makes.asUsize (by omega) ?_
        refine Makes.vget hj ?_
        have e := R.h pk_seed ((a.set_tree_height (j + 1)).set_tree_index
          (((a.set_tree_height (j + 1)).get_tree_index - 1) / 2)) sig.auth[i.toNat].tree[j.toNat].toList
          node.toList
        rw [Adrs.to_32_set_tree_index, Adrs.to_32_set_tree_height, UInt32.toNat_div, hsub, hj1,
          ← slice_absorbAll _ hj] at e
        rw [Spec.Run.log_bind, Spec.Run.log_pure, List.append_nil, ← slice_absorbAll _ hj]
        refine e.last fun v hv => Returns.pure ⟨h3.step _ _, ?_⟩
        dsimp only
        rw [hv, Adrs.to_32_set_tree_index, Adrs.to_32_set_tree_height, UInt32.toNat_div, hsub, hj1]
        rfl
    · rw [ha, List.range_eq_range']
      rfl
    · rintro ⟨a, node⟩ ⟨h3, hst⟩
      simp only at h3
      rw [ha] at hst
      have hnode : node.toList = _ := congrArg Prod.snd hst
      dsimp only
      refine Returns.asUsize (by omega) ?_
      refine Returns.vset hi (Returns.pure ⟨h3, ?_⟩)
      refine set_step hi h2 ?_
      rw [hnode]
      dsimp only [fpk]
      rw [hsk _ hi, hau _ hi, hp.a]
  · rw [hk, List.range_eq_range']
    rfl
  · rintro ⟨a, root⟩ ⟨h1, h2⟩
    simp only at h1 h2
    dsimp only
    have e := R.t_len pk_seed ((a.set_type_and_clear FORS_ROOTS).set_key_pair_address
      a.get_key_pair_address) root
    rw [absorbAll_eq fun k hk => h2 k hk (by omega)] at e
    rw [h1.type, h1.kp] at e ⊢
    rw [Adrs.to_32_set_key_pair_address, Adrs.to_32_set_type_and_clear,
      Adrs.toNat_get_key_pair_address] at e
    refine e.last fun pk hpk => Returns.pure ?_
    dsimp only
    rw [hpk, Spec.forsPkFromSig, hdg, hp.k]
    rfl

end Fips205.Model
