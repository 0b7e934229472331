import Verif.Proofs.TraceKeygen
import Verif.Proofs.Serialize
import Verif.Proofs.SpecCorrect

/-! # What an observer sees of signing

Two runs of the signing functions on the same public inputs, with secrets that lead to the same
signature. -/

namespace Fips205.Model
open Fips205

variable {b : Build} {K LEN M N A D H HP : Nat} {hs : Hashers (TraceExec b) K LEN M N}
  {p : Spec.Params} {hf : Spec.HashFns}

/-- Both runs return a value, not an error. -/
abbrev BothOk {ε α β : Type} (r : Except ε α) (r' : Except ε β) : Prop :=
  ∃ v w, r = .ok v ∧ r' = .ok w

theorem wots_sign_rel (R : HashersRel hs hs) (msg pk : List UInt8) {sk sk' : List UInt8}
    (hsk : sk.length = sk'.length) (adrs : Adrs) :
    Rel Any (wots_sign hs msg sk pk adrs) (wots_sign hs msg sk' pk adrs) := by
  refine Rel.same _ fun n32 => Rel.same _ fun v => Rel.bind (Rel.forEach
    (fun (s t : UInt32 × Adrs × Adrs × Vector (Vector UInt8 N) LEN) => s.1 = t.1) rfl ?_) ?_
  · rintro item ⟨i, ska, a, t⟩ ⟨i', ska', a', t'⟩ h
    obtain rfl : i = i' := h
    refine (R.prf _ _ _ _ _ _ rfl hsk).bind fun k k' _ => ?_
    refine (chain_rel R _ _ _ _ rfl _ _).bind fun c c' _ => Rel.same _ fun iu => ?_
    exact Rel.vset fun _ => Rel.same _ fun i => Rel.pure rfl
  · rintro ⟨i, ska, a, t⟩ ⟨i', ska', a', t'⟩ -
    exact Rel.pure trivial

theorem xmss_sign_rel (R : HashersRel hs hs) (msg pk : List UInt8) {sk sk' : List UInt8}
    (hsk : sk.length = sk'.length) (idx : UInt32) (adrs : Adrs) :
    Rel Any (xmss_sign HP hs msg sk idx pk adrs) (xmss_sign HP hs msg sk' idx pk adrs) := by
  refine Rel.same _ fun hp32 => Rel.bind (Rel.forU32' Any trivial ?_) fun s t _ => ?_
  · intro j s t _
    refine Rel.same _ fun k => (xmss_node_rel R hsk rfl _ _ _ rfl _ _).bind fun n n' _ => ?_
    exact Rel.same _ fun ju => Rel.tail (Rel.vset fun _ => Rel.pure trivial)
  · exact (wots_sign_rel R _ _ hsk _).bind fun _ _ _ => Rel.pure trivial

/-- Both runs make the same XMSS signature. -/
theorem xmss_sign_same (hp : Matches p K LEN M N A D H HP) (R : HashersRel hs hs)
    (F : HashersRefine hs hf) {msg : List UInt8} (hmsg : msg.length = N) (pk : List UInt8)
    {sk sk' : List UInt8} (hsk : sk.length = sk'.length) {idx : UInt32} (hidx : idx.toNat < 2 ^ HP)
    (adrs : Adrs)
    (heq : Spec.xmssSign p hf msg sk idx.toNat pk adrs.bytes32 =
      Spec.xmssSign p hf msg sk' idx.toNat pk adrs.bytes32) :
    Rel (fun v w => v = w ∧
        v.bytes = Spec.xmssSign p hf msg sk idx.toNat pk adrs.bytes32)
      (xmss_sign HP hs msg sk idx pk adrs) (xmss_sign HP hs msg sk' idx pk adrs) :=
  ((xmss_sign_rel R msg pk hsk idx adrs).know (xmss_sign_returns hp F hmsg sk hidx pk adrs)
    (xmss_sign_returns hp F hmsg sk' hidx pk adrs)).mono fun _ _ ⟨_, hv, hw⟩ =>
      ⟨XmssSig.bytes_inj (hv.trans (heq.trans hw.symm)), hv⟩

theorem signMsg_same {sk sk' pk msg : List UInt8} {t l : Nat}
    (h : ∀ j < p.d, Spec.signSig p hf sk pk msg t l j = Spec.signSig p hf sk' pk msg t l j) :
    ∀ j ≤ p.d, Spec.signMsg p hf sk pk msg t l j = Spec.signMsg p hf sk' pk msg t l j := by
  intro j
  induction j with
  | zero => intro _; rfl
  | succ j ih =>
    intro hj
    have e1 := ih (by omega)
    have e2 := h j (by omega)
    show Spec.xmssPkFromSig p hf _ (Spec.signSig p hf sk pk msg t l j) _ _ _ =
      Spec.xmssPkFromSig p hf _ (Spec.signSig p hf sk' pk msg t l j) _ _ _
    rw [e2, e1]

theorem ht_sign_rel (hp : Matches p K LEN M N A D H HP) (R : HashersRel hs hs)
    (F : HashersRefine hs hf) {msg : List UInt8} (hmsg : msg.length = N) (pk : List UInt8)
    {sk sk' : List UInt8} (hsk : sk.length = sk'.length) (idx_tree : UInt64) {idx_leaf : UInt32}
    (hleaf : idx_leaf.toNat < 2 ^ HP)
    (heq : ∀ j < D, Spec.signSig p hf sk pk msg idx_tree.toNat idx_leaf.toNat j =
      Spec.signSig p hf sk' pk msg idx_tree.toNat idx_leaf.toNat j) :
    Rel BothOk (ht_sign D HP hs msg sk pk idx_tree idx_leaf)
      (ht_sign D HP hs msg sk' pk idx_tree idx_leaf) := by
  unfold ht_sign
  have hHP := hp.HP_le
  have hHP1 := hp.HP_ge
  have hD := hp.D_le
  have hD2 := hp.D_ge
  have hmsgs := signMsg_same (p := p) (hf := hf) (sk := sk) (sk' := sk') (pk := pk) (msg := msg)
    (t := idx_tree.toNat) (l := idx_leaf.toNat) (by rw [hp.d]; exact heq)
  rw [hp.d] at hmsgs
  refine Rel.same' (P := fun v => v.toNat = D) (Returns.tail (Returns.u32TryFromUnwrap (by omega)
    fun d32 hd => Returns.pure hd)) fun d32 hd => ?_
  refine Rel.same' (P := fun v => v.toNat = HP) (Returns.tail (Returns.u32TryFromUnwrap (by omega)
    fun d32 hd => Returns.pure hd)) fun hp32 hh => ?_
  have hadrs0 : (Adrs.default.set_tree_address idx_tree).bytes32 =
      Spec.htAdrs 0 (Spec.htTree p idx_tree.toNat 0) := by
    rw [Adrs.to_32_set_tree_address Adrs.f1Zero_default, Adrs.to_32_default, Spec.htTree_zero,
      Spec.htAdrs_zero]
  have hf1 : (Adrs.default.set_tree_address idx_tree).f1Zero := Adrs.f1Zero_default
  dsimp only
  generalize Adrs.default.set_tree_address idx_tree = adrs0 at *
  refine (xmss_sign_same hp R F hmsg pk hsk hleaf adrs0
    (by rw [hadrs0]; exact heq 0 (by omega))).bind ?_
  rintro sig0 _ ⟨rfl, hsig0⟩
  rw [hadrs0] at hsig0
  refine Rel.same _ fun sigs0 => ?_
  refine Rel.same' (xmss_pk_from_sig_returns hp F sig0 hmsg _ _) fun root0 hroot0 => ?_
  rw [hadrs0, hsig0] at hroot0
  have htl : ∀ j, Spec.htLeaf p idx_tree.toNat idx_leaf.toNat j < 2 ^ HP := by
    have := Spec.htLeaf_lt p (t := idx_tree.toNat) (l := idx_leaf.toNat) (by rwa [hp.hp])
    rwa [hp.hp] at this
  refine Rel.bind (Rel.forU32E (fun j (st st' : HtSignState D HP LEN N) =>
    1 ≤ j ∧ st.idx_tree = st'.idx_tree ∧ st.adrs = st'.adrs ∧ st.root = st'.root ∧
    st.idx_tree.toNat = Spec.htTree p idx_tree.toNat (j - 1) ∧
    st.adrs.bytes32 = Spec.htAdrs (j - 1) (Spec.htTree p idx_tree.toNat (j - 1)) ∧
    st.adrs.f1Zero ∧
    (j < D → st.root.toList =
      Spec.signMsg p hf sk pk msg idx_tree.toNat idx_leaf.toNat j))
    ⟨by simp, rfl, rfl, rfl, by simp [Spec.htTree_zero], hadrs0, hf1, fun _ => hroot0⟩ ?_) ?_
  · rintro j ⟨itree, a, sigs, root⟩ ⟨_, _, sigs', _⟩ hj1 hj2 ⟨-, rfl, rfl, rfl, h1, h2, h3, h5⟩
    rw [hd] at hj2
    have hj1 : 1 ≤ j.toNat := hj1
    obtain ⟨jj, hjj⟩ : ∃ jj, j.toNat = jj + 1 := ⟨j.toNat - 1, by omega⟩
    simp only [hjj, Nat.add_sub_cancel] at h1 h2 h5 ⊢
    simp only at h3
    have h5 := h5 (by omega)
    obtain ⟨m1, m2⟩ := mask64 (hp32 := hp32) (by omega) (by omega)
    have m2 := m2 itree
    rw [hh] at m2
    refine Rel.same' (P := (· = 1 <<< hp32.toUInt64)) (Returns.tail
      (Returns.shlU64 (by omega) (Returns.pure rfl))) ?_
    rintro _ rfl
    refine Rel.same' (P := (· = 1 <<< hp32.toUInt64 - 1)) (Returns.tail
      (Returns.subU64 (by rwa [UInt64.le_iff_toNat_le] at m1) (Returns.pure rfl))) ?_
    rintro _ rfl
    have hlt : (itree &&& ((1 <<< hp32.toUInt64) - 1)).toNat < 2 ^ HP := by
      rw [m2]; exact Nat.mod_lt _ (Nat.two_pow_pos _)
    have h2HP : 2 ^ HP ≤ 2 ^ 31 := Nat.pow_le_pow_right (by decide) (by omega)
    rw [u32TryFromU64, if_pos (by omega)]
    refine Rel.leak ?_
    dsimp only
    have hle : (itree &&& ((1 <<< hp32.toUInt64) - 1)).toUInt32.toNat =
        Spec.htLeaf p idx_tree.toNat idx_leaf.toNat (jj + 1) := by
      rw [UInt64.toNat_toUInt32, Nat.mod_eq_of_lt (by omega), m2, Spec.htLeaf, h1, hp.hp]
    generalize (itree &&& ((1 <<< hp32.toUInt64) - 1)).toUInt32 = leaf at *
    refine Rel.same' (P := (· = itree >>> hp32.toUInt64)) (Returns.tail
      (Returns.shrU64 (by omega) (Returns.pure rfl))) ?_
    rintro _ rfl
    have htr : (itree >>> hp32.toUInt64).toNat = Spec.htTree p idx_tree.toNat (jj + 1) := by
      rw [UInt64.toNat_shiftRight, UInt32.toNat_toUInt64, Nat.mod_eq_of_lt (by omega : _ < 64),
        Nat.shiftRight_eq_div_pow, h1, Spec.htTree_succ, hp.hp, hh]
    generalize itree >>> hp32.toUInt64 = itree' at *
    have ha : ((a.set_layer_address j).set_tree_address itree').bytes32 =
        Spec.htAdrs (jj + 1) (Spec.htTree p idx_tree.toNat (jj + 1)) := by
      rw [Adrs.to_32_set_tree_address (a := a.set_layer_address j) h3, Adrs.to_32_set_layer_address, h2, hjj, htr,
        Spec.htAdrs_step]
    have ha1 : ((a.set_layer_address j).set_tree_address itree').f1Zero := h3
    generalize (a.set_layer_address j).set_tree_address itree' = a' at *
    have hsame := heq (jj + 1) (by omega)
    rw [Spec.signSig, Spec.signSig, ← hmsgs (jj + 1) (by omega), ← hle, ← h5, ← ha] at hsame
    refine (xmss_sign_same hp R F (by simp) pk hsk (by rw [hle]; exact htl _) a' hsame).bind ?_
    rintro sig _ ⟨rfl, hsig⟩
    rw [ha, hle, h5] at hsig
    refine Rel.same _ fun ju => Rel.vset fun _ => ?_
    refine Rel.same' (P := (· = d32 - 1)) (Returns.tail
      (Returns.subU32 (by rw [hd]; simp; omega) (Returns.pure rfl))) ?_
    rintro _ rfl
    refine Rel.leak ?_
    by_cases hlast : j < d32 - 1
    · rw [if_pos hlast, if_pos hlast]
      refine Rel.same' (xmss_pk_from_sig_returns hp F sig (by simp) _ _) fun root' hroot' =>
        Rel.pure ⟨_, _, rfl, rfl, by omega, rfl, rfl, rfl, htr, ha, ha1, fun _ => ?_⟩
      rw [hroot', ha, hle, h5, hsig]
      rfl
    · rw [if_neg hlast, if_neg hlast]
      refine Rel.pure ⟨_, _, rfl, rfl, by omega, rfl, rfl, rfl, htr, ha, ha1, fun h => absurd h ?_⟩
      have hd1 : (d32 - 1).toNat = D - 1 := by
        rw [UInt32.toNat_sub_of_le _ _ (by rw [UInt32.le_iff_toNat_le, hd]; simp; omega), hd]; rfl
      rw [UInt32.lt_iff_toNat_lt, hd1] at hlast
      omega
  · rintro _ _ ⟨st, st', rfl, rfl, -⟩
    exact Rel.pure ⟨_, _, rfl, rfl⟩

/-! ## FORS -/

theorem fors_node_rel (R : HashersRel hs hs) {sk sk' : List UInt8} (hsk : sk.length = sk'.length)
    (pk : List UInt8) (adrs : Adrs) : ∀ (n : Nat) (i z : UInt32), z.toNat = n →
      Rel BothOk (fors_node hs sk i z pk adrs) (fors_node hs sk' i z pk adrs) := by
  intro n
  induction n with
  | zero =>
    intro i z hz
    have hz : z = 0 := UInt32.toNat_inj.mp hz
    rw [fors_node, fors_node]
    refine Rel.leak ?_
    rw [dif_pos hz, dif_pos hz]
    refine (R.prf _ _ _ _ _ _ rfl hsk).bind fun k k' _ => ?_
    exact (R.f _ _ _ _ _ _ rfl (by simp)).bind fun v w _ => Rel.pure ⟨v, w, rfl, rfl⟩
  | succ n ih =>
    intro i z hz
    have hz0 : z ≠ 0 := by rintro rfl; simp at hz
    have hz1 : (z - 1).toNat = n := by
      rw [UInt32.toNat_sub_of_le _ _ (by rw [UInt32.le_iff_toNat_le, hz]; simp), hz]; simp
    rw [fors_node, fors_node]
    refine Rel.leak ?_
    rw [dif_neg hz0, dif_neg hz0]
    refine Rel.same _ fun i2 => (ih _ _ hz1).bind ?_
    rintro _ _ ⟨l, l', rfl, rfl⟩
    refine Rel.leak ?_
    refine Rel.same _ fun i2 => Rel.same _ fun i3 => (ih _ _ hz1).bind ?_
    rintro _ _ ⟨r, r', rfl, rfl⟩
    refine Rel.leak ?_
    exact (R.h _ _ _ _ _ _ _ _ rfl (by simp) (by simp)).bind fun v w _ => Rel.pure ⟨v, w, rfl, rfl⟩

theorem fors_sign_rel (R : HashersRel hs hs) {sk sk' : List UInt8} (hsk : sk.length = sk'.length)
    (md pk : List UInt8) (adrs : Adrs) :
    Rel BothOk (fors_sign A hs md sk adrs pk) (fors_sign A hs md sk' adrs pk) := by
  refine Rel.same _ fun a32 => Rel.same _ fun k32 => Rel.same _ fun new => Rel.same _ fun ind => ?_
  refine (Rel.forU32E (fun _ => Any) trivial fun i s t _ _ _ => ?_).mono
    fun _ _ ⟨v, w, h1, h2, _⟩ => ⟨v, w, h1, h2⟩
  refine Rel.same _ fun t1 => Rel.same _ fun iu => Rel.same _ fun d => Rel.same _ fun idx => ?_
  refine (R.prf _ _ _ _ _ _ rfl hsk).bind fun k k' _ => Rel.same _ fun iu2 => Rel.vset fun _ => ?_
  refine (Rel.forU32E (fun _ => Any) trivial fun j s t _ _ _ => ?_)
  refine Rel.same _ fun t1 => Rel.same _ fun iu => Rel.same _ fun d => Rel.same _ fun idx => ?_
  refine Rel.same _ fun t1 => Rel.same _ fun iu => (fors_node_rel R hsk _ _ _ _ _ rfl).bind ?_
  rintro _ _ ⟨n, n', rfl, rfl⟩
  refine Rel.leak ?_
  refine Rel.same _ fun iu => Rel.same _ fun ju => Rel.vget fun _ => Rel.vset fun _ => ?_
  exact Rel.vset fun _ => Rel.pure ⟨_, _, rfl, rfl, trivial⟩

/-! ## `slh_sign_internal` -/

theorem slh_sign_internal_rel (hp : Matches p K LEN M N A D H HP) (R : HashersRel hs hs)
    (F : HashersRefine hs hf) {q : Nat} (V : Spec.Valid hf p.n q) {msg : List (List UInt8)} (hmsg : msg.length ≤ 5)
    {sk sk' : SlhPrivateKey N} (h1 : sk.pk_seed = sk'.pk_seed) (h2 : sk.pk_root = sk'.pk_root)
    (o o' : Vector UInt8 N)
    (heq : Spec.signInternal p hf msg.flatten sk.sk_seed.toList sk.sk_prf.toList sk.pk_seed.toList
        sk.pk_root.toList o.toList =
      Spec.signInternal p hf msg.flatten sk'.sk_seed.toList sk'.sk_prf.toList sk'.pk_seed.toList
        sk'.pk_root.toList o'.toList) :
    Rel (fun r r' => ∃ v, r = .ok v ∧ r' = .ok v) (slh_sign_internal A D H HP hs msg sk o)
      (slh_sign_internal A D H HP hs msg sk' o') := by
  refine Rel.mono (Rel.know (Q := Any) ?_ (slh_sign_internal_returns hp F hmsg sk o)
    (slh_sign_internal_returns hp F hmsg sk' o')) ?_
  swap
  · rintro _ _ ⟨-, ⟨v, rfl, hv⟩, ⟨w, rfl, hw⟩⟩
    exact ⟨v, rfl, by rw [SlhDsaSig.bytes_inj (hv.trans (heq.trans hw.symm))]⟩
  obtain ⟨a, c, pks, pkr⟩ := sk
  obtain ⟨a', c', _, _⟩ := sk'
  obtain rfl := h1
  obtain rfl := h2
  have hDl := hp.D_le
  have hN := hp.N_le
  have hHeq := hp.H_eq
  have hDHP : D * HP ≤ 255 * 31 := Nat.mul_le_mul hp.D_le hp.HP_le
  unfold slh_sign_internal
  refine Rel.same' (P := fun v => v.toNat = D) (Returns.tail (Returns.u32TryFromUnwrap (by omega)
    fun d32 hd => Returns.pure hd)) fun d32 hd => ?_
  refine Rel.same' (P := fun v => v.toNat = H) (Returns.tail (Returns.u32TryFromUnwrap (by omega)
    fun d32 hd => Returns.pure hd)) fun h32 hh => ?_
  refine ((R.prf_msg _ _ _ _ _ (by simp) (by simp)).know
    (F.prf_msg _ _ _ (by simp; omega) hmsg) (F.prf_msg _ _ _ (by simp; omega) hmsg)).bind ?_
  rintro r r' ⟨-, hr, hr'⟩
  rw [Spec.signInternal, Spec.signInternal, ← hr, ← hr', Spec.signWithR, Spec.signWithR] at heq
  dsimp only at heq
  rw [List.append_assoc, List.append_assoc] at heq
  obtain ⟨hrr, heq⟩ := List.append_inj heq (by simp)
  obtain rfl : r = r' := Vector.toList_inj.mp hrr
  refine Rel.same' (F.h_msg _ _ _ _ hmsg) fun digest hdig => ?_
  refine Rel.same' (slh_split_returns hp hd hh digest) ?_
  rintro ⟨md, itree, ileaf⟩ ⟨h1, h2, h3, h4, h5⟩
  simp only at h1 h2 h3 h4 h5
  dsimp only
  have h2HP : 2 ^ HP ≤ 2 ^ 31 := Nat.pow_le_pow_right (by decide) hp.HP_le
  have hl : ileaf.toUInt32.toNat = ileaf.toNat := by
    rw [UInt64.toNat_toUInt32, Nat.mod_eq_of_lt (by omega)]
  have hadr := to_32_fors_adrs itree ileaf.toUInt32
  rw [← hdig, ← h1, ← h3, ← h4, ← hl, ← hadr] at heq
  generalize ((Adrs.default.set_tree_address itree).set_type_and_clear FORS_TREE).set_key_pair_address
      ileaf.toUInt32 = adrs at *
  obtain ⟨hfo, heq⟩ := List.append_inj heq (by rw [Spec.forsSign_length V, Spec.forsSign_length V])
  refine ((fors_sign_rel R (by simp) _ _ _).know (fors_sign_returns hp F h2 _ _ _)
    (fors_sign_returns hp F h2 _ _ _)).bind ?_
  rintro _ _ ⟨-, ⟨fs, rfl, hfs⟩, ⟨fs', rfl, hfs'⟩⟩
  obtain rfl : fs = fs' := ForsSig.bytes_inj (hfs.trans (hfo.trans hfs'.symm))
  refine Rel.leak ?_
  refine Rel.same' (fors_pk_from_sig_returns hp F fs h2 _ _) fun pkf hpkf => ?_
  rw [← hfo, ← hfs, ← hpkf] at heq
  refine (ht_sign_rel hp R F (by simp) _ (by simp) itree (by rw [hl]; exact h5) ?_).bind ?_
  · intro j hj
    rw [← Spec.signSig_slice V _ _ _ _ _ (by rwa [hp.d]), heq, Spec.signSig_slice V _ _ _ _ _ (by rwa [hp.d])]
  · rintro _ _ ⟨ht, ht', rfl, rfl⟩
    exact Rel.leak (Rel.pure trivial)

end Fips205.Model
