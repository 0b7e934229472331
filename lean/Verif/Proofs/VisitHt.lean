import Verif.Proofs.VisitXmss
import Verif.Proofs.Hypertree
import Verif.Proofs.Erase

/-! # The places visited by `src/hypertree.rs` -/

namespace Fips205.Model
open Fips205

theorem onTree.layer {j j' t t' : Nat} {s1 s2 : Nat → Nat → Nat → Prop} {k1 k2 : Nat → Prop}
    {r1 r2 n1 n2 : Nat → Nat → Prop} {q : Place} (h1 : onTree j t s1 k1 r1 n1 q)
    (h2 : onTree j' t' s2 k2 r2 n2 q) : j = j' := by
  cases q with
  | wotsHash => exact h1.1.symm.trans h2.1
  | wotsPk => exact h1.1.symm.trans h2.1
  | wotsPrf => exact h1.1.symm.trans h2.1
  | tree => exact h1.1.symm.trans h2.1
  | _ => exact h1.elim

/-- The places `ht_sign` visits: all trees on the path, except the part of the top tree that is left to
the verifier; `msg` is what the top tree signs. -/
def htSignPlaces (p : Spec.Params) (t l : Nat) (msg : List UInt8) (q : Place) : Prop :=
  (∃ j, j < p.d ∧ xmssPlaces p j (Spec.htTree p t j) q) ∧
    ¬ xmssVerifyPlaces p (p.d - 1) (Spec.htTree p t (p.d - 1)) (Spec.htLeaf p t l (p.d - 1)) msg q

/-- The places `ht_verify` visits; `msg j` is what layer `j` signs. -/
def htVerifyPlaces (p : Spec.Params) (t l : Nat) (msg : Nat → List UInt8) (q : Place) : Prop :=
  ∃ j, j < p.d ∧ xmssVerifyPlaces p j (Spec.htTree p t j) (Spec.htLeaf p t l j) (msg j) q

variable {b : Build} {K LEN M N A D H HP : Nat} {p : Spec.Params} {hs : Hashers (LogExec b) K LEN M N}
  {At : Place → Call → Prop} {pk_seed : List UInt8}

/-- The places of layer `j`. -/
def htSignLayer (p : Spec.Params) (t l j : Nat) (msg : List UInt8) : Place → Prop :=
  if j < p.d - 1 then xmssPlaces p j (Spec.htTree p t j)
  else xmssSignPlaces p j (Spec.htTree p t j) (Spec.htLeaf p t l j) msg

theorem htSignPlaces_iff {t l : Nat} (hd : 2 ≤ p.d) (hl : l < 2 ^ p.hp) {w : List UInt8} (q : Place) :
    htSignPlaces p t l w q ↔ xmssPlaces p 0 (Spec.htTree p t 0) q ∨
      ∃ j, 1 ≤ j ∧ j < p.d ∧ htSignLayer p t l j w q := by
  have hll := Spec.htLeaf_lt p (t := t) hl
  constructor
  · rintro ⟨⟨j, hj, h⟩, hn⟩
    rcases Nat.eq_zero_or_pos j with rfl | h0
    · exact .inl h
    · refine .inr ⟨j, h0, hj, ?_⟩
      rw [htSignLayer]
      split
      · exact h
      · obtain rfl : j = p.d - 1 := by omega
        exact ((xmss_sign_verify_union (hll _) q).mp h).resolve_right hn
  · rintro (h | ⟨j, h1, h2, h⟩)
    · refine ⟨⟨0, by omega, h⟩, fun h' => ?_⟩
      have := onTree.layer h h'
      omega
    · rw [htSignLayer] at h
      split at h
      · refine ⟨⟨j, h2, h⟩, fun h' => ?_⟩
        have := onTree.layer h h'
        omega
      · obtain rfl : j = p.d - 1 := by omega
        exact ⟨⟨_, h2, (xmss_sign_verify_union (hll _) q).mpr (.inl h)⟩, xmss_sign_verify_disj q h⟩

theorem htSignLayer_disj {t l j j' : Nat} {w w' : List UInt8} (h : j ≠ j') {q : Place}
    (h1 : htSignLayer p t l j w q) (h2 : htSignLayer p t l j' w' q) : False := by
  rw [htSignLayer] at h1 h2
  split at h1 <;> split at h2 <;> exact h (onTree.layer h1 h2)

/-- One step of the loops over the layers. -/
theorem ht_step {hp32 j : UInt32} {itree : UInt64} {t l jj : Nat} {a : Adrs}
    (hh : hp32.toNat = p.hp) (hHP1 : 1 ≤ p.hp) (hHP : p.hp ≤ 31) (hjj : j.toNat = jj + 1)
    (h1 : itree.toNat = Spec.htTree p t jj)
    (h2 : a.bytes32 = Spec.adrs6 jj (Spec.htTree p t jj) 0 0 0 0) (h3 : a.f1Zero) :
    (1 : UInt64).toNat ≤ ((1 : UInt64) <<< hp32.toUInt64).toNat ∧
    (∃ leaf, u32TryFromU64 (itree &&& ((1 <<< hp32.toUInt64) - 1)) = .ok leaf ∧
      leaf.toNat = Spec.htLeaf p t l (jj + 1)) ∧
    (itree >>> hp32.toUInt64).toNat = Spec.htTree p t (jj + 1) ∧
    ((a.set_layer_address j).set_tree_address (itree >>> hp32.toUInt64)).bytes32 =
      Spec.adrs6 (jj + 1) (Spec.htTree p t (jj + 1)) 0 0 0 0 := by
  obtain ⟨m1, m2⟩ := mask64 (hp32 := hp32) (by omega) (by omega)
  have m2 := m2 itree
  rw [hh] at m2
  have hlt : (itree &&& ((1 <<< hp32.toUInt64) - 1)).toNat < 2 ^ p.hp := by
    rw [m2]; exact Nat.mod_lt _ (Nat.two_pow_pos _)
  have h2HP : 2 ^ p.hp ≤ 2 ^ 31 := Nat.pow_le_pow_right (by decide) (by omega)
  have htr : (itree >>> hp32.toUInt64).toNat = Spec.htTree p t (jj + 1) := by
    rw [UInt64.toNat_shiftRight, UInt32.toNat_toUInt64, Nat.mod_eq_of_lt (by omega : _ < 64),
      Nat.shiftRight_eq_div_pow, h1, Spec.htTree_succ, hh]
  refine ⟨by rwa [UInt64.le_iff_toNat_le] at m1, ⟨_, by rw [u32TryFromU64, if_pos (by omega)], ?_⟩,
    htr, ?_⟩
  · rw [UInt64.toNat_toUInt32, Nat.mod_eq_of_lt (by omega), m2, Spec.htLeaf, h1]
  · rw [Adrs.to_32_set_tree_address (a := a.set_layer_address j) h3, Adrs.to_32_set_layer_address, h2,
      hjj, htr]
    rfl

theorem ht_sign_visits (hp : Matches p K LEN M N A D H HP) (R : HashersAt At pk_seed hs)
    {hf : Spec.HashFns} (R' : HashersRefine (LogExec.erase.hashers hs) hf)
    {msg : List UInt8} (hmsg : msg.length = N) (sk_seed : List UInt8) (idx_tree : UInt64)
    {idx_leaf : UInt32} (hleaf : idx_leaf.toNat < 2 ^ HP) :
    Visits At (htSignPlaces p idx_tree.toNat idx_leaf.toNat
        (Spec.signMsg p hf sk_seed pk_seed msg idx_tree.toNat idx_leaf.toNat (p.d - 1)))
      (fun r => ∃ v, r = .ok v ∧
        v.bytes = Spec.htSign p hf msg sk_seed pk_seed idx_tree.toNat idx_leaf.toNat)
      (ht_sign D HP hs msg sk_seed pk_seed idx_tree idx_leaf) := by
  refine Visits.mono (Visits.value (Q := fun _ => True) ?_ (LogExec.erase.map_ht_sign hs D HP msg sk_seed
    pk_seed idx_tree idx_leaf) (ht_sign_returns hp R' hmsg sk_seed pk_seed idx_tree hleaf)) fun _ h => h.2
  unfold ht_sign
  have hHP := hp.HP_le
  have hHP1 := hp.HP_ge
  have hD := hp.D_le
  have hD2 := hp.D_ge
  have hpd := hp.d
  have hhp := hp.hp
  refine Visits.u32TryFromUnwrap (by omega) fun d32 hd => ?_
  refine Visits.u32TryFromUnwrap (by omega) fun hp32 hh => ?_
  have hadrs0 : (Adrs.default.set_tree_address idx_tree).bytes32 =
      Spec.adrs6 0 (Spec.htTree p idx_tree.toNat 0) 0 0 0 0 := by
    rw [Adrs.to_32_set_tree_address Adrs.f1Zero_default, Adrs.to_32_default, Spec.htTree_zero]
    rfl
  have hf1 : (Adrs.default.set_tree_address idx_tree).f1Zero := Adrs.f1Zero_default
  dsimp only
  generalize Adrs.default.set_tree_address idx_tree = adrs0 at *
  have hleaf' : idx_leaf.toNat < 2 ^ p.hp := by rwa [hhp]
  have htl := Spec.htLeaf_lt p (t := idx_tree.toNat) hleaf'
  have hd1 : (d32 - 1).toNat = D - 1 := by
    rw [UInt32.toNat_sub_of_le _ _ (by rw [UInt32.le_iff_toNat_le, hd]; simp; omega), hd]; rfl
  generalize hT : idx_tree.toNat = T at *
  generalize hL : idx_leaf.toNat = L at *
  generalize hw : Spec.signMsg p hf sk_seed pk_seed msg T L = w
  have hw0 : w 0 = msg := by rw [← hw]; rfl
  have hws : ∀ j, w (j + 1) = Spec.xmssPkFromSig p hf (Spec.htLeaf p T L j)
      (Spec.xmssSign p hf (w j) sk_seed (Spec.htLeaf p T L j) pk_seed
        (Spec.adrs6 j (Spec.htTree p T j) 0 0 0 0)) (w j) pk_seed
      (Spec.adrs6 j (Spec.htTree p T j) 0 0 0 0) := by
    intro j; rw [← hw]; rfl
  refine Visits.bind (xmssSignPlaces p 0 (Spec.htTree p T 0) L msg)
    (fun q => xmssVerifyPlaces p 0 (Spec.htTree p T 0) L msg q ∨
      ∃ j, 1 ≤ j ∧ j < p.d ∧ htSignLayer p T L j (w (p.d - 1)) q)
    (hL ▸ Visits.value (xmss_sign_visits hp R hmsg sk_seed (by omega) hadrs0)
      (LogExec.erase.map_xmss_sign hs HP msg sk_seed idx_leaf pk_seed adrs0)
      (xmss_sign_returns hp R' hmsg sk_seed (by omega) pk_seed adrs0)) ?_ ?_ fun sig0 hsig0 => ?_
  · rintro q h1 (h2 | ⟨j, hj, _, h2⟩)
    · exact xmss_sign_verify_disj q h1 h2
    · rw [htSignLayer] at h2
      split at h2 <;> (have := onTree.layer h1 h2; omega)
  · intro q
    rw [htSignPlaces_iff (by omega) hleaf', xmss_sign_verify_union hleaf', or_assoc]
  refine Visits.ret (P := fun _ => True) (Returns.tail (Returns.vset (by omega)
    (Returns.pure trivial))) fun sig_ht _ => ?_
  refine Visits.bind (xmssVerifyPlaces p 0 (Spec.htTree p T 0) L msg)
    (fun q => ∃ j, 1 ≤ j ∧ j < p.d ∧ htSignLayer p T L j (w (p.d - 1)) q)
    (hL ▸ Visits.value (xmss_pk_from_sig_visits hp R sig0 hmsg hadrs0)
      (LogExec.erase.map_xmss_pk_from_sig hs idx_leaf sig0 msg pk_seed adrs0)
      (xmss_pk_from_sig_returns hp R' sig0 hmsg pk_seed adrs0)) ?_ (fun _ => Iff.rfl)
    fun root0 hroot0 => ?_
  · rintro q h1 ⟨j, hj, _, h2⟩
    rw [htSignLayer] at h2
    split at h2 <;> (have := onTree.layer h1 h2; omega)
  have hroot : root0.toList = w 1 := by
    rw [hroot0.2, hsig0.2, hws 0, hw0, hadrs0]
    rfl
  have hloop := Visits.forU32E (At := At) (ω := Unit) (T := fun j _ => htSignLayer p T L j (w (p.d - 1)))
    (lo := 1) (hi := d32) (s := ({ idx_tree, adrs := adrs0, sig_ht, root := root0 } :
      HtSignState D HP LEN N)) (ε := String)
    (body := fun j st => do
      let t ← shlU64 1 hp32
      let t ← subU64 t 1
      match u32TryFromU64 (st.idx_tree &&& t) with
      | .error _ => pure (.error "Alg11: oversized idx leaf")
      | .ok idx_leaf => do
        let idx_tree ← shrU64 st.idx_tree hp32
        let adrs := st.adrs.set_layer_address j
        let adrs := adrs.set_tree_address idx_tree
        let sig_tmp ← xmss_sign HP hs st.root.toList sk_seed idx_leaf pk_seed adrs
        let ju ← asUsize j
        let sig_ht ← vset st.sig_ht ju sig_tmp
        let d1 ← subU32 d32 1
        leak (.branch (decide (j < d1)))
        if j < d1 then do
          let root ← xmss_pk_from_sig hs idx_leaf sig_tmp st.root.toList pk_seed adrs
          pure (.ok { idx_tree, adrs, sig_ht, root })
        else
          pure (.ok { idx_tree, adrs, sig_ht, root := st.root }))
    (fun j st => 1 ≤ j ∧ st.idx_tree.toNat = Spec.htTree p T (j - 1) ∧
      st.adrs.bytes32 = Spec.adrs6 (j - 1) (Spec.htTree p T (j - 1)) 0 0 0 0 ∧ st.adrs.f1Zero ∧
      (j < D → st.root.toList = w j))
    (by rw [hd]; simp; omega) ⟨by simp, by simp [Spec.htTree_zero, hT], hadrs0, hf1, fun _ => hroot⟩ ?_ ?_
  · obtain ⟨_, hw⟩ := hloop
    refine Visits.last (hw.congr fun q => ?_) ?_
    · rw [hd, hpd]
      rfl
    · rintro _ ⟨st, rfl, _⟩
      exact Returns.pure trivial
  · rintro j ⟨itree, a, sigs, root⟩ hj1 hj2 ⟨-, h1, h2, h3, h5⟩
    rw [hd] at hj2
    have hj1 : 1 ≤ j.toNat := hj1
    obtain ⟨jj, hjj⟩ : ∃ jj, j.toNat = jj + 1 := ⟨j.toNat - 1, by omega⟩
    simp only [hjj, Nat.add_sub_cancel] at h1 h2 h5 ⊢
    simp only at h3
    have h5 := h5 (by omega)
    obtain ⟨s1, ⟨leaf, s2, s3⟩, htr, ha⟩ := ht_step (p := p) (l := L) (hh.trans hhp.symm) (by omega)
      (by omega) hjj h1 h2 h3
    have ha1 : ((a.set_layer_address j).set_tree_address (itree >>> hp32.toUInt64)).f1Zero := h3
    refine ⟨(), ?_⟩
    refine Visits.shlU64 (by omega) ?_
    refine Visits.subU64 s1 ?_
    rw [s2]
    dsimp only
    refine Visits.shrU64 (by omega) ?_
    generalize (a.set_layer_address j).set_tree_address (itree >>> hp32.toUInt64) = a' at *
    have hidx : leaf.toNat < 2 ^ HP := by rw [s3, ← hhp]; exact htl _
    have hs1 := Visits.value (xmss_sign_visits hp R (msg := root.toList) (by simp) sk_seed hidx ha)
      (LogExec.erase.map_xmss_sign hs HP _ sk_seed leaf pk_seed a')
      (xmss_sign_returns hp R' (by simp) sk_seed hidx pk_seed a')
    rw [s3] at hs1
    by_cases hlast : j < d32 - 1
    · have hlt : jj + 1 < p.d - 1 := by
        rw [UInt32.lt_iff_toNat_lt, hd1] at hlast; omega
      refine Visits.bind _ (xmssVerifyPlaces p (jj + 1) (Spec.htTree p T (jj + 1))
        (Spec.htLeaf p T L (jj + 1)) root.toList) hs1 (fun q => xmss_sign_verify_disj q) ?_
        fun sig hsig => ?_
      · intro q
        rw [htSignLayer, if_pos hlt, xmss_sign_verify_union (htl _)]
      refine Visits.asUsize (by omega) ?_
      refine Visits.vset hj2 ?_
      refine Visits.subU32 (by rw [hd]; simp; omega) ?_
      refine Visits.leak ?_
      rw [if_pos hlast]
      have hv := Visits.value
        (xmss_pk_from_sig_visits hp R (idx := leaf) sig (msg := root.toList) (by simp) ha)
        (LogExec.erase.map_xmss_pk_from_sig hs leaf sig root.toList pk_seed a')
        (xmss_pk_from_sig_returns hp R' sig (by simp) pk_seed a')
      rw [s3] at hv
      refine Visits.last hv fun root' hroot' => Returns.pure ⟨_, rfl, by omega, htr, ha, ha1, fun _ => ?_⟩
      rw [hroot'.2, hsig.2, hws, h5, ha]
    · have hlt : ¬ jj + 1 < p.d - 1 := by
        rw [UInt32.lt_iff_toNat_lt, hd1] at hlast; omega
      rw [htSignLayer, if_neg hlt, show p.d - 1 = jj + 1 by omega, ← h5]
      refine Visits.last hs1 fun sig _ => ?_
      refine Returns.asUsize (by omega) ?_
      refine Returns.vset hj2 ?_
      refine Returns.subU32 (by rw [hd]; simp; omega) ?_
      refine Returns.leak ?_
      rw [if_neg hlast]
      exact Returns.pure ⟨_, rfl, by omega, htr, ha, ha1, by omega⟩
  · intro i i' w w' q _ h _ h1 h2
    exact htSignLayer_disj (by omega) h1 h2

theorem ht_verify_visits (hp : Matches p K LEN M N A D H HP) (R : HashersAt At pk_seed hs)
    {hf : Spec.HashFns} (R' : HashersRefine (LogExec.erase.hashers hs) hf)
    {msg : List UInt8} (hmsg : msg.length = N) (sig : HtSig D HP LEN N) (idx_tree : UInt64)
    (idx_leaf : UInt32) (pk_root : Vector UInt8 N) :
    Visits At (htVerifyPlaces p idx_tree.toNat idx_leaf.toNat
        (Spec.rootMsg p hf pk_seed sig.bytes msg idx_tree.toNat idx_leaf.toNat)) (fun _ => True)
      (ht_verify hs msg sig pk_seed idx_tree idx_leaf pk_root) := by
  unfold ht_verify
  have hHP := hp.HP_le
  have hHP1 := hp.HP_ge
  have hD := hp.D_le
  have hD2 := hp.D_ge
  have hpd := hp.d
  have hhp := hp.hp
  refine Visits.u32TryFromUnwrap (by omega) fun d32 hd => ?_
  refine Visits.u32TryFromUnwrap (by omega) fun hp32 hh => ?_
  have hadrs0 : (Adrs.default.set_tree_address idx_tree).bytes32 =
      Spec.adrs6 0 (Spec.htTree p idx_tree.toNat 0) 0 0 0 0 := by
    rw [Adrs.to_32_set_tree_address Adrs.f1Zero_default, Adrs.to_32_default, Spec.htTree_zero]
    rfl
  have hf1 : (Adrs.default.set_tree_address idx_tree).f1Zero := Adrs.f1Zero_default
  dsimp only
  generalize Adrs.default.set_tree_address idx_tree = adrs0 at *
  generalize hT : idx_tree.toNat = T at *
  generalize hL : idx_leaf.toNat = L at *
  have hxl : p.xmssLen = (HP + LEN) * N := by rw [Spec.Params.xmssLen, hp.hp, hp.len_eq, hp.n]
  have hslice : ∀ j (hj : j < D), sig.xmss_sigs[j].bytes =
      Spec.slice sig.bytes (j * p.xmssLen) ((j + 1) * p.xmssLen) := by
    intro j hj; rw [hxl, sig.slice_bytes hj]
  generalize hw : Spec.rootMsg p hf pk_seed sig.bytes msg T L = w
  have hw0 : w 0 = msg := by rw [← hw]; rfl
  have hws : ∀ j (hj : j < D), w (j + 1) = Spec.xmssPkFromSig p hf (Spec.htLeaf p T L j)
      sig.xmss_sigs[j].bytes (w j) pk_seed (Spec.adrs6 j (Spec.htTree p T j) 0 0 0 0) := by
    intro j hj; rw [← hw, hslice]; rfl
  refine Visits.vget (by omega) ?_
  refine Visits.bind (xmssVerifyPlaces p 0 (Spec.htTree p T 0) L msg)
    (fun q => ∃ j, 1 ≤ j ∧ j < p.d ∧
      xmssVerifyPlaces p j (Spec.htTree p T j) (Spec.htLeaf p T L j) (w j) q)
    (hL ▸ Visits.value (xmss_pk_from_sig_visits hp R sig.xmss_sigs[0] hmsg hadrs0)
      (LogExec.erase.map_xmss_pk_from_sig hs idx_leaf _ msg pk_seed adrs0)
      (xmss_pk_from_sig_returns hp R' _ hmsg pk_seed adrs0)) ?_ ?_ fun root0 hroot0 => ?_
  · rintro q h1 ⟨j, hj, _, h2⟩
    have := onTree.layer h1 h2
    omega
  · intro q
    constructor
    · rintro ⟨j, h2, h⟩
      rcases Nat.eq_zero_or_pos j with rfl | h0
      · exact .inl (by rwa [hw0] at h)
      · exact .inr ⟨j, h0, h2, h⟩
    · rintro (h | ⟨j, h1, h2, h⟩)
      · exact ⟨0, by omega, by rwa [hw0]⟩
      · exact ⟨j, h2, h⟩
  have hroot : root0.toList = w 1 := by
    rw [hroot0.2, hws 0 (by omega), hw0, hadrs0]
    rfl
  have hloop := Visits.forU32E (At := At) (ω := Unit)
    (T := fun j _ => xmssVerifyPlaces p j (Spec.htTree p T j) (Spec.htLeaf p T L j) (w j))
    (lo := 1) (hi := d32) (s := ({ idx_tree, adrs := adrs0, node := root0 } : HtVerifyState N))
    (ε := Unit)
    (body := fun j st => do
      let t ← shlU64 1 hp32
      let t ← subU64 t 1
      match u32TryFromU64 (st.idx_tree &&& t) with
      | .error _ => pure (.error ())
      | .ok idx_leaf => do
        let idx_tree ← shrU64 st.idx_tree hp32
        let adrs := st.adrs.set_layer_address j
        let adrs := adrs.set_tree_address idx_tree
        let ju ← asUsize j
        let sig_tmp ← vget sig.xmss_sigs ju
        let node ← xmss_pk_from_sig hs idx_leaf sig_tmp st.node.toList pk_seed adrs
        pure (.ok { idx_tree, adrs, node }))
    (fun j st => 1 ≤ j ∧ st.idx_tree.toNat = Spec.htTree p T (j - 1) ∧
      st.adrs.bytes32 = Spec.adrs6 (j - 1) (Spec.htTree p T (j - 1)) 0 0 0 0 ∧ st.adrs.f1Zero ∧
      st.node.toList = w j)
    (by rw [hd]; simp; omega) ⟨by simp, by simp [Spec.htTree_zero, hT], hadrs0, hf1, hroot⟩ ?_ ?_
  · obtain ⟨_, hw⟩ := hloop
    refine Visits.last (hw.congr fun q => ?_) ?_
    · rw [hd, ← hpd]; rfl
    · rintro _ ⟨st, rfl, _⟩
      exact Returns.leak (Returns.pure trivial)
  · rintro j ⟨itree, a, root⟩ hj1 hj2 ⟨-, h1, h2, h3, h5⟩
    rw [hd] at hj2
    have hj1 : 1 ≤ j.toNat := hj1
    obtain ⟨jj, hjj⟩ : ∃ jj, j.toNat = jj + 1 := ⟨j.toNat - 1, by omega⟩
    simp only [hjj, Nat.add_sub_cancel] at h1 h2 h5 ⊢
    simp only at h3
    obtain ⟨s1, ⟨leaf, s2, s3⟩, htr, ha⟩ := ht_step (p := p) (l := L) (hh.trans hhp.symm) (by omega)
      (by omega) hjj h1 h2 h3
    have ha1 : ((a.set_layer_address j).set_tree_address (itree >>> hp32.toUInt64)).f1Zero := h3
    refine ⟨(), ?_⟩
    refine Visits.shlU64 (by omega) ?_
    refine Visits.subU64 s1 ?_
    rw [s2]
    dsimp only
    refine Visits.shrU64 (by omega) ?_
    generalize (a.set_layer_address j).set_tree_address (itree >>> hp32.toUInt64) = a' at *
    refine Visits.asUsize (by omega) ?_
    refine Visits.vget hj2 ?_
    have hv := Visits.value (xmss_pk_from_sig_visits hp R (idx := leaf) sig.xmss_sigs[j.toNat]
        (msg := root.toList) (by simp) ha)
      (LogExec.erase.map_xmss_pk_from_sig hs leaf _ root.toList pk_seed a')
      (xmss_pk_from_sig_returns hp R' _ (by simp) pk_seed a')
    rw [s3] at hv
    refine Visits.last (hv.congr fun q => by rw [h5]) fun root' hroot' =>
      Returns.pure ⟨_, rfl, by omega, htr, ha, ha1, ?_⟩
    rw [hroot'.2, hws _ (by omega), ha, h5]
    simp only [hjj]
  · intro i i' w w' q _ h _ h1 h2
    have := onTree.layer h1 h2
    omega

end Fips205.Model
