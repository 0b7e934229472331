import Verif.Props.Encoding
import Verif.Proofs.Forge
import Verif.Proofs.Places

/-! # Forgeries and domain separation: C23, C25, C26, C27, C42, C43 -/

namespace Fips205.Props
open Fips205 Fips205.Model

variable {P : Spec.Prims} {ps : ParamSet} {σ : Type}

/-! ## The WOTS+ checksum -/

/-- **C23** For two different `n`-byte values, the digits the signer computes for the first and those the
verifier computes for the second are incomparable. -/
theorem C23_checksum_prevents_domination (ps : ParamSet) (b : Build) {n32 : UInt32}
    (hn : n32.toNat = ps.params.N) {x y : List UInt8} (hx : x.length = ps.params.N)
    (hy : y.length = ps.params.N) (hne : x ≠ y) :
    ∃ u v : Vector UInt32 ps.params.LEN,
      (wots_sign_digits ps.params.LEN ps.params.N x n32 : Exec b _) = pure u ∧
      (wots_pk_digits ps.params.LEN ps.params.N y n32 : Exec b _) = pure v ∧
      (∃ i, ∃ h : i < ps.params.LEN, v[i].toNat < u[i].toNat) ∧
      (∃ i, ∃ h : i < ps.params.LEN, u[i].toNat < v[i].toNat) := by
  obtain ⟨u, hu, hu'⟩ := Exec.returns_iff.mp
    (wots_sign_digits_returns (m := Exec b) ps.matches hx hn)
  obtain ⟨v, hv, hv'⟩ := Exec.returns_iff.mp
    (wots_sign_digits_returns (m := Exec b) ps.matches hy hn)
  have hN := ps.matches.N_le
  have hpn : ps.sp.n = ps.params.N := ps.matches.n
  have hl : ps.sp.len = ps.params.LEN := by
    rw [ps.matches.len, Spec.Params.len, Spec.Params.len1, hpn]; rfl
  obtain ⟨i, hi, h1⟩ := Spec.wotsDigits_dominate (p := ps.sp) (by omega) (by omega) (by omega) hne
  obtain ⟨k, hk, h2⟩ := Spec.wotsDigits_dominate (p := ps.sp) (by omega) (by omega) (by omega) hne.symm
  rw [hl] at hi hk
  refine ⟨u, v, hu, hv, ⟨i, hi, ?_⟩, ⟨k, hk, ?_⟩⟩
  · rw [digit_of hu' hi, digit_of hv' hi]; exact h1
  · rw [digit_of hu' hk, digit_of hv' hk]; exact h2

example (ps : ParamSet) : ∃ (n32 : UInt32) (x y : List UInt8), n32.toNat = ps.params.N ∧
    x.length = ps.params.N ∧ y.length = ps.params.N ∧ x ≠ y := by
  refine ⟨UInt32.ofNat ps.params.N, List.replicate ps.params.N 0, List.replicate ps.params.N 1, ?_,
    by simp, by simp, ?_⟩
  · cases ps <;> rfl
  · cases ps <;> decide

/-! ## Addresses -/

theorem _root_.Fips205.Place.bounds {x : Place} (h : x.Exists ps.sp) :
    x.fields.1 < 256 ∧ x.fields.2.1 < 2 ^ 64 ∧ x.fields.2.2.1 < 256 ∧ x.fields.2.2.2.1 < 2 ^ 32 ∧
      x.fields.2.2.2.2.1 < 2 ^ 32 ∧ x.fields.2.2.2.2.2 < 2 ^ 32 := by
  have hd : ps.sp.d ≤ 22 := by cases ps <;> decide
  have hhp : ps.sp.hp ≤ 9 := by cases ps <;> decide
  have hlen : ps.sp.len ≤ 67 := by cases ps <;> decide
  have ha : ps.sp.a ≤ 14 := by cases ps <;> decide
  have hfors : ps.sp.k * 2 ^ ps.sp.a < 2 ^ 32 := by cases ps <;> decide
  have htree : 2 ^ (ps.sp.hp * (ps.sp.d - 1)) ≤ 2 ^ 64 := by cases ps <;> decide
  have hhp' : 2 ^ ps.sp.hp ≤ 2 ^ 9 := Nat.pow_le_pow_right (by decide) hhp
  have ht : ∀ j, 2 ^ (ps.sp.hp * (ps.sp.d - 1 - j)) ≤ 2 ^ (ps.sp.hp * (ps.sp.d - 1)) := fun j =>
    Nat.pow_le_pow_right (by decide) (Nat.mul_le_mul_left _ (by omega))
  have hk : ∀ k, 2 ^ (ps.sp.hp - k) ≤ 2 ^ ps.sp.hp := fun k =>
    Nat.pow_le_pow_right (by decide) (by omega)
  have hf : ∀ k, ps.sp.k * 2 ^ (ps.sp.a - k) ≤ ps.sp.k * 2 ^ ps.sp.a := fun k =>
    Nat.mul_le_mul_left _ (Nat.pow_le_pow_right (by decide) (by omega))
  cases x <;> simp only [Place.Exists] at h <;> simp only [Place.fields]
  case wotsHash j t l i s => have := ht j; omega
  case wotsPk j t l => have := ht j; omega
  case tree j t k i => have := ht j; have := hk k; omega
  case forsTree t l k i => have := hf k; omega
  case forsRoots t l => omega
  case wotsPrf j t l i => have := ht j; omega
  case forsPrf t l i => omega

/-- **C43** Two places of a key never share an address, not even in the compressed form. -/
theorem C43_addresses_distinct {x y : Place} (hx : x.Exists ps.sp) (hy : y.Exists ps.sp) (hne : x ≠ y) :
    x.adrs ≠ y.adrs ∧ Spec.compress x.adrs ≠ Spec.compress y.adrs := by
  have key : Spec.compress x.adrs ≠ Spec.compress y.adrs := by
    intro h
    rw [Place.adrs_eq, Place.adrs_eq] at h
    obtain ⟨a1, a2, a3, a4, a5, a6⟩ := Place.bounds hx
    obtain ⟨b1, b2, b3, b4, b5, b6⟩ := Place.bounds hy
    obtain ⟨h1, h2, h3, h4, h5, h6⟩ :=
      Spec.compress_adrs6_inj a1 a2 a3 a4 a5 a6 b1 b2 b3 b4 b5 b6 h
    refine hne (Place.fields_inj ?_)
    rw [Prod.ext_iff, Prod.ext_iff, Prod.ext_iff, Prod.ext_iff, Prod.ext_iff]
    exact ⟨h1, h2, h3, h4, h5, h6⟩
  exact ⟨fun h => key (by rw [h]), key⟩

example (ps : ParamSet) : (Place.forsPrf 0 0 1).Exists ps.sp ∧ (Place.wotsPrf 0 0 1 2).Exists ps.sp ∧
    Place.forsPrf 0 0 1 ≠ .wotsPrf 0 0 1 2 := by
  refine ⟨?_, ?_, by simp⟩ <;> simp only [Place.Exists] <;> cases ps <;> decide

section
variable (p : Spec.Params) (hf : Spec.HashFns)

/-- **C43** The functions of the standard hash at these addresses: chains and WOTS+ keys ... -/
theorem C43_wots_addresses {j t l : Nat} (hl : l < 2 ^ 32) (X SKseed PKseed : List UInt8) (i c s : Nat) :
    let A := Spec.setKeyPairAddress (Spec.setTypeAndClear (Spec.htAdrs j t) Spec.WOTS_HASH) l
    (Spec.chain hf X i (s + 1) PKseed (Spec.setChainAddress A c) =
      hf.F PKseed (Place.wotsHash j t l c (i + s)).adrs
        (Spec.chain hf X i s PKseed (Spec.setChainAddress A c))) ∧
    (Spec.wotsPKgen p hf SKseed PKseed A = hf.T PKseed (Place.wotsPk j t l).adrs
      (Spec.concat p.len fun i =>
        Spec.chain hf (hf.PRF PKseed SKseed (Place.wotsPrf j t l i).adrs) 0 15 PKseed
          (Spec.setChainAddress A i))) ∧
    ∀ M, Spec.wotsSign p hf M SKseed PKseed A = Spec.concat p.len fun i =>
      Spec.chain hf (hf.PRF PKseed SKseed (Place.wotsPrf j t l i).adrs) 0
        ((Spec.wotsDigits p M).getD i 0) PKseed (Spec.setChainAddress A i) := by
  dsimp only
  rw [Spec.wotsAdrs_eq, Spec.wotsPKgen, Spec.wotsPkAdrs_eq _ _ hl, Spec.wotsSkAdrs_eq _ _ hl]
  refine ⟨rfl, rfl, fun M => ?_⟩
  rw [Spec.wotsSign, Spec.wotsSkAdrs_eq _ _ hl]
  rfl

/-- **C43** ... XMSS trees ... -/
theorem C43_xmss_addresses (j t i z : Nat) (SKseed PKseed : List UInt8) :
    Spec.xmssNode p hf SKseed i (z + 1) PKseed (Spec.htAdrs j t) =
      hf.H PKseed (Place.tree j t (z + 1) i).adrs
        (Spec.xmssNode p hf SKseed (2 * i) z PKseed (Spec.htAdrs j t) ++
         Spec.xmssNode p hf SKseed (2 * i + 1) z PKseed (Spec.htAdrs j t)) := rfl

/-- **C43** ... and FORS trees. -/
theorem C43_fors_addresses {t l : Nat} (hl : l < 2 ^ 32) (i z : Nat) (SKseed PKseed : List UInt8) :
    (Spec.forsSKgen hf SKseed PKseed (Spec.forsAdrs t l) i =
      hf.PRF PKseed SKseed (Place.forsPrf t l i).adrs) ∧
    (Spec.forsNode hf SKseed i 0 PKseed (Spec.forsAdrs t l) =
      hf.F PKseed (Place.forsTree t l 0 i).adrs (hf.PRF PKseed SKseed (Place.forsPrf t l i).adrs)) ∧
    (Spec.forsNode hf SKseed i (z + 1) PKseed (Spec.forsAdrs t l) =
      hf.H PKseed (Place.forsTree t l (z + 1) i).adrs
        (Spec.forsNode hf SKseed (2 * i) z PKseed (Spec.forsAdrs t l) ++
         Spec.forsNode hf SKseed (2 * i + 1) z PKseed (Spec.forsAdrs t l))) ∧
    ∀ SIG md, ∃ roots, Spec.forsPkFromSig p hf SIG md PKseed (Spec.forsAdrs t l) =
      hf.T PKseed (Place.forsRoots t l).adrs roots := by
  have h1 : Spec.forsSKgen hf SKseed PKseed (Spec.forsAdrs t l) i =
      hf.PRF PKseed SKseed (Place.forsPrf t l i).adrs := by
    rw [Spec.forsSKgen, Spec.forsAdrs_eq, Spec.getKeyPairAddress_adrs6 _ _ _ _ _ hl]; rfl
  refine ⟨h1, ?_, rfl, fun SIG md => ?_⟩
  · rw [Spec.forsNode, h1]; rfl
  · rw [Spec.forsPkFromSig]
    have : Spec.getKeyPairAddress (Spec.forsAdrs t l) = l :=
      Spec.getKeyPairAddress_adrs6 0 t 3 0 0 hl
    rw [this]
    exact ⟨_, rfl⟩

end

example : (3 : Nat) < 2 ^ 32 := by decide

theorem child_indices {i z : UInt32} (h : (i.toNat + 1) * 2 ^ (z.toNat + 1) ≤ 2 ^ 32) :
    (z + 1).toNat = z.toNat + 1 ∧ (2 * i).toNat = 2 * i.toNat ∧ (2 * i + 1).toNat = 2 * i.toNat + 1 ∧
    (i.toNat + 1) * 2 ^ 0 ≤ 2 ^ 32 ∧ ((2 * i).toNat + 1) * 2 ^ z.toNat ≤ 2 ^ 32 ∧
    ((2 * i + 1).toNat + 1) * 2 ^ z.toNat ≤ 2 ^ 32 := by
  have hp : 0 < 2 ^ z.toNat := Nat.two_pow_pos _
  rw [Nat.pow_succ] at h
  have hz : z.toNat < 32 := by
    have h1 : 2 ^ z.toNat * 2 ≤ 2 ^ 32 := le_trans (Nat.le_mul_of_pos_left _ (by omega)) h
    by_contra hc
    have : 2 ^ 32 ≤ 2 ^ z.toNat := Nat.pow_le_pow_right (by decide) (by omega)
    omega
  have hi : 2 * (i.toNat + 1) ≤ 2 ^ 32 := by nlinarith
  have e0 : (z + 1).toNat = z.toNat + 1 := by
    rw [UInt32.toNat_add, Nat.mod_eq_of_lt (by simp; omega)]; rfl
  have e1 : (2 * i).toNat = 2 * i.toNat := by
    rw [UInt32.toNat_mul, Nat.mod_eq_of_lt (by simp; omega)]; rfl
  have e2 : (2 * i + 1).toNat = 2 * i.toNat + 1 := by
    rw [UInt32.toNat_add, e1, Nat.mod_eq_of_lt (by simp; omega)]; rfl
  refine ⟨e0, e1, e2, by omega, ?_, ?_⟩
  · rw [e1]; nlinarith
  · rw [e2]; nlinarith

/-- The address the hypertree functions of the code start from: layer `j`, tree `t`. -/
theorem to_32_ht_adrs (j : UInt32) (t : UInt64) :
    ((Adrs.default.set_layer_address j).set_tree_address t).bytes32 =
      Spec.htAdrs j.toNat t.toNat := by
  have h0 : (Adrs.default.set_layer_address j).f1Zero := rfl
  rw [Adrs.to_32_set_tree_address h0, Adrs.to_32_set_layer_address, Adrs.to_32_default]
  rfl

/-- **C43** The code does so as well: a further step of a chain is `F` at the place of that step ... -/
theorem C43_code_chain (b : Build) (j : UInt32) (t : UInt64) (l c : UInt32)
    (x : Vector UInt8 ps.params.N) {i s : UInt32} (h : i.toNat + s.toNat < 2 ^ 32 - 2)
    (pk_seed : List UInt8) :
    let adrs := ((((Adrs.default.set_layer_address j).set_tree_address t).set_type_and_clear
      WOTS_HASH).set_key_pair_address l).set_chain_address c
    ∃ v w, (chain (HASHERS ps.params (crypto P)) x i s pk_seed adrs : Exec b _) = pure v ∧
      (chain (HASHERS ps.params (crypto P)) x i (s + 1) pk_seed adrs : Exec b _) = pure w ∧
      w.toList = (ps.hf P).F pk_seed
        (Place.wotsHash j.toNat t.toNat l.toNat c.toNat (i.toNat + s.toNat)).adrs v.toList := by
  intro adrs
  have hs : (s + 1).toNat = s.toNat + 1 := by
    rw [UInt32.toNat_add, Nat.mod_eq_of_lt (by simp; omega)]; rfl
  obtain ⟨v, h1, h2⟩ := Exec.returns_iff.mp
    (chain_returns (ps.hashers P (m := Exec b)) x (i := i) (s := s) (by omega) pk_seed adrs)
  obtain ⟨w, h3, h4⟩ := Exec.returns_iff.mp
    (chain_returns (ps.hashers P (m := Exec b)) x (i := i) (s := s + 1) (by omega) pk_seed adrs)
  refine ⟨v, w, h1, h3, ?_⟩
  have hadrs : adrs.bytes32 = Spec.setChainAddress (Spec.setKeyPairAddress
      (Spec.setTypeAndClear (Spec.htAdrs j.toNat t.toNat) Spec.WOTS_HASH) l.toNat) c.toNat := by
    rw [Adrs.to_32_set_chain_address, Adrs.to_32_set_key_pair_address, Adrs.to_32_set_type_and_clear,
      to_32_ht_adrs]
    rfl
  rw [h2, h4, hs, hadrs]
  exact (C43_wots_addresses ps.sp (ps.hf P) l.toNat_lt x.toList [] pk_seed i.toNat c.toNat s.toNat).1

example : (3 : UInt32).toNat + (11 : UInt32).toNat < 2 ^ 32 - 2 := by decide

/-- **C43** ... an inner node of an XMSS tree is `H`, at the place of the node, of its two children ... -/
theorem C43_code_xmss (b : Build) (j : UInt32) (t : UInt64) {i z : UInt32}
    (h : (i.toNat + 1) * 2 ^ (z.toNat + 1) ≤ 2 ^ 32) (sk_seed pk_seed : List UInt8) :
    let adrs := (Adrs.default.set_layer_address j).set_tree_address t
    let node i z := (xmss_node (HASHERS ps.params (crypto P)) sk_seed i z pk_seed adrs : Exec b _)
    ∃ u v w, node (2 * i) z = pure u ∧ node (2 * i + 1) z = pure v ∧ node i (z + 1) = pure w ∧
      w.toList = (ps.hf P).H pk_seed (Place.tree j.toNat t.toNat (z.toNat + 1) i.toNat).adrs
        (u.toList ++ v.toList) := by
  intro adrs node
  obtain ⟨e0, e1, e2, h0, h1, h2⟩ := child_indices h
  obtain ⟨u, hu, hu'⟩ := Exec.returns_iff.mp (xmss_node_returns ps.matches (ps.hashers P (m := Exec b))
    sk_seed pk_seed adrs z.toNat (2 * i) z rfl h1)
  obtain ⟨v, hv, hv'⟩ := Exec.returns_iff.mp (xmss_node_returns ps.matches (ps.hashers P (m := Exec b))
    sk_seed pk_seed adrs z.toNat (2 * i + 1) z rfl h2)
  obtain ⟨w, hw, hw'⟩ := Exec.returns_iff.mp (xmss_node_returns ps.matches (ps.hashers P (m := Exec b))
    sk_seed pk_seed adrs (z.toNat + 1) i (z + 1) e0 h)
  refine ⟨u, v, w, hu, hv, hw, ?_⟩
  rw [hu', hv', hw', e1, e2, to_32_ht_adrs]
  exact C43_xmss_addresses ps.sp (ps.hf P) _ _ _ _ _ _

example : ((5 : UInt32).toNat + 1) * 2 ^ ((3 : UInt32).toNat + 1) ≤ 2 ^ 32 := by decide

/-- **C43** ... and a node of a FORS tree is `F`, at its place, of the secret value of the leaf, or `H`
of its children; a FORS public key is `T` at its place. -/
theorem C43_code_fors (b : Build) (t : UInt64) (l : UInt32) {i z : UInt32}
    (h : (i.toNat + 1) * 2 ^ (z.toNat + 1) ≤ 2 ^ 32) (sk_seed pk_seed : List UInt8)
    (sig : ForsSig ps.params.A ps.params.K ps.params.N) {md : List UInt8}
    (hmd : md.length = (ps.params.K * ps.params.A + 7) / 8) :
    let adrs := ((Adrs.default.set_tree_address t).set_type_and_clear FORS_TREE).set_key_pair_address l
    let node i z := (fors_node (HASHERS ps.params (crypto P)) sk_seed i z pk_seed adrs : Exec b _)
    (∃ v s, node i 0 = pure (.ok v) ∧
      fors_sk_gen (HASHERS ps.params (crypto P)) sk_seed pk_seed adrs i = (pure s : Exec b _) ∧
      s.toList = (ps.hf P).PRF pk_seed sk_seed (Place.forsPrf t.toNat l.toNat i.toNat).adrs ∧
      v.toList = (ps.hf P).F pk_seed (Place.forsTree t.toNat l.toNat 0 i.toNat).adrs s.toList) ∧
    (∃ u v w, node (2 * i) z = pure (.ok u) ∧ node (2 * i + 1) z = pure (.ok v) ∧
      node i (z + 1) = pure (.ok w) ∧
      w.toList = (ps.hf P).H pk_seed (Place.forsTree t.toNat l.toNat (z.toNat + 1) i.toNat).adrs
        (u.toList ++ v.toList)) ∧
    ∃ pk roots, fors_pk_from_sig (HASHERS ps.params (crypto P)) sig md pk_seed adrs =
        (pure pk : Exec b _) ∧
      pk.key.toList = (ps.hf P).T pk_seed (Place.forsRoots t.toNat l.toNat).adrs roots := by
  intro adrs node
  obtain ⟨e0, e1, e2, h0, h1, h2⟩ := child_indices h
  have hC := C43_fors_addresses ps.sp (ps.hf P) (t := t.toNat) l.toNat_lt i.toNat z.toNat sk_seed pk_seed
  obtain ⟨c1, c2, c3, c4⟩ := hC
  have R := ps.hashers P (m := Exec b)
  refine ⟨?_, ?_, ?_⟩
  · obtain ⟨r, hr, v, rfl, hv⟩ := Exec.returns_iff.mp (fors_node_returns R sk_seed pk_seed adrs 0 i 0 rfl h0)
    obtain ⟨s, hs, hs'⟩ := Exec.returns_iff.mp (fors_sk_gen_returns R sk_seed pk_seed adrs i)
    rw [to_32_fors_adrs] at hs' hv
    rw [c1] at hs'
    exact ⟨v, s, hr, hs, hs', by rw [hv, c2, hs']⟩
  · obtain ⟨r, hu, u, rfl, hu'⟩ := Exec.returns_iff.mp
      (fors_node_returns R sk_seed pk_seed adrs z.toNat (2 * i) z rfl h1)
    obtain ⟨r, hv, v, rfl, hv'⟩ := Exec.returns_iff.mp
      (fors_node_returns R sk_seed pk_seed adrs z.toNat (2 * i + 1) z rfl h2)
    obtain ⟨r, hw, w, rfl, hw'⟩ := Exec.returns_iff.mp
      (fors_node_returns R sk_seed pk_seed adrs (z.toNat + 1) i (z + 1) e0 h)
    refine ⟨u, v, w, hu, hv, hw, ?_⟩
    rw [hu', hv', hw', e1, e2, to_32_fors_adrs]
    exact c3
  · obtain ⟨pk, hpk, hpk'⟩ := Exec.returns_iff.mp (fors_pk_from_sig_returns ps.matches R sig hmd pk_seed adrs)
    rw [to_32_fors_adrs] at hpk'
    obtain ⟨roots, hroots⟩ := c4 sig.bytes md
    exact ⟨pk, roots, hpk, hpk'.trans hroots⟩

example (ps : ParamSet) : ((5 : UInt32).toNat + 1) * 2 ^ ((3 : UInt32).toNat + 1) ≤ 2 ^ 32 ∧
    (List.replicate ((ps.params.K * ps.params.A + 7) / 8) (7 : UInt8)).length =
      (ps.params.K * ps.params.A + 7) / 8 := ⟨by decide, by simp⟩

/-! ## PRF inputs -/

/-- A secret component of a key: a FORS leaf or the start of a WOTS+ chain. -/
def _root_.Fips205.Place.Secret : Place → Prop
  | .wotsPrf .. | .forsPrf .. => True
  | _ => False

/-- 11.1, 11.2: the string that is hashed to obtain a secret component. -/
def prfInput (ps : ParamSet) (PKseed SKseed : List UInt8) (x : Place) : List UInt8 :=
  match ps.family with
  | .shake => PKseed ++ x.adrs ++ SKseed
  | .sha2 => PKseed ++ List.replicate (64 - ps.sp.n) 0 ++ Spec.compress x.adrs ++ SKseed

/-- The hash applied to it. -/
def prfHash (P : Spec.Prims) (ps : ParamSet) (X : List UInt8) : List UInt8 :=
  match ps.family with
  | .shake => (P.shake256 X ps.sp.n).toList
  | .sha2 => (P.sha256 X).toList.take ps.sp.n

theorem prf_eq (PKseed SKseed : List UInt8) (x : Place) :
    (ps.hf P).PRF PKseed SKseed x.adrs = prfHash P ps (prfInput ps PKseed SKseed x) := by
  cases ps <;> rfl

/-- **C25** Different secret components of a key come from different PRF inputs, in both encodings. -/
theorem C25_prf_inputs_distinct (PKseed SKseed : List UInt8) {x y : Place} (hx : x.Exists ps.sp)
    (hy : y.Exists ps.sp) (_ : x.Secret) (_ : y.Secret) (hne : x ≠ y) :
    prfInput ps PKseed SKseed x ≠ prfInput ps PKseed SKseed y := by
  obtain ⟨h1, h2⟩ := C43_addresses_distinct hx hy hne
  intro h
  rw [prfInput, prfInput] at h
  split at h
  · exact h1 (List.append_cancel_left (List.append_cancel_right h))
  · exact h2 (List.append_cancel_left (List.append_cancel_right h))

example (ps : ParamSet) : (Place.forsPrf 0 0 1).Exists ps.sp ∧ (Place.forsPrf 0 1 1).Exists ps.sp ∧
    (Place.forsPrf 0 0 1).Secret ∧ (Place.forsPrf 0 1 1).Secret ∧
    Place.forsPrf 0 0 1 ≠ .forsPrf 0 1 1 := by
  refine ⟨?_, ?_, trivial, trivial, by simp⟩ <;> simp only [Place.Exists] <;> cases ps <;> decide

/-- **C25** The code derives the FORS secrets from these inputs ... -/
theorem C25_fors_secret (b : Build) (sk_seed pk_seed : List UInt8) (t : UInt64) (l idx : UInt32) :
    let adrs := ((Adrs.default.set_tree_address t).set_type_and_clear FORS_TREE).set_key_pair_address l
    ∃ v, (fors_sk_gen (HASHERS ps.params (crypto P)) sk_seed pk_seed adrs idx : Exec b _) = pure v ∧
      v.toList = prfHash P ps (prfInput ps pk_seed sk_seed (.forsPrf t.toNat l.toNat idx.toNat)) := by
  dsimp only
  obtain ⟨v, h1, h2⟩ := Exec.returns_iff.mp
    (fors_sk_gen_returns (ps.hashers P (m := Exec b)) sk_seed pk_seed
      (((Adrs.default.set_tree_address t).set_type_and_clear FORS_TREE).set_key_pair_address l) idx)
  refine ⟨v, h1, ?_⟩
  rw [h2, to_32_fors_adrs, (C43_fors_addresses ps.sp _ l.toNat_lt _ 0 _ _).1, prf_eq]

/-- **C25** ... and the WOTS+ chains start from these inputs, in key generation and signing. -/
theorem C25_wots_secret (b : Build) (sk_seed pk_seed : List UInt8) (j : UInt32) (t : UInt64) (l : UInt32)
    {msg : List UInt8} (hmsg : msg.length = ps.params.N) :
    let adrs := (((Adrs.default.set_layer_address j).set_tree_address t).set_type_and_clear
      WOTS_HASH).set_key_pair_address l
    let A i := (adrs.set_chain_address i).bytes32
    let secret i := prfHash P ps (prfInput ps pk_seed sk_seed (.wotsPrf j.toNat t.toNat l.toNat i))
    (∃ pk, (wots_pkgen (HASHERS ps.params (crypto P)) sk_seed pk_seed adrs : Exec b _) = pure pk ∧
      pk.val.toList = (ps.hf P).T pk_seed (Place.wotsPk j.toNat t.toNat l.toNat).adrs
        (Spec.concat ps.params.LEN fun i =>
          Spec.chain (ps.hf P) (secret i) 0 15 pk_seed (A (UInt32.ofNat i)))) ∧
    (∃ sig, (wots_sign (HASHERS ps.params (crypto P)) msg sk_seed pk_seed adrs : Exec b _) = pure sig ∧
      ∃ (n32 : UInt32) (digits : Vector UInt32 ps.params.LEN), n32.toNat = ps.params.N ∧
      (wots_sign_digits ps.params.LEN ps.params.N msg n32 : Exec b _) = pure digits ∧
      ∀ i (h : i < ps.params.LEN), sig.data[i].toList =
        Spec.chain (ps.hf P) (secret i) 0 digits[i].toNat pk_seed (A (UInt32.ofNat i))) := by
  intro adrs A secret
  have hN := ps.matches.N_le
  have hpn : ps.sp.n = ps.params.N := ps.matches.n
  have hl : ps.sp.len = ps.params.LEN := by
    rw [ps.matches.len, Spec.Params.len, Spec.Params.len1, hpn]; rfl
  have hlen : ps.params.LEN ≤ 67 := by cases ps <;> decide
  have hadrs : adrs.bytes32 =
      Spec.setKeyPairAddress (Spec.setTypeAndClear (Spec.htAdrs j.toNat t.toNat) Spec.WOTS_HASH)
        l.toNat := by
    have h0 : (Adrs.default.set_layer_address j).f1Zero := rfl
    rw [Adrs.to_32_set_key_pair_address, Adrs.to_32_set_type_and_clear,
      Adrs.to_32_set_tree_address h0, Adrs.to_32_set_layer_address, Adrs.to_32_default]
    rfl
  have hA : ∀ i < ps.params.LEN, A (UInt32.ofNat i) = Spec.setChainAddress
      (Spec.setKeyPairAddress (Spec.setTypeAndClear (Spec.htAdrs j.toNat t.toNat) Spec.WOTS_HASH)
        l.toNat) i := by
    intro i hi
    change (adrs.set_chain_address (UInt32.ofNat i)).bytes32 = _
    rw [Adrs.to_32_set_chain_address, hadrs, UInt32.toNat_ofNat_of_lt' (by
      have : (2 : Nat) ^ 32 = UInt32.size := rfl
      omega)]
  have hC := C43_wots_addresses ps.sp (ps.hf P) (j := j.toNat) (t := t.toNat) l.toNat_lt [] sk_seed
    pk_seed 0 0 0
  dsimp only at hC
  obtain ⟨-, hC1, hC2⟩ := hC
  constructor
  · obtain ⟨v, h1, h2⟩ := Exec.returns_iff.mp
      (wots_pkgen_returns ps.matches (ps.hashers P (m := Exec b)) sk_seed pk_seed adrs)
    refine ⟨v, h1, ?_⟩
    rw [h2, hadrs, hC1, hl]
    refine congrArg _ (Spec.concat_congr fun i hi => ?_)
    rw [hA i hi, prf_eq]
  · obtain ⟨v, h1, h2⟩ := Exec.returns_iff.mp
      (wots_sign_returns ps.matches (ps.hashers P (m := Exec b)) hmsg sk_seed pk_seed adrs)
    have hn : (UInt32.ofNat ps.params.N).toNat = ps.params.N := by cases ps <;> rfl
    obtain ⟨u, hu, hu'⟩ := Exec.returns_iff.mp
      (wots_sign_digits_returns (m := Exec b) ps.matches hmsg hn)
    refine ⟨v, h1, _, u, hn, hu, fun i hi => ?_⟩
    rw [digit_of hu' hi, ← slice_absorbAll v.data hi, h2, hadrs, hA i hi, hC2]
    change _ = Spec.chain (ps.hf P) (prfHash P ps (prfInput ps pk_seed sk_seed _)) _ _ _ _
    rw [← prf_eq]
    rw [hl, ← hpn, Spec.slice_concat (fun i _ => Spec.chain_length (ps.valid P) ?_ _ _ _ _) hi]
    exact (ps.valid P).PRF _ _ _

example (ps : ParamSet) : (List.replicate ps.params.N (7 : UInt8)).length = ps.params.N := by simp

/-! ## Accepted signatures -/

/-- `pk` accepts `sig`, in some build, for a message whose formatted form is `M`. -/
inductive Accepted (P : Spec.Prims) (pk : PublicKey ps.params) (sig : Vector UInt8 ps.params.SIG_LEN) :
    List UInt8 → Prop
  | pure (b : Build) (msg ctx : List UInt8)
      (h : pk.verify (crypto P) msg sig ctx = (Pure.pure true : Exec b Bool)) :
      Accepted P pk sig (Spec.pureMsg ctx msg)
  | hash (b : Build) (msg ctx : List UInt8) (ph : Ph)
      (h : pk.hash_verify (crypto P) msg sig ctx ph = (Pure.pure true : Exec b Bool)) :
      Accepted P pk sig (Spec.prehashMsg ctx (Spec.oid ph.spec) (Spec.preHash P msg ph.spec))

/-- `sk` made `sig`, in some build and with some RNG, for a message whose formatted form is `M`. -/
inductive SignedBy (P : Spec.Prims) (sk : PrivateKey ps.params) (sig : Vector UInt8 ps.params.SIG_LEN) :
    List UInt8 → Prop
  | pure {σ : Type} (b : Build) (rng : Rng (Exec b) σ) (s s' : σ) (msg ctx : List UInt8) (hedged : Bool)
      (h : sk.try_sign_with_rng (crypto P) rng s msg ctx hedged = Pure.pure (s', .ok sig)) :
      SignedBy P sk sig (Spec.pureMsg ctx msg)
  | hash {σ : Type} (b : Build) (rng : Rng (Exec b) σ) (s s' : σ) (msg ctx : List UInt8) (ph : Ph)
      (hedged : Bool)
      (h : sk.try_hash_sign_with_rng (crypto P) rng s msg ctx ph hedged = Pure.pure (s', .ok sig)) :
      SignedBy P sk sig (Spec.prehashMsg ctx (Spec.oid ph.spec) (Spec.preHash P msg ph.spec))

theorem Accepted.internal {pk : PublicKey ps.params} {sig : Vector UInt8 ps.params.SIG_LEN}
    {M : List UInt8} (h : Accepted P pk sig M) : Spec.verifyInternal ps.sp (ps.hf P) M sig.toList
      pk.key.pk_seed.toList pk.key.pk_root.toList = true := by
  cases h with
  | pure b msg ctx h =>
    rw [exec_verify, Spec.verify] at h
    have h := Exec.pure_inj h
    split at h
    · cases h
    · exact h
  | hash b msg ctx ph h =>
    rw [exec_hash_verify, Spec.hashVerify] at h
    have h := Exec.pure_inj h
    split at h
    · cases h
    · exact h

theorem SignedBy.eq {sk : PrivateKey ps.params} {sig : Vector UInt8 ps.params.SIG_LEN} {M : List UInt8}
    (h : SignedBy P sk sig M) : ∃ o, sig = sigVec ps P M sk.key o := by
  cases h with
  | pure b rng s s' msg ctx hedged h =>
    obtain ⟨_, o, _, h⟩ := try_sign_ok h
    exact ⟨o, h⟩
  | hash b rng s s' msg ctx ph hedged h =>
    obtain ⟨_, o, _, h⟩ := try_hash_sign_ok h
    exact ⟨o, h⟩

theorem SignedBy.withR {sk : PrivateKey ps.params} {sig : Vector UInt8 ps.params.SIG_LEN} {M : List UInt8}
    (h : SignedBy P sk sig M) : sig.toList = Spec.signWithR ps.sp (ps.hf P) (sig.toList.take ps.sp.n) M
      sk.key.sk_seed.toList sk.key.pk_seed.toList sk.key.pk_root.toList := by
  obtain ⟨o, rfl⟩ := h.eq
  have hR : ((ps.hf P).PRFmsg sk.key.sk_prf.toList o.toList M).length = ps.sp.n :=
    (ps.valid P).PRFmsg _ _ _
  rw [sigVec_toList, Spec.signInternal]
  have : ∀ R : List UInt8, R.length = ps.sp.n → (Spec.signWithR ps.sp (ps.hf P) R M
      sk.key.sk_seed.toList sk.key.pk_seed.toList sk.key.pk_root.toList).take ps.sp.n = R := by
    intro R hR
    rw [Spec.signWithR, List.append_assoc, ← hR]
    exact List.take_left
  rw [this _ hR]

/-- What the verifier computes from `sig`, against what the owner of `sk` computes. -/
def against (P : Spec.Prims) (sk : PrivateKey ps.params) (sig : Vector UInt8 ps.params.SIG_LEN)
    (M : List UInt8) : Spec.Attempt :=
  Spec.attempt ps.sp (ps.hf P) M sig.toList sk.key.sk_seed.toList sk.key.pk_seed.toList
    sk.key.pk_root.toList

/-- The signature of the owner of `sk` for the randomizer contained in `sig`. -/
def honest (P : Spec.Prims) (sk : PrivateKey ps.params) (sig : Vector UInt8 ps.params.SIG_LEN)
    (M : List UInt8) : List UInt8 :=
  Spec.signWithR ps.sp (ps.hf P) (sig.toList.take ps.sp.n) M sk.key.sk_seed.toList sk.key.pk_seed.toList
    sk.key.pk_root.toList

theorem n_le (ps : ParamSet) : ps.sp.n ≤ 128 := by cases ps <;> decide

/-- **C26** A signature accepted by a generated key is the one its owner makes for the randomizer it
contains, or it is a different one and then shows a second preimage of `F`, `H` or `T`, or a value of a
WOTS+ chain before the one the owner publishes. -/
theorem C26_honest_or_break {pk : PublicKey ps.params} {sk : PrivateKey ps.params}
    (hk : Generated P pk sk) {sig : Vector UInt8 ps.params.SIG_LEN} {M : List UInt8}
    (h : Accepted P pk sig M) :
    (sig.toList = honest P sk sig M ∧ ¬ (against P sk sig M).Break) ∨
    (sig.toList ≠ honest P sk sig M ∧ (against P sk sig M).Break) := by
  obtain ⟨hc, rfl⟩ := hk.consistent
  have hv : Spec.verifyInternal ps.sp (ps.hf P) M sig.toList sk.key.pk_seed.toList
    sk.key.pk_root.toList = true := h.internal
  have hroot : sk.key.pk_root.toList = Spec.pkRoot ps.sp (ps.hf P) sk.key.sk_seed.toList
      sk.key.pk_seed.toList := by
    rw [hc, rootVec_toList]
  have hR : (sig.toList.take ps.sp.n).length = ps.sp.n := by
    have : ps.sp.n ≤ ps.params.SIG_LEN := by cases ps <;> decide
    rw [List.length_take, Vector.length_toList]
    omega
  by_cases e : sig.toList = honest P sk sig M
  · refine .inl ⟨e, ?_⟩
    rw [against, e]
    exact Spec.attempt_signWithR ps.wf (ps.valid P) hR
  · refine .inr ⟨e, ?_⟩
    rw [hroot] at hv
    have := (Spec.verify_extract ps.wf (ps.valid P) (n_le ps) hv).resolve_right (by
      rw [← hroot]
      exact e)
    rw [against, hroot]
    exact this

/-- **C26** What a break is, in terms of hash values: two different inputs with the same value of `F`,
`H` or `T` for the same seed and address, or a chain value that hashes to the published one in one or
more steps. -/
theorem C26_break_meaning {c : Spec.Attempt} (h : c.Break) :
    (∃ ADRS x y, x ≠ y ∧ (c.hf.F c.PKseed ADRS x = c.hf.F c.PKseed ADRS y ∨
      c.hf.H c.PKseed ADRS x = c.hf.H c.PKseed ADRS y ∨
      c.hf.T c.PKseed ADRS x = c.hf.T c.PKseed ADRS y)) ∨
    ∃ j i s, 0 < s ∧ c.vDigit j i + s = c.hDigit j i ∧
      Spec.chain c.hf (c.vWots j i) (c.vDigit j i) s c.PKseed (c.chainAdrs j i) =
        c.hChain j i (c.hDigit j i) := by
  cases h with
  | chainStep j i s _ _ _ _ ne eq => exact .inl ⟨_, _, _, ne, .inl eq⟩
  | wotsPk j _ ne eq => exact .inl ⟨_, _, _, ne, .inr (.inr eq)⟩
  | xmssNode j k _ _ ne eq => exact .inl ⟨_, _, _, ne, .inr (.inl eq)⟩
  | forsPk ne eq => exact .inl ⟨_, _, _, ne, .inr (.inr eq)⟩
  | forsNode i k _ _ ne eq => exact .inl ⟨_, _, _, ne, .inr (.inl eq)⟩
  | forsLeaf i _ ne eq => exact .inl ⟨_, _, _, ne, .inl eq⟩
  | unpublished j i _ _ _ lt eq =>
    refine .inr ⟨j, i, c.hDigit j i - c.vDigit j i, by omega, by omega, ?_⟩
    rw [eq, Spec.Attempt.hChain_add]
    congr 1
    omega

theorem SignedBy.accepted {pk : PublicKey ps.params} {sk : PrivateKey ps.params} (hk : Generated P pk sk)
    {sig : Vector UInt8 ps.params.SIG_LEN} {M : List UInt8} (h : SignedBy P sk sig M) :
    Accepted P pk sig M := by
  obtain ⟨hc, rfl⟩ := hk.consistent
  cases h with
  | pure b rng s s' msg ctx hedged h => exact .pure b msg ctx ((hc.signsFor b b _ rng s s' _ _ _ _).1 h)
  | hash b rng s s' msg ctx ph hedged h =>
    exact .hash b msg ctx ph ((hc.signsFor b b _ rng s s' _ _ _ _).2 _ h)

/-- A concrete accepted signature. -/
example (ps : ParamSet) : ∃ sig, Accepted demoPrims (demoKeys ps).1 sig (Spec.pureMsg [9] [104, 105]) := by
  obtain ⟨s', sig, h⟩ := demo_sign ps demoBuild true
  exact ⟨sig, (SignedBy.pure demoBuild _ _ _ _ _ _ h).accepted (demo_generated ps)⟩

/-- **C27** Altering a signature without touching its randomizer needs a break. -/
theorem C27_altering_needs_break {pk : PublicKey ps.params} {sk : PrivateKey ps.params}
    (hk : Generated P pk sk) {sig sig' : Vector UInt8 ps.params.SIG_LEN} {M : List UInt8}
    (hs : SignedBy P sk sig M) (hne : sig' ≠ sig) (hR : sig'.toList.take ps.sp.n = sig.toList.take ps.sp.n)
    (h : Accepted P pk sig' M) : (against P sk sig' M).Break := by
  rcases C26_honest_or_break hk h with ⟨e, _⟩ | ⟨_, hb⟩
  · rw [honest, hR] at e
    exact absurd (Vector.toList_inj.mp (e.trans hs.withR.symm)) hne
  · exact hb

/-- Hash functions for which every signature is accepted. -/
def zeroPrims : Spec.Prims where
  sha256 _ := Vector.replicate _ 0
  sha512 _ := Vector.replicate _ 0
  shake128 _ _ := Vector.replicate _ 0
  shake256 _ _ := Vector.replicate _ 0

theorem zero_H (ps : ParamSet) (a b c : List UInt8) :
    (ps.hf zeroPrims).H a b c = List.replicate ps.sp.n 0 := by
  cases ps <;> rfl

theorem zero_accepts (ps : ParamSet) (M SIG SKseed PKseed : List UInt8) (h : SIG.length = ps.sp.sigLen) :
    Spec.verifyInternal ps.sp (ps.hf zeroPrims) M SIG PKseed
      (Spec.pkRoot ps.sp (ps.hf zeroPrims) SKseed PKseed) = true := by
  have hroot : Spec.pkRoot ps.sp (ps.hf zeroPrims) SKseed PKseed = List.replicate ps.sp.n 0 := by
    have : ∀ z i A, Spec.xmssNode ps.sp (ps.hf zeroPrims) SKseed i (z + 1) PKseed A =
      List.replicate ps.sp.n 0 := fun _ _ _ => zero_H ps _ _ _
    have hp : ps.sp.hp = ps.sp.hp - 1 + 1 := by cases ps <;> rfl
    rw [Spec.pkRoot, hp, this]
  have hd : ps.sp.d = ps.sp.d - 1 + 1 := by cases ps <;> rfl
  have hx : ∀ idx S M' A, Spec.xmssPkFromSig ps.sp (ps.hf zeroPrims) idx S M' PKseed A =
      List.replicate ps.sp.n 0 := by
    intro idx S M' A
    have hc : ∀ auth z A N, (Spec.climb (ps.hf zeroPrims) PKseed idx auth (z + 1) A N).2 =
        List.replicate ps.sp.n 0 := by
      intro auth z A N
      rw [Spec.climb, List.range_succ, List.foldl_append, List.foldl_cons, List.foldl_nil]
      split <;> exact zero_H ps _ _ _
    have hp : ps.sp.hp = ps.sp.hp - 1 + 1 := by cases ps <;> rfl
    rw [Spec.xmssPkFromSig]
    generalize ps.sp.hp = q at hp ⊢
    cases q with
    | zero => cases hp
    | succ q => exact hc _ _ _ _
  rw [Spec.verifyInternal, if_neg (by simpa using h), Spec.htVerify_eq, hroot]
  generalize ps.sp.d = q at hd ⊢
  rw [hd, Spec.rootMsg, hx]
  exact beq_self_eq_true _

/-- With these hash functions, a signature and an altered one that is accepted too. -/
example (ps : ParamSet) : ∃ pk sk, ∃ sig sig' : Vector UInt8 ps.params.SIG_LEN, ∃ M,
    Generated zeroPrims pk sk ∧ SignedBy zeroPrims sk sig M ∧ sig' ≠ sig ∧
    sig'.toList.take ps.sp.n = sig.toList.take ps.sp.n ∧ Accepted zeroPrims pk sig' M := by
  let sd : Vector UInt8 ps.params.N := Vector.replicate _ 0
  let ks := keyPair ps zeroPrims sd sd sd
  have hg : Generated zeroPrims ks.1 ks.2 := .seeds (b := demoBuild) sd sd sd (exec_keygen_with_seeds _ _ _)
  obtain ⟨s', sig, hs⟩ : ∃ s' sig, ks.2.try_sign_with_rng (crypto zeroPrims)
      (demoRng.lift : Rng (Exec demoBuild) Nat) 3 [] [] false = pure (s', .ok sig) := by
    rw [exec_try_sign_with_rng]
    exact ⟨_, _, rfl⟩
  have hlast : ps.params.SIG_LEN - 1 < ps.params.SIG_LEN := by cases ps <;> decide
  refine ⟨_, _, sig, sig.set (ps.params.SIG_LEN - 1) (sig[ps.params.SIG_LEN - 1] + 1), _, hg,
    .pure demoBuild _ _ _ _ _ _ hs, ?_, ?_, .pure demoBuild [] [] ?_⟩
  · intro e
    have := congrArg (fun v => v[ps.params.SIG_LEN - 1]) e
    simp at this
  · rw [Vector.toList_set, List.take_set_of_le]
    cases ps <;> decide
  · rw [exec_verify, Spec.verify, if_neg (by simp)]
    refine congrArg _ ?_
    rw [show ks.1.key.pk_root.toList = _ from rootVec_toList _ _]
    refine zero_accepts ps _ _ _ _ ?_
    rw [Vector.length_toList]
    cases ps <;> rfl

/-! ## One-time keys -/

/-- The leaf of the whole hypertree a signature uses: `idx_tree` and `idx_leaf` joined. -/
def leafIndex (P : Spec.Prims) (sk : PrivateKey ps.params) (sig : Vector UInt8 ps.params.SIG_LEN)
    (M : List UInt8) : Nat :=
  let digest := (ps.hf P).Hmsg (sig.toList.take ps.sp.n) sk.key.pk_seed.toList sk.key.pk_root.toList M
  Spec.digestTree ps.sp digest * 2 ^ ps.sp.hp + Spec.digestLeaf ps.sp digest

/-- The part of a signature made with the XMSS tree of layer `j`: the WOTS+ signature and the
authentication path. -/
def layerSig (sig : Vector UInt8 ps.params.SIG_LEN) (j : Nat) : List UInt8 :=
  let p := ps.sp
  (sig.toList.drop ((1 + p.k * (1 + p.a)) * p.n + j * ((p.hp + p.len) * p.n))).take
    ((p.hp + p.len) * p.n)

theorem htTree_leafIndex {p : Spec.Params} {t l : Nat} (hl : l < 2 ^ p.hp) (j : Nat) :
    Spec.htTree p t j = (t * 2 ^ p.hp + l) / 2 ^ (p.hp * j) / 2 ^ p.hp := by
  rw [Nat.div_div_eq_div_mul, Nat.mul_comm (2 ^ (p.hp * j)), ← Nat.div_div_eq_div_mul, Nat.mul_comm t,
    Nat.mul_add_div (Nat.two_pow_pos _), Nat.div_eq_of_lt hl]
  rfl

theorem htLeaf_leafIndex {p : Spec.Params} {t l : Nat} (hl : l < 2 ^ p.hp) (j : Nat) :
    Spec.htLeaf p t l j = (t * 2 ^ p.hp + l) / 2 ^ (p.hp * j) % 2 ^ p.hp := by
  cases j with
  | zero =>
    rw [Nat.mul_zero, Nat.pow_zero, Nat.div_one, Nat.mul_comm, Nat.mul_add_mod, Nat.mod_eq_of_lt hl]
    rfl
  | succ j =>
    rw [Spec.htLeaf, htTree_leafIndex hl, Nat.div_div_eq_div_mul, ← Nat.pow_add, Nat.mul_succ]

/-- The value signed in layer `j` is determined by the leaf used there. -/
theorem signMsg_leaf {p : Spec.Params} {hf : Spec.HashFns} {m : Nat} (W : p.WF)
    (V : Spec.Valid hf p.n m) (SKseed PKseed : List UInt8) {t l t' l' : Nat} (hl : l < 2 ^ p.hp)
    (hl' : l' < 2 ^ p.hp) {j : Nat}
    (h : (t * 2 ^ p.hp + l) / 2 ^ (p.hp * j) = (t' * 2 ^ p.hp + l') / 2 ^ (p.hp * j)) :
    Spec.signSig p hf SKseed PKseed (Spec.Attempt.hForsPk ⟨p, hf, SKseed, PKseed, [], t, l, [], []⟩) t l j =
    Spec.signSig p hf SKseed PKseed (Spec.Attempt.hForsPk ⟨p, hf, SKseed, PKseed, [], t', l', [], []⟩)
      t' l' j := by
  have h1 : Spec.htTree p t j = Spec.htTree p t' j := by
    rw [htTree_leafIndex hl, htTree_leafIndex hl', h]
  have h2 : Spec.htLeaf p t l j = Spec.htLeaf p t' l' j := by
    rw [htLeaf_leafIndex hl, htLeaf_leafIndex hl', h]
  rw [Spec.signSig, Spec.signSig, h1, h2]
  cases j with
  | zero =>
    have e1 : t = t' := by rwa [Spec.htTree_zero, Spec.htTree_zero] at h1
    have e2 : l = l' := h2
    rw [e1, e2]
  | succ j =>
    have h3 : Spec.htTree p t j = Spec.htTree p t' j := by
      rw [Spec.htTree_succ, Spec.htTree_succ] at h1
      have h2' : Spec.htTree p t j % 2 ^ p.hp = Spec.htTree p t' j % 2 ^ p.hp := h2
      rw [← Nat.div_add_mod (Spec.htTree p t j) (2 ^ p.hp), h1, h2', Nat.div_add_mod]
    rw [Spec.signMsg_succ W V _ _ _ _ hl, Spec.signMsg_succ W V _ _ _ _ hl', h3]

theorem SignedBy.layerSig {sk : PrivateKey ps.params} {sig : Vector UInt8 ps.params.SIG_LEN} {M : List UInt8}
    (h : SignedBy P sk sig M) {j : Nat} (hj : j < ps.sp.d) :
    let digest := (ps.hf P).Hmsg (sig.toList.take ps.sp.n) sk.key.pk_seed.toList sk.key.pk_root.toList M
    let t := Spec.digestTree ps.sp digest
    let l := Spec.digestLeaf ps.sp digest
    Props.layerSig sig j = Spec.signSig ps.sp (ps.hf P) sk.key.sk_seed.toList sk.key.pk_seed.toList
      (Spec.Attempt.hForsPk
        ⟨ps.sp, ps.hf P, sk.key.sk_seed.toList, sk.key.pk_seed.toList, [], t, l, [], []⟩) t l j := by
  intro digest t l
  have hR : (sig.toList.take ps.sp.n).length = ps.sp.n := by
    have : ps.sp.n ≤ ps.params.SIG_LEN := by cases ps <;> decide
    rw [List.length_take, Vector.length_toList]
    omega
  have e := Spec.signWithR_layer ps.wf (ps.valid P) (M := M) (SKseed := sk.key.sk_seed.toList)
    (PKseed := sk.key.pk_seed.toList) (PKroot := sk.key.pk_root.toList) hR (t := t) (l := l) rfl rfl hj
  rw [← h.withR, Spec.slice, Nat.add_sub_add_left, ← Nat.sub_mul, Nat.add_sub_cancel_left,
    Nat.one_mul] at e
  exact e

/-- **C42** Whatever messages are signed, an XMSS leaf signs only one value: two signatures of one key
that use the same leaf of layer `j` (the joined indices agree from that layer up) contain the same WOTS+
signature and authentication path there. -/
theorem C42_wots_key_signs_one_value {sk : PrivateKey ps.params}
    {sig sig' : Vector UInt8 ps.params.SIG_LEN} {M M' : List UInt8} (h : SignedBy P sk sig M)
    (h' : SignedBy P sk sig' M') {j : Nat} (hj : j < ps.sp.d)
    (hleaf : leafIndex P sk sig M / 2 ^ (ps.sp.hp * j) = leafIndex P sk sig' M' / 2 ^ (ps.sp.hp * j)) :
    layerSig sig j = layerSig sig' j := by
  rw [h.layerSig hj, h'.layerSig hj]
  have hlt : ∀ D, Spec.digestLeaf ps.sp D < 2 ^ ps.sp.hp := by
    intro D
    have := Spec.digestLeaf_lt (p := ps.sp) D
    rwa [ps.wf.hd] at this
  exact signMsg_leaf ps.wf (ps.valid P) _ _ (hlt _) (hlt _) hleaf

/-- Two signatures of different messages that use the same leaves. -/
example (ps : ParamSet) : ∃ sk, ∃ sig sig' : Vector UInt8 ps.params.SIG_LEN, ∃ M M',
    SignedBy zeroPrims sk sig M ∧ SignedBy zeroPrims sk sig' M' ∧ M ≠ M' ∧ 0 < ps.sp.d ∧
    leafIndex zeroPrims sk sig M / 2 ^ (ps.sp.hp * 0) = leafIndex zeroPrims sk sig' M' / 2 ^ (ps.sp.hp * 0) := by
  let sd : Vector UInt8 ps.params.N := Vector.replicate _ 0
  have hs : ∀ msg, ∃ s' sig, (keyPair ps zeroPrims sd sd sd).2.try_sign_with_rng (crypto zeroPrims)
      (demoRng.lift : Rng (Exec demoBuild) Nat) 3 msg [] false = pure (s', .ok sig) := by
    intro msg
    rw [exec_try_sign_with_rng]
    exact ⟨_, _, rfl⟩
  obtain ⟨s1, sig1, h1⟩ := hs [1]
  obtain ⟨s2, sig2, h2⟩ := hs [2]
  refine ⟨_, sig1, sig2, _, _, .pure demoBuild _ _ _ _ _ _ h1, .pure demoBuild _ _ _ _ _ _ h2, by decide,
    by cases ps <;> decide, ?_⟩
  have : ∀ a b c d a' b' c' d', (ps.hf zeroPrims).Hmsg a b c d = (ps.hf zeroPrims).Hmsg a' b' c' d' := by
    cases ps <;> intros <;> rfl
  rw [leafIndex, leafIndex, this]

end Fips205.Props
