import Verif.Proofs.Hypertree
import Verif.Model.Fors

/-! # Refinement of `src/fors.rs` -/

namespace Fips205.Model
open Fips205

set_option linter.unusedSectionVars false

/-- The bytes of one tree of a FORS signature. -/
def forsPart {A N : Nat} (x : Vector UInt8 N × Auth A N) : List UInt8 := x.1.toList ++ absorbAll x.2.tree

/-- The bytes of a FORS signature. -/
def ForsSig.bytes {A K N : Nat} (s : ForsSig A K N) : List UInt8 :=
  (s.private_key_value.zip s.auth).toList.flatMap forsPart

theorem forsPart_length {A N : Nat} (x : Vector UInt8 N × Auth A N) :
    (forsPart x).length = (A + 1) * N := by
  rw [forsPart, List.length_append, absorbAll_length, Vector.length_toList]; ring

theorem ForsSig.bytes_length {A K N : Nat} (s : ForsSig A K N) :
    s.bytes.length = K * ((A + 1) * N) := length_flatMap _ forsPart_length

theorem ForsSig.slice_bytes {A K N : Nat} (s : ForsSig A K N) {i : Nat} (hi : i < K) :
    Spec.slice s.bytes (i * ((A + 1) * N)) ((i + 1) * ((A + 1) * N)) =
      s.private_key_value[i].toList ++ absorbAll s.auth[i].tree := by
  rw [bytes, slice_flatMap _ forsPart_length hi, Vector.getElem_zip]; rfl

variable {m : Type → Type} [Rust m] [LawfulMonad m] {K LEN M N A D H HP : Nat}
  {p : Spec.Params} {hs : Hashers m K LEN M N} {hf : Spec.HashFns}

theorem fors_sk_gen_returns (R : HashersRefine hs hf) (sk_seed pk_seed : List UInt8) (adrs : Adrs)
    (idx : UInt32) :
    Returns (fors_sk_gen hs sk_seed pk_seed adrs idx)
      (fun v => v.toList = Spec.forsSKgen hf sk_seed pk_seed adrs.bytes32 idx.toNat) := by
  unfold fors_sk_gen
  refine (R.prf _ _ _).mono fun v hv => ?_
  rw [hv, Adrs.to_32_set_tree_index, Adrs.to_32_set_key_pair_address,
    Adrs.to_32_set_type_and_clear, Adrs.toNat_get_key_pair_address]
  rfl

theorem fors_node_returns (R : HashersRefine hs hf) (sk_seed pk_seed : List UInt8) (adrs : Adrs) :
    ∀ (n : Nat) (i z : UInt32), z.toNat = n → (i.toNat + 1) * 2 ^ n ≤ 2 ^ 32 →
    Returns (fors_node hs sk_seed i z pk_seed adrs)
      (fun r => ∃ v, r = .ok v ∧
        v.toList = Spec.forsNode hf sk_seed i.toNat n pk_seed adrs.bytes32) := by
  intro n
  induction n with
  | zero =>
    intro i z hz _
    have := u32_eq_zero hz
    subst this
    rw [fors_node]
    refine Returns.leak ?_
    simp only [dite_true]
    refine (fors_sk_gen_returns R _ _ _ _).bind fun sk hsk => ?_
    refine (R.f _ _ _).bind fun v hv => Returns.pure ⟨v, rfl, ?_⟩
    rw [hv, hsk, Adrs.to_32_set_tree_index, Adrs.to_32_set_tree_height]
    rfl
  | succ n ih =>
    intro i z hz hi
    rw [fors_node]
    refine Returns.leak ?_
    have hz0 : z ≠ 0 := by rintro rfl; simp at hz
    rw [dif_neg hz0]
    have hz1 : (z - 1).toNat = n := by
      rw [UInt32.toNat_sub_of_le _ _ (by rw [UInt32.le_iff_toNat_le]; simp; omega), hz]; simp
    have hpow : 1 ≤ 2 ^ n := Nat.one_le_two_pow
    have hi2 : (2 * i.toNat + 2) * 2 ^ n ≤ 2 ^ 32 := by
      rw [Nat.pow_succ] at hi
      calc (2 * i.toNat + 2) * 2 ^ n = (i.toNat + 1) * (2 ^ n * 2) := by ring
        _ ≤ _ := hi
    have hi3 : 2 * i.toNat + 2 ≤ 2 ^ 32 :=
      Nat.le_trans (Nat.le_mul_of_pos_right _ (by omega)) hi2
    have e1 : (2 * i).toNat = 2 * i.toNat := by
      rw [UInt32.toNat_mul, Nat.mod_eq_of_lt (by simp; omega)]; simp
    have e2 : (2 * i + 1).toNat = 2 * i.toNat + 1 := by
      rw [UInt32.toNat_add, e1, Nat.mod_eq_of_lt (by simp; omega)]; simp
    refine Returns.mulU32 (by simp; omega) ?_
    refine (ih (2 * i) (z - 1) hz1 ?_).bind ?_
    · rw [e1]
      exact Nat.le_trans (Nat.mul_le_mul_right _ (by omega)) hi2
    rintro _ ⟨l, rfl, hl⟩
    refine Returns.leak ?_
    dsimp only
    refine Returns.mulU32 (by simp; omega) ?_
    refine Returns.addU32 (by rw [e1]; simp; omega) ?_
    refine (ih (2 * i + 1) (z - 1) hz1 ?_).bind ?_
    · rw [e2]; exact hi2
    rintro _ ⟨r, rfl, hr⟩
    refine Returns.leak ?_
    dsimp only
    refine (R.h _ _ _ _).bind fun v hv => Returns.pure ⟨v, rfl, ?_⟩
    rw [hv, hl, hr, e1, e2, Adrs.to_32_set_tree_index, Adrs.to_32_set_tree_height, hz]
    rfl

theorem base2b_getD_lt {X : List UInt8} {b o i : Nat} : (Spec.base2b X b o).getD i 0 < 2 ^ b := by
  by_cases h : i < (Spec.base2b X b o).length
  · rw [List.getD_eq_getElem _ _ h]
    exact base2b_lt _ (List.getElem_mem h)
  · rw [List.getD_eq_default _ _ (by omega)]; exact Nat.two_pow_pos _

theorem shl_toNat {x j : UInt32} (hj : j.toNat < 32) (h : x.toNat * 2 ^ j.toNat < 2 ^ 32) :
    (x <<< j).toNat = x.toNat * 2 ^ j.toNat := by
  rw [UInt32.toNat_shiftLeft, Nat.mod_eq_of_lt hj, Nat.shiftLeft_eq, Nat.mod_eq_of_lt h]

theorem Matches.fors_bound (hp : Matches p K LEN M N A D H HP) : K * 2 ^ A < 2 ^ 24 := by
  have h1 : 2 ^ A ≤ 2 ^ 15 := Nat.pow_le_pow_right (by decide) (by have := hp.A_lt; omega)
  calc K * 2 ^ A ≤ 255 * 2 ^ 15 := Nat.mul_le_mul hp.K_le h1
    _ < _ := by decide

/-- Tree `i` starts at leaf `i * 2^a`, and at node `i * 2^(a-j)` of height `j`. -/
theorem fors_index_bound {i a j s : Nat} {K : Nat} (hi : i < K) (hj : j ≤ a) (hs : s < 2 ^ (a - j)) :
    (i * 2 ^ (a - j) + s + 1) * 2 ^ j ≤ K * 2 ^ a := by
  calc (i * 2 ^ (a - j) + s + 1) * 2 ^ j ≤ ((i + 1) * 2 ^ (a - j)) * 2 ^ j := by
        refine Nat.mul_le_mul_right _ ?_
        rw [Nat.succ_mul]; omega
    _ = (i + 1) * 2 ^ a := by
        rw [Nat.mul_assoc, ← Nat.pow_add, show a - j + j = a by omega]
    _ ≤ K * 2 ^ a := Nat.mul_le_mul_right _ hi

theorem fors_digits_returns (hp : Matches p K LEN M N A D H HP) {md : List UInt8}
    (hmd : md.length = (K * A + 7) / 8) {a32 k32 : UInt32} (ha : a32.toNat = A) (hk : k32.toNat = K)
    {β : Type} {f : List UInt32 → m β} {Q : β → Prop}
    (h : ∀ new : List UInt32, new.length = K → new.map UInt32.toNat = Spec.base2b md p.a p.k →
      Returns (f new) Q) :
    Returns (base_2b md a32 k32 (Vector.replicate K (0 : UInt32)).toList >>= f) Q := by
  have hA := hp.A_lt
  have hK := hp.K_le
  have hKA : K * A ≤ 255 * 15 := Nat.mul_le_mul hK (by omega)
  refine (base_2b_returns (by rw [ha]; exact hp.A_ge) (by omega) (by omega) (by simp [hk])
    (by simp; omega) (by simp [ha]; omega)).bind fun new hnew => h new ?_ ?_
  · have := congrArg List.length hnew
    rwa [List.length_map, base2b_length, hk] at this
  · rw [hnew, ha, hk, hp.a, hp.k]

theorem fors_sign_returns (hp : Matches p K LEN M N A D H HP) (R : HashersRefine hs hf)
    {md : List UInt8} (hmd : md.length = (K * A + 7) / 8) (sk_seed : List UInt8) (adrs : Adrs)
    (pk_seed : List UInt8) :
    Returns (fors_sign A hs md sk_seed adrs pk_seed)
      (fun r => ∃ v, r = .ok v ∧
        v.bytes = Spec.forsSign p hf md sk_seed pk_seed adrs.bytes32) := by
  unfold fors_sign
  have hA := hp.A_lt
  have hK := hp.K_le
  have hb := hp.fors_bound
  refine Returns.u32TryFromUnwrap (by omega) fun a32 ha => ?_
  refine Returns.u32TryFromUnwrap (by omega) fun k32 hk => ?_
  refine fors_digits_returns hp hmd ha hk fun new hl hnew => ?_
  refine Returns.copyFromSlice hl fun indices hind => ?_
  have hd : ∀ i (hi : i < K), indices[i].toNat = (Spec.base2b md p.a p.k).getD i 0 :=
    fun i hi => digit_of (by rw [hind, hnew]) hi
  generalize hdg : Spec.base2b md p.a p.k = ds at *
  have hdlt : ∀ i (hi : i < K), indices[i].toNat < 2 ^ A := by
    intro i hi; rw [hd i hi, ← hdg, hp.a]; exact base2b_getD_lt
  let fsk : Nat → List UInt8 := fun i =>
    Spec.forsSKgen hf sk_seed pk_seed adrs.bytes32 (i * 2 ^ A + ds.getD i 0)
  let fau : Nat → Nat → List UInt8 := fun i j =>
    Spec.forsNode hf sk_seed (i * 2 ^ (A - j) + Spec.sibling (ds.getD i 0 / 2 ^ j)) j pk_seed
      adrs.bytes32
  refine Returns.mono (Returns.forU32E (fun i (s : ForsSig A K N) =>
    (∀ k (hk : k < K), k < i → s.private_key_value[k].toList = fsk k) ∧
    (∀ k (hk : k < K) j (hj : j < A), k < i → s.auth[k].tree[j].toList = fau k j))
    (by simp) ⟨by simp, by simp⟩ ?_) ?_
  · rintro i s - hi ⟨h1, h2⟩
    rw [hk] at hi
    have hbi := fors_index_bound hi (Nat.zero_le A) (hdlt i.toNat hi)
    simp only [Nat.sub_zero, Nat.pow_zero, Nat.mul_one] at hbi
    have hsh := shl_toNat (x := i) (j := a32) (by omega) (by rw [ha]; omega)
    rw [ha] at hsh
    have hidx : (i <<< a32 + indices[i.toNat]).toNat = i.toNat * 2 ^ A + ds.getD i.toNat 0 := by
      rw [UInt32.toNat_add, hsh, Nat.mod_eq_of_lt (by omega), hd _ hi]
    refine Returns.shlU32 (by omega) ?_
    refine Returns.asUsize (by omega) ?_
    refine Returns.vget hi ?_
    refine Returns.addU32 (by omega) ?_
    refine (fors_sk_gen_returns R _ _ _ _).bind fun sk hsk => ?_
    rw [hidx] at hsk
    refine Returns.asUsize (by omega) ?_
    refine Returns.vset hi ?_
    refine Returns.mono (Returns.forU32E (fun j (s : ForsSig A K N) =>
      (∀ k (hk : k < K), k < i.toNat + 1 → s.private_key_value[k].toList = fsk k) ∧
      (∀ k (hk : k < K) j' (hj : j' < A), k < i.toNat ∨ (k = i.toNat ∧ j' < j) →
        s.auth[k].tree[j'].toList = fau k j'))
      (by simp) ⟨?_, ?_⟩ ?_) ?_
    · exact set_step hi h1 hsk
    · intro k hk j' hj' h
      refine h2 k hk j' hj' ?_
      simp at h; exact h
    · rintro j s - hj ⟨h3, h4⟩
      rw [ha] at hj
      have hbs : Spec.sibling (indices[i.toNat].toNat / 2 ^ j.toNat) < 2 ^ (A - j.toNat) := by
        refine sibling_lt (by omega) ?_
        rw [Nat.div_lt_iff_lt_mul (Nat.two_pow_pos _), ← Nat.pow_add,
          show A - j.toNat + j.toNat = A by omega]
        exact hdlt _ hi
      have hbj := fors_index_bound hi (Nat.le_of_lt hj) hbs
      have hbj2 : i.toNat * 2 ^ (A - j.toNat) +
          Spec.sibling (indices[i.toNat].toNat / 2 ^ j.toNat) + 1 ≤ K * 2 ^ A :=
        Nat.le_trans (Nat.le_mul_of_pos_right _ (Nat.two_pow_pos _)) hbj
      have haj : (a32 - j).toNat = A - j.toNat := by
        rw [UInt32.toNat_sub_of_le _ _ (by rw [UInt32.le_iff_toNat_le]; omega), ha]
      have hsh2 := shl_toNat (x := i) (j := a32 - j) (by omega) (by rw [haj]; omega)
      rw [haj] at hsh2
      have hx : (indices[i.toNat] >>> j ^^^ 1).toNat =
          Spec.sibling (indices[i.toNat].toNat / 2 ^ j.toNat) := by
        rw [xor_one_toNat, shr_toNat _ _ (by omega)]
      have hidx2 : (i <<< (a32 - j) + (indices[i.toNat] >>> j ^^^ 1)).toNat =
          i.toNat * 2 ^ (A - j.toNat) +
            Spec.sibling (indices[i.toNat].toNat / 2 ^ j.toNat) := by
        rw [UInt32.toNat_add, hsh2, hx, Nat.mod_eq_of_lt (by omega)]
      refine Returns.asUsize (by omega) ?_
      refine Returns.vget hi ?_
      refine Returns.shrU32 (by omega) ?_
      refine Returns.subU32 (by omega) ?_
      refine Returns.shlU32 (by omega) ?_
      refine Returns.addU32 (by rw [hsh2, hx]; omega) ?_
      refine (fors_node_returns R _ _ _ j.toNat _ j rfl (by rw [hidx2]; omega)).bind ?_
      rintro _ ⟨node, rfl, hnode⟩
      rw [hidx2] at hnode
      refine Returns.leak ?_
      dsimp only
      refine Returns.asUsize (by omega) ?_
      refine Returns.asUsize (by omega) ?_
      refine Returns.vget hi ?_
      refine Returns.vset hj ?_
      refine Returns.vset hi (Returns.pure ⟨_, rfl, h3, ?_⟩)
      intro k hk j' hj' h
      dsimp only
      rw [Vector.getElem_set]
      split
      · rename_i e
        subst e
        dsimp only
        rw [Vector.getElem_set]
        split
        · rename_i e
          subst e
          rw [hnode, hd _ hi]
        · exact h4 _ hi j' hj' (by omega)
      · exact h4 k hk j' hj' (by omega)
    · rintro _ ⟨s', rfl, h3, h4⟩
      exact ⟨s', rfl, h3, fun k hk j hj h => h4 k hk j hj (by omega)⟩
  · rintro _ ⟨s, rfl, h1, h2⟩
    refine ⟨s, rfl, ?_⟩
    rw [Spec.forsSign, hdg, ForsSig.bytes, hp.k, hp.a]
    refine flatMap_eq_concat fun k hk' => ?_
    rw [Vector.getElem_zip, forsPart]
    dsimp only
    rw [h1 k hk' (by omega), absorbAll_eq fun j hj => h2 k hk' j hj (by omega)]

/-- The low bits of the index in the forest are those of the index in the tree. -/
theorem fors_bits {i d a k : Nat} (hk : k < a) :
    d / 2 ^ k % 2 = (i * 2 ^ a + d) / 2 ^ k % 2 := by
  obtain ⟨r, rfl⟩ : ∃ r, a = k + 1 + r := ⟨a - (k + 1), by omega⟩
  rw [show i * 2 ^ (k + 1 + r) + d = 2 ^ k * (2 * (i * 2 ^ r)) + d by rw [Nat.pow_add, Nat.pow_add]; ring,
    Nat.mul_add_div (Nat.two_pow_pos k)]
  omega

/-- Equal up to the tree height and index. -/
def EqT (a b : Adrs) : Prop :=
  ∀ x y, (a.set_tree_height x).set_tree_index y = (b.set_tree_height x).set_tree_index y

theorem EqT.refl (a : Adrs) : EqT a a := fun _ _ => rfl

theorem EqT.step {a b : Adrs} (h : EqT a b) (i j : UInt32) :
    EqT ((a.set_tree_height i).set_tree_index j) b := fun x y => h x y

theorem EqT.type {a b : Adrs} (h : EqT a b) (t : UInt32) :
    a.set_type_and_clear t = b.set_type_and_clear t := by
  have := congrArg (fun x => x.set_type_and_clear t) (h 0 0)
  exact this

theorem EqT.kp {a b : Adrs} (h : EqT a b) : a.get_key_pair_address = b.get_key_pair_address := by
  have := congrArg Adrs.get_key_pair_address (h 0 0)
  exact this

theorem fors_pk_from_sig_returns (hp : Matches p K LEN M N A D H HP) (R : HashersRefine hs hf)
    (sig : ForsSig A K N) {md : List UInt8} (hmd : md.length = (K * A + 7) / 8)
    (pk_seed : List UInt8) (adrs : Adrs) :
    Returns (fors_pk_from_sig hs sig md pk_seed adrs)
      (fun v => v.key.toList =
        Spec.forsPkFromSig p hf sig.bytes md pk_seed adrs.bytes32) := by
  unfold fors_pk_from_sig
  have hA := hp.A_lt
  have hK := hp.K_le
  have hb := hp.fors_bound
  have hlen := adrs.length_bytes32
  refine Returns.u32TryFromUnwrap (by omega) fun a32 ha => ?_
  refine Returns.u32TryFromUnwrap (by omega) fun k32 hk => ?_
  refine fors_digits_returns hp hmd ha hk fun new hl hnew => ?_
  refine Returns.copyFromSlice hl fun indices hind => ?_
  have hd : ∀ i (hi : i < K), indices[i].toNat = (Spec.base2b md p.a p.k).getD i 0 :=
    fun i hi => digit_of (by rw [hind, hnew]) hi
  generalize hdg : Spec.base2b md p.a p.k = ds at *
  have hdlt : ∀ i (hi : i < K), indices[i].toNat < 2 ^ A := by
    intro i hi; rw [hd i hi, ← hdg, hp.a]; exact base2b_getD_lt
  -- the parts of the signature
  have hsk : ∀ i (hi : i < K), Spec.slice sig.bytes (i * (p.a + 1) * p.n) ((i * (p.a + 1) + 1) * p.n) =
      sig.private_key_value[i].toList := by
    intro i hi
    have := congrArg (fun x => Spec.slice x 0 N) (sig.slice_bytes hi)
    rw [Spec.slice_slice _ (by rw [Nat.succ_mul, Nat.succ_mul]; omega)] at this
    rw [hp.a, hp.n]
    have e : Spec.slice (sig.private_key_value[i].toList ++ absorbAll sig.auth[i].tree) 0 N =
        sig.private_key_value[i].toList := by
      have := Spec.slice_zero_append sig.private_key_value[i].toList (absorbAll sig.auth[i].tree)
      rwa [Vector.length_toList] at this
    rw [← e, ← this]
    congr 1 <;> ring
  have hau : ∀ i (hi : i < K), Spec.slice sig.bytes ((i * (p.a + 1) + 1) * p.n)
      ((i + 1) * (p.a + 1) * p.n) = absorbAll sig.auth[i].tree := by
    intro i hi
    have := congrArg (fun x => Spec.slice x N (N + A * N)) (sig.slice_bytes hi)
    rw [Spec.slice_slice _ (by rw [Nat.succ_mul, Nat.succ_mul]; omega)] at this
    rw [hp.a, hp.n]
    have e := Spec.slice_append_right sig.private_key_value[i].toList (absorbAll sig.auth[i].tree)
      0 (A * N)
    have hal : (absorbAll sig.auth[i].tree).length = A * N := absorbAll_length _
    rw [Vector.length_toList, ← hal, Spec.slice_all, hal] at e
    rw [← e, show N + 0 = N from rfl, ← this]
    congr 1 <;> ring
  let fpk : Nat → List UInt8 := fun i =>
    let sk := Spec.slice sig.bytes (i * (p.a + 1) * p.n) ((i * (p.a + 1) + 1) * p.n)
    let AUTH := Spec.slice sig.bytes ((i * (p.a + 1) + 1) * p.n) ((i + 1) * (p.a + 1) * p.n)
    let ADRS := Spec.setTreeIndex (Spec.setTreeHeight adrs.bytes32 0)
      (i * 2 ^ p.a + ds.getD i 0)
    let node := hf.F pk_seed ADRS sk
    (Spec.climb hf pk_seed (ds.getD i 0) (fun j => Spec.slice AUTH (j * p.n) ((j + 1) * p.n)) p.a
      ADRS node).2
  refine Returns.bind (Returns.forU32 (fun i (st : Adrs × Vector (Vector UInt8 N) K) =>
    EqT st.1 adrs ∧ ∀ k (hk : k < K), k < i → st.2[k].toList = fpk k)
    (by simp) ⟨EqT.refl _, by simp⟩ ?_) ?_
  · rintro i ⟨a, root⟩ - hi ⟨h1, h2⟩
    rw [hk] at hi
    simp only at h1 h2
    have hbi := fors_index_bound hi (Nat.zero_le A) (hdlt i.toNat hi)
    simp only [Nat.sub_zero, Nat.pow_zero, Nat.mul_one] at hbi
    have hsh := shl_toNat (x := i) (j := a32) (by omega) (by rw [ha]; omega)
    rw [ha] at hsh
    have hidx : (i <<< a32 + indices[i.toNat]).toNat = i.toNat * 2 ^ A + ds.getD i.toNat 0 := by
      rw [UInt32.toNat_add, hsh, Nat.mod_eq_of_lt (by omega), hd _ hi]
    refine Returns.asUsize (by omega) ?_
    refine Returns.vget hi ?_
    refine Returns.shlU32 (by omega) ?_
    refine Returns.asUsize (by omega) ?_
    refine Returns.vget hi ?_
    refine Returns.addU32 (by omega) ?_
    have ha0 : ((a.set_tree_height 0).set_tree_index (i <<< a32 + indices[i.toNat])).bytes32 =
        Spec.setTreeIndex (Spec.setTreeHeight adrs.bytes32 0)
          (i.toNat * 2 ^ A + ds.getD i.toNat 0) := by
      rw [h1, Adrs.to_32_set_tree_index, Adrs.to_32_set_tree_height, hidx]; rfl
    have h1' := h1.step 0 (i <<< a32 + indices[i.toNat])
    generalize (a.set_tree_height 0).set_tree_index (i <<< a32 + indices[i.toNat]) = a0 at *
    refine (R.f _ _ _).bind fun node0 hnode0 => ?_
    refine Returns.asUsize (by omega) ?_
    refine Returns.vget hi ?_
    rw [ha0] at hnode0
    have hT : i.toNat * 2 ^ A + ds.getD i.toNat 0 < 2 ^ 32 := by rw [← hidx]; exact UInt32.toNat_lt _
    refine Returns.bind (Returns.forU32 (fun j (st : Adrs × Vector UInt8 N) =>
      EqT st.1 adrs ∧ (st.1.bytes32, st.2.toList) = Spec.climb hf pk_seed (ds.getD i.toNat 0)
        (fun j => Spec.slice (absorbAll sig.auth[i.toNat].tree) (j * p.n) ((j + 1) * p.n)) j
        (Spec.setTreeIndex (Spec.setTreeHeight adrs.bytes32 0)
          (i.toNat * 2 ^ A + ds.getD i.toNat 0))
        (hf.F pk_seed (Spec.setTreeIndex (Spec.setTreeHeight adrs.bytes32 0)
          (i.toNat * 2 ^ A + ds.getD i.toNat 0)) sig.private_key_value[i.toNat].toList))
      (by simp) ⟨h1', by rw [ha0, hnode0]; rfl⟩ ?_) ?_
    · rintro j ⟨a, node⟩ - hj ⟨h3, hst⟩
      rw [ha] at hj
      simp only at h3
      have hj1 : (j + 1).toNat = j.toNat + 1 := by
        rw [UInt32.toNat_add, Nat.mod_eq_of_lt (by simp; omega)]; rfl
      have hadr := Spec.climb_adrs (hf := hf) (PKseed := pk_seed)
        (AUTH := fun j => Spec.slice (absorbAll sig.auth[i.toNat].tree) (j * p.n) ((j + 1) * p.n))
        (node := hf.F pk_seed (Spec.setTreeIndex (Spec.setTreeHeight adrs.bytes32 0)
          (i.toNat * 2 ^ A + ds.getD i.toNat 0)) sig.private_key_value[i.toNat].toList)
        hlen hT (levels := A) (idx := ds.getD i.toNat 0) (fun k hk => fors_bits hk) j.toNat
        (by omega)
      rw [← hst] at hadr
      dsimp only at hadr ⊢
      have hget : (a.set_tree_height (j + 1)).get_tree_index.toNat =
          (i.toNat * 2 ^ A + ds.getD i.toNat 0) / 2 ^ j.toNat := by
        rw [Adrs.toNat_get_tree_index, Adrs.to_32_set_tree_height,
          Spec.getTreeIndex_setTreeHeight (Adrs.length_bytes32 _), hadr,
          Spec.getTreeIndex_setTreeIndex (Spec.setTreeHeight_length hlen _)
            (Nat.lt_of_le_of_lt (Nat.div_le_self _ _) hT)]
      have hget' := hget
      rw [Adrs.toNat_get_tree_index, Adrs.to_32_set_tree_height, hj1] at hget'
      refine Returns.addU32 (by simp; omega) ?_
      refine Returns.asUsize (by omega) ?_
      refine Returns.vget hi ?_
      refine Returns.shrU32 (by omega) ?_
      refine Returns.leak ?_
      have hsh' := shr_toNat indices[i.toNat] j (by omega)
      have hbit := fors_bits (i := i.toNat) (d := ds.getD i.toNat 0) (k := j.toNat) (a := A) hj
      rw [and_one_eq, hsh', hd _ hi, Spec.climb_succ, ← hst, Spec.climbStep]
      dsimp only
      rw [hget', hp.n]
      by_cases hc : ds.getD i.toNat 0 / 2 ^ j.toNat % 2 = 0
      · rw [if_pos (by simpa using hc), if_pos hc]
        refine Returns.divU32 (by decide) ?_
        refine Returns.asUsize (by omega) ?_
        refine Returns.vget hj ?_
        refine (R.h _ _ _ _).bind fun v hv => Returns.pure ⟨h3.step _ _, ?_⟩
        dsimp only
        rw [hv, Adrs.to_32_set_tree_index, Adrs.to_32_set_tree_height, UInt32.toNat_div, hget, hj1,
          slice_absorbAll _ hj]
        rfl
      · rw [if_neg (by simpa using hc), if_neg hc]
        have hsub : ((a.set_tree_height (j + 1)).get_tree_index - 1).toNat =
            (i.toNat * 2 ^ A + ds.getD i.toNat 0) / 2 ^ j.toNat - 1 := by
          rw [UInt32.toNat_sub_of_le _ _ (by rw [UInt32.le_iff_toNat_le, hget, show (1 : UInt32).toNat = 1 from rfl]; omega), hget]
          rfl
        refine Returns.subU32 (by rw [hget, show (1 : UInt32).toNat = 1 from rfl]; omega) ?_
        refine Returns.divU32 (by decide) ?_
        refine Returns.asUsize (by omega) ?_
        refine Returns.vget hj ?_
        refine (R.h _ _ _ _).bind fun v hv => Returns.pure ⟨h3.step _ _, ?_⟩
        dsimp only
        rw [hv, Adrs.to_32_set_tree_index, Adrs.to_32_set_tree_height, UInt32.toNat_div, hsub, hj1,
          slice_absorbAll _ hj]
        rfl
    · rintro ⟨a, node⟩ ⟨h3, hst⟩
      simp only at h3
      rw [ha] at hst
      have hnode : node.toList = _ := congrArg Prod.snd hst
      dsimp only
      refine Returns.asUsize (by omega) ?_
      refine Returns.vset hi (Returns.pure ⟨h3, ?_⟩)
      refine set_step hi h2 ?_
      rw [hnode]
      dsimp only [fpk]
      rw [hsk _ hi, hau _ hi, hp.a]
  · rintro ⟨a, root⟩ ⟨h1, h2⟩
    simp only at h1 h2
    dsimp only
    refine (R.t_len _ _ _).bind fun pk hpk => Returns.pure ?_
    dsimp only
    rw [hpk, Spec.forsPkFromSig, hdg, hp.k, absorbAll_eq fun k hk => h2 k hk (by omega), h1.type,
      h1.kp, Adrs.to_32_set_key_pair_address, Adrs.to_32_set_type_and_clear,
      Adrs.toNat_get_key_pair_address]
    rfl

end Fips205.Model
