import Verif.Proofs.Xmss
import Verif.Proofs.SpecHt
import Verif.Model.Hypertree

/-! # Refinement of `src/hypertree.rs` -/

namespace Fips205.Model
open Fips205

set_option linter.unusedSectionVars false

theorem flatMap_eq_concat {α : Type} {n : Nat} {v : Vector α n} {g : α → List UInt8}
    {f : Nat → List UInt8} (h : ∀ k (hk : k < n), g v[k] = f k) :
    v.toList.flatMap g = Spec.concat n f := by
  rw [Spec.concat, List.flatMap_def, List.flatMap_def]
  congr 1
  apply List.ext_getElem
  · simp
  · intro i h1 h2
    simp at h1
    simp [h i h1]

theorem slice_flatMap {α : Type} {n l : Nat} (v : Vector α n) {g : α → List UInt8}
    (hl : ∀ a, (g a).length = l) {k : Nat} (hk : k < n) :
    Spec.slice (v.toList.flatMap g) (k * l) ((k + 1) * l) = g v[k] := by
  rw [flatMap_eq_concat (f := fun k => if h : k < n then g v[k] else []) (fun k hk => by simp [hk]),
    Spec.slice_concat (n := l) _ hk]
  · simp [hk]
  · intro i hi; simp [hi, hl]

theorem length_flatMap {α : Type} {n l : Nat} (v : Vector α n) {g : α → List UInt8}
    (hl : ∀ a, (g a).length = l) : (v.toList.flatMap g).length = n * l := by
  rw [flatMap_eq_concat (f := fun k => if h : k < n then g v[k] else []) (fun k hk => by simp [hk])]
  exact Spec.concat_length fun i hi => by simp [hi, hl]

/-- The bytes of a hypertree signature. -/
def HtSig.bytes {D HP LEN N : Nat} (s : HtSig D HP LEN N) : List UInt8 :=
  s.xmss_sigs.toList.flatMap XmssSig.bytes

theorem XmssSig.bytes_length {HP LEN N : Nat} (s : XmssSig HP LEN N) :
    s.bytes.length = (HP + LEN) * N := by
  rw [bytes, List.length_append, absorbAll_length, absorbAll_length]; ring

theorem HtSig.bytes_length {D HP LEN N : Nat} (s : HtSig D HP LEN N) :
    s.bytes.length = D * ((HP + LEN) * N) := length_flatMap _ XmssSig.bytes_length

theorem HtSig.slice_bytes {D HP LEN N : Nat} (s : HtSig D HP LEN N) {j : Nat} (hj : j < D) :
    Spec.slice s.bytes (j * ((HP + LEN) * N)) ((j + 1) * ((HP + LEN) * N)) = s.xmss_sigs[j].bytes :=
  slice_flatMap _ XmssSig.bytes_length hj

theorem vset_step {α : Type} {X i : Nat} {t : Vector α X} {g : α → List UInt8}
    {f : Nat → List UInt8} {c : α} (hi : i < X) (h : ∀ k (hk : k < X), k < i → g t[k] = f k)
    (hc : g c = f i) : ∀ k (hk : k < X), k < i + 1 → g (t.set i c)[k] = f k := by
  intro k hk hki
  rw [Vector.getElem_set]
  split
  · rename_i e; subst e; exact hc
  · exact h k hk (by omega)

variable {m : Type → Type} [Rust m] [LawfulMonad m] {K LEN M N A D H HP : Nat}
  {p : Spec.Params} {hs : Hashers m K LEN M N} {hf : Spec.HashFns}

/-- The mask `(1 << h') - 1`. -/
theorem mask64 {hp32 : UInt32} (h1 : 1 ≤ hp32.toNat) (h : hp32.toNat ≤ 31) :
    (1 : UInt64) ≤ 1 <<< hp32.toUInt64 ∧
    ∀ x : UInt64, (x &&& ((1 <<< hp32.toUInt64) - 1)).toNat = x.toNat % 2 ^ hp32.toNat := by
  have e1 : ((1 : UInt64) <<< hp32.toUInt64).toNat = 2 ^ hp32.toNat := by
    rw [UInt64.toNat_shiftLeft, UInt32.toNat_toUInt64, Nat.mod_eq_of_lt (by omega : _ < 64),
      Nat.shiftLeft_eq]
    have : 2 ^ hp32.toNat ≤ 2 ^ 31 := Nat.pow_le_pow_right (by decide) h
    simp
    omega
  have hle : (1 : UInt64) ≤ 1 <<< hp32.toUInt64 := by
    rw [UInt64.le_iff_toNat_le, e1]; exact Nat.one_le_two_pow
  refine ⟨hle, fun x => ?_⟩
  rw [UInt64.toNat_and, UInt64.toNat_sub_of_le _ _ hle, e1]
  exact Nat.and_two_pow_sub_one_eq_mod _ _

theorem ht_sign_returns (hp : Matches p K LEN M N A D H HP) (R : HashersRefine hs hf)
    {msg : List UInt8} (hmsg : msg.length = N) (sk_seed pk_seed : List UInt8) (idx_tree : UInt64)
    {idx_leaf : UInt32} (hleaf : idx_leaf.toNat < 2 ^ HP) :
    Returns (ht_sign D HP hs msg sk_seed pk_seed idx_tree idx_leaf)
      (fun r => ∃ v, r = .ok v ∧
        v.bytes = Spec.htSign p hf msg sk_seed pk_seed idx_tree.toNat idx_leaf.toNat) := by
  unfold ht_sign
  have hHP := hp.HP_le
  have hHP1 := hp.HP_ge
  have hD := hp.D_le
  have hD2 := hp.D_ge
  refine Returns.u32TryFromUnwrap (by omega) fun d32 hd => ?_
  refine Returns.u32TryFromUnwrap (by omega) fun hp32 hh => ?_
  have hadrs0 : (Adrs.default.set_tree_address idx_tree).bytes32 =
      Spec.htAdrs 0 (Spec.htTree p idx_tree.toNat 0) := by
    rw [Adrs.to_32_set_tree_address Adrs.f1Zero_default, Adrs.to_32_default, Spec.htTree_zero,
      Spec.htAdrs_zero]
  have hf1 : (Adrs.default.set_tree_address idx_tree).f1Zero := Adrs.f1Zero_default
  dsimp only
  generalize Adrs.default.set_tree_address idx_tree = adrs0 at *
  refine (xmss_sign_returns hp R hmsg _ hleaf _ _).bind fun sig0 hsig0 => ?_
  rw [hadrs0] at hsig0
  refine Returns.vset (by omega) ?_
  refine (xmss_pk_from_sig_returns hp R sig0 hmsg _ _).bind fun root0 hroot0 => ?_
  rw [hadrs0, hsig0] at hroot0
  have htl : ∀ j, Spec.htLeaf p idx_tree.toNat idx_leaf.toNat j < 2 ^ HP := by
    have := Spec.htLeaf_lt p (t := idx_tree.toNat) (l := idx_leaf.toNat) (by rwa [hp.hp])
    rwa [hp.hp] at this
  refine Returns.bind (Returns.forU32E (fun j (st : HtSignState D HP LEN N) =>
    1 ≤ j ∧ st.idx_tree.toNat = Spec.htTree p idx_tree.toNat (j - 1) ∧
    st.adrs.bytes32 = Spec.htAdrs (j - 1) (Spec.htTree p idx_tree.toNat (j - 1)) ∧
    st.adrs.f1Zero ∧
    (∀ k (hk : k < D), k < j → st.sig_ht[k].bytes =
      Spec.signSig p hf sk_seed pk_seed msg idx_tree.toNat idx_leaf.toNat k) ∧
    (j < D → st.root.toList =
      Spec.signMsg p hf sk_seed pk_seed msg idx_tree.toNat idx_leaf.toNat j))
    (by rw [hd]; simp; omega)
    ⟨by simp, by simp [Spec.htTree_zero], hadrs0, hf1, ?_, fun _ => hroot0⟩ ?_) ?_
  · exact vset_step (g := XmssSig.bytes) (i := 0) (by omega) (fun k hk h => by omega) hsig0
  · rintro j ⟨itree, a, sigs, root⟩ hj1 hj2 ⟨-, h1, h2, h3, h4, h5⟩
    rw [hd] at hj2
    have hj1 : 1 ≤ j.toNat := hj1
    obtain ⟨jj, hjj⟩ : ∃ jj, j.toNat = jj + 1 := ⟨j.toNat - 1, by omega⟩
    simp only [hjj, Nat.add_sub_cancel] at h1 h2 h4 h5 ⊢
    simp only at h3
    have h5 := h5 (by omega)
    obtain ⟨m1, m2⟩ := mask64 (hp32 := hp32) (by omega) (by omega)
    have m2 := m2 itree
    rw [hh] at m2
    refine Returns.shlU64 (by omega) ?_
    refine Returns.subU64 (by rwa [UInt64.le_iff_toNat_le] at m1) ?_
    have hlt : (itree &&& ((1 <<< hp32.toUInt64) - 1)).toNat < 2 ^ HP := by
      rw [m2]; exact Nat.mod_lt _ (Nat.two_pow_pos _)
    have h2HP : 2 ^ HP ≤ 2 ^ 31 := Nat.pow_le_pow_right (by decide) (by omega)
    rw [u32TryFromU64, if_pos (by omega)]
    refine Returns.leak ?_
    dsimp only
    have hle : (itree &&& ((1 <<< hp32.toUInt64) - 1)).toUInt32.toNat =
        Spec.htLeaf p idx_tree.toNat idx_leaf.toNat (jj + 1) := by
      rw [UInt64.toNat_toUInt32, Nat.mod_eq_of_lt (by omega), m2, Spec.htLeaf, h1, hp.hp]
    generalize (itree &&& ((1 <<< hp32.toUInt64) - 1)).toUInt32 = leaf at *
    refine Returns.shrU64 (by omega) ?_
    have htr : (itree >>> hp32.toUInt64).toNat = Spec.htTree p idx_tree.toNat (jj + 1) := by
      rw [UInt64.toNat_shiftRight, UInt32.toNat_toUInt64, Nat.mod_eq_of_lt (by omega : _ < 64),
        Nat.shiftRight_eq_div_pow, h1, Spec.htTree_succ, hp.hp, hh]
    generalize itree >>> hp32.toUInt64 = itree' at *
    have ha : ((a.set_layer_address j).set_tree_address itree').bytes32 =
        Spec.htAdrs (jj + 1) (Spec.htTree p idx_tree.toNat (jj + 1)) := by
      rw [Adrs.to_32_set_tree_address (a := a.set_layer_address j) h3, Adrs.to_32_set_layer_address, h2, hjj, htr,
        Spec.htAdrs_step]
    have ha1 : ((a.set_layer_address j).set_tree_address itree').f1Zero := h3
    generalize (a.set_layer_address j).set_tree_address itree' = a' at *
    refine (xmss_sign_returns hp R (by simp) _ (by rw [hle]; exact htl _) _ _).bind fun sig hsig => ?_
    rw [ha, hle, h5] at hsig
    refine Returns.asUsize (by omega) ?_
    refine Returns.vset hj2 ?_
    refine Returns.subU32 (by rw [hd]; simp; omega) ?_
    refine Returns.leak ?_
    have hd1 : (d32 - 1).toNat = D - 1 := by
      rw [UInt32.toNat_sub_of_le _ _ (by rw [UInt32.le_iff_toNat_le, hd]; simp; omega), hd]; rfl
    have hstep : ∀ k (hk : k < D), k < jj + 1 + 1 → (sigs.set j.toNat sig)[k].bytes =
        Spec.signSig p hf sk_seed pk_seed msg idx_tree.toNat idx_leaf.toNat k :=
      fun k hk hkj =>
        vset_step (g := XmssSig.bytes) hj2 (by rw [hjj]; exact h4) (by rw [hjj]; exact hsig) k hk
          (by omega)
    by_cases hlast : j < d32 - 1
    · rw [if_pos hlast]
      refine (xmss_pk_from_sig_returns hp R sig (by simp) _ _).bind fun root' hroot' =>
        Returns.pure ⟨_, rfl, by omega, htr, ha, ha1, hstep, fun _ => ?_⟩
      rw [hroot', ha, hle, h5, hsig]
      rfl
    · rw [if_neg hlast]
      refine Returns.pure ⟨_, rfl, by omega, htr, ha, ha1, hstep, fun h => absurd h ?_⟩
      rw [UInt32.lt_iff_toNat_lt, hd1] at hlast
      omega
  · rintro _ ⟨st, rfl, -, -, -, -, h, -⟩
    refine Returns.pure ⟨_, rfl, ?_⟩
    rw [HtSig.bytes, Spec.htSign_eq, hp.d]
    exact flatMap_eq_concat fun k hk => h k hk (by omega)

theorem ht_verify_returns (hp : Matches p K LEN M N A D H HP) (R : HashersRefine hs hf)
    {msg : List UInt8} (hmsg : msg.length = N) (sig : HtSig D HP LEN N) (pk_seed : List UInt8)
    (idx_tree : UInt64) (idx_leaf : UInt32) (pk_root : Vector UInt8 N) :
    Returns (ht_verify hs msg sig pk_seed idx_tree idx_leaf pk_root)
      (· = Spec.htVerify p hf msg sig.bytes pk_seed idx_tree.toNat idx_leaf.toNat
        pk_root.toList) := by
  unfold ht_verify
  have hHP := hp.HP_le
  have hHP1 := hp.HP_ge
  have hD := hp.D_le
  have hD2 := hp.D_ge
  refine Returns.u32TryFromUnwrap (by omega) fun d32 hd => ?_
  refine Returns.u32TryFromUnwrap (by omega) fun hp32 hh => ?_
  have hadrs0 : (Adrs.default.set_tree_address idx_tree).bytes32 =
      Spec.htAdrs 0 (Spec.htTree p idx_tree.toNat 0) := by
    rw [Adrs.to_32_set_tree_address Adrs.f1Zero_default, Adrs.to_32_default, Spec.htTree_zero,
      Spec.htAdrs_zero]
  have hf1 : (Adrs.default.set_tree_address idx_tree).f1Zero := Adrs.f1Zero_default
  dsimp only
  generalize Adrs.default.set_tree_address idx_tree = adrs0 at *
  have hxl : p.xmssLen = (HP + LEN) * N := by rw [Spec.Params.xmssLen, hp.hp, hp.len_eq, hp.n]
  have hslice : ∀ j (hj : j < D), sig.xmss_sigs[j].bytes =
      Spec.slice sig.bytes (j * p.xmssLen) ((j + 1) * p.xmssLen) := by
    intro j hj; rw [hxl, sig.slice_bytes hj]
  refine Returns.vget (by omega) ?_
  refine (xmss_pk_from_sig_returns hp R _ hmsg _ _).bind fun root0 hroot0 => ?_
  rw [hadrs0, hslice] at hroot0
  refine Returns.bind (Returns.forU32E (fun j (st : HtVerifyState N) =>
    1 ≤ j ∧ st.idx_tree.toNat = Spec.htTree p idx_tree.toNat (j - 1) ∧
    st.adrs.bytes32 = Spec.htAdrs (j - 1) (Spec.htTree p idx_tree.toNat (j - 1)) ∧
    st.adrs.f1Zero ∧
    st.node.toList = Spec.rootMsg p hf pk_seed sig.bytes msg idx_tree.toNat idx_leaf.toNat j)
    (by rw [hd]; simp; omega)
    ⟨by simp, by simp [Spec.htTree_zero], hadrs0, hf1, hroot0⟩ ?_) ?_
  · rintro j ⟨itree, a, root⟩ hj1 hj2 ⟨-, h1, h2, h3, h5⟩
    rw [hd] at hj2
    have hj1 : 1 ≤ j.toNat := hj1
    obtain ⟨jj, hjj⟩ : ∃ jj, j.toNat = jj + 1 := ⟨j.toNat - 1, by omega⟩
    simp only [hjj, Nat.add_sub_cancel] at h1 h2 h5 ⊢
    simp only at h3
    obtain ⟨m1, m2⟩ := mask64 (hp32 := hp32) (by omega) (by omega)
    have m2 := m2 itree
    rw [hh] at m2
    refine Returns.shlU64 (by omega) ?_
    refine Returns.subU64 (by rwa [UInt64.le_iff_toNat_le] at m1) ?_
    have hlt : (itree &&& ((1 <<< hp32.toUInt64) - 1)).toNat < 2 ^ HP := by
      rw [m2]; exact Nat.mod_lt _ (Nat.two_pow_pos _)
    have h2HP : 2 ^ HP ≤ 2 ^ 31 := Nat.pow_le_pow_right (by decide) (by omega)
    rw [u32TryFromU64, if_pos (by omega)]
    refine Returns.leak ?_
    dsimp only
    have hle : (itree &&& ((1 <<< hp32.toUInt64) - 1)).toUInt32.toNat =
        Spec.htLeaf p idx_tree.toNat idx_leaf.toNat (jj + 1) := by
      rw [UInt64.toNat_toUInt32, Nat.mod_eq_of_lt (by omega), m2, Spec.htLeaf, h1, hp.hp]
    generalize (itree &&& ((1 <<< hp32.toUInt64) - 1)).toUInt32 = leaf at *
    refine Returns.shrU64 (by omega) ?_
    have htr : (itree >>> hp32.toUInt64).toNat = Spec.htTree p idx_tree.toNat (jj + 1) := by
      rw [UInt64.toNat_shiftRight, UInt32.toNat_toUInt64, Nat.mod_eq_of_lt (by omega : _ < 64),
        Nat.shiftRight_eq_div_pow, h1, Spec.htTree_succ, hp.hp, hh]
    generalize itree >>> hp32.toUInt64 = itree' at *
    have ha : ((a.set_layer_address j).set_tree_address itree').bytes32 =
        Spec.htAdrs (jj + 1) (Spec.htTree p idx_tree.toNat (jj + 1)) := by
      rw [Adrs.to_32_set_tree_address (a := a.set_layer_address j) h3, Adrs.to_32_set_layer_address, h2, hjj, htr,
        Spec.htAdrs_step]
    have ha1 : ((a.set_layer_address j).set_tree_address itree').f1Zero := h3
    generalize (a.set_layer_address j).set_tree_address itree' = a' at *
    refine Returns.asUsize (by omega) ?_
    refine Returns.vget hj2 ?_
    refine (xmss_pk_from_sig_returns hp R _ (by simp) _ _).bind fun root' hroot' =>
      Returns.pure ⟨_, rfl, by omega, htr, ha, ha1, ?_⟩
    rw [hroot', ha, hle, h5, hslice]
    simp only [hjj]
    rfl
  · rintro _ ⟨st, rfl, -, -, -, -, h⟩
    refine Returns.leak (Returns.pure ?_)
    rw [hd] at h
    rw [Spec.htVerify_eq, hp.d, ← h, Bool.eq_iff_iff, decide_eq_true_iff, beq_iff_eq,
      Vector.toList_inj]

end Fips205.Model
