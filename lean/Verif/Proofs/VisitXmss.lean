import Verif.Proofs.VisitWots
import Verif.Proofs.Xmss

/-! # The places visited by `src/xmss.rs` -/

namespace Fips205.Model
open Fips205

theorem sibling_iff {u v : Nat} : u = Spec.sibling v ↔ u ≠ v ∧ u / 2 = v / 2 := by
  unfold Spec.sibling; split <;> omega

/-- The subtrees whose roots are on an authentication path are everything below the root except the path
itself. -/
theorem auth_cover (x idx : Nat) : ∀ n, (∃ j, j < n ∧ x / 2 ^ j = Spec.sibling (idx / 2 ^ j)) ↔
    x ≠ idx ∧ x / 2 ^ n = idx / 2 ^ n
  | 0 => by simp
  | n + 1 => by
    have : (∃ j, j < n + 1 ∧ x / 2 ^ j = Spec.sibling (idx / 2 ^ j)) ↔
        (∃ j, j < n ∧ x / 2 ^ j = Spec.sibling (idx / 2 ^ j)) ∨
          x / 2 ^ n = Spec.sibling (idx / 2 ^ n) := by
      constructor
      · rintro ⟨j, h, e⟩
        rcases Nat.lt_succ_iff_lt_or_eq.mp h with h | rfl
        exacts [.inl ⟨j, h, e⟩, .inr e]
      · rintro (⟨j, h, e⟩ | e)
        exacts [⟨j, by omega, e⟩, ⟨n, by omega, e⟩]
    rw [this, auth_cover x idx n, sibling_iff, Nat.pow_succ, ← Nat.div_div_eq_div_mul,
      ← Nat.div_div_eq_div_mul]
    constructor
    · rintro (⟨h, e⟩ | ⟨h, e⟩)
      · exact ⟨h, by rw [e]⟩
      · exact ⟨fun h' => h (by rw [h']), e⟩
    · rintro ⟨h, e⟩
      by_cases h' : x / 2 ^ n = idx / 2 ^ n
      exacts [.inl ⟨h, h'⟩, .inr ⟨h', e⟩]

theorem auth_disj {x idx j j' : Nat} (h : j < j') (h1 : x / 2 ^ j = Spec.sibling (idx / 2 ^ j))
    (h2 : x / 2 ^ j' = Spec.sibling (idx / 2 ^ j')) : False :=
  (sibling_iff.mp h2).1 ((auth_cover x idx j').mp ⟨j, h, h1⟩).2

/-- The same for the nodes at height `k`. -/
theorem auth_cover_node (i idx k n : Nat) :
    (∃ j, j < n ∧ k ≤ j ∧ i / 2 ^ (j - k) = Spec.sibling (idx / 2 ^ j)) ↔
      k ≤ n ∧ i ≠ idx / 2 ^ k ∧ i / 2 ^ (n - k) = idx / 2 ^ n := by
  have e : ∀ {j}, k ≤ j → idx / 2 ^ j = idx / 2 ^ k / 2 ^ (j - k) := fun {j} h => by
    rw [Nat.div_div_eq_div_mul, ← Nat.pow_add, Nat.add_sub_cancel' h]
  constructor
  · rintro ⟨j, h, hk, h'⟩
    rw [e hk] at h'
    rw [e (show k ≤ n by omega)]
    exact ⟨by omega, (auth_cover i (idx / 2 ^ k) (n - k)).mp ⟨j - k, by omega, h'⟩⟩
  · rintro ⟨h1, h2⟩
    rw [e h1] at h2
    obtain ⟨j, h, h'⟩ := (auth_cover i (idx / 2 ^ k) (n - k)).mpr h2
    exact ⟨j + k, by omega, by omega, by rw [Nat.add_sub_cancel, h', e (show k ≤ j + k by omega),
      Nat.add_sub_cancel]⟩

theorem auth_disj_node {i idx k j j' : Nat} (h : j < j') (hk : k ≤ j)
    (h1 : i / 2 ^ (j - k) = Spec.sibling (idx / 2 ^ j))
    (h2 : i / 2 ^ (j' - k) = Spec.sibling (idx / 2 ^ j')) : False := by
  have := ((auth_cover_node i idx k j').mp ⟨j, h, hk, h1⟩).2.2
  exact (sibling_iff.mp h2).1 this

/-- WOTS+ keys of a set of leaves, and a set of nodes. -/
def leavesAndNodes (p : Spec.Params) (j t : Nat) (leaf : Nat → Prop) (node : Nat → Nat → Prop) :
    Place → Prop :=
  onTree j t (fun l c s => leaf l ∧ c < p.len ∧ s < 15) leaf (fun l c => leaf l ∧ c < p.len) node

/-- The subtree below node `i` at height `z`. -/
def subtree (p : Spec.Params) (j t z i : Nat) : Place → Prop :=
  leavesAndNodes p j t (fun l => l / 2 ^ z = i) fun k i' => 0 < k ∧ k ≤ z ∧ i' / 2 ^ (z - k) = i

/-- The places `xmss_sign` visits: everything except what the signature leaves to the verifier. -/
def xmssSignPlaces (p : Spec.Params) (j t idx : Nat) (msg : List UInt8) : Place → Prop :=
  onTree j t
    (fun l c s => l < 2 ^ p.hp ∧ c < p.len ∧ s < 15 ∧ (l = idx → s < (Spec.wotsDigits p msg).getD c 0))
    (fun l => l < 2 ^ p.hp ∧ l ≠ idx) (fun l c => l < 2 ^ p.hp ∧ c < p.len)
    fun k i => 0 < k ∧ k ≤ p.hp ∧ i < 2 ^ (p.hp - k) ∧ i ≠ idx / 2 ^ k

/-- The places `xmss_pk_from_sig` visits. -/
def xmssVerifyPlaces (p : Spec.Params) (j t idx : Nat) (msg : List UInt8) : Place → Prop :=
  onTree j t (stepsOf p.len idx (fun c => (Spec.wotsDigits p msg).getD c 0) fun _ => 15) (· = idx)
    (fun _ _ => False) fun k i => 0 < k ∧ k ≤ p.hp ∧ i = idx / 2 ^ k

/-- The whole tree. -/
def xmssPlaces (p : Spec.Params) (j t : Nat) : Place → Prop :=
  leavesAndNodes p j t (· < 2 ^ p.hp) fun k i => 0 < k ∧ k ≤ p.hp ∧ i < 2 ^ (p.hp - k)

variable {b : Build} {K LEN M N A D H HP : Nat} {p : Spec.Params} {hs : Hashers (LogExec b) K LEN M N}
  {At : Place → Call → Prop} {pk_seed : List UInt8}

theorem to_32_wots {j t y d e f : Nat} {adrs : Adrs} (h : adrs.bytes32 = Spec.adrs6 j t y d e f)
    (i : UInt32) : ((adrs.set_type_and_clear WOTS_HASH).set_key_pair_address i).bytes32 =
      Spec.adrs6 j t 0 i.toNat 0 0 := by
  rw [Adrs.to_32_set_key_pair_address, Adrs.to_32_set_type_and_clear, h]; rfl

theorem xmss_node_visits (hp : Matches p K LEN M N A D H HP) (R : HashersAt At pk_seed hs)
    (sk_seed : List UInt8) {adrs : Adrs} {j t y d e f : Nat}
    (ha : adrs.bytes32 = Spec.adrs6 j t y d e f) : ∀ (n : Nat) (i z : UInt32), z.toNat = n →
    (i.toNat + 1) * 2 ^ n ≤ 2 ^ 32 →
    Visits At (subtree p j t n i.toNat) (fun _ => True)
      (xmss_node hs sk_seed i z pk_seed adrs) := by
  intro n
  induction n with
  | zero =>
    intro i z hz _
    have := u32_eq_zero hz
    subst this
    rw [xmss_node]
    refine Visits.leak ?_
    simp only [dite_true]
    refine Visits.last ((wots_pkgen_visits hp R sk_seed i.toNat_lt (to_32_wots ha i)).congr ?_)
      fun _ _ => Returns.pure trivial
    refine onTree.congr ?_ ?_ ?_ ?_ <;> simp [stepsOf]
    intro k i' h1 h2; omega
  | succ n ih =>
    intro i z hz hi
    rw [xmss_node]
    refine Visits.leak ?_
    have hz0 : z ≠ 0 := by rintro rfl; simp at hz
    rw [dif_neg hz0]
    have hz1 : (z - 1).toNat = n := by
      rw [UInt32.toNat_sub_of_le _ _ (by rw [UInt32.le_iff_toNat_le]; simp; omega), hz]; simp
    have hpow : 1 ≤ 2 ^ n := Nat.one_le_two_pow
    have hi2 : (2 * i.toNat + 2) * 2 ^ n ≤ 2 ^ 32 := by
      rw [Nat.pow_succ] at hi
      calc (2 * i.toNat + 2) * 2 ^ n = (i.toNat + 1) * (2 ^ n * 2) := by ring
        _ ≤ _ := hi
    have hi3 : 2 * i.toNat + 2 ≤ 2 ^ 32 :=
      Nat.le_trans (Nat.le_mul_of_pos_right _ (by omega)) hi2
    have e1 : (2 * i).toNat = 2 * i.toNat := by
      rw [UInt32.toNat_mul, Nat.mod_eq_of_lt (by simp; omega)]; simp
    have e2 : (2 * i + 1).toNat = 2 * i.toNat + 1 := by
      rw [UInt32.toNat_add, e1, Nat.mod_eq_of_lt (by simp; omega)]; simp
    have hl := ih (2 * i) (z - 1) hz1
      (by rw [e1]; exact Nat.le_trans (Nat.mul_le_mul_right _ (by omega)) hi2)
    have hr := ih (2 * i + 1) (z - 1) hz1 (by rw [e2]; exact hi2)
    rw [e1] at hl
    rw [e2] at hr
    have half : ∀ x k, k ≤ n → (x / 2 ^ (n + 1 - k) = i.toNat ↔
        x / 2 ^ (n - k) = 2 * i.toNat ∨ x / 2 ^ (n - k) = 2 * i.toNat + 1) := fun x k hk => by
      rw [show n + 1 - k = n - k + 1 by omega, Nat.pow_succ, ← Nat.div_div_eq_div_mul]; omega
    have half0 := fun x => half x 0 (by omega)
    simp only [Nat.sub_zero] at half0
    refine Visits.mulU32 (by simp; omega) ?_
    refine Visits.bind _ (leavesAndNodes p j t (fun l => l / 2 ^ n = 2 * i.toNat + 1) fun k i' => 0 < k ∧
      (k ≤ n ∧ i' / 2 ^ (n - k) = 2 * i.toNat + 1 ∨ k = n + 1 ∧ i' = i.toNat)) hl ?_ ?_ fun lnode _ => ?_
    · refine onTree.disj ?_ ?_ ?_ ?_ <;> intros <;> omega
    · refine onTree.union ?_ ?_ ?_ ?_
      · intro l c s; simp only [half0]; tauto
      · intro l; simp only [half0]
      · intro l c; simp only [half0]; tauto
      · intro k i'
        constructor
        · rintro ⟨h1, h2, h3⟩
          by_cases hk : k ≤ n
          · rw [half _ _ hk] at h3; tauto
          · obtain rfl : k = n + 1 := by omega
            simp at h3; tauto
        · rintro (⟨h1, h2, h3⟩ | ⟨h1, ⟨h2, h3⟩ | ⟨rfl, rfl⟩⟩)
          · exact ⟨h1, by omega, (half _ _ h2).mpr (.inl h3)⟩
          · exact ⟨h1, by omega, (half _ _ h2).mpr (.inr h3)⟩
          · simp
    refine Visits.mulU32 (by simp; omega) ?_
    refine Visits.addU32 (by rw [e1]; simp; omega) ?_
    refine Visits.bind _ (· = .tree j t (n + 1) i.toNat) hr ?_ ?_ fun rnode _ => ?_
    · rintro _ h rfl
      have : n + 1 ≤ n := h.2.2.2.1
      omega
    · intro q
      rw [eq_tree]
      refine onTree.union ?_ ?_ ?_ ?_ q
      · simp
      · simp
      · simp
      · intro k i'
        constructor
        · rintro ⟨h1, h2 | h2⟩
          exacts [.inl ⟨h1, h2⟩, .inr h2]
        · rintro (⟨h1, h2⟩ | h2)
          exacts [⟨h1, .inl h2⟩, ⟨by omega, .inr h2⟩]
    refine (R.h _ _ rfl ?_).mono fun _ _ => trivial
    rw [Adrs.to_32_set_tree_index, Adrs.to_32_set_tree_height, Adrs.to_32_set_type_and_clear, ha, hz]
    rfl

theorem getTreeIndex_adrs6 (a t y d e : Nat) {f : Nat} (h : f < 2 ^ 32) :
    Spec.getTreeIndex (Spec.adrs6 a t y d e f) = f := by
  have : Spec.adrs6 a t y d e f = Spec.setTreeIndex (Spec.adrs6 a t y d e 0) f := rfl
  rw [this, Spec.getTreeIndex_setTreeIndex rfl h]

theorem xmss_sign_visits (hp : Matches p K LEN M N A D H HP) (R : HashersAt At pk_seed hs)
    {msg : List UInt8} (hmsg : msg.length = N) (sk_seed : List UInt8) {idx : UInt32}
    (hidx : idx.toNat < 2 ^ HP) {adrs : Adrs} {j t y d e f : Nat}
    (ha : adrs.bytes32 = Spec.adrs6 j t y d e f) :
    Visits At (xmssSignPlaces p j t idx.toNat msg) (fun _ => True)
      (xmss_sign HP hs msg sk_seed idx pk_seed adrs) := by
  unfold xmss_sign
  have hHP := hp.HP_le
  have hhp := hp.hp
  refine Visits.u32TryFromUnwrap (by omega) fun hp32 hh => ?_
  refine Visits.bind (leavesAndNodes p j t (fun l => l ≠ idx.toNat ∧ l < 2 ^ HP)
      fun k i => 0 < k ∧ k ≤ HP ∧ i ≠ idx.toNat / 2 ^ k ∧ i < 2 ^ (HP - k))
    (wotsSignPlaces p j t idx.toNat msg) (P := fun _ => True) ?_ ?_ ?_ fun auth _ => ?_
  · refine Visits.congr (Visits.forU32
      (T := fun z => subtree p j t z (Spec.sibling (idx.toNat / 2 ^ z)))
      (fun _ _ => True) (by simp) trivial ?_ ?_) ?_
    · intro z auth _ hj _
      rw [hh] at hj
      have hk := shr_toNat idx z (by omega)
      have hks : (idx >>> z ^^^ 1).toNat = Spec.sibling (idx.toNat / 2 ^ z.toNat) := by
        rw [xor_one_toNat, hk]
      have hlt : idx.toNat / 2 ^ z.toNat < 2 ^ (HP - z.toNat) := by
        rw [Nat.div_lt_iff_lt_mul (Nat.two_pow_pos _), ← Nat.pow_add]
        rwa [show HP - z.toNat + z.toNat = HP by omega]
      have hsl := sibling_lt (by omega) hlt
      refine Visits.shrU32 (by omega) ?_
      rw [← hks]
      refine Visits.last (xmss_node_visits hp R sk_seed ha z.toNat _ z rfl ?_) fun node _ => ?_
      · rw [hks]
        calc _ ≤ 2 ^ (HP - z.toNat) * 2 ^ z.toNat := Nat.mul_le_mul_right _ hsl
          _ = 2 ^ HP := by rw [← Nat.pow_add]; congr 1; omega
          _ ≤ 2 ^ 32 := Nat.pow_le_pow_right (by decide) (by omega)
      refine Returns.asUsize (by omega) ?_
      exact Returns.tail (Returns.vset hj (Returns.pure trivial))
    · intro z z' q _ h1 _
      refine onTree.disj ?_ ?_ ?_ ?_ q
      · exact fun l c s a b => auth_disj h1 a.1 b.1
      · exact fun l a b => auth_disj h1 a b
      · exact fun l c a b => auth_disj h1 a.1 b.1
      · exact fun k i a b => auth_disj_node h1 a.2.1 a.2.2 b.2.2
    · intro q
      rw [hh]
      refine Iff.trans (b := ∃ z, z < HP ∧ subtree p j t z (Spec.sibling (idx.toNat / 2 ^ z)) q)
        (by simp) (Iff.trans (onTree.iUnion (T := fun z => z < HP) q) ?_)
      have cov : ∀ l, (∃ z, z < HP ∧ l / 2 ^ z = Spec.sibling (idx.toNat / 2 ^ z)) ↔
          l ≠ idx.toNat ∧ l < 2 ^ HP := fun l => by
        rw [auth_cover, Nat.div_eq_of_lt hidx, Nat.div_eq_zero_iff_lt (Nat.two_pow_pos _)]
      refine onTree.congr ?_ ?_ ?_ ?_ q
      · intro l c s; beta_reduce; rw [← cov]
        exact ⟨fun ⟨z, a, b, c⟩ => ⟨⟨z, a, b⟩, c⟩, fun ⟨⟨z, a, b⟩, c⟩ => ⟨z, a, b, c⟩⟩
      · exact cov
      · intro l c; beta_reduce; rw [← cov]
        exact ⟨fun ⟨z, a, b, c⟩ => ⟨⟨z, a, b⟩, c⟩, fun ⟨⟨z, a, b⟩, c⟩ => ⟨z, a, b, c⟩⟩
      · intro k i
        have := auth_cover_node i idx.toNat k HP
        rw [Nat.div_eq_of_lt hidx, Nat.div_eq_zero_iff_lt (Nat.two_pow_pos _)] at this
        rw [← this]
        exact ⟨fun ⟨z, a, b, c, d⟩ => ⟨b, z, a, c, d⟩, fun ⟨b, z, a, c, d⟩ => ⟨z, a, b, c, d⟩⟩
  · refine onTree.disj ?_ ?_ ?_ ?_
    · exact fun l c s a b => a.1.1 b.1
    · simp
    · exact fun l c a b => a.1.1 b.1
    · simp
  · rw [xmssSignPlaces, hhp]
    refine onTree.union ?_ ?_ ?_ ?_
    · intro l c s
      have hd := wotsDigits_lt (p := p) (msg := msg) c
      rw [stepsOf]
      generalize (Spec.wotsDigits p msg).getD c 0 = dc at *
      by_cases hl : l = idx.toNat
      · subst hl; simp; omega
      · simp [hl]
    · intro l; simp; tauto
    · intro l c
      by_cases hl : l = idx.toNat
      · subst hl; simp; omega
      · simp [hl]
    · intro k i; simp; tauto
  · exact Visits.last (wots_sign_visits hp R hmsg sk_seed idx.toNat_lt (to_32_wots ha idx)) fun _ _ =>
      Returns.pure trivial

theorem xmss_pk_from_sig_visits (hp : Matches p K LEN M N A D H HP) (R : HashersAt At pk_seed hs)
    {idx : UInt32} (sig : XmssSig HP LEN N) {msg : List UInt8} (hmsg : msg.length = N)
    {adrs : Adrs} {j t y d e f : Nat} (ha : adrs.bytes32 = Spec.adrs6 j t y d e f) :
    Visits At (xmssVerifyPlaces p j t idx.toNat msg) (fun _ => True)
      (xmss_pk_from_sig hs idx sig msg pk_seed adrs) := by
  unfold xmss_pk_from_sig
  have hHP := hp.HP_le
  have hhp := hp.hp
  have hT : idx.toNat < 2 ^ 32 := idx.toNat_lt
  refine Visits.u32TryFromUnwrap (by omega) fun hp32 hh => ?_
  have hA := to_32_wots ha idx
  refine Visits.bind _ (onTree j t (fun _ _ _ => False) (fun _ => False) (fun _ _ => False)
      fun k i => 0 < k ∧ k ≤ HP ∧ i = idx.toNat / 2 ^ k)
    (wots_pk_from_sig_visits hp R sig.get_wots_sig hmsg hT hA) ?_ ?_ fun pk _ => ?_
  · refine onTree.disj ?_ ?_ ?_ ?_ <;> simp
  · rw [xmssVerifyPlaces, hhp]
    refine onTree.union ?_ ?_ ?_ ?_ <;> simp
  dsimp only
  refine Visits.last (P := fun _ => True) (Visits.mono (Visits.congr (Visits.forU32
    (T := fun k q => q = .tree j t (k + 1) (idx.toNat / 2 ^ (k + 1)))
    (fun k (st : Adrs × Vector UInt8 N) =>
      ∃ e, st.1.bytes32 = Spec.adrs6 j t 2 0 e (idx.toNat / 2 ^ k)) (by simp) ?_ ?_ ?_) ?_)
    fun _ _ => trivial) fun _ _ => Returns.pure trivial
  · refine ⟨0, ?_⟩
    rw [Adrs.to_32_set_tree_index, Adrs.to_32_set_type_and_clear, hA]
    simp only [UInt32.reduceToNat, pow_zero, Nat.div_one]
    rfl
  · rintro k ⟨a, node⟩ - hk ⟨e, he⟩
    rw [hh] at hk
    dsimp only at he ⊢
    have hk1 : (k + 1).toNat = k.toNat + 1 := by
      rw [UInt32.toNat_add, Nat.mod_eq_of_lt (by simp; omega)]; rfl
    refine Visits.addU32 (by simp; omega) ?_
    refine Visits.shrU32 (by omega) ?_
    refine Visits.leak ?_
    have hsh := shr_toNat idx k (by omega)
    have hset : (a.set_tree_height (k + 1)).bytes32 =
        Spec.adrs6 j t 2 0 (k.toNat + 1) (idx.toNat / 2 ^ k.toNat) := by
      rw [Adrs.to_32_set_tree_height, he, hk1]; rfl
    have hget : (a.set_tree_height (k + 1)).get_tree_index.toNat = idx.toNat / 2 ^ k.toNat := by
      rw [Adrs.toNat_get_tree_index, hset,
        getTreeIndex_adrs6 _ _ _ _ _ (Nat.lt_of_le_of_lt (Nat.div_le_self _ _) hT)]
    rw [and_one_eq, hsh]
    by_cases hbit : idx.toNat / 2 ^ k.toNat % 2 = 0
    · rw [if_pos (by simpa using hbit)]
      have hadr : ((a.set_tree_height (k + 1)).set_tree_index
          ((a.set_tree_height (k + 1)).get_tree_index / 2)).bytes32 =
            Spec.adrs6 j t 2 0 (k.toNat + 1) (idx.toNat / 2 ^ (k.toNat + 1)) := by
        rw [Adrs.to_32_set_tree_index, hset, UInt32.toNat_div, hget, Nat.pow_succ,
          ← Nat.div_div_eq_div_mul]
        rfl
      refine Visits.divU32 (by decide) ?_
      refine Visits.asUsize (by omega) ?_
      refine Visits.vget hk ?_
      exact Visits.last (R.h _ _ rfl hadr) fun v _ => Returns.pure ⟨_, hadr⟩
    · rw [if_neg (by simpa using hbit)]
      have hsub : ((a.set_tree_height (k + 1)).get_tree_index - 1).toNat =
          idx.toNat / 2 ^ k.toNat - 1 := by
        rw [UInt32.toNat_sub_of_le _ _ (by rw [UInt32.le_iff_toNat_le, hget]; simp; omega), hget]
        rfl
      have hadr : ((a.set_tree_height (k + 1)).set_tree_index
          (((a.set_tree_height (k + 1)).get_tree_index - 1) / 2)).bytes32 =
            Spec.adrs6 j t 2 0 (k.toNat + 1) (idx.toNat / 2 ^ (k.toNat + 1)) := by
        rw [Adrs.to_32_set_tree_index, hset, UInt32.toNat_div, hsub, Nat.pow_succ,
          ← Nat.div_div_eq_div_mul, Spec.setTreeIndex_adrs6]
        congr 1
        show (_ - 1) / 2 = _
        omega
      refine Visits.subU32 (by rw [hget]; simp; omega) ?_
      refine Visits.divU32 (by decide) ?_
      refine Visits.asUsize (by omega) ?_
      refine Visits.vget hk ?_
      exact Visits.last (R.h _ _ rfl hadr) fun v _ => Returns.pure ⟨_, hadr⟩
  · rintro k k' q - h1 - rfl h
    simp at h; omega
  · intro q
    rw [hh]
    cases q with
    | tree j' t' k i =>
      simp only [onTree, Place.tree.injEq]
      constructor
      · rintro ⟨k, _, h, rfl, rfl, rfl, rfl⟩
        exact ⟨rfl, rfl, by omega, by omega, rfl⟩
      · rintro ⟨rfl, rfl, h1, h2, rfl⟩
        exact ⟨k - 1, by simp, by omega, rfl, rfl, by omega, by rw [show k - 1 + 1 = k by omega]⟩
    | _ => simp [onTree]

/-- Signing and recomputing the root together visit the whole tree. -/
theorem xmss_sign_verify_union {j t idx : Nat} {msg : List UInt8} (hidx : idx < 2 ^ p.hp) (q : Place) :
    xmssPlaces p j t q ↔ xmssSignPlaces p j t idx msg q ∨ xmssVerifyPlaces p j t idx msg q := by
  refine onTree.union ?_ ?_ ?_ ?_ q
  · intro l c s
    have hd := wotsDigits_lt (p := p) (msg := msg) c
    rw [stepsOf]
    generalize (Spec.wotsDigits p msg).getD c 0 = dc at *
    by_cases hl : l = idx
    · subst hl; simp; omega
    · simp [hl]
  · intro l
    by_cases hl : l = idx
    · subst hl; simp [hidx]
    · simp [hl]
  · simp
  · intro k i
    by_cases hi : i = idx / 2 ^ k
    · subst hi
      simp only [ne_eq, not_true_eq_false, and_false, and_true, false_or]
      refine ⟨fun h => ⟨h.1, h.2.1⟩, fun h => ⟨h.1, h.2, ?_⟩⟩
      rw [Nat.div_lt_iff_lt_mul (Nat.two_pow_pos _), ← Nat.pow_add]
      rwa [show p.hp - k + k = p.hp by omega]
    · simp [hi]

theorem xmss_sign_verify_disj {j t idx : Nat} {msg : List UInt8} (q : Place)
    (h1 : xmssSignPlaces p j t idx msg q) (h2 : xmssVerifyPlaces p j t idx msg q) : False := by
  refine onTree.disj ?_ ?_ ?_ ?_ q h1 h2
  · rintro l c s ⟨_, _, _, h⟩ ⟨rfl, _, h', _⟩
    exact absurd (h rfl) (Nat.not_lt.mpr h')
  · exact fun l a b => a.2 b
  · simp
  · exact fun k i a b => a.2.2.2 b.2.2

end Fips205.Model
