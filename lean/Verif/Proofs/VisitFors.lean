import Verif.Proofs.VisitXmss
import Verif.Proofs.Fors

/-! # The places visited by `src/fors.rs` -/

namespace Fips205.Model
open Fips205

/-- A set of places of one FORS key: secret values, nodes, and the compression of the roots. -/
def onFors (t l : Nat) (prf : Nat → Prop) (node : Nat → Nat → Prop) (roots : Prop) : Place → Prop
  | .forsPrf t' l' i => t' = t ∧ l' = l ∧ prf i
  | .forsTree t' l' k i => t' = t ∧ l' = l ∧ node k i
  | .forsRoots t' l' => t' = t ∧ l' = l ∧ roots
  | _ => False

section
variable {t l : Nat} {r1 r2 r3 : Nat → Prop} {n1 n2 n3 : Nat → Nat → Prop} {c1 c2 c3 : Prop}

theorem onFors.disj (hr : ∀ i, r1 i → r2 i → False) (hn : ∀ k i, n1 k i → n2 k i → False)
    (hc : c1 → c2 → False) (p : Place) (h1 : onFors t l r1 n1 c1 p) (h2 : onFors t l r2 n2 c2 p) :
    False := by
  cases p with
  | forsPrf => exact hr _ h1.2.2 h2.2.2
  | forsTree => exact hn _ _ h1.2.2 h2.2.2
  | forsRoots => exact hc h1.2.2 h2.2.2
  | _ => exact h1

theorem onFors.union (hr : ∀ i, r3 i ↔ r1 i ∨ r2 i) (hn : ∀ k i, n3 k i ↔ n1 k i ∨ n2 k i)
    (hc : c3 ↔ c1 ∨ c2) (p : Place) :
    onFors t l r3 n3 c3 p ↔ onFors t l r1 n1 c1 p ∨ onFors t l r2 n2 c2 p := by
  cases p with
  | forsPrf => simp only [onFors, hr]; tauto
  | forsTree => simp only [onFors, hn]; tauto
  | forsRoots => simp only [onFors, hc]; tauto
  | _ => simp only [onFors, or_self]

theorem onFors.congr (hr : ∀ i, r1 i ↔ r2 i) (hn : ∀ k i, n1 k i ↔ n2 k i) (hc : c1 ↔ c2) (p : Place) :
    onFors t l r1 n1 c1 p ↔ onFors t l r2 n2 c2 p := by
  cases p with
  | forsPrf => simp only [onFors, hr]
  | forsTree => simp only [onFors, hn]
  | forsRoots => simp only [onFors, hc]
  | _ => rfl

theorem onFors.iUnion {ι : Type} {T : ι → Prop} {r : ι → Nat → Prop} {n : ι → Nat → Nat → Prop}
    {c : ι → Prop} (p : Place) :
    (∃ i, T i ∧ onFors t l (r i) (n i) (c i) p) ↔
      onFors t l (fun x => ∃ i, T i ∧ r i x) (fun k x => ∃ i, T i ∧ n i k x) (∃ i, T i ∧ c i) p := by
  have key : ∀ {A B : Prop} {C : ι → Prop}, (∃ i, T i ∧ A ∧ B ∧ C i) ↔ (A ∧ B ∧ ∃ i, T i ∧ C i) :=
    ⟨fun ⟨i, h, a, b, c⟩ => ⟨a, b, i, h, c⟩, fun ⟨a, b, i, h, c⟩ => ⟨i, h, a, b, c⟩⟩
  cases p with
  | forsPrf => exact key
  | forsTree => exact key
  | forsRoots => exact key
  | _ => exact ⟨fun ⟨_, _, h⟩ => h, fun h => h.elim⟩

theorem eq_forsPrf {i : Nat} (p : Place) :
    p = .forsPrf t l i ↔ onFors t l (· = i) (fun _ _ => False) False p := by
  cases p <;> simp [onFors]

theorem eq_forsTree {k i : Nat} (p : Place) :
    p = .forsTree t l k i ↔ onFors t l (fun _ => False) (fun k' i' => k' = k ∧ i' = i) False p := by
  cases p <;> simp [onFors]

theorem eq_forsRoots (p : Place) :
    p = .forsRoots t l ↔ onFors t l (fun _ => False) (fun _ _ => False) True p := by
  cases p <;> simp [onFors]

end

/-- The subtree below node `i` at height `z`. -/
def forsSubtree (t l z i : Nat) : Place → Prop :=
  onFors t l (fun x => x / 2 ^ z = i) (fun k x => k ≤ z ∧ x / 2 ^ (z - k) = i) False

/-- The leaf of tree `τ` that signs `md`. -/
def forsLeaf (p : Spec.Params) (md : List UInt8) (τ : Nat) : Nat :=
  τ * 2 ^ p.a + (Spec.base2b md p.a p.k).getD τ 0

/-- The places `fors_sign` visits. -/
def forsSignPlaces (p : Spec.Params) (t l : Nat) (md : List UInt8) : Place → Prop :=
  onFors t l (· < p.k * 2 ^ p.a)
    (fun k x => k ≤ p.a ∧ x < p.k * 2 ^ (p.a - k) ∧ ¬ ∃ τ, τ < p.k ∧ x = forsLeaf p md τ / 2 ^ k) False

/-- The places `fors_pk_from_sig` visits. -/
def forsVerifyPlaces (p : Spec.Params) (t l : Nat) (md : List UInt8) : Place → Prop :=
  onFors t l (fun _ => False)
    (fun k x => k ≤ p.a ∧ ∃ τ, τ < p.k ∧ x = forsLeaf p md τ / 2 ^ k) True

/-- The whole key. -/
def forsPlaces (p : Spec.Params) (t l : Nat) : Place → Prop :=
  onFors t l (· < p.k * 2 ^ p.a) (fun k x => k ≤ p.a ∧ x < p.k * 2 ^ (p.a - k)) True

theorem forsLeaf_div {p : Spec.Params} {md : List UInt8} {τ k : Nat} (hk : k ≤ p.a) :
    forsLeaf p md τ / 2 ^ k / 2 ^ (p.a - k) = τ := by
  rw [Nat.div_div_eq_div_mul, ← Nat.pow_add, Nat.add_sub_cancel' hk, forsLeaf, Nat.mul_comm,
    Nat.mul_add_div (Nat.two_pow_pos _), Nat.div_eq_of_lt base2b_getD_lt, Nat.add_zero]

variable {b : Build} {K LEN M N A D H HP : Nat} {p : Spec.Params} {hs : Hashers (LogExec b) K LEN M N}
  {At : Place → Call → Prop} {pk_seed : List UInt8}

theorem fors_sk_gen_visits (R : HashersAt At pk_seed hs) (sk_seed : List UInt8) {adrs : Adrs}
    {t l e f : Nat} (hl : l < 2 ^ 32) (ha : adrs.bytes32 = Spec.adrs6 0 t 3 l e f) (idx : UInt32) :
    Visits At (· = .forsPrf t l idx.toNat) (fun _ => True)
      (fors_sk_gen hs sk_seed pk_seed adrs idx) := by
  unfold fors_sk_gen
  refine R.prf _ rfl ?_
  rw [Adrs.to_32_set_tree_index, Adrs.to_32_set_key_pair_address, Adrs.to_32_set_type_and_clear,
    Adrs.toNat_get_key_pair_address, ha, Spec.getKeyPairAddress_adrs6 _ _ _ _ _ hl]
  rfl

theorem fors_node_visits (R : HashersAt At pk_seed hs) (sk_seed : List UInt8) {adrs : Adrs}
    {t l e f : Nat} (hl : l < 2 ^ 32) (ha : adrs.bytes32 = Spec.adrs6 0 t 3 l e f) :
    ∀ (n : Nat) (i z : UInt32), z.toNat = n → (i.toNat + 1) * 2 ^ n ≤ 2 ^ 32 →
    Visits At (forsSubtree t l n i.toNat) (fun r => ∃ v, r = .ok v)
      (fors_node hs sk_seed i z pk_seed adrs) := by
  intro n
  induction n with
  | zero =>
    intro i z hz _
    have := u32_eq_zero hz
    subst this
    rw [fors_node]
    refine Visits.leak ?_
    simp only [dite_true]
    refine Visits.bind _ (· = .forsTree t l 0 i.toNat) (fors_sk_gen_visits R sk_seed hl ha i) ?_ ?_
      fun sk _ => ?_
    · rintro _ rfl h; cases h
    · intro q
      rw [eq_forsPrf, eq_forsTree]
      refine onFors.union ?_ ?_ ?_ q <;> simp
    refine Visits.last (R.f _ rfl ?_) fun v _ => Returns.pure ⟨v, rfl⟩
    rw [Adrs.to_32_set_tree_index, Adrs.to_32_set_tree_height, ha]
    rfl
  | succ n ih =>
    intro i z hz hi
    rw [fors_node]
    refine Visits.leak ?_
    have hz0 : z ≠ 0 := by rintro rfl; simp at hz
    rw [dif_neg hz0]
    have hz1 : (z - 1).toNat = n := by
      rw [UInt32.toNat_sub_of_le _ _ (by rw [UInt32.le_iff_toNat_le]; simp; omega), hz]; simp
    have hpow : 1 ≤ 2 ^ n := Nat.one_le_two_pow
    have hi2 : (2 * i.toNat + 2) * 2 ^ n ≤ 2 ^ 32 := by
      rw [Nat.pow_succ] at hi
      calc (2 * i.toNat + 2) * 2 ^ n = (i.toNat + 1) * (2 ^ n * 2) := by ring
        _ ≤ _ := hi
    have hi3 : 2 * i.toNat + 2 ≤ 2 ^ 32 :=
      Nat.le_trans (Nat.le_mul_of_pos_right _ (by omega)) hi2
    have e1 : (2 * i).toNat = 2 * i.toNat := by
      rw [UInt32.toNat_mul, Nat.mod_eq_of_lt (by simp; omega)]; simp
    have e2 : (2 * i + 1).toNat = 2 * i.toNat + 1 := by
      rw [UInt32.toNat_add, e1, Nat.mod_eq_of_lt (by simp; omega)]; simp
    have hl' := ih (2 * i) (z - 1) hz1
      (by rw [e1]; exact Nat.le_trans (Nat.mul_le_mul_right _ (by omega)) hi2)
    have hr := ih (2 * i + 1) (z - 1) hz1 (by rw [e2]; exact hi2)
    rw [e1] at hl'
    rw [e2] at hr
    have half : ∀ x k, k ≤ n → (x / 2 ^ (n + 1 - k) = i.toNat ↔
        x / 2 ^ (n - k) = 2 * i.toNat ∨ x / 2 ^ (n - k) = 2 * i.toNat + 1) := fun x k hk => by
      rw [show n + 1 - k = n - k + 1 by omega, Nat.pow_succ, ← Nat.div_div_eq_div_mul]; omega
    have half0 := fun x => half x 0 (by omega)
    simp only [Nat.sub_zero] at half0
    refine Visits.mulU32 (by simp; omega) ?_
    refine Visits.bind _ (onFors t l (fun x => x / 2 ^ n = 2 * i.toNat + 1) (fun k x =>
      k ≤ n ∧ x / 2 ^ (n - k) = 2 * i.toNat + 1 ∨ k = n + 1 ∧ x = i.toNat) False) hl' ?_ ?_ ?_
    · refine onFors.disj ?_ ?_ ?_ <;> intros <;> omega
    · refine onFors.union ?_ ?_ ?_
      · intro x; simp only [half0]
      · intro k x
        constructor
        · rintro ⟨h2, h3⟩
          by_cases hk : k ≤ n
          · rw [half _ _ hk] at h3; tauto
          · obtain rfl : k = n + 1 := by omega
            simp at h3; tauto
        · rintro (⟨h2, h3⟩ | ⟨h2, h3⟩ | ⟨rfl, rfl⟩)
          · exact ⟨by omega, (half _ _ h2).mpr (.inl h3)⟩
          · exact ⟨by omega, (half _ _ h2).mpr (.inr h3)⟩
          · simp
      · simp
    rintro _ ⟨lnode, rfl⟩
    dsimp only
    refine Visits.mulU32 (by simp; omega) ?_
    refine Visits.addU32 (by rw [e1]; simp; omega) ?_
    refine Visits.bind _ (· = .forsTree t l (n + 1) i.toNat) hr ?_ ?_ ?_
    · rintro _ h rfl
      have : n + 1 ≤ n := h.2.2.1
      omega
    · intro q
      rw [eq_forsTree]
      refine onFors.union ?_ ?_ ?_ q <;> simp
    rintro _ ⟨rnode, rfl⟩
    refine Visits.leak ?_
    dsimp only
    refine Visits.last (R.h _ _ rfl ?_) fun v _ => Returns.pure ⟨v, rfl⟩
    rw [Adrs.to_32_set_tree_index, Adrs.to_32_set_tree_height, ha, hz]
    rfl

theorem forsLeaf_toNat (hp : Matches p K LEN M N A D H HP) {md : List UInt8} {i a32 d : UInt32}
    (ha : a32.toNat = A) (hi : i.toNat < K) (hd : d.toNat = (Spec.base2b md p.a p.k).getD i.toNat 0) :
    (i <<< a32).toNat + d.toNat < 2 ^ 32 ∧ (i <<< a32 + d).toNat = forsLeaf p md i.toNat := by
  have hA := hp.A_lt
  have hb := hp.fors_bound
  have hdlt : d.toNat < 2 ^ A := by rw [hd, hp.a]; exact base2b_getD_lt
  have hbi := fors_index_bound hi (Nat.zero_le A) hdlt
  simp only [Nat.sub_zero, Nat.pow_zero, Nat.mul_one] at hbi
  have hsh := shl_toNat (x := i) (j := a32) (by omega) (by rw [ha]; omega)
  rw [ha] at hsh
  refine ⟨by omega, ?_⟩
  rw [UInt32.toNat_add, hsh, Nat.mod_eq_of_lt (by omega), hd, forsLeaf, hp.a]

/-- The sibling on the authentication path, numbered within the forest. -/
theorem sibling_forsLeaf {md : List UInt8} {τ j : Nat} (hj : j < p.a) :
    τ * 2 ^ (p.a - j) + Spec.sibling ((Spec.base2b md p.a p.k).getD τ 0 / 2 ^ j) =
      Spec.sibling (forsLeaf p md τ / 2 ^ j) := by
  obtain ⟨r, hr⟩ : ∃ r, p.a - j = r + 1 := ⟨p.a - j - 1, by omega⟩
  have e : forsLeaf p md τ / 2 ^ j = τ * 2 ^ (p.a - j) + (Spec.base2b md p.a p.k).getD τ 0 / 2 ^ j := by
    rw [forsLeaf]
    generalize (Spec.base2b md p.a p.k).getD τ 0 = d
    rw [show τ * 2 ^ p.a = 2 ^ j * (τ * 2 ^ (p.a - j)) by
      conv_lhs => rw [show p.a = p.a - j + j by omega, Nat.pow_add]
      ring, Nat.mul_add_div (Nat.two_pow_pos _)]
  rw [e, hr, show τ * 2 ^ (r + 1) = 2 * (τ * 2 ^ r) by rw [Nat.pow_succ]; ring]
  generalize τ * 2 ^ r = x
  generalize (Spec.base2b md p.a p.k).getD τ 0 / 2 ^ j = y
  unfold Spec.sibling
  split <;> split <;> omega

theorem fors_sign_visits (hp : Matches p K LEN M N A D H HP) (R : HashersAt At pk_seed hs)
    {md : List UInt8} (hmd : md.length = (K * A + 7) / 8) (sk_seed : List UInt8) {adrs : Adrs}
    {t l e f : Nat} (hl : l < 2 ^ 32) (hadr : adrs.bytes32 = Spec.adrs6 0 t 3 l e f) :
    Visits At (forsSignPlaces p t l md) (fun r => ∃ v, r = .ok v)
      (fors_sign A hs md sk_seed adrs pk_seed) := by
  unfold fors_sign
  have hA := hp.A_lt
  have hK := hp.K_le
  have hb := hp.fors_bound
  have hpa := hp.a
  have hpk := hp.k
  refine Visits.u32TryFromUnwrap (by omega) fun a32 ha => ?_
  refine Visits.u32TryFromUnwrap (by omega) fun k32 hk => ?_
  refine Visits.ret (P := fun new : List UInt32 => new.length = K ∧
    new.map UInt32.toNat = Spec.base2b md p.a p.k) (Returns.tail (fors_digits_returns hp hmd ha hk
    fun new h1 h2 => Returns.pure ⟨h1, h2⟩)) fun new ⟨hl', hnew⟩ => ?_
  refine Visits.copyFromSlice hl' fun indices hind => ?_
  have hd : ∀ i (hi : i < K), indices[i].toNat = (Spec.base2b md p.a p.k).getD i 0 :=
    fun i hi => digit_of (by rw [hind, hnew]) hi
  refine Visits.mono (Visits.congr (Visits.forU32E' (T := fun τ => onFors t l (fun x => x / 2 ^ A = τ)
      (fun k x => k ≤ A ∧ x ≠ forsLeaf p md τ / 2 ^ k ∧ x / 2 ^ (A - k) = τ) False)
    (fun _ _ => True) (by simp) trivial ?_ ?_) ?_) ?_
  · rintro i s - hi -
    rw [hk] at hi
    obtain ⟨h1, h2⟩ := forsLeaf_toNat hp ha hi (hd _ hi)
    have hdlt : indices[i.toNat].toNat < 2 ^ A := by rw [hd _ hi, hpa]; exact base2b_getD_lt
    have hdiv : forsLeaf p md i.toNat / 2 ^ A = i.toNat := by
      have := forsLeaf_div (p := p) (md := md) (τ := i.toNat) (Nat.zero_le _)
      simpa [hpa] using this
    refine Visits.shlU32 (by omega) ?_
    refine Visits.asUsize (by omega) ?_
    refine Visits.vget hi ?_
    refine Visits.addU32 h1 ?_
    refine Visits.bind _ (onFors t l (fun x => x ≠ forsLeaf p md i.toNat ∧ x / 2 ^ A = i.toNat)
      (fun k x => k ≤ A ∧ x ≠ forsLeaf p md i.toNat / 2 ^ k ∧ x / 2 ^ (A - k) = i.toNat) False)
      (fors_sk_gen_visits R sk_seed hl hadr _) ?_ ?_ fun sk _ => ?_
    · rintro _ rfl h
      exact h.2.2.1 h2
    · intro q
      rw [eq_forsPrf, h2]
      refine onFors.union ?_ ?_ ?_ q
      · intro x
        constructor
        · intro h
          by_cases hx : x = forsLeaf p md i.toNat
          exacts [.inl hx, .inr ⟨hx, h⟩]
        · rintro (rfl | h)
          exacts [hdiv, h.2]
      · simp
      · simp
    refine Visits.asUsize (by omega) ?_
    refine Visits.vset hi ?_
    refine Visits.mono (Visits.congr (Visits.forU32E'
      (T := fun j => forsSubtree t l j (Spec.sibling (forsLeaf p md i.toNat / 2 ^ j)))
      (fun _ _ => True) (by simp) trivial ?_ ?_) ?_) ?_
    · rintro j s - hj -
      rw [ha] at hj
      have hbs : Spec.sibling (indices[i.toNat].toNat / 2 ^ j.toNat) < 2 ^ (A - j.toNat) := by
        refine sibling_lt (by omega) ?_
        rw [Nat.div_lt_iff_lt_mul (Nat.two_pow_pos _), ← Nat.pow_add,
          show A - j.toNat + j.toNat = A by omega]
        exact hdlt
      have hbj := fors_index_bound hi (Nat.le_of_lt hj) hbs
      have hbj2 : i.toNat * 2 ^ (A - j.toNat) +
          Spec.sibling (indices[i.toNat].toNat / 2 ^ j.toNat) + 1 ≤ K * 2 ^ A :=
        Nat.le_trans (Nat.le_mul_of_pos_right _ (Nat.two_pow_pos _)) hbj
      have haj : (a32 - j).toNat = A - j.toNat := by
        rw [UInt32.toNat_sub_of_le _ _ (by rw [UInt32.le_iff_toNat_le]; omega), ha]
      have hsh2 := shl_toNat (x := i) (j := a32 - j) (by omega) (by rw [haj]; omega)
      rw [haj] at hsh2
      have hx : (indices[i.toNat] >>> j ^^^ 1).toNat =
          Spec.sibling (indices[i.toNat].toNat / 2 ^ j.toNat) := by
        rw [xor_one_toNat, shr_toNat _ _ (by omega)]
      have hidx2 : (i <<< (a32 - j) + (indices[i.toNat] >>> j ^^^ 1)).toNat =
          i.toNat * 2 ^ (A - j.toNat) +
            Spec.sibling (indices[i.toNat].toNat / 2 ^ j.toNat) := by
        rw [UInt32.toNat_add, hsh2, hx, Nat.mod_eq_of_lt (by omega)]
      refine Visits.asUsize (by omega) ?_
      refine Visits.vget hi ?_
      refine Visits.shrU32 (by omega) ?_
      refine Visits.subU32 (by omega) ?_
      refine Visits.shlU32 (by omega) ?_
      refine Visits.addU32 (by rw [hsh2, hx]; omega) ?_
      have hv := fors_node_visits R sk_seed hl hadr j.toNat
        (i <<< (a32 - j) + (indices[i.toNat] >>> j ^^^ 1)) j rfl (by rw [hidx2]; omega)
      rw [hidx2, hd _ hi, ← hpa, sibling_forsLeaf (by omega)] at hv
      refine Visits.last hv ?_
      rintro _ ⟨node, rfl⟩
      refine Returns.leak ?_
      dsimp only
      refine Returns.asUsize (by omega) ?_
      refine Returns.asUsize (by omega) ?_
      refine Returns.vget hi ?_
      refine Returns.vset hj ?_
      exact Returns.vset hi (Returns.pure ⟨_, rfl, trivial⟩)
    · intro j j' q _ h1 _
      refine onFors.disj ?_ ?_ ?_ q
      · exact fun x a b => auth_disj h1 a b
      · exact fun k x a b => auth_disj_node h1 a.1 a.2 b.2
      · simp
    · intro q
      rw [ha]
      refine Iff.trans (b := ∃ j, j < A ∧
        forsSubtree t l j (Spec.sibling (forsLeaf p md i.toNat / 2 ^ j)) q)
        (by simp) (Iff.trans (onFors.iUnion (T := fun z => z < A) q) ?_)
      refine onFors.congr ?_ ?_ ?_ q
      · intro x; rw [auth_cover, hdiv]
      · intro k x; rw [auth_cover_node, hdiv]
      · simp
    · rintro _ ⟨s', rfl, _⟩
      exact ⟨s', rfl, trivial⟩
  · intro τ τ' q _ h1 _
    refine onFors.disj ?_ ?_ ?_ q
    · intro x a b; omega
    · intro k x a b; omega
    · simp
  · intro q
    rw [hk]
    refine Iff.trans (b := ∃ τ, τ < K ∧ onFors t l (fun x => x / 2 ^ A = τ)
      (fun k x => k ≤ A ∧ x ≠ forsLeaf p md τ / 2 ^ k ∧ x / 2 ^ (A - k) = τ) False q)
        (by simp) (Iff.trans (onFors.iUnion (T := fun τ => τ < K) q) ?_)
    rw [forsSignPlaces, hpa, hpk]
    refine onFors.congr ?_ ?_ ?_ q
    · intro x
      simp [Nat.div_lt_iff_lt_mul (Nat.two_pow_pos A)]
    · intro k x
      constructor
      · rintro ⟨τ, h1, h2, h3, h4⟩
        refine ⟨h2, ?_, ?_⟩
        · rwa [← Nat.div_lt_iff_lt_mul (Nat.two_pow_pos _), h4]
        · rintro ⟨τ', _, rfl⟩
          have := forsLeaf_div (p := p) (md := md) (τ := τ') (k := k) (by rwa [hpa])
          rw [hpa, h4] at this
          exact h3 (by rw [this])
      · rintro ⟨h1, h2, h3⟩
        rw [← Nat.div_lt_iff_lt_mul (Nat.two_pow_pos _)] at h2
        exact ⟨_, h2, h1, fun h => h3 ⟨_, h2, h⟩, rfl⟩
    · simp
  · rintro _ ⟨s', rfl, _⟩
    exact ⟨s', rfl⟩

theorem fors_pk_from_sig_visits (hp : Matches p K LEN M N A D H HP) (R : HashersAt At pk_seed hs)
    (sig : ForsSig A K N) {md : List UInt8} (hmd : md.length = (K * A + 7) / 8) {adrs : Adrs}
    {t l e f : Nat} (hl : l < 2 ^ 32) (hadr : adrs.bytes32 = Spec.adrs6 0 t 3 l e f) :
    Visits At (forsVerifyPlaces p t l md) (fun _ => True)
      (fors_pk_from_sig hs sig md pk_seed adrs) := by
  unfold fors_pk_from_sig
  have hA := hp.A_lt
  have hK := hp.K_le
  have hpa := hp.a
  have hpk := hp.k
  refine Visits.u32TryFromUnwrap (by omega) fun a32 ha => ?_
  refine Visits.u32TryFromUnwrap (by omega) fun k32 hk => ?_
  refine Visits.ret (P := fun new : List UInt32 => new.length = K ∧
    new.map UInt32.toNat = Spec.base2b md p.a p.k) (Returns.tail (fors_digits_returns hp hmd ha hk
    fun new h1 h2 => Returns.pure ⟨h1, h2⟩)) fun new ⟨hl', hnew⟩ => ?_
  refine Visits.copyFromSlice hl' fun indices hind => ?_
  have hd : ∀ i (hi : i < K), indices[i].toNat = (Spec.base2b md p.a p.k).getD i 0 :=
    fun i hi => digit_of (by rw [hind, hnew]) hi
  dsimp only
  refine Visits.bind (onFors t l (fun _ => False)
      (fun k x => k ≤ A ∧ ∃ τ, τ < K ∧ x = forsLeaf p md τ / 2 ^ k) False) (· = .forsRoots t l)
    (P := fun st => ∃ e f, st.1.bytes32 = Spec.adrs6 0 t 3 l e f) ?_ ?_ ?_ ?_
  · refine Visits.congr (Visits.forU32 (T := fun τ => onFors t l (fun _ => False)
        (fun k x => k ≤ A ∧ x = forsLeaf p md τ / 2 ^ k) False)
      (fun _ (st : Adrs × Vector (Vector UInt8 N) K) =>
        ∃ e f, st.1.bytes32 = Spec.adrs6 0 t 3 l e f) (by simp) ?_ ?_ ?_) ?_
    · exact ⟨e, f, hadr⟩
    · rintro i ⟨a, root⟩ - hi ⟨e, f, hadr⟩
      rw [hk] at hi
      dsimp only at hadr ⊢
      obtain ⟨h1, h2⟩ := forsLeaf_toNat hp ha hi (hd _ hi)
      refine Visits.asUsize (by omega) ?_
      refine Visits.vget hi ?_
      refine Visits.shlU32 (by omega) ?_
      refine Visits.asUsize (by omega) ?_
      refine Visits.vget hi ?_
      refine Visits.addU32 h1 ?_
      have ha0 : ((a.set_tree_height 0).set_tree_index (i <<< a32 + indices[i.toNat])).bytes32 =
          Spec.adrs6 0 t 3 l 0 (forsLeaf p md i.toNat) := by
        rw [Adrs.to_32_set_tree_index, Adrs.to_32_set_tree_height, hadr, h2]; rfl
      have hT : forsLeaf p md i.toNat < 2 ^ 32 := by rw [← h2]; exact UInt32.toNat_lt _
      refine Visits.bind (· = .forsTree t l 0 (forsLeaf p md i.toNat)) (onFors t l (fun _ => False)
        (fun k x => 0 < k ∧ k ≤ A ∧ x = forsLeaf p md i.toNat / 2 ^ k) False)
        (R.f _ rfl ha0) ?_ ?_ fun node0 _ => ?_
      · rintro _ rfl h
        exact absurd h.2.2.1 (by simp)
      · intro q
        rw [eq_forsTree]
        refine onFors.union ?_ ?_ ?_ q
        · simp
        · intro k x
          constructor
          · rintro ⟨h1, h2⟩
            rcases Nat.eq_zero_or_pos k with rfl | h
            · exact .inl ⟨rfl, by simpa using h2⟩
            · exact .inr ⟨h, h1, h2⟩
          · rintro (⟨rfl, rfl⟩ | h)
            exacts [⟨by omega, by simp⟩, h.2]
        · simp
      refine Visits.asUsize (by omega) ?_
      refine Visits.vget hi ?_
      refine Visits.last (P := fun st => ∃ e f, st.1.bytes32 = Spec.adrs6 0 t 3 l e f)
        (Visits.mono (Visits.congr (Visits.forU32
          (T := fun k q => q = .forsTree t l (k + 1) (forsLeaf p md i.toNat / 2 ^ (k + 1)))
          (fun k (st : Adrs × Vector UInt8 N) =>
            ∃ e, st.1.bytes32 = Spec.adrs6 0 t 3 l e (forsLeaf p md i.toNat / 2 ^ k))
          (by simp) ?_ ?_ ?_) ?_) ?_) ?_
      · refine ⟨0, ?_⟩
        simpa using ha0
      · rintro j ⟨a, node⟩ - hj ⟨e, he⟩
        rw [ha] at hj
        dsimp only at he ⊢
        have hj1 : (j + 1).toNat = j.toNat + 1 := by
          rw [UInt32.toNat_add, Nat.mod_eq_of_lt (by simp; omega)]; rfl
        refine Visits.addU32 (by simp; omega) ?_
        refine Visits.asUsize (by omega) ?_
        refine Visits.vget hi ?_
        refine Visits.shrU32 (by omega) ?_
        refine Visits.leak ?_
        have hset : (a.set_tree_height (j + 1)).bytes32 =
            Spec.adrs6 0 t 3 l (j.toNat + 1) (forsLeaf p md i.toNat / 2 ^ j.toNat) := by
          rw [Adrs.to_32_set_tree_height, he, hj1]; rfl
        have hget : (a.set_tree_height (j + 1)).get_tree_index.toNat =
            forsLeaf p md i.toNat / 2 ^ j.toNat := by
          rw [Adrs.toNat_get_tree_index, hset,
            getTreeIndex_adrs6 _ _ _ _ _ (Nat.lt_of_le_of_lt (Nat.div_le_self _ _) hT)]
        have hbit : (Spec.base2b md p.a p.k).getD i.toNat 0 / 2 ^ j.toNat % 2 =
            forsLeaf p md i.toNat / 2 ^ j.toNat % 2 := fors_bits (by omega)
        rw [and_one_eq, shr_toNat _ _ (by omega), hd _ hi, hbit]
        by_cases hc : forsLeaf p md i.toNat / 2 ^ j.toNat % 2 = 0
        · rw [if_pos (by simpa using hc)]
          have hadr : ((a.set_tree_height (j + 1)).set_tree_index
              ((a.set_tree_height (j + 1)).get_tree_index / 2)).bytes32 =
                Spec.adrs6 0 t 3 l (j.toNat + 1) (forsLeaf p md i.toNat / 2 ^ (j.toNat + 1)) := by
            rw [Adrs.to_32_set_tree_index, hset, UInt32.toNat_div, hget, Nat.pow_succ,
              ← Nat.div_div_eq_div_mul]
            rfl
          refine Visits.divU32 (by decide) ?_
          refine Visits.asUsize (by omega) ?_
          refine Visits.vget hj ?_
          exact Visits.last (R.h _ _ rfl hadr) fun v _ => Returns.pure ⟨_, hadr⟩
        · rw [if_neg (by simpa using hc)]
          have hsub : ((a.set_tree_height (j + 1)).get_tree_index - 1).toNat =
              forsLeaf p md i.toNat / 2 ^ j.toNat - 1 := by
            rw [UInt32.toNat_sub_of_le _ _ (by rw [UInt32.le_iff_toNat_le, hget]; simp; omega), hget]
            rfl
          have hadr : ((a.set_tree_height (j + 1)).set_tree_index
              (((a.set_tree_height (j + 1)).get_tree_index - 1) / 2)).bytes32 =
                Spec.adrs6 0 t 3 l (j.toNat + 1) (forsLeaf p md i.toNat / 2 ^ (j.toNat + 1)) := by
            rw [Adrs.to_32_set_tree_index, hset, UInt32.toNat_div, hsub, Nat.pow_succ,
              ← Nat.div_div_eq_div_mul, Spec.setTreeIndex_adrs6]
            congr 1
            show (_ - 1) / 2 = _
            omega
          refine Visits.subU32 (by rw [hget]; simp; omega) ?_
          refine Visits.divU32 (by decide) ?_
          refine Visits.asUsize (by omega) ?_
          refine Visits.vget hj ?_
          exact Visits.last (R.h _ _ rfl hadr) fun v _ => Returns.pure ⟨_, hadr⟩
      · rintro k k' q - h1 - rfl h
        simp at h; omega
      · intro q
        rw [ha]
        cases q with
        | forsTree t' l' k x =>
          simp only [onFors, Place.forsTree.injEq]
          constructor
          · rintro ⟨k, _, h, rfl, rfl, rfl, rfl⟩
            exact ⟨rfl, rfl, by omega, by omega, rfl⟩
          · rintro ⟨rfl, rfl, h1, h2, rfl⟩
            exact ⟨k - 1, by simp, by omega, rfl, rfl, by omega, by rw [show k - 1 + 1 = k by omega]⟩
        | _ => simp [onFors]
      · rintro ⟨a, node⟩ ⟨e, he⟩
        exact ⟨_, _, he⟩
      · rintro ⟨a, node⟩ h
        dsimp only at h ⊢
        refine Returns.asUsize (by omega) ?_
        exact Returns.vset hi (Returns.pure h)
    · intro τ τ' q _ h1 _
      refine onFors.disj ?_ ?_ ?_ q
      · simp
      · rintro k x ⟨h2, rfl⟩ ⟨_, h3⟩
        have a1 := forsLeaf_div (p := p) (md := md) (τ := τ) (k := k) (by omega)
        have a2 := forsLeaf_div (p := p) (md := md) (τ := τ') (k := k) (by omega)
        rw [← h3, a1] at a2
        omega
      · simp
    · intro q
      rw [hk]
      refine Iff.trans (b := ∃ τ, τ < K ∧ onFors t l (fun _ => False)
        (fun k x => k ≤ A ∧ x = forsLeaf p md τ / 2 ^ k) False q)
        (by simp) (Iff.trans (onFors.iUnion (T := fun τ => τ < K) q) ?_)
      refine onFors.congr ?_ ?_ ?_ q
      · simp
      · exact fun k x => ⟨fun ⟨τ, a, b, c⟩ => ⟨b, τ, a, c⟩, fun ⟨b, τ, a, c⟩ => ⟨τ, a, b, c⟩⟩
      · simp
  · rintro _ h rfl
    exact h.2.2
  · intro q
    rw [eq_forsRoots, forsVerifyPlaces, hpa, hpk]
    refine onFors.union ?_ ?_ ?_ q <;> simp
  · rintro ⟨a, root⟩ ⟨e, f, he⟩
    dsimp only at he ⊢
    refine Visits.last (R.t_len _ rfl ?_) fun _ _ => Returns.pure trivial
    rw [Adrs.to_32_set_key_pair_address, Adrs.to_32_set_type_and_clear,
      Adrs.toNat_get_key_pair_address, he, Spec.getKeyPairAddress_adrs6 _ _ _ _ _ hl]
    rfl

/-- Signing and recomputing the public key together visit the whole key. -/
theorem fors_sign_verify_union {t l : Nat} {md : List UInt8} (q : Place) :
    forsPlaces p t l q ↔ forsSignPlaces p t l md q ∨ forsVerifyPlaces p t l md q := by
  refine onFors.union ?_ ?_ ?_ q
  · simp
  · intro k x
    constructor
    · rintro ⟨h1, h2⟩
      by_cases h : ∃ τ, τ < p.k ∧ x = forsLeaf p md τ / 2 ^ k
      exacts [.inr ⟨h1, h⟩, .inl ⟨h1, h2, h⟩]
    · rintro (h | ⟨h1, τ, h2, rfl⟩)
      · exact ⟨h.1, h.2.1⟩
      · refine ⟨h1, ?_⟩
        rwa [← Nat.div_lt_iff_lt_mul (Nat.two_pow_pos _), forsLeaf_div h1]
  · simp

theorem fors_sign_verify_disj {t l : Nat} {md : List UInt8} (q : Place)
    (h1 : forsSignPlaces p t l md q) (h2 : forsVerifyPlaces p t l md q) : False := by
  refine onFors.disj ?_ ?_ ?_ q h1 h2
  · simp
  · exact fun k x a b => a.2.2 b.2
  · simp

end Fips205.Model
