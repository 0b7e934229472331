import Verif.Proofs.BreakAsk
import Verif.Spec.Bind

/-! # One signature accepted for two messages -/

namespace Fips205.Spec.Attempt
open Fips205

variable {c c' : Attempt} {m : Nat}

theorem Clash.of_collision (h : c.Collision c') : c.Clash c' := by
  obtain ⟨x, h1, h2, h3, h4⟩ := h
  exact ⟨x, x, h1, h2, .inr h3, h4⟩

/-- Children of one parent, of which one is the same. -/
theorem children_swap {x x' : Nat} {a a' s : Bytes} (hne : x ≠ x') (hx : x / 2 = x' / 2) (ha : a.length = s.length)
    (ha' : a'.length = s.length) (h : children x a s = children x' a' s) : a = a' := by
  simp only [children] at h
  split at h <;> split at h
  · omega
  · obtain ⟨h1, h2⟩ := List.append_inj h ha
    rw [h1, h2]
  · obtain ⟨h1, h2⟩ := List.append_inj h ha'.symm
    rw [h2, h1]
  · omega

/-- The two attempts are made with one signature. -/
structure Twin (c c' : Attempt) (m : Nat) : Prop extends Like c c' m where
  fors : c'.SIGfors = c.SIGfors
  ht : c'.SIGht = c.SIGht
  root : c.vMsg c.p.d = c'.vMsg c.p.d

theorem Twin.wots (R : Twin c c' m) (j i : Nat) : c'.vWots j i = c.vWots j i := by
  rw [vWots, vWots, vLayer, vLayer, R.ht, R.p]

theorem Twin.auth (R : Twin c c' m) (j k : Nat) : c'.vAuth j k = c.vAuth j k := by
  rw [vAuth, vAuth, vLayer, vLayer, R.ht, R.p]

theorem Twin.forsAuth (R : Twin c c' m) (i k : Nat) : c'.vForsAuth i k = c.vForsAuth i k := by
  rw [vForsAuth, vForsAuth, R.fors, R.p]

/-- Either something is wrong, or the two agree where they meet. -/
theorem Twin.pair (R : Twin c c' m) (h1 : ¬ c.Clash c') (h2 : ¬ c.Loop) : c.Pair c' m := by
  have hc : ¬ c.Collision c' := fun h => h1 (.of_collision h)
  refine { R.toLike with root := R.root, coll := hc, reuse := fun hr => h2 ?_ }
  rcases R.reuse_meaning hr with h | ⟨j, hj, i, hi, -, -, hd, -, e, -⟩
  · exact absurd h hc
  · refine ⟨j, hj, i, hi, _, _, Nat.le_refl _, hd, c'.vDigit_le j i, ?_⟩
    rw [vChain_digit, ← e, R.wots]

section
variable (R : Twin c c' m) (h1 : ¬ c.Clash c') (h2 : ¬ c.Loop)
include R h1 h2

/-- In a tree that both use, they use the same leaf. -/
theorem Twin.leaf_eq {j : Nat} (hj : j < c.p.d) (ht : htTree c.p c.t j = htTree c.p c'.t j) : c.leaf j = c'.leaf j := by
  have P := R.pair h1 h2
  have hj' : j < c'.p.d := by rw [R.p]; exact hj
  have key : ∀ r ≤ c.p.hp, c.leaf j / 2 ^ (c.p.hp - r) = c'.leaf j / 2 ^ (c.p.hp - r) := by
    intro r
    induction r with
    | zero =>
      intro _
      have a := R.ok.leaf_lt j
      have b := R.ok'.leaf_lt j
      rw [R.p] at b
      rw [Nat.sub_zero, Nat.div_eq_of_lt a, Nat.div_eq_of_lt b]
    | succ r ih =>
      intro hr
      obtain ⟨k, hk⟩ : ∃ k, k = c.p.hp - (r + 1) := ⟨_, rfl⟩
      have e : c.p.hp - r = k + 1 := by omega
      have ih := ih (by omega)
      rw [e] at ih
      rw [← hk]
      by_contra hne
      have hkh : k < c.p.hp := by omega
      have hch := P.children hj hkh ht ih (P.xmss' hj ht (P.above hj ht) hkh ih)
      rw [R.auth] at hch
      have hal := R.ok.auth_length hj hkh
      have hx : c.leaf j / 2 ^ k / 2 = c'.leaf j / 2 ^ k / 2 := by
        rw [Nat.div_div_eq_div_mul, Nat.div_div_eq_div_mul, ← Nat.pow_succ]; exact ih
      have hv := children_swap hne hx (by rw [R.ok.xmss_length, hal]) (by rw [R.ok'.xmss_length, hal, R.p]) hch
      apply h1
      cases k with
      | zero =>
        rw [wotsPk_value R.ok, wotsPk_value R.ok', R.hf, R.seed] at hv
        refine ⟨_, _, place_wotsPk R.ok hj, place_wotsPk R.ok' hj', .inl fun he => ?_, hv⟩
        injection he with _ _ he
        exact hne (by rw [he])
      | succ k =>
        rw [tree_value R.ok j (by omega), tree_value R.ok' j (by rw [R.p]; omega), R.hf, R.seed] at hv
        refine ⟨_, _, place_tree R.ok hj (k := k) (by omega), place_tree R.ok' hj' (k := k) (by rw [R.p]; omega),
          .inl fun he => ?_, hv⟩
        injection he with _ _ _ he
        exact hne he
  have := key c.p.hp (Nat.le_refl _)
  rwa [Nat.sub_self, Nat.pow_zero, Nat.div_one, Nat.div_one] at this

theorem Twin.tree_eq : ∀ r < c.p.d, htTree c.p c.t (c.p.d - 1 - r) = htTree c.p c'.t (c.p.d - 1 - r) := by
  intro r
  induction r with
  | zero =>
    intro hr
    have a := R.ok.htTree_lt (j := c.p.d - 1) (by omega)
    have b := R.ok'.htTree_lt (j := c.p.d - 1) (by rw [R.p]; omega)
    rw [R.p] at b
    rw [Nat.sub_self, Nat.mul_zero, Nat.pow_zero, Nat.lt_one_iff] at a b
    rw [Nat.sub_zero, a, b]
  | succ r ih =>
    intro hr
    have ih := ih (by omega)
    obtain ⟨j, hj⟩ : ∃ j, j = c.p.d - 1 - (r + 1) := ⟨_, rfl⟩
    rw [show c.p.d - 1 - r = j + 1 by omega] at ih
    rw [← hj]
    have hl := R.leaf_eq h1 h2 (j := j + 1) (by omega) ih
    simp only [leaf, htLeaf] at hl
    rw [R.p] at hl
    rw [htTree_succ, htTree_succ] at ih
    rw [← Nat.div_add_mod' (htTree c.p c.t j) (2 ^ c.p.hp), ← Nat.div_add_mod' (htTree c.p c'.t j) (2 ^ c.p.hp), ih, hl]

/-- They use the same FORS key ... -/
theorem Twin.position : c.t = c'.t ∧ c.l = c'.l := by
  have hd := R.ok.wf.d_pos
  have ht := R.tree_eq h1 h2 (c.p.d - 1) (by omega)
  rw [Nat.sub_self] at ht
  have hl := R.leaf_eq h1 h2 hd ht
  simp only [htTree, Nat.mul_zero, Nat.pow_zero, Nat.div_one] at ht
  exact ⟨ht, hl⟩

/-- ... and the same secrets of it. -/
theorem Twin.digits {i : Nat} (hi : i < c.p.k) : c.fDigit i = c'.fDigit i := by
  have P := R.pair h1 h2
  obtain ⟨ht, hl⟩ := R.position h1 h2
  have hi' : i < c'.p.k := by rw [R.p]; exact hi
  have key : ∀ r ≤ c.p.a, c.fLeaf i / 2 ^ (c.p.a - r) = c'.fLeaf i / 2 ^ (c.p.a - r) := by
    intro r
    induction r with
    | zero =>
      intro _
      have := fLeaf_top c i
      have b := fLeaf_top c' i
      rw [R.p] at b
      rw [Nat.sub_zero, this, b]
    | succ r ih =>
      intro hr
      obtain ⟨k, hk⟩ : ∃ k, k = c.p.a - (r + 1) := ⟨_, rfl⟩
      have e : c.p.a - r = k + 1 := by omega
      have ih := ih (by omega)
      rw [e] at ih
      rw [← hk]
      by_contra hne
      have hka : k < c.p.a := by omega
      have hka' : k < c'.p.a := by rw [R.p]; omega
      have hch := P.forsChildren ht hl hi hka ih (P.fors' ht hl hi hka ih)
      rw [R.forsAuth] at hch
      have hal := (R.ok.fors_slice hi).2.1 k hka
      have hx : c.fLeaf i / 2 ^ k / 2 = c'.fLeaf i / 2 ^ k / 2 := by
        rw [Nat.div_div_eq_div_mul, Nat.div_div_eq_div_mul, ← Nat.pow_succ]; exact ih
      have hv := children_swap hne hx (by rw [R.ok.forsNode_length, hal]) (by rw [R.ok'.forsNode_length, hal, R.p]) hch
      apply h1
      have p1 := place_fors R.ok hi (k := k) (by omega)
      have p2 := place_fors R.ok' hi' (k := k) (by omega)
      refine ⟨_, _, p1, p2, .inl fun he => ?_, ?_⟩
      · injection he with _ _ _ he
        exact hne he
      · cases k with
        | zero =>
          rw [forsLeaf_value, forsLeaf_value, R.hf, R.seed] at hv
          simp only [seen, Nat.pow_zero, Nat.div_one, fLeaf_top]
          exact hv
        | succ k =>
          rw [seen_fors c _ _ i (by omega), seen_fors c' _ _ i (by omega)]
          rw [forsNode_value R.ok hi (by omega), forsNode_value R.ok' hi' (by omega), R.hf, R.seed] at hv
          exact hv
  have := key c.p.a (Nat.le_refl _)
  rw [Nat.sub_self, Nat.pow_zero, Nat.div_one, Nat.div_one, fLeaf, fLeaf, R.p] at this
  omega

end

/-! ## What is asked -/

/-- What is hashed at the places of a verification is asked. -/
theorem asked_seen (o : c.Ok m) {x : Place} (h : verifyPlaces c x) :
    (x, c.seen x) ∈ (c.layersP c.p.d).asked (hashAt c.hf c.PKseed) := by
  obtain ⟨he, h⟩ := h
  cases x with
  | wotsHash j t l i s =>
    obtain ⟨rfl, rfl, hs⟩ := h
    exact asked_chain o he.1 he.2.2.2.1 hs he.2.2.2.2
  | wotsPk j t l =>
    obtain ⟨rfl, rfl⟩ := h
    exact asked_wots o he.1
  | tree j t k i =>
    obtain ⟨rfl, rfl⟩ := h
    obtain ⟨hj, -, h1, h2, -⟩ := he
    obtain ⟨k, rfl⟩ : ∃ u, k = u + 1 := ⟨k - 1, by omega⟩
    exact asked_xmss o hj h2
  | forsTree t l k x =>
    obtain ⟨rfl, rfl, i, hi, rfl⟩ := h
    have hk : k ≤ c.p.a := he.2.2.1
    cases k with
    | zero =>
      simp only [seen, Nat.pow_zero, Nat.div_one, fLeaf_top]
      exact asked_forsLeaf hi
    | succ k =>
      rw [seen_fors c _ _ i (by omega)]
      exact asked_forsNode o hi (by omega)
  | forsRoots t l =>
    obtain ⟨rfl, rfl⟩ := h
    exact asked_forsRoots o
  | wotsPrf => exact h.elim
  | forsPrf => exact h.elim

/-- It is not long. -/
theorem seen_length (o : c.Ok m) (hlen : 1 ≤ c.p.len) (hk1 : 1 ≤ c.p.k) {x : Place} (h : verifyPlaces c x) :
    (c.seen x).length ≤ (c.p.len + c.p.k) * c.p.n := by
  have hb := bound2 hlen hk1
  have b1 : c.p.len * c.p.n ≤ (c.p.len + c.p.k) * c.p.n := Nat.mul_le_mul_right _ (by omega)
  have b2 : c.p.k * c.p.n ≤ (c.p.len + c.p.k) * c.p.n := Nat.mul_le_mul_right _ (by omega)
  obtain ⟨he, h⟩ := h
  cases x with
  | wotsHash j t l i s =>
    simp only [seen]
    rw [o.vChain_length he.1 he.2.2.2.1]; omega
  | wotsPk j t l => exact (concat_length_le fun i hi => (o.vChain_length he.1 hi _).le).trans b1
  | tree j t k i =>
    obtain ⟨hj, -, h1, h2, -⟩ := he
    simp only [seen]
    rw [children_length, o.xmss_length, o.auth_length hj (by omega)]; omega
  | forsTree t l k x =>
    obtain ⟨rfl, rfl, i, hi, rfl⟩ := h
    have hk : k ≤ c.p.a := he.2.2.1
    cases k with
    | zero =>
      simp only [seen, Nat.pow_zero, Nat.div_one, fLeaf_top]
      rw [(o.fors_slice hi).1]; omega
    | succ k =>
      rw [seen_fors c _ _ i (by omega), children_length, o.forsNode_length, (o.fors_slice hi).2.1 k (by omega)]; omega
  | forsRoots t l => exact (concat_length_le fun i hi => (o.forsNode_length i _).le).trans b2
  | wotsPrf => exact h.elim
  | forsPrf => exact h.elim

end Fips205.Spec.Attempt
