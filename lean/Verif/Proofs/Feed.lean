import Verif.Proofs.Hit

/-!
# Values drawn beforehand

The values at the points that a program evaluates may be drawn before it is run.
-/

namespace Fips205.Oracle

variable {C Y V E α : Type}

/-- Run a program with the values `u` at the points that are new; at points in `K` the values are those of `c`. -/
def Tree.feed [DecidableEq Y] (pr : C → Y) : Tree C V E α → (n : ℕ) → Finset Y → (Y → V) → (Fin n → V) →
    Finset Y × (Y → V)
  | .done _, _, K, c, _ => (K, c)
  | .ask x k, n, K, c, u => if pr x ∈ K then (k (c (pr x))).feed pr n K c u else
    match n, u with
    | 0, _ => (K, c)
    | n + 1, u => (k (u 0)).feed pr n (insert (pr x) K) (Function.update c (pr x) (u 0)) (Fin.tail u)

section
variable [DecidableEq Y] {pr : C → Y} {x : C} {K : Finset Y}

theorem Tree.feed_known (hx : pr x ∈ K) (k : V → Tree C V E α) (n : ℕ) (c : Y → V) (u : Fin n → V) :
    (Tree.ask x k).feed pr n K c u = (k (c (pr x))).feed pr n K c u := by cases n <;> exact if_pos hx

theorem Tree.feed_zero (hx : pr x ∉ K) (k : V → Tree C V E α) (c : Y → V) (u : Fin 0 → V) :
    (Tree.ask x k).feed pr 0 K c u = (K, c) := if_neg hx

theorem Tree.feed_new (hx : pr x ∉ K) (k : V → Tree C V E α) {n : ℕ} (c : Y → V) (u : Fin (n + 1) → V) :
    (Tree.ask x k).feed pr (n + 1) K c u =
      (k (u 0)).feed pr n (insert (pr x) K) (Function.update c (pr x) (u 0)) (Fin.tail u) := if_neg hx

theorem avg_feed [Fintype Y] [Fintype V] [Nonempty V] (F : (Y → V) → ℚ) (t : Tree C V E α) : ∀ (n : ℕ) (K : Finset Y)
    (c : Y → V), (avg fun f => F (merge K c f)) =
      avg fun u : Fin n → V => avg fun f => F (merge (t.feed pr n K c u).1 (t.feed pr n K c u).2 f) := by
  induction t with
  | done r =>
    intro n K c
    exact (avg_const _).symm
  | ask x k ih =>
    intro n K c
    by_cases hx : pr x ∈ K
    · simp only [Tree.feed_known hx]
      exact ih _ n K c
    · cases n with
      | zero =>
        simp only [Tree.feed_zero hx]
        exact (avg_const _).symm
      | succ n =>
        simp only [Tree.feed_new hx]
        rw [avg_update (pr x), avg_cons]
        congr 1
        funext v
        simp only [← merge_insert K c _ hx v, Fin.cons_zero, Fin.tail_cons]
        exact ih v n _ _

/-- The program runs like this whenever the function has these values. -/
theorem Tree.feed_spec (t : Tree C V E α) : ∀ (n : ℕ) (K : Finset Y) (c : Y → V) (u : Fin n → V),
    (∀ f : Y → V, (t.log fun x => merge K c f (pr x)).length ≤ n) →
    K ⊆ (t.feed pr n K c u).1 ∧ (t.feed pr n K c u).1.card ≤ K.card + n ∧
    (∀ y ∈ K, (t.feed pr n K c u).2 y = c y) ∧
    ∀ g : Y → V, (∀ y ∈ (t.feed pr n K c u).1, g y = (t.feed pr n K c u).2 y) →
      (t.log fun x => g (pr x)) = (t.log fun x => (t.feed pr n K c u).2 (pr x)) ∧
      (t.result fun x => g (pr x)) = (t.result fun x => (t.feed pr n K c u).2 (pr x)) ∧
      ∀ x ∈ t.log fun x => g (pr x), pr x ∈ (t.feed pr n K c u).1 := by
  induction t with
  | done r =>
    intro n K c u _
    exact ⟨fun _ h => h, Nat.le_add_right _ _, fun _ _ => rfl, fun g _ => ⟨rfl, rfl, fun x hx => nomatch hx⟩⟩
  | ask x k ih =>
    intro n K c u hn
    by_cases hx : pr x ∈ K
    · simp only [Tree.feed_known hx]
      obtain ⟨h1, h2, h3, h4⟩ := ih (c (pr x)) n K c u fun f => by
        have := hn f
        rw [Tree.log, List.length_cons, merge, if_pos hx] at this
        exact Nat.le_of_succ_le this
      refine ⟨h1, h2, h3, fun g hg => ?_⟩
      obtain ⟨h5, h6, h7⟩ := h4 g hg
      have e : g (pr x) = c (pr x) := (hg _ (h1 hx)).trans (h3 _ hx)
      simp only [Tree.log, Tree.result, e, h3 _ hx]
      refine ⟨by rw [h5], h6, fun y hy => ?_⟩
      rcases List.mem_cons.mp hy with rfl | hy
      · exact h1 hx
      · exact h7 y hy
    · cases n with
      | zero => exact absurd (hn c) (by rw [Tree.log, List.length_cons]; omega)
      | succ n =>
        simp only [Tree.feed_new hx]
        obtain ⟨h1, h2, h3, h4⟩ := ih (u 0) n (insert (pr x) K) (Function.update c (pr x) (u 0)) (Fin.tail u) fun f => by
          have := hn (Function.update f (pr x) (u 0))
          rw [← merge_insert K c f hx, Tree.log, List.length_cons] at this
          have e : merge (insert (pr x) K) (Function.update c (pr x) (u 0)) f (pr x) = u 0 := by
            rw [merge, if_pos (Finset.mem_insert_self _ _), Function.update_self]
          rw [e] at this
          exact Nat.le_of_succ_le_succ this
        have hxm := h1 (Finset.mem_insert_self _ _)
        have hxv := h3 _ (Finset.mem_insert_self (pr x) K)
        rw [Function.update_self] at hxv
        refine ⟨fun y hy => h1 (Finset.mem_insert_of_mem hy), ?_, fun y hy => ?_, fun g hg => ?_⟩
        · rw [Finset.card_insert_of_notMem hx] at h2
          omega
        · rw [h3 y (Finset.mem_insert_of_mem hy), Function.update_of_ne]
          rintro rfl
          exact hx hy
        · obtain ⟨h5, h6, h7⟩ := h4 g hg
          have e : g (pr x) = u 0 := (hg _ hxm).trans hxv
          simp only [Tree.log, Tree.result, e, hxv]
          refine ⟨by rw [h5], h6, fun y hy => ?_⟩
          rcases List.mem_cons.mp hy with rfl | hy
          · exact hxm
          · exact h7 y hy

end

/-! ## A given number of points, each found from the values before -/

/-- Evaluate the function `k` times. -/
def ladder (X : List V → C) : ℕ → List V → Tree C V E (List V)
  | 0, us => .done (.ok us)
  | k + 1, us => .ask (X us) fun v => ladder X k (us ++ [v])

/-- The points, if the values are `u`. -/
def rung (X : List V → C) {k : ℕ} (us : List V) (u : Fin k → V) (j : ℕ) : C := X (us ++ (List.ofFn u).take j)

theorem rung_zero (X : List V → C) {k : ℕ} (us : List V) (u : Fin k → V) : rung X us u 0 = X us := by
  rw [rung, List.take_zero, List.append_nil]

theorem rung_succ (X : List V → C) {k : ℕ} (us : List V) (u : Fin (k + 1) → V) (j : ℕ) :
    rung X us u (j + 1) = rung X (us ++ [u 0]) (Fin.tail u) j := by
  rw [rung, rung, List.ofFn_succ, List.take_succ_cons, List.append_assoc]
  rfl

theorem ladder_run (X : List V → C) (g : C → V) : ∀ (k : ℕ) (us : List V) (u : Fin k → V),
    (∀ j : Fin k, g (rung X us u j) = u j) →
    (ladder X k us : Tree C V E (List V)).log g = (List.range k).map (rung X us u) ∧
    (ladder X k us : Tree C V E (List V)).result g = .ok (us ++ List.ofFn u)
  | 0, us, u, _ => ⟨rfl, by rw [List.ofFn_zero, List.append_nil]; rfl⟩
  | k + 1, us, u, h => by
    have h0 : g (X us) = u 0 := by
      have := h 0
      rwa [Fin.val_zero, rung_zero] at this
    obtain ⟨h1, h2⟩ := ladder_run X g k (us ++ [u 0]) (Fin.tail u) fun j => by
      have := h j.succ
      rw [Fin.val_succ, rung_succ] at this
      exact this
    rw [ladder, Tree.log, Tree.result, h0, h1, h2]
    refine ⟨?_, ?_⟩
    · rw [List.range_succ_eq_map, List.map_cons, List.map_map, rung_zero]
      congr 1
      refine List.map_congr_left fun j _ => (rung_succ X us u j).symm
    · rw [List.ofFn_succ, List.append_assoc]
      rfl

theorem ladder_length (X : List V → C) (g : C → V) : ∀ (k : ℕ) (us : List V),
    ((ladder X k us : Tree C V E (List V)).log g).length = k
  | 0, _ => rfl
  | k + 1, us => by rw [ladder, Tree.log, List.length_cons, ladder_length X g k]

/-- If all points are new, the values are those drawn. -/
theorem ladder_feed [DecidableEq Y] {pr : C → Y} (X : List V → C) : ∀ (k : ℕ) (us : List V) (K : Finset Y) (c : Y → V)
    (u : Fin k → V), (∀ j < k, pr (rung X us u j) ∉ K) →
    (∀ i j, i < j → j < k → pr (rung X us u i) ≠ pr (rung X us u j)) →
    let s := (ladder X k us : Tree C V E (List V)).feed pr k K c u
    (∀ j : Fin k, pr (rung X us u j) ∈ s.1 ∧ s.2 (pr (rung X us u j)) = u j) ∧
    ∀ y, (∀ j < k, y ≠ pr (rung X us u j)) → (y ∈ s.1 ↔ y ∈ K) ∧ s.2 y = c y
  | 0, us, K, c, u, _, _ => ⟨fun j => j.elim0, fun y _ => ⟨Iff.rfl, rfl⟩⟩
  | k + 1, us, K, c, u, h1, h2 => by
    have hx : pr (X us) ∉ K := by
      have := h1 0 (Nat.succ_pos _)
      rwa [rung_zero] at this
    obtain ⟨h3, h4⟩ := ladder_feed X k (us ++ [u 0]) (insert (pr (X us)) K)
      (Function.update c (pr (X us)) (u 0)) (Fin.tail u)
      (fun j hj => by
        rw [← rung_succ, Finset.mem_insert, not_or]
        refine ⟨fun e => h2 0 (j + 1) (Nat.succ_pos _) (Nat.succ_lt_succ hj) ?_, h1 _ (Nat.succ_lt_succ hj)⟩
        rw [rung_zero]
        exact e.symm)
      (fun i j hij hj => by
        rw [← rung_succ, ← rung_succ]
        exact h2 _ _ (Nat.succ_lt_succ hij) (Nat.succ_lt_succ hj))
    simp only [ladder, Tree.feed_new hx]
    have hne : ∀ j < k, pr (X us) ≠ pr (rung X (us ++ [u 0]) (Fin.tail u) j) := fun j hj e =>
      h2 0 (j + 1) (Nat.succ_pos _) (Nat.succ_lt_succ hj) (by rw [rung_zero, rung_succ]; exact e)
    refine ⟨fun j => ?_, fun y hy => ?_⟩
    · refine Fin.cases ?_ (fun j => ?_) j
      · rw [Fin.val_zero, rung_zero]
        obtain ⟨h5, h6⟩ := h4 _ hne
        exact ⟨h5.mpr (Finset.mem_insert_self _ _), h6.trans (Function.update_self ..)⟩
      · rw [Fin.val_succ, rung_succ]
        exact h3 j
    · obtain ⟨h5, h6⟩ := h4 y fun j hj => by
        rw [← rung_succ]
        exact hy _ (Nat.succ_lt_succ hj)
      have hyx : y ≠ pr (X us) := by
        have := hy 0 (Nat.succ_pos _)
        rwa [rung_zero] at this
      refine ⟨h5.trans ⟨fun h => ?_, Finset.mem_insert_of_mem⟩, h6.trans (Function.update_of_ne hyx ..)⟩
      exact (Finset.mem_insert.mp h).resolve_left hyx

/-- A run does not depend on values it does not see. -/
theorem Tree.same {f g : C → V} (t : Tree C V E α) (h : ∀ c ∈ t.log f, f c = g c) :
    t.log g = t.log f ∧ t.result g = t.result f := by
  induction t with
  | done r => exact ⟨rfl, rfl⟩
  | ask x k ih =>
    have e : f x = g x := h x List.mem_cons_self
    obtain ⟨h1, h2⟩ := ih (f x) fun c hc => h c (List.mem_cons_of_mem _ hc)
    simp only [Tree.log, Tree.result, ← e]
    exact ⟨by rw [h1], h2⟩

end Fips205.Oracle
