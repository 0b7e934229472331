import Verif.Proofs.Collide

/-!
# Values foretold

A program that evaluates a random function seldom meets a value that is part of a point it has chosen before.  Hence the
points of a chain, each of which contains the value of the one before, are evaluated in the order of the chain.
-/

namespace Fips205.Oracle

section
variable {C V E α Y D : Type} (pr : C → Y) (h : V → D) (tl : Y → D)

/-- The program comes upon a point, not in `K`, with a value that is part of this point or of one seen before. -/
def Tree.Late [DecidableEq Y] (f : Y → V) : Tree C V E α → Finset Y → Prop
  | .done _, _ => False
  | .ask c k, K => (pr c ∉ K ∧ ∃ y ∈ insert (pr c) K, tl y = h (f (pr c))) ∨ (k (f (pr c))).Late f (insert (pr c) K)

variable {pr h tl} [DecidableEq Y]

/-- If not, the points can be put in order. -/
theorem Tree.rank_of {f : Y → V} (t : Tree C V E α) : ∀ {K : Finset Y}, ¬ t.Late pr h tl f K → ∃ rank : Y → ℕ,
    ∀ x y, x ∉ K → x ∈ (t.log fun c => f (pr c)).map pr → (y ∈ K ∨ y ∈ (t.log fun c => f (pr c)).map pr) →
      tl y = h (f x) → y ∉ K ∧ rank x < rank y := by
  induction t with
  | done r => intro K _; exact ⟨fun _ => 0, fun x y _ hx => by cases hx⟩
  | ask c k ih =>
    intro K hn
    simp only [Tree.Late, not_or] at hn
    obtain ⟨hn1, hn2⟩ := hn
    obtain ⟨r, hr⟩ := ih _ hn2
    simp only [Tree.log, List.map_cons, List.mem_cons]
    refine ⟨fun y => if y = pr c then 0 else r y + 1, fun x y hK hx hy he => ?_⟩
    have hy : y ∈ insert (pr c) K ∨ y ∈ (Tree.log (fun c => f (pr c)) (k (f (pr c)))).map pr := by
      rcases hy with hy | hy | hy
      · exact .inl (Finset.mem_insert_of_mem hy)
      · exact .inl (hy ▸ Finset.mem_insert_self _ _)
      · exact .inr hy
    have hnot : y ∉ insert (pr c) K ∧ (x ≠ pr c → r x < r y) := by
      by_cases hxc : x = pr c
      · refine ⟨fun hm => hn1 ⟨hxc ▸ hK, y, hm, hxc ▸ he⟩, fun h => absurd hxc h⟩
      · obtain ⟨h1, h2⟩ := hr x y (by rw [Finset.mem_insert, not_or]; exact ⟨hxc, hK⟩) (hx.resolve_left hxc) hy he
        exact ⟨h1, fun _ => h2⟩
    rw [Finset.mem_insert, not_or] at hnot
    refine ⟨hnot.1.2, ?_⟩
    dsimp only
    rw [if_neg hnot.1.1]
    split
    · omega
    · rename_i hxc
      have := hnot.2 hxc
      omega

variable [Fintype Y] [Fintype V] [Nonempty V] [Fintype D]

/-- It is rare, if `n` is the number of evaluations and a random value is in any list with at most the probability that
its length says. -/
theorem Tree.late_le (hh : ∀ L : List D, (avg fun v : V => ind (h v ∈ L)) ≤ L.length / Fintype.card D)
    (t : Tree C V E α) : ∀ (n : ℕ) (K : Finset Y) (c : Y → V),
    (∀ f : Y → V, (t.log fun x => merge K c f (pr x)).length ≤ n) →
    (avg fun f : Y → V => ind (t.Late pr h tl (merge K c f) K)) ≤ n * (2 * K.card + n + 1) / (2 * Fintype.card D) := by
  have hD : (0 : ℚ) ≤ Fintype.card D := Nat.cast_nonneg _
  induction t with
  | done r =>
    intro n K c _
    have : (avg fun f : Y → V => ind ((Tree.done r : Tree C V E α).Late pr h tl (merge K c f) K)) = 0 := by
      have e : ∀ f : Y → V, ind ((Tree.done r : Tree C V E α).Late pr h tl (merge K c f) K) = 0 := fun f => by
        simp [Tree.Late, ind]
      simp only [e]
      exact avg_const 0
    rw [this]
    positivity
  | ask x k ih =>
    intro n K c hn
    obtain ⟨n, rfl⟩ : ∃ n', n = n' + 1 := by
      have := hn c
      rw [Tree.log, List.length_cons] at this
      exact ⟨n - 1, by omega⟩
    simp only [Tree.log, List.length_cons, Nat.add_le_add_iff_right] at hn
    by_cases hx : pr x ∈ K
    · have hm : ∀ f : Y → V, merge K c f (pr x) = c (pr x) := fun f => by rw [merge, if_pos hx]
      have hi : insert (pr x) K = K := Finset.insert_eq_self.mpr hx
      simp only [hm] at hn
      have := ih (c (pr x)) n K c hn
      refine (avg_mono fun f => ind_mono (q := (k (c (pr x))).Late pr h tl (merge K c f) K) fun hb => ?_).trans
        (this.trans ?_)
      · rcases hb with hb | hb
        · exact absurd hx hb.1
        · rwa [hm, hi] at hb
      · refine div_le_div_of_nonneg_right ?_ (by positivity)
        push_cast
        have h1 : (0 : ℚ) ≤ K.card := Nat.cast_nonneg _
        have h2 : (0 : ℚ) ≤ n := Nat.cast_nonneg _
        nlinarith
    · have hv : ∀ (v : V) (f : Y → V), merge K c (Function.update f (pr x) v) (pr x) = v := fun v f => by
        rw [merge, if_neg hx, Function.update_self]
      have hcard : (insert (pr x) K).card = K.card + 1 := Finset.card_insert_of_notMem hx
      rw [avg_update (pr x)]
      have hstep : ∀ v : V, (avg fun f : Y → V => ind ((Tree.ask x k).Late pr h tl
          (merge K c (Function.update f (pr x) v)) K)) ≤
          ind (h v ∈ (insert (pr x) K).toList.map tl) + n * (2 * (K.card + 1) + n + 1) / (2 * Fintype.card D) := by
        intro v
        have h1 := ih v n (insert (pr x) K) (Function.update c (pr x) v) (fun f => by
          have := hn (Function.update f (pr x) v)
          rw [merge_insert K c f hx v]
          rwa [hv] at this)
        rw [hcard] at h1
        push_cast at h1
        refine (avg_mono (g := fun f => ind (h v ∈ (insert (pr x) K).toList.map tl) +
          ind ((k v).Late pr h tl (merge (insert (pr x) K) (Function.update c (pr x) v) f) (insert (pr x) K)))
          fun f => ?_).trans ?_
        · refine (ind_mono fun hb => ?_).trans (ind_or_le _ _)
          rcases hb with ⟨-, y, hy, he⟩ | hb
          · refine .inl (List.mem_map.mpr ⟨y, Finset.mem_toList.mpr hy, ?_⟩)
            rw [hv] at he
            exact he
          · right
            rw [merge_insert K c f hx v]
            rwa [hv] at hb
        · have : Nonempty (Y → V) := ⟨c⟩
          rw [avg_add, avg_const]
          exact add_le_add_right h1 _
      refine (avg_mono hstep).trans ?_
      rw [avg_add, avg_const]
      have h2 := hh ((insert (pr x) K).toList.map tl)
      rw [List.length_map, Finset.length_toList, hcard] at h2
      refine (add_le_add_left h2 _).trans ?_
      by_cases h0 : (Fintype.card D : ℚ) = 0
      · simp [h0]
      · have h0 : (0 : ℚ) < Fintype.card D := lt_of_le_of_ne hD (Ne.symm h0)
        rw [← mul_div_mul_left ((K.card + 1 : ℕ) : ℚ) _ (two_ne_zero), ← add_div]
        refine div_le_div_of_nonneg_right ?_ (by positivity)
        push_cast
        nlinarith

/-- The points of a program can be put in order, seldom not. -/
theorem Tree.rank_le (hh : ∀ L : List D, (avg fun v : V => ind (h v ∈ L)) ≤ L.length / Fintype.card D)
    (t : Tree C V E α) (n : ℕ) (hn : ∀ f : Y → V, (t.log fun x => f (pr x)).length ≤ n) :
    (avg fun f : Y → V => ind (¬ ∃ rank : Y → ℕ, ∀ x y, x ∈ t.log (fun c => f (pr c)) → y ∈ t.log (fun c => f (pr c)) →
      tl (pr y) = h (f (pr x)) → rank (pr x) < rank (pr y))) ≤ n * (n + 1) / (2 * Fintype.card D) := by
  have hm : ∀ c f : Y → V, merge ∅ c f = f := fun c f => funext fun y => by simp [merge]
  obtain ⟨c⟩ : Nonempty (Y → V) := inferInstance
  have := Tree.late_le (tl := tl) hh t n ∅ c (fun f => by rw [hm]; exact hn f)
  simp only [hm, Finset.card_empty] at this
  refine (avg_mono fun f => ind_mono ?_).trans (this.trans (le_of_eq ?_))
  · intro hno
    by_contra hl
    obtain ⟨rank, hr⟩ := t.rank_of hl
    exact hno ⟨rank, fun x y hx hy he => (hr _ _ (Finset.notMem_empty _) (List.mem_map_of_mem hx)
      (.inr (List.mem_map_of_mem hy)) he).2⟩
  · push_cast
    ring

end

end Fips205.Oracle
