import Verif.Proofs.Collide

/-!
# Values foretold by what was seen

A program that evaluates a random function seldom meets a value that is in a list determined by what it has seen.
-/

namespace Fips205.Oracle

section
variable {C C' V E α Y D : Type}

/-- The program with other names for the points. -/
def Tree.rename (g : C → C') : Tree C V E α → Tree C' V E α
  | .done r => .done r
  | .ask c k => .ask (g c) fun v => (k v).rename g

theorem Tree.rename_log (g : C → C') (f : C' → V) (t : Tree C V E α) :
    (t.rename g).log f = (t.log fun c => f (g c)).map g := by
  induction t with
  | done r => rfl
  | ask c k ih => rw [Tree.rename, Tree.log, ih, Tree.log, List.map_cons]

theorem Tree.rename_result (g : C → C') (f : C' → V) (t : Tree C V E α) :
    (t.rename g).result f = t.result fun c => f (g c) := by
  induction t with
  | done r => rfl
  | ask c k ih => rw [Tree.rename, Tree.result, ih, Tree.result]

variable (pr : C → Y) (h : V → D) (parts : C → Finset Y → (Y → V) → List D)

/-- The program comes upon a point, not in `K`, with a value in the list. -/
def Tree.Hit [DecidableEq Y] (f : Y → V) : Tree C V E α → Finset Y → Prop
  | .done _, _ => False
  | .ask c k, K => (pr c ∉ K ∧ h (f (pr c)) ∈ parts c K f) ∨ (k (f (pr c))).Hit f (insert (pr c) K)

variable {pr h parts} [DecidableEq Y]

/-- If not, no point has, when first evaluated, a value in the list. -/
theorem Tree.not_hit {f : Y → V} (t : Tree C V E α) : ∀ {K : Finset Y}, ¬ t.Hit pr h parts f K →
    ∀ {l1 l2 : List C} {c : C}, (t.log fun c => f (pr c)) = l1 ++ c :: l2 → pr c ∉ K → pr c ∉ l1.map pr →
      h (f (pr c)) ∉ parts c (K ∪ (l1.map pr).toFinset) f := by
  induction t with
  | done r =>
    intro K _ l1 l2 c e
    cases l1 <;> cases e
  | ask x k ih =>
    intro K hn l1 l2 c e hK hl
    simp only [Tree.Hit, not_or, not_and] at hn
    rw [Tree.log] at e
    cases l1 with
    | nil =>
      obtain ⟨rfl, -⟩ := List.cons.inj e
      simpa using hn.1 hK
    | cons x' l1 =>
      obtain ⟨rfl, e'⟩ := List.cons.inj e
      rw [List.map_cons, List.mem_cons, not_or] at hl
      have := ih _ hn.2 e' (by rw [Finset.mem_insert, not_or]; exact ⟨hl.1, hK⟩) hl.2
      rwa [List.map_cons, List.toFinset_cons, Finset.union_insert, ← Finset.insert_union]

variable [Fintype Y] [Fintype V] [Nonempty V] [Fintype D]

/-- It is rare, if `n` is the number of evaluations and a random value is in any list with at most the probability that
its length says. -/
theorem Tree.hit_le {W : ℕ} (hh : ∀ L : List D, (avg fun v : V => ind (h v ∈ L)) ≤ L.length / Fintype.card D)
    (hc : ∀ c K (f f' : Y → V), (∀ y ∈ K, f y = f' y) → parts c K f = parts c K f')
    (hl : ∀ c K f, (parts c K f).length ≤ W * (K.card + 1)) (t : Tree C V E α) : ∀ (n : ℕ) (K : Finset Y) (c : Y → V),
    (∀ f : Y → V, (t.log fun x => merge K c f (pr x)).length ≤ n) →
    (avg fun f : Y → V => ind (t.Hit pr h parts (merge K c f) K)) ≤
      W * (n * (2 * K.card + n + 1)) / (2 * Fintype.card D) := by
  have hD : (0 : ℚ) ≤ Fintype.card D := Nat.cast_nonneg _
  have hW : (0 : ℚ) ≤ W := Nat.cast_nonneg _
  induction t with
  | done r =>
    intro n K c _
    have : (avg fun f : Y → V => ind ((Tree.done r : Tree C V E α).Hit pr h parts (merge K c f) K)) = 0 := by
      have e : ∀ f : Y → V, ind ((Tree.done r : Tree C V E α).Hit pr h parts (merge K c f) K) = 0 := fun f => by
        simp [Tree.Hit, ind]
      simp only [e]
      exact avg_const 0
    rw [this]
    positivity
  | ask x k ih =>
    intro n K c hn
    obtain ⟨n, rfl⟩ : ∃ n', n = n' + 1 := by
      have := hn c
      rw [Tree.log, List.length_cons] at this
      exact ⟨n - 1, by omega⟩
    simp only [Tree.log, List.length_cons, Nat.add_le_add_iff_right] at hn
    by_cases hx : pr x ∈ K
    · have hm : ∀ f : Y → V, merge K c f (pr x) = c (pr x) := fun f => by rw [merge, if_pos hx]
      have hi : insert (pr x) K = K := Finset.insert_eq_self.mpr hx
      simp only [hm] at hn
      have := ih (c (pr x)) n K c hn
      refine (avg_mono fun f => ind_mono (q := (k (c (pr x))).Hit pr h parts (merge K c f) K) fun hb => ?_).trans
        (this.trans ?_)
      · rcases hb with hb | hb
        · exact absurd hx hb.1
        · rwa [hm, hi] at hb
      · refine div_le_div_of_nonneg_right (mul_le_mul_of_nonneg_left ?_ hW) (by positivity)
        push_cast
        have h1 : (0 : ℚ) ≤ K.card := Nat.cast_nonneg _
        have h2 : (0 : ℚ) ≤ n := Nat.cast_nonneg _
        nlinarith
    · have hv : ∀ (v : V) (f : Y → V), merge K c (Function.update f (pr x) v) (pr x) = v := fun v f => by
        rw [merge, if_neg hx, Function.update_self]
      have hp : ∀ f : Y → V, parts x K (merge K c f) = parts x K c := fun f =>
        hc x K _ _ fun y hy => by rw [merge, if_pos hy]
      have hcard : (insert (pr x) K).card = K.card + 1 := Finset.card_insert_of_notMem hx
      rw [avg_update (pr x)]
      have hstep : ∀ v : V, (avg fun f : Y → V => ind ((Tree.ask x k).Hit pr h parts
          (merge K c (Function.update f (pr x) v)) K)) ≤
          ind (h v ∈ parts x K c) + W * (n * (2 * (K.card + 1) + n + 1)) / (2 * Fintype.card D) := by
        intro v
        have h1 := ih v n (insert (pr x) K) (Function.update c (pr x) v) (fun f => by
          have := hn (Function.update f (pr x) v)
          rw [merge_insert K c f hx v]
          rwa [hv] at this)
        rw [hcard] at h1
        push_cast at h1
        refine (avg_mono (g := fun f => ind (h v ∈ parts x K c) +
          ind ((k v).Hit pr h parts (merge (insert (pr x) K) (Function.update c (pr x) v) f) (insert (pr x) K)))
          fun f => ?_).trans ?_
        · refine (ind_mono fun hb => ?_).trans (ind_or_le _ _)
          rcases hb with ⟨-, hb⟩ | hb
          · rw [hv, hp] at hb
            exact .inl hb
          · right
            rw [merge_insert K c f hx v]
            rwa [hv] at hb
        · have : Nonempty (Y → V) := ⟨c⟩
          rw [avg_add, avg_const]
          exact add_le_add_right h1 _
      refine (avg_mono hstep).trans ?_
      rw [avg_add, avg_const]
      have h2 := hh (parts x K c)
      have h3 : ((parts x K c).length : ℚ) ≤ W * (K.card + 1) := by exact_mod_cast hl x K c
      have h2 := h2.trans (div_le_div_of_nonneg_right h3 hD)
      refine (add_le_add_left h2 _).trans ?_
      by_cases h0 : (Fintype.card D : ℚ) = 0
      · simp [h0]
      · have h0 : (0 : ℚ) < Fintype.card D := lt_of_le_of_ne hD (Ne.symm h0)
        rw [← mul_div_mul_left ((W : ℚ) * (K.card + 1)) _ (two_ne_zero), ← add_div]
        refine div_le_div_of_nonneg_right (le_of_eq ?_) (by positivity)
        push_cast
        ring

/-- The same, from the beginning. -/
theorem Tree.hit_le' {W : ℕ} (hh : ∀ L : List D, (avg fun v : V => ind (h v ∈ L)) ≤ L.length / Fintype.card D)
    (hc : ∀ c K (f f' : Y → V), (∀ y ∈ K, f y = f' y) → parts c K f = parts c K f')
    (hl : ∀ c K f, (parts c K f).length ≤ W * (K.card + 1)) (t : Tree C V E α) (n : ℕ)
    (hn : ∀ f : Y → V, (t.log fun x => f (pr x)).length ≤ n) :
    (avg fun f : Y → V => ind (t.Hit pr h parts f ∅)) ≤ W * (n * (n + 1)) / (2 * Fintype.card D) := by
  have hm : ∀ c f : Y → V, merge ∅ c f = f := fun c f => funext fun y => by simp [merge]
  obtain ⟨c⟩ : Nonempty (Y → V) := inferInstance
  have := Tree.hit_le hh hc hl t n ∅ c (fun f => by rw [hm]; exact hn f)
  simp only [hm, Finset.card_empty] at this
  refine this.trans (le_of_eq ?_)
  push_cast
  ring

end

end Fips205.Oracle
