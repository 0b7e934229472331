import Verif.Proofs.Override

/-!
# Collisions

A program that evaluates a random function finds two points with the same value only with the probability that the
number of evaluations says, however it chooses the points.
-/

namespace Fips205.Oracle

/-- A program that may evaluate a function; it returns a value or stops with an error. -/
inductive Tree (C V E α : Type) : Type
  | done (r : Except E α) : Tree C V E α
  | ask (c : C) (k : V → Tree C V E α) : Tree C V E α

namespace Tree
variable {C V E α β : Type}

/-- One program after another. -/
def bind : Tree C V E α → (α → Tree C V E β) → Tree C V E β
  | done (.ok v), f => f v
  | done (.error e), _ => done (.error e)
  | ask c k, f => ask c fun v => (k v).bind f

/-- The points at which the program evaluates the function. -/
def log (f : C → V) : Tree C V E α → List C
  | done _ => []
  | ask c k => c :: (k (f c)).log f

/-- How the program ends. -/
def result (f : C → V) : Tree C V E α → Except E α
  | done r => r
  | ask c k => (k (f c)).result f

theorem log_bind (f : C → V) (t : Tree C V E α) (g : α → Tree C V E β) :
    (t.bind g).log f = match t.result f with
      | .ok v => t.log f ++ (g v).log f
      | .error _ => t.log f := by
  induction t with
  | done r => cases r <;> rfl
  | ask c k ih =>
    rw [bind, log, ih, result, log]
    cases (k (f c)).result f <;> rfl

theorem result_bind (f : C → V) (t : Tree C V E α) (g : α → Tree C V E β) :
    (t.bind g).result f = match t.result f with
      | .ok v => (g v).result f
      | .error e => .error e := by
  induction t with
  | done r => cases r <;> rfl
  | ask c k ih => rw [bind, result, ih, result]

end Tree

section
variable {C V E α Y D : Type} (pr : C → Y) (h : V → D)

/-- The program comes upon a point, not in `K`, with the value of one seen before. -/
def Tree.Bad [DecidableEq Y] (f : Y → V) : Tree C V E α → Finset Y → Prop
  | .done _, _ => False
  | .ask c k, K => (pr c ∉ K ∧ ∃ y ∈ K, h (f y) = h (f (pr c))) ∨ (k (f (pr c))).Bad f (insert (pr c) K)

variable {pr h} [DecidableEq Y]

/-- Two points with the same value. -/
theorem Tree.bad_of {f : Y → V} (t : Tree C V E α) : ∀ {K : Finset Y} {x y : Y}, x ∉ K →
    x ∈ (t.log fun c => f (pr c)).map pr → (y ∈ K ∨ y ∈ (t.log fun c => f (pr c)).map pr) → y ≠ x → h (f y) = h (f x) →
    t.Bad pr h f K := by
  induction t with
  | done r => intro K x y _ hx; cases hx
  | ask c k ih =>
    intro K x y hK hx hy hne he
    rw [Tree.log, List.map_cons, List.mem_cons] at hx hy
    by_cases hxc : x = pr c
    · subst hxc
      rcases hy with hy | hy | hy
      · exact .inl ⟨hK, y, hy, he⟩
      · exact absurd hy hne
      · by_cases hyK : y ∈ K
        · exact .inl ⟨hK, y, hyK, he⟩
        · refine .inr (ih _ (x := y) (y := pr c) ?_ hy (.inl (Finset.mem_insert_self _ _)) (Ne.symm hne) he.symm)
          rw [Finset.mem_insert, not_or]
          exact ⟨hne, hyK⟩
    · have hx := hx.resolve_left hxc
      refine .inr (ih _ (x := x) (y := y) ?_ hx ?_ hne he)
      · rw [Finset.mem_insert, not_or]
        exact ⟨hxc, hK⟩
      · rcases hy with hy | hy | hy
        · exact .inl (Finset.mem_insert_of_mem hy)
        · exact .inl (hy ▸ Finset.mem_insert_self _ _)
        · exact .inr hy

variable [Fintype Y] [Fintype V] [Nonempty V] [Fintype D]

/-- It is rare, if `n` is the number of evaluations and a random value is in any list with at most the probability that
its length says. -/
theorem Tree.bad_le (hh : ∀ L : List D, (avg fun v : V => ind (h v ∈ L)) ≤ L.length / Fintype.card D)
    (t : Tree C V E α) : ∀ (n : ℕ) (K : Finset Y) (c : Y → V),
    (∀ f : Y → V, (t.log fun x => merge K c f (pr x)).length ≤ n) →
    (avg fun f : Y → V => ind (t.Bad pr h (merge K c f) K)) ≤ n * (2 * K.card + n) / (2 * Fintype.card D) := by
  have hD : (0 : ℚ) ≤ Fintype.card D := Nat.cast_nonneg _
  induction t with
  | done r =>
    intro n K c _
    have : (avg fun f : Y → V => ind ((Tree.done r : Tree C V E α).Bad pr h (merge K c f) K)) = 0 := by
      have e : ∀ f : Y → V, ind ((Tree.done r : Tree C V E α).Bad pr h (merge K c f) K) = 0 := fun f => by
        simp [Tree.Bad, ind]
      simp only [e]
      exact avg_const 0
    rw [this]
    positivity
  | ask x k ih =>
    intro n K c hn
    obtain ⟨n, rfl⟩ : ∃ n', n = n' + 1 := by
      have := hn c
      rw [Tree.log, List.length_cons] at this
      exact ⟨n - 1, by omega⟩
    simp only [Tree.log, List.length_cons, Nat.add_le_add_iff_right] at hn
    by_cases hx : pr x ∈ K
    · have hm : ∀ f : Y → V, merge K c f (pr x) = c (pr x) := fun f => by rw [merge, if_pos hx]
      have hi : insert (pr x) K = K := Finset.insert_eq_self.mpr hx
      simp only [hm] at hn
      have := ih (c (pr x)) n K c hn
      refine (avg_mono fun f => ind_mono (q := (k (c (pr x))).Bad pr h (merge K c f) K) fun hb => ?_).trans
        (this.trans ?_)
      · rcases hb with hb | hb
        · exact absurd hx hb.1
        · rwa [hm, hi] at hb
      · refine div_le_div_of_nonneg_right ?_ (by positivity)
        push_cast
        have h1 : (0 : ℚ) ≤ K.card := Nat.cast_nonneg _
        have h2 : (0 : ℚ) ≤ n := Nat.cast_nonneg _
        nlinarith
    · have hv : ∀ (v : V) (f : Y → V), merge K c (Function.update f (pr x) v) (pr x) = v := fun v f => by
        rw [merge, if_neg hx, Function.update_self]
      have hcard : (insert (pr x) K).card = K.card + 1 := Finset.card_insert_of_notMem hx
      rw [avg_update (pr x)]
      have hstep : ∀ v : V, (avg fun f : Y → V => ind ((Tree.ask x k).Bad pr h
          (merge K c (Function.update f (pr x) v)) K)) ≤
          ind (h v ∈ K.toList.map fun y => h (c y)) + n * (2 * (K.card + 1) + n) / (2 * Fintype.card D) := by
        intro v
        have h1 := ih v n (insert (pr x) K) (Function.update c (pr x) v) (fun f => by
          have := hn (Function.update f (pr x) v)
          rw [merge_insert K c f hx v]
          rwa [hv] at this)
        rw [hcard] at h1
        push_cast at h1
        refine (avg_mono (g := fun f => ind (h v ∈ K.toList.map fun y => h (c y)) +
          ind ((k v).Bad pr h (merge (insert (pr x) K) (Function.update c (pr x) v) f) (insert (pr x) K))) fun f => ?_).trans ?_
        · refine (ind_mono fun hb => ?_).trans (ind_or_le _ _)
          rcases hb with ⟨-, y, hy, he⟩ | hb
          · refine .inl (List.mem_map.mpr ⟨y, Finset.mem_toList.mpr hy, ?_⟩)
            rw [hv] at he
            rw [← he, merge, if_pos hy]
          · right
            rw [merge_insert K c f hx v]
            rwa [hv] at hb
        · have : Nonempty (Y → V) := ⟨c⟩
          rw [avg_add, avg_const]
          exact add_le_add_right h1 _
      refine (avg_mono hstep).trans ?_
      rw [avg_add, avg_const]
      have h2 := hh (K.toList.map fun y => h (c y))
      rw [List.length_map, Finset.length_toList] at h2
      refine (add_le_add_left h2 _).trans ?_
      by_cases h0 : (Fintype.card D : ℚ) = 0
      · simp [h0]
      · have h0 : (0 : ℚ) < Fintype.card D := lt_of_le_of_ne hD (Ne.symm h0)
        rw [← mul_div_mul_left (K.card : ℚ) _ (two_ne_zero), ← add_div]
        refine div_le_div_of_nonneg_right ?_ (by positivity)
        push_cast
        nlinarith

/-- Two points with the same value are rare. -/
theorem Tree.collide_le (hh : ∀ L : List D, (avg fun v : V => ind (h v ∈ L)) ≤ L.length / Fintype.card D)
    (t : Tree C V E α) (n : ℕ) (hn : ∀ f : Y → V, (t.log fun x => f (pr x)).length ≤ n) :
    (avg fun f : Y → V => ind (∃ x y, x ∈ t.log (fun c => f (pr c)) ∧ y ∈ t.log (fun c => f (pr c)) ∧ pr x ≠ pr y ∧
      h (f (pr x)) = h (f (pr y)))) ≤ n ^ 2 / (2 * Fintype.card D) := by
  have hm : ∀ c f : Y → V, merge ∅ c f = f := fun c f => funext fun y => by simp [merge]
  obtain ⟨c⟩ : Nonempty (Y → V) := inferInstance
  have := Tree.bad_le hh t n ∅ c (fun f => by rw [hm]; exact hn f)
  simp only [hm, Finset.card_empty] at this
  refine (avg_mono fun f => ind_mono ?_).trans (this.trans (le_of_eq ?_))
  · rintro ⟨x, y, hx, hy, hne, he⟩
    exact t.bad_of (Finset.notMem_empty _) (List.mem_map_of_mem hx) (.inr (List.mem_map_of_mem hy)) (Ne.symm hne) he.symm
  · push_cast
    ring

end

end Fips205.Oracle
