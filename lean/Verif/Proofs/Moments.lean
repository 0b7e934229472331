import Mathlib.Combinatorics.Enumerative.Stirling
import Mathlib.Data.Nat.Factorial.BigOperators
import Mathlib.Data.Fintype.BigOperators
import Mathlib.Algebra.Order.BigOperators.Group.Finset

/-! # Moments of the number of hits among `q` draws -/

namespace Fips205

/-- `x^k` in terms of falling factorials. -/
theorem pow_eq_sum_stirling (x k : ℕ) :
    x ^ k = ∑ j ∈ Finset.range (k + 1), Nat.stirlingSecond k j * x.descFactorial j := by
  induction k with
  | zero => simp
  | succ k ih =>
    have hx : ∀ j, x.descFactorial j * x = x.descFactorial (j + 1) + j * x.descFactorial j := fun j => by
      rw [Nat.descFactorial_succ]
      rcases Nat.lt_or_ge x j with h | h
      · rw [Nat.descFactorial_eq_zero_iff_lt.mpr h]; simp
      · rw [← Nat.add_mul, Nat.sub_add_cancel h, Nat.mul_comm]
    rw [Nat.pow_succ, ih, Finset.sum_mul]
    simp only [Nat.mul_assoc, hx, Nat.mul_add, Finset.sum_add_distrib]
    have hs : ∀ j, Nat.stirlingSecond (k + 1) (j + 1) * x.descFactorial (j + 1) =
        Nat.stirlingSecond k (j + 1) * ((j + 1) * x.descFactorial (j + 1)) +
          Nat.stirlingSecond k j * x.descFactorial (j + 1) := fun j => by
      rw [Nat.stirlingSecond_succ_succ]; ring
    rw [Finset.sum_range_succ' _ (k + 1)]
    simp only [hs, Nat.stirlingSecond_succ_zero, Nat.zero_mul, Nat.add_zero, Finset.sum_add_distrib]
    rw [Nat.add_comm]
    refine congrArg₂ (· + ·) ?_ rfl
    rw [Finset.sum_range_succ', Finset.sum_range_succ,
      Nat.stirlingSecond_eq_zero_of_lt (Nat.lt_succ_self k)]
    simp

/-- How often the key `x` occurs among the draws. -/
def hits {D : ℕ} {α : Type} [DecidableEq α] (key : Fin D → α) (x : α) {q : ℕ} (g : Fin q → Fin D) : ℕ :=
  ((List.ofFn g).map key).count x

section
variable {D : ℕ} {α : Type} [DecidableEq α] (key : Fin D → α) (x : α)

theorem hits_cons {q : ℕ} (d : Fin D) (g : Fin q → Fin D) :
    hits key x (Fin.cons d g : Fin (q + 1) → Fin D) = hits key x g + if key d = x then 1 else 0 := by
  simp [hits, List.ofFn_succ, List.count_cons]

theorem sum_cons {q : ℕ} (φ : (Fin (q + 1) → Fin D) → ℕ) :
    ∑ g, φ g = ∑ d : Fin D, ∑ g : Fin q → Fin D, φ (Fin.cons d g) := by
  rw [← Fintype.sum_prod_type']
  exact (Fintype.sum_equiv (Fin.consEquiv fun _ => Fin D) _ _ fun _ => rfl).symm

/-- Falling moments, if every key has at most the fraction `1/u` of the draws. -/
theorem sum_descFactorial_le (u : ℕ) (hu : (Finset.univ.filter fun d => key d = x).card * u ≤ D) (q : ℕ) :
    ∀ j, (∑ g : Fin q → Fin D, (hits key x g).descFactorial j) * u ^ j ≤ q.descFactorial j * D ^ q := by
  induction q with
  | zero => intro j; cases j <;> simp [hits]
  | succ q ih =>
    intro j
    cases j with
    | zero => simp
    | succ j =>
      have hdf : ∀ y : ℕ, (y + 1).descFactorial (j + 1) = y.descFactorial (j + 1) + (j + 1) * y.descFactorial j := by
        intro y
        rw [Nat.succ_descFactorial_succ, Nat.descFactorial_succ]
        rcases Nat.lt_or_ge y j with h | h
        · rw [Nat.descFactorial_eq_zero_iff_lt.mpr h]; simp
        · rw [← Nat.add_mul]; congr 1; omega
      have hsplit : ∀ (d : Fin D) (g : Fin q → Fin D), (hits key x (Fin.cons d g : Fin (q + 1) → Fin D)).descFactorial (j + 1) =
          (hits key x g).descFactorial (j + 1) + if key d = x then (j + 1) * (hits key x g).descFactorial j else 0 := by
        intro d g
        rw [hits_cons]
        split
        · exact hdf _
        · rfl
      rw [sum_cons]
      simp only [hsplit, Finset.sum_add_distrib]
      rw [Finset.sum_const, Finset.card_univ, Fintype.card_fin, nsmul_eq_mul, Nat.cast_id]
      have h2 : ∑ d : Fin D, ∑ g : Fin q → Fin D, (if key d = x then (j + 1) * (hits key x g).descFactorial j else 0) =
          (Finset.univ.filter fun d => key d = x).card * ((j + 1) * ∑ g : Fin q → Fin D, (hits key x g).descFactorial j) := by
        rw [Finset.mul_sum, ← Nat.cast_id (Finset.card _), ← nsmul_eq_mul, ← Finset.sum_const, Finset.sum_filter]
        refine Finset.sum_congr rfl fun d _ => ?_
        split <;> simp
      rw [h2]
      generalize (Finset.univ.filter fun d => key d = x).card = c at *
      have e1 := ih (j + 1)
      have e2 := ih j
      generalize (∑ g : Fin q → Fin D, (hits key x g).descFactorial (j + 1)) = A at *
      generalize (∑ g : Fin q → Fin D, (hits key x g).descFactorial j) = B at *
      calc (D * A + c * ((j + 1) * B)) * u ^ (j + 1)
          = D * (A * u ^ (j + 1)) + (j + 1) * (c * u) * (B * u ^ j) := by ring
        _ ≤ D * (q.descFactorial (j + 1) * D ^ q) + (j + 1) * D * (q.descFactorial j * D ^ q) := by gcongr
        _ = (q + 1).descFactorial (j + 1) * D ^ (q + 1) := by rw [hdf]; ring

/-- Moments. -/
theorem sum_pow_hits_le (u : ℕ) (hu : (Finset.univ.filter fun d => key d = x).card * u ≤ D) (q k : ℕ) :
    (∑ g : Fin q → Fin D, hits key x g ^ k) * u ^ k ≤
      D ^ q * ∑ j ∈ Finset.range (k + 1), Nat.stirlingSecond k j * q ^ j * u ^ (k - j) := by
  rw [Finset.sum_congr rfl fun g _ => pow_eq_sum_stirling (hits key x g) k, Finset.sum_comm, Finset.sum_mul, Finset.mul_sum]
  refine Finset.sum_le_sum fun j hj => ?_
  rw [← Finset.mul_sum]
  have hjk : j + (k - j) = k := by have := Finset.mem_range.mp hj; omega
  have e := sum_descFactorial_le key x u hu q j
  generalize (∑ g : Fin q → Fin D, (hits key x g).descFactorial j) = A at *
  have e3 := Nat.descFactorial_le_pow q j
  calc Nat.stirlingSecond k j * A * u ^ k = Nat.stirlingSecond k j * (A * u ^ j) * u ^ (k - j) := by
        conv_lhs => rw [← hjk, Nat.pow_add]
        rw [hjk]; ring
    _ ≤ Nat.stirlingSecond k j * (q ^ j * D ^ q) * u ^ (k - j) := by
        exact Nat.mul_le_mul_right _ (Nat.mul_le_mul_left _ (e.trans (Nat.mul_le_mul_right _ e3)))
    _ = _ := by ring

end

end Fips205
