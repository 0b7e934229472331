import Verif.Proofs.Oracle
import Mathlib.Data.Fintype.Pi

/-!
# Replacing some of the values of a random function

The values of a random function at points that can be told from the values elsewhere may be drawn separately.
-/

namespace Fips205.Oracle

section
variable {Y I E : Type}

/-- `O`, but at the point `pt i` the value `H i`. -/
noncomputable def over (pt : I → Option Y) (O : Y → E) (H : I → E) (y : Y) : E := by
  classical exact if h : ∃ i, pt i = some y then H h.choose else O y

/-- The values that `over` replaces. -/
def under (pt : I → Option Y) (O : Y → E) (H : I → E) (i : I) : E :=
  match pt i with
  | some y => O y
  | none => H i

variable {pt : I → Option Y}

theorem over_at (hinj : ∀ i j y, pt i = some y → pt j = some y → i = j) (O : Y → E) (H : I → E) {i : I} {y : Y}
    (h : pt i = some y) : over pt O H y = H i := by
  have he : ∃ i, pt i = some y := ⟨i, h⟩
  rw [over, dif_pos he]
  exact congrArg H (hinj _ _ y he.choose_spec h)

theorem over_off (O : Y → E) (H : I → E) {y : Y} (h : ∀ i, pt i ≠ some y) : over pt O H y = O y := by
  rw [over, dif_neg fun ⟨i, hi⟩ => h i hi]

variable [Fintype Y] [DecidableEq Y] [Fintype I] [DecidableEq I] [Fintype E] [Nonempty E]

theorem avg_over (pt : (Y → E) → I → Option Y) (hinj : ∀ O i j y, pt O i = some y → pt O j = some y → i = j)
    (hst : ∀ O H, pt (over (pt O) O H) = pt O) (f : (Y → E) → ℚ) :
    avg f = avg fun O => avg fun H : I → E => f (over (pt O) O H) := by
  let F : (Y → E) × (I → E) → (Y → E) × (I → E) := fun x => (over (pt x.1) x.1 x.2, under (pt x.1) x.1 x.2)
  have hF : ∀ x, F (F x) = x := by
    rintro ⟨O, H⟩
    simp only [F, hst]
    refine Prod.ext (funext fun y => ?_) (funext fun i => ?_)
    · dsimp only
      by_cases h : ∃ i, pt O i = some y
      · obtain ⟨i, hi⟩ := h
        rw [over_at (hinj O) _ _ hi, under, hi]
      · have h := fun i hi => h ⟨i, hi⟩
        rw [over_off _ _ h, over_off _ _ h]
    · dsimp only
      rw [under]
      split
      · rename_i y hi
        rw [over_at (hinj O) _ _ hi]
      · rename_i hi
        rw [under, hi]
  have h := avg_equiv (⟨F, F, hF, hF⟩ : (Y → E) × (I → E) ≃ (Y → E) × (I → E)) fun x => f x.1
  rw [avg_prod, avg_prod] at h
  simp only [avg_const] at h
  exact h

end

/-- A random value is in a list with at most the probability that its length says. -/
theorem avg_mem_le {D : Type} [Fintype D] [Nonempty D] (L : List D) :
    (avg fun d => ind (d ∈ L)) ≤ L.length / Fintype.card D := by
  classical
  have hD : (0 : ℚ) < Fintype.card D := Nat.cast_pos.mpr Fintype.card_pos
  have hsum : (∑ d : D, ind (d ∈ L)) = L.toFinset.card := by
    have : L.toFinset = Finset.univ.filter (· ∈ L) := by ext; simp
    rw [this, Finset.card_filter]
    push_cast
    exact Finset.sum_congr rfl fun d _ => by by_cases h : d ∈ L <;> simp [ind, h]
  rw [avg, hsum]
  exact div_le_div_of_nonneg_right (Nat.cast_le.mpr (List.toFinset_card_le L)) hD.le

/-- Drawing heads and tails separately. -/
theorem avg_split {Y D T E : Type} [Fintype Y] [DecidableEq Y] [Fintype D] [Fintype T] [Fintype E] (e : D × T ≃ E)
    (f : (Y → E) → ℚ) : avg f = avg fun a : Y → D => avg fun t : Y → T => f fun y => e (a y, t y) := by
  rw [avg_equiv ((Equiv.arrowProdEquivProdArrow Y (fun _ => D) (fun _ => T)).symm.trans (Equiv.arrowCongr (Equiv.refl Y) e)) f,
    avg_prod]
  rfl

theorem avg_prod3 {α β γ : Type} [Fintype α] [Fintype β] [Fintype γ] (f : α × β × γ → ℚ) :
    avg f = avg fun a => avg fun b => avg fun c => f (a, b, c) := by
  rw [avg_prod]
  exact congrArg avg (funext fun a => avg_prod _)

end Fips205.Oracle
