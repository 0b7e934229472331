import Verif.Props.Cover
import Verif.Proofs.Moments

/-!
# How likely a covered digest is after `q` signatures (C62)

C61 says that a new signature without a break needs a digest that the digests of the known signatures
cover.  Here the digests of `q` signatures and of one more message run through all possibilities, and the
cases where the last is covered by the others are counted.
-/

namespace Fips205.Props
open Fips205 Fips205.Model

variable {ps : ParamSet}

/-- The digests with the given numbers. -/
def digests (ps : ParamSet) {q : Nat} (g : Fin q → Fin (256 ^ ps.sp.m)) : List (List UInt8) :=
  List.ofFn fun i => Spec.toByte (g i) ps.sp.m

/-- No FORS key is selected by more than the fraction `2^-h` of the digests. -/
theorem forsKey_card (ps : ParamSet) (x : Nat × Nat) :
    (Finset.univ.filter fun N : Fin (256 ^ ps.sp.m) => forsKey ps (Spec.toByte N ps.sp.m) = x).card *
      2 ^ ps.sp.h ≤ 256 ^ ps.sp.m := by
  let R : Finset (Nat × Nat × Nat) := Finset.range (2 ^ (unusedBits ps).1) ×ˢ
    Finset.range (2 ^ (unusedBits ps).2.1) ×ˢ Finset.range (2 ^ (unusedBits ps).2.2)
  let S : Finset (Fin ps.sp.k → Nat) := Fintype.piFinset fun _ => Finset.range (2 ^ ps.sp.a)
  have hR : (S ×ˢ R).card * 2 ^ ps.sp.h = 256 ^ ps.sp.m := by
    rw [Finset.card_product, Finset.card_product, Finset.card_product, Finset.card_range, Finset.card_range,
      Finset.card_range, Fintype.card_piFinset, Finset.prod_const, Finset.card_range, Finset.card_univ,
      Fintype.card_fin, ← Nat.pow_mul, ← Nat.pow_add, ← Nat.pow_add, ← Nat.pow_add, ← Nat.pow_add,
      show (256 : Nat) = 2 ^ 8 from rfl, ← Nat.pow_mul, ← unusedBits_sum]
    congr 1
    rw [Nat.mul_comm ps.sp.k]
    omega
  refine (Nat.mul_le_mul_right _ (Finset.card_le_card_of_injOn (fun N : Fin (256 ^ ps.sp.m) =>
    ((fun i : Fin ps.sp.k => forsLeaf ps (Spec.toByte N ps.sp.m) i), unused ps (Spec.toByte N ps.sp.m))) ?_
      ?_)).trans hR.le
  · intro N _
    obtain ⟨u1, u2, u3⟩ := unused_lt (ps := ps) (Spec.toByte N ps.sp.m)
    exact Finset.mem_product.mpr ⟨Fintype.mem_piFinset.mpr fun i => Finset.mem_range.mpr base2b_getD_lt,
      Finset.mem_product.mpr ⟨Finset.mem_range.mpr u1, Finset.mem_product.mpr ⟨Finset.mem_range.mpr u2,
        Finset.mem_range.mpr u3⟩⟩⟩
  · intro N hN N' hN' e
    have h1 := (Finset.mem_filter.mp hN).2
    have h2 := (Finset.mem_filter.mp hN').2
    rw [Prod.mk.injEq] at e
    have := digest_inj (ps := ps) (Spec.toByte_length _ _) (Spec.toByte_length _ _) (h1.trans h2.symm)
      (fun i hi => congrFun e.1 ⟨i, hi⟩) e.2
    have := congrArg Spec.toInt this
    rw [Spec.toInt_toByte, Spec.toInt_toByte, Nat.mod_eq_of_lt N.2, Nat.mod_eq_of_lt N'.2] at this
    exact Fin.ext this

/-- All FORS keys. -/
def forsKeys (ps : ParamSet) : Finset (Nat × Nat) :=
  Finset.range (2 ^ (ps.sp.h - ps.sp.h / ps.sp.d)) ×ˢ Finset.range (2 ^ (ps.sp.h / ps.sp.d))

theorem forsKeys_card (ps : ParamSet) : (forsKeys ps).card = 2 ^ ps.sp.h := by
  rw [forsKeys, Finset.card_product, Finset.card_range, Finset.card_range, ← Nat.pow_add,
    Nat.sub_add_cancel (Nat.div_le_self _ _)]

theorem forsKey_mem (d : List UInt8) : forsKey ps d ∈ forsKeys ps :=
  Finset.mem_product.mpr ⟨Finset.mem_range.mpr (Nat.mod_lt _ (Nat.two_pow_pos _)),
    Finset.mem_range.mpr (Nat.mod_lt _ (Nat.two_pow_pos _))⟩

/-- **C62** Of all ways the digests of `q` signatures and of one more message can turn out, the last is
covered by the others in at most the fraction `2^(-k a) Σ S(k, j) (q / 2^h)^j`, where `S(k, j)` is the number
of ways to divide `k` things into `j` classes. -/
theorem C62_covered_average (ps : ParamSet) (q : Nat) :
    (Finset.univ.filter fun e : (Fin q → Fin (256 ^ ps.sp.m)) × Fin (256 ^ ps.sp.m) =>
      Covered ps (digests ps e.1) (Spec.toByte e.2 ps.sp.m)).card *
        (2 ^ (ps.sp.k * ps.sp.a) * (2 ^ ps.sp.h) ^ ps.sp.k) ≤
    (256 ^ ps.sp.m) ^ (q + 1) * ∑ j ∈ Finset.range (ps.sp.k + 1),
      Nat.stirlingSecond ps.sp.k j * q ^ j * (2 ^ ps.sp.h) ^ (ps.sp.k - j) := by
  have hk : ps.sp.k ≠ 0 := by cases ps <;> decide
  generalize hT : (∑ j ∈ Finset.range (ps.sp.k + 1),
      Nat.stirlingSecond ps.sp.k j * q ^ j * (2 ^ ps.sp.h) ^ (ps.sp.k - j)) = T
  let key (N : Fin (256 ^ ps.sp.m)) := forsKey ps (Spec.toByte N ps.sp.m)
  have hmom : ∀ x, (∑ g : Fin q → Fin (256 ^ ps.sp.m), hits key x g ^ ps.sp.k) * (2 ^ ps.sp.h) ^ ps.sp.k ≤
      (256 ^ ps.sp.m) ^ q * T := fun x => by
    rw [← hT]
    exact sum_pow_hits_le key x (2 ^ ps.sp.h) (forsKey_card ps x) q ps.sp.k
  have hone : ∀ g : Fin q → Fin (256 ^ ps.sp.m),
      (Finset.univ.filter fun N : Fin (256 ^ ps.sp.m) =>
        Covered ps (digests ps g) (Spec.toByte N ps.sp.m)).card * 2 ^ (ps.sp.h + ps.sp.k * ps.sp.a) ≤
      256 ^ ps.sp.m * ∑ x ∈ forsKeys ps, hits key x g ^ ps.sp.k := fun g => by
    have h1 := C61_covered_digests ps (digests ps g)
    have e1 : (Finset.univ.filter fun N : Fin (256 ^ ps.sp.m) =>
        Covered ps (digests ps g) (Spec.toByte N ps.sp.m)).card =
      ((Finset.range (256 ^ ps.sp.m)).filter fun N =>
        Covered ps (digests ps g) (Spec.toByte N ps.sp.m)).card := by
      refine Finset.card_nbij' (fun N => N.val) (fun N => if h : N < 256 ^ ps.sp.m then ⟨N, h⟩ else
        ⟨0, Nat.pow_pos (by decide)⟩) ?_ ?_ ?_ ?_
      · intro N hN
        exact Finset.mem_filter.mpr ⟨Finset.mem_range.mpr N.2, (Finset.mem_filter.mp hN).2⟩
      · intro N hN
        have := Finset.mem_range.mp (Finset.mem_filter.mp hN).1
        dsimp only
        rw [dif_pos this]
        exact Finset.mem_filter.mpr ⟨Finset.mem_univ _, (Finset.mem_filter.mp hN).2⟩
      · intro N _
        simp
      · intro N hN
        have := Finset.mem_range.mp (Finset.mem_filter.mp hN).1
        simp [this]
    rw [e1]
    refine h1.trans (Nat.mul_le_mul_left _ ?_)
    have hmap : (digests ps g).map (forsKey ps) = (List.ofFn g).map key := by
      rw [digests, List.map_ofFn, List.map_ofFn]; rfl
    rw [hmap]
    refine (Finset.sum_le_sum_of_subset (t := forsKeys ps) ?_).trans (le_of_eq ?_)
    · intro x hx
      obtain ⟨N, _, rfl⟩ := List.mem_map.mp (List.mem_toFinset.mp hx)
      exact forsKey_mem _
    · refine Finset.sum_congr rfl fun x _ => congrArg (· ^ _) ?_
      simp only [hits, List.count]
      exact List.countP_congr fun y _ => by simp
  have hcard : (Finset.univ.filter fun e : (Fin q → Fin (256 ^ ps.sp.m)) × Fin (256 ^ ps.sp.m) =>
      Covered ps (digests ps e.1) (Spec.toByte e.2 ps.sp.m)).card =
      ∑ g : Fin q → Fin (256 ^ ps.sp.m), (Finset.univ.filter fun N : Fin (256 ^ ps.sp.m) =>
        Covered ps (digests ps g) (Spec.toByte N ps.sp.m)).card := by
    rw [Finset.card_filter, Fintype.sum_prod_type]
    exact Finset.sum_congr rfl fun g _ => (Finset.card_filter _ _).symm
  rw [hcard]
  refine Nat.le_of_mul_le_mul_left (c := 2 ^ ps.sp.h) ?_ (Nat.two_pow_pos _)
  calc _ = (∑ g : Fin q → Fin (256 ^ ps.sp.m), (Finset.univ.filter fun N : Fin (256 ^ ps.sp.m) =>
        Covered ps (digests ps g) (Spec.toByte N ps.sp.m)).card * 2 ^ (ps.sp.h + ps.sp.k * ps.sp.a)) *
        (2 ^ ps.sp.h) ^ ps.sp.k := by rw [← Finset.sum_mul, Nat.pow_add]; ring
    _ ≤ (∑ g : Fin q → Fin (256 ^ ps.sp.m), 256 ^ ps.sp.m * ∑ x ∈ forsKeys ps, hits key x g ^ ps.sp.k) *
        (2 ^ ps.sp.h) ^ ps.sp.k := Nat.mul_le_mul_right _ (Finset.sum_le_sum fun g _ => hone g)
    _ = 256 ^ ps.sp.m * ∑ x ∈ forsKeys ps,
        (∑ g : Fin q → Fin (256 ^ ps.sp.m), hits key x g ^ ps.sp.k) * (2 ^ ps.sp.h) ^ ps.sp.k := by
      rw [← Finset.mul_sum, Finset.sum_comm, Nat.mul_assoc, Finset.sum_mul]
    _ ≤ 256 ^ ps.sp.m * ∑ x ∈ forsKeys ps, (256 ^ ps.sp.m) ^ q * T :=
      Nat.mul_le_mul_left _ (Finset.sum_le_sum fun x _ => hmom x)
    _ = _ := by
      rw [Finset.sum_const, forsKeys_card, nsmul_eq_mul, Nat.cast_id, Nat.pow_succ]; ring

/-! ## `2^64` signatures -/

/-- The next row of the triangle of the numbers `S(k, j)`. -/
def nextRow (row : List Nat) : List Nat :=
  (List.range (row.length + 1)).map fun j => j * row.getD j 0 + if j = 0 then 0 else row.getD (j - 1) 0

def stirlingRow : Nat → List Nat
  | 0 => [1]
  | k + 1 => nextRow (stirlingRow k)

theorem stirlingRow_eq (k : Nat) : stirlingRow k = (List.range (k + 1)).map (Nat.stirlingSecond k) := by
  induction k with
  | zero => rfl
  | succ k ih =>
    rw [stirlingRow, nextRow, ih, List.length_map, List.length_range]
    refine List.map_congr_left fun j hj => ?_
    have hg : ∀ i, ((List.range (k + 1)).map (Nat.stirlingSecond k)).getD i 0 = Nat.stirlingSecond k i := fun i => by
      rcases Nat.lt_or_ge i (k + 1) with h | h
      · rw [List.getD_eq_getElem _ _ (by simpa using h)]; simp
      · rw [List.getD_eq_default _ _ (by simpa using h), Nat.stirlingSecond_eq_zero_of_lt (by omega)]
    rw [hg, hg]
    cases j with
    | zero => simp
    | succ j => simp [Nat.stirlingSecond_succ_succ]

/-- The sum in `C62_covered_average`. -/
def coverSum (k u q : Nat) : Nat :=
  ((List.range (k + 1)).map fun j => (stirlingRow k).getD j 0 * q ^ j * u ^ (k - j)).sum

theorem coverSum_eq (k u q : Nat) :
    coverSum k u q = ∑ j ∈ Finset.range (k + 1), Nat.stirlingSecond k j * q ^ j * u ^ (k - j) := by
  rw [coverSum, ← List.sum_toFinset _ List.nodup_range,
    show (List.range (k + 1)).toFinset = Finset.range (k + 1) by ext; simp]
  refine Finset.sum_congr rfl fun j hj => ?_
  have := Finset.mem_range.mp hj
  rw [stirlingRow_eq, List.getD_eq_getElem _ _ (by simpa using this)]
  simp

/-- The security level of FORS after `2^64` signatures, in bits. -/
def coverLevel : ParamSet → Nat
  | .slh_dsa_sha2_128s | .slh_dsa_shake_128s => 133
  | .slh_dsa_sha2_128f | .slh_dsa_shake_128f => 128
  | .slh_dsa_sha2_192s | .slh_dsa_shake_192s => 193
  | .slh_dsa_sha2_192f | .slh_dsa_shake_192f => 194
  | .slh_dsa_sha2_256s | .slh_dsa_shake_256s => 255
  | .slh_dsa_sha2_256f | .slh_dsa_shake_256f => 255

theorem coverLevel_ok (ps : ParamSet) :
    coverSum ps.sp.k (2 ^ ps.sp.h) (2 ^ 64) * 2 ^ coverLevel ps ≤
      2 ^ (ps.sp.k * ps.sp.a) * (2 ^ ps.sp.h) ^ ps.sp.k := by
  cases ps <;> decide +kernel

/-- **C62** After at most `2^64` signatures, the fraction is at most `2^-coverLevel`. -/
theorem C62_after_2_64_signatures (ps : ParamSet) (q : Nat) (hq : q ≤ 2 ^ 64) :
    (Finset.univ.filter fun e : (Fin q → Fin (256 ^ ps.sp.m)) × Fin (256 ^ ps.sp.m) =>
      Covered ps (digests ps e.1) (Spec.toByte e.2 ps.sp.m)).card * 2 ^ coverLevel ps ≤
    (256 ^ ps.sp.m) ^ (q + 1) := by
  have h1 := C62_covered_average ps q
  have h2 := coverLevel_ok ps
  rw [coverSum_eq] at h2
  have h3 : ∑ j ∈ Finset.range (ps.sp.k + 1),
      Nat.stirlingSecond ps.sp.k j * q ^ j * (2 ^ ps.sp.h) ^ (ps.sp.k - j) ≤
    ∑ j ∈ Finset.range (ps.sp.k + 1),
      Nat.stirlingSecond ps.sp.k j * (2 ^ 64) ^ j * (2 ^ ps.sp.h) ^ (ps.sp.k - j) :=
    Finset.sum_le_sum fun j _ => Nat.mul_le_mul_right _ (Nat.mul_le_mul_left _ (Nat.pow_le_pow_left hq _))
  have hX : 0 < 2 ^ (ps.sp.k * ps.sp.a) * (2 ^ ps.sp.h) ^ ps.sp.k :=
    Nat.mul_pos (Nat.two_pow_pos _) (Nat.pow_pos (Nat.two_pow_pos _))
  have h4 := (Nat.mul_le_mul_right (2 ^ coverLevel ps) h3).trans h2
  generalize (∑ j ∈ Finset.range (ps.sp.k + 1),
      Nat.stirlingSecond ps.sp.k j * q ^ j * (2 ^ ps.sp.h) ^ (ps.sp.k - j)) = Y at *
  generalize 2 ^ (ps.sp.k * ps.sp.a) * (2 ^ ps.sp.h) ^ ps.sp.k = X at *
  generalize (Finset.univ.filter fun e : (Fin q → Fin (256 ^ ps.sp.m)) × Fin (256 ^ ps.sp.m) =>
      Covered ps (digests ps e.1) (Spec.toByte e.2 ps.sp.m)).card = c at *
  refine Nat.le_of_mul_le_mul_left ?_ hX
  calc X * (c * 2 ^ coverLevel ps) = c * X * 2 ^ coverLevel ps := by ring
    _ ≤ (256 ^ ps.sp.m) ^ (q + 1) * Y * 2 ^ coverLevel ps := Nat.mul_le_mul_right _ h1
    _ = (256 ^ ps.sp.m) ^ (q + 1) * (Y * 2 ^ coverLevel ps) := by ring
    _ ≤ (256 ^ ps.sp.m) ^ (q + 1) * X := Nat.mul_le_mul_left _ h4
    _ = _ := Nat.mul_comm _ _

/-- **C62** With `T` tries, at most `T` times that. -/
theorem C62_tries (ps : ParamSet) (q T : Nat) (hq : q ≤ 2 ^ 64) :
    (Finset.univ.filter fun e : (Fin q → Fin (256 ^ ps.sp.m)) × (Fin T → Fin (256 ^ ps.sp.m)) =>
      ∃ t, Covered ps (digests ps e.1) (Spec.toByte (e.2 t) ps.sp.m)).card * 2 ^ coverLevel ps ≤
    T * (256 ^ ps.sp.m) ^ (q + T) := by
  have hone : ∀ t : Fin T,
      (Finset.univ.filter fun e : (Fin q → Fin (256 ^ ps.sp.m)) × (Fin T → Fin (256 ^ ps.sp.m)) =>
        Covered ps (digests ps e.1) (Spec.toByte (e.2 t) ps.sp.m)).card * 2 ^ coverLevel ps ≤
      (256 ^ ps.sp.m) ^ (q + T) := by
    intro t
    cases T with
    | zero => exact t.elim0
    | succ T =>
      have h := C62_after_2_64_signatures ps q hq
      have e : (Finset.univ.filter fun e : (Fin q → Fin (256 ^ ps.sp.m)) × (Fin (T + 1) → Fin (256 ^ ps.sp.m)) =>
          Covered ps (digests ps e.1) (Spec.toByte (e.2 t) ps.sp.m)).card =
          (Finset.univ.filter fun e : (Fin q → Fin (256 ^ ps.sp.m)) × Fin (256 ^ ps.sp.m) =>
            Covered ps (digests ps e.1) (Spec.toByte e.2 ps.sp.m)).card * (256 ^ ps.sp.m) ^ T := by
        rw [Finset.card_filter, Finset.card_filter, Fintype.sum_prod_type, Fintype.sum_prod_type, Finset.sum_mul]
        refine Finset.sum_congr rfl fun g _ => ?_
        rw [← Fintype.sum_equiv (Fin.insertNthEquiv (fun _ => Fin (256 ^ ps.sp.m)) t)
          (fun e => if Covered ps (digests ps g) (Spec.toByte e.1 ps.sp.m) then 1 else 0) _ (fun e => by simp),
          Fintype.sum_prod_type, Finset.sum_mul]
        refine Finset.sum_congr rfl fun N _ => ?_
        by_cases hc : Covered ps (digests ps g) (Spec.toByte N ps.sp.m) <;> simp [hc]
      rw [e]
      calc _ = _ * 2 ^ coverLevel ps * (256 ^ ps.sp.m) ^ T := by ring
        _ ≤ (256 ^ ps.sp.m) ^ (q + 1) * (256 ^ ps.sp.m) ^ T := Nat.mul_le_mul_right _ h
        _ = _ := by rw [← Nat.pow_add]; congr 1; omega
  calc _ ≤ (∑ t : Fin T,
      (Finset.univ.filter fun e : (Fin q → Fin (256 ^ ps.sp.m)) × (Fin T → Fin (256 ^ ps.sp.m)) =>
        Covered ps (digests ps e.1) (Spec.toByte (e.2 t) ps.sp.m)).card) * 2 ^ coverLevel ps := by
        refine Nat.mul_le_mul_right _ (le_trans (Finset.card_le_card ?_) Finset.card_biUnion_le)
        intro e he
        obtain ⟨t, ht⟩ := (Finset.mem_filter.mp he).2
        exact Finset.mem_biUnion.mpr ⟨t, Finset.mem_univ _, Finset.mem_filter.mpr ⟨Finset.mem_univ _, ht⟩⟩
    _ ≤ ∑ _t : Fin T, (256 ^ ps.sp.m) ^ (q + T) := by
        rw [Finset.sum_mul]
        exact Finset.sum_le_sum fun t _ => hone t
    _ = _ := by simp

/-- The level is that of the security category, or one bit less. -/
theorem coverLevel_category (ps : ParamSet) : 8 * ps.sp.n ≤ coverLevel ps + 1 := by
  cases ps <;> decide

/-- Some digests do cover others: after one signature, its own digest. -/
example (ps : ParamSet) (N : Fin (256 ^ ps.sp.m)) :
    Covered ps (digests ps fun _ : Fin 1 => N) (Spec.toByte N ps.sp.m) :=
  fun i _ => ⟨_, by simp [digests], rfl, rfl⟩

end Fips205.Props
