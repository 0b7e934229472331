import Verif.Proofs.SpecCorrect

/-! # The WOTS+ checksum -/

namespace Fips205.Spec

theorem base2b_getElem {X : Bytes} {b o i : Nat} (h : i < (base2b X b o).length) :
    (base2b X b o)[i] = toInt X / 2 ^ (8 * X.length - (i + 1) * b) % 2 ^ b := by
  simp [base2b]

/-- A string is determined by its digits. -/
theorem toInt_of_digits {X Y : Bytes} {b : Nat} (hl : X.length = Y.length) : ∀ o,
    o * b ≤ 8 * X.length → base2b X b o = base2b Y b o →
    toInt X / 2 ^ (8 * X.length - o * b) = toInt Y / 2 ^ (8 * X.length - o * b) := by
  intro o
  induction o with
  | zero =>
    intro _ _
    have hx := toInt_lt X
    have hy := toInt_lt Y
    rw [← hl] at hy
    rw [show (256 : Nat) = 2 ^ 8 from rfl, ← Nat.pow_mul] at hx hy
    rw [Nat.zero_mul, Nat.sub_zero, Nat.div_eq_of_lt hx, Nat.div_eq_of_lt hy]
  | succ o ih =>
    intro ho h
    rw [Nat.add_mul, Nat.one_mul] at ho
    have h' : base2b X b o = base2b Y b o := by
      have := congrArg (List.take o) h
      simpa [base2b, List.range_succ] using this
    have hd : toInt X / 2 ^ (8 * X.length - (o + 1) * b) % 2 ^ b =
        toInt Y / 2 ^ (8 * Y.length - (o + 1) * b) % 2 ^ b := by
      have := congrArg (fun l => l.getD o 0) h
      simpa [base2b, List.getD] using this
    have ih := ih (by omega) h'
    rw [show 8 * X.length - o * b = (8 * X.length - (o + 1) * b) + b by
      rw [Nat.add_mul, Nat.one_mul]; omega, Nat.pow_add, ← Nat.div_div_eq_div_mul,
      ← Nat.div_div_eq_div_mul] at ih
    rw [← hl] at hd
    rw [← Nat.mod_add_div (toInt X / 2 ^ (8 * X.length - (o + 1) * b)) (2 ^ b), hd, ih,
      Nat.mod_add_div]

theorem base2b_inj {X Y : Bytes} {b o : Nat} (hl : X.length = Y.length) (ho : o * b = 8 * X.length)
    (h : base2b X b o = base2b Y b o) : X = Y := by
  have := toInt_of_digits hl o (by omega) h
  rw [ho, Nat.sub_self, Nat.pow_zero, Nat.div_one, Nat.div_one] at this
  exact toInt_inj hl this

/-- The three digits of the checksum. -/
theorem csum_digits {c : Nat} (hc : c < 4096) :
    base2b (toByte (c * 16) 2) 4 3 = [c / 256, c / 16 % 16, c % 16] := by
  have h1 : toInt (toByte (c * 16) 2) = c * 16 := by
    rw [toInt_toByte, Nat.mod_eq_of_lt (by omega)]
  have h2 : base2b (toByte (c * 16) 2) 4 3 = [c * 16 / 2 ^ 12 % 16, c * 16 / 2 ^ 8 % 16,
      c * 16 / 2 ^ 4 % 16] := by
    simp only [base2b, h1, toByte_length]
    rfl
  rw [h2]
  congr 1
  · omega
  congr 1
  · omega
  congr 1
  omega

theorem sum_lt_of_digits {a a' : List Nat} (hl : a.length = a'.length) (ha : ∀ x ∈ a, x < 16)
    (h : ∀ i, a'.getD i 0 ≤ a.getD i 0) (hne : a ≠ a') :
    (a.map fun x => 15 - x).sum < (a'.map fun x => 15 - x).sum := by
  induction a generalizing a' with
  | nil =>
    cases a' with
    | nil => exact absurd rfl hne
    | cons => simp at hl
  | cons x a ih =>
    cases a' with
    | nil => simp at hl
    | cons y a' =>
      have hxy : y ≤ x := h 0
      have hx : x < 16 := ha x List.mem_cons_self
      have hi : ∀ i, a'.getD i 0 ≤ a.getD i 0 := fun i => h (i + 1)
      have hl' : a.length = a'.length := by simpa using hl
      have ha' : ∀ x ∈ a, x < 16 := fun z hz => ha z (List.mem_cons_of_mem _ hz)
      simp only [List.map_cons, List.sum_cons]
      by_cases e : a = a'
      · subst e
        have : x ≠ y := fun e => hne (by rw [e])
        omega
      · have := ih hl' ha' hi e
        omega

theorem sum_le_of_digits (a : List Nat) : (a.map fun x => 15 - x).sum ≤ 15 * a.length := by
  induction a with
  | nil => simp
  | cons x a ih => simp only [List.map_cons, List.sum_cons, List.length_cons]; omega

/-- Two different values of `n` bytes: some digit of the second is smaller than that of the first. -/
theorem wotsDigits_dominate {p : Params} (hn : p.n ≤ 128) {M M' : Bytes} (h : M.length = p.n)
    (h' : M'.length = p.n) (hne : M ≠ M') :
    ∃ i < p.len, (wotsDigits p M').getD i 0 < (wotsDigits p M).getD i 0 := by
  by_contra hc
  have hc : ∀ i < p.len, (wotsDigits p M).getD i 0 ≤ (wotsDigits p M').getD i 0 := by
    intro i hi
    by_contra hlt
    exact hc ⟨i, hi, by omega⟩
  have hlen : (base2b M 4 p.len1).length = p.len1 := by simp [base2b]
  have hlen' : (base2b M' 4 p.len1).length = p.len1 := by simp [base2b]
  have hmsg : ∀ i, (base2b M 4 p.len1).getD i 0 ≤ (base2b M' 4 p.len1).getD i 0 := by
    intro i
    by_cases hi : i < p.len1
    · have := hc i (by rw [Params.len]; omega)
      rw [wotsDigits, wotsDigits] at this
      rw [List.getD_append _ _ _ _ (by omega), List.getD_append _ _ _ _ (by omega)] at this
      exact this
    · rw [List.getD_eq_default _ _ (by omega)]
      omega
  have hneq : base2b M' 4 p.len1 ≠ base2b M 4 p.len1 := fun e =>
    hne (base2b_inj (by omega) (by rw [Params.len1]; omega) e.symm)
  have hlt := sum_lt_of_digits (by omega) (fun x hx => Model.base2b_lt x hx) hmsg hneq
  have hle : (((base2b M' 4 p.len1).map fun x => 15 - x).sum) < 4096 ∧
      ((base2b M 4 p.len1).map fun x => 15 - x).sum < 4096 := by
    have h1 := sum_le_of_digits (base2b M' 4 p.len1)
    have h2 := sum_le_of_digits (base2b M 4 p.len1)
    have e : p.len1 = 2 * p.n := rfl
    omega
  have hcs : ∀ j < 3, (base2b (toByte (((base2b M 4 p.len1).map fun x => 15 - x).sum * 16) 2) 4 3).getD
      j 0 ≤ (base2b (toByte (((base2b M' 4 p.len1).map fun x => 15 - x).sum * 16) 2) 4 3).getD j 0 := by
    intro j hj
    have := hc (p.len1 + j) (by rw [Params.len, len2]; omega)
    rw [wotsDigits, wotsDigits] at this
    rw [List.getD_append_right _ _ _ _ (by omega), List.getD_append_right _ _ _ _ (by omega), hlen,
      hlen', Nat.add_sub_cancel_left] at this
    exact this
  rw [csum_digits hle.1, csum_digits hle.2] at hcs
  have c0 := hcs 0 (by decide)
  have c1 := hcs 1 (by decide)
  have c2 := hcs 2 (by decide)
  simp only [List.getD_cons_zero, List.getD_cons_succ] at c0 c1 c2
  omega

end Fips205.Spec
