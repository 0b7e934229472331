import Verif.Props.Recover

/-!
# What a weak random number generator costs (C85)

The bounds of `C71`, `C73` and `C83` take the strings that key generation draws to be random.  Here they come from a
generator with any distribution.  The bounds grow in proportion to how much more likely than in the random case the
generator makes any draw, and by no more than the distance of its distribution to the random one.  The hash functions are
random functions, and the generator does not depend on them.
-/

namespace Fips205.Props
open Fips205 Fips205.Model

/-- What a generator may deliver, and how likely. -/
structure Source (X : Type) [Fintype X] where
  weight : X → ℚ
  nonneg : ∀ x, 0 ≤ weight x
  total : ∑ x, weight x = 1

/-- The chance of `E` when the first component comes from the generator and the second one is random. -/
noncomputable def Source.chance {X Y : Type} [Fintype X] [Fintype Y] (g : Source X) (E : X × Y → Prop) : ℚ :=
  ∑ x, g.weight x * prob fun y => E (x, y)

/-- No draw is more than `c` times as likely as in the random case. If `c = 2^k`: the generator has lost at most `k` bits
of entropy (of min-entropy). -/
def Source.Weak {X : Type} [Fintype X] (g : Source X) (c : ℚ) : Prop := ∀ x, g.weight x ≤ c / Fintype.card X

/-- The distribution has (statistical) distance at most `δ` from the random one: no set of draws is more likely by more
than `δ`. -/
def Source.Near {X : Type} [Fintype X] (g : Source X) (δ : ℚ) : Prop :=
  ∀ S : Finset X, ∑ x ∈ S, g.weight x ≤ S.card / Fintype.card X + δ

section
variable {X Y : Type} [Fintype X] [Fintype Y]

theorem prob_nonneg (E : Y → Prop) : 0 ≤ prob E := by
  rw [prob_eq]
  exact Oracle.avg_nonneg fun _ => Oracle.ind_nonneg _

theorem prob_le_one (E : Y → Prop) : prob E ≤ 1 := by
  rw [prob]
  refine div_le_one_of_le₀ ?_ (Nat.cast_nonneg _)
  exact_mod_cast Finset.card_le_univ _

theorem prob_pair (E : X × Y → Prop) : prob E = ∑ x, (1 / Fintype.card X : ℚ) * prob fun y => E (x, y) := by
  rw [prob_eq, Oracle.avg_prod, Oracle.avg, div_eq_mul_inv, Finset.sum_mul]
  refine Finset.sum_congr rfl fun x _ => ?_
  rw [prob_eq, one_div, mul_comm]

/-- A weak generator. -/
theorem Source.Weak.le {g : Source X} {c : ℚ} (h : g.Weak c) (E : X × Y → Prop) : g.chance E ≤ c * prob E := by
  rw [prob_pair, Finset.mul_sum]
  refine Finset.sum_le_sum fun x _ => ?_
  rw [← mul_assoc, mul_one_div]
  exact mul_le_mul_of_nonneg_right (h x) (prob_nonneg _)

/-- A generator that is nearly random. -/
theorem Source.Near.le {g : Source X} {δ : ℚ} (h : g.Near δ) (E : X × Y → Prop) : g.chance E ≤ prob E + δ := by
  rw [prob_pair, Source.chance, ← sub_le_iff_le_add', ← Finset.sum_sub_distrib]
  let S := Finset.univ.filter fun x => 1 / (Fintype.card X : ℚ) ≤ g.weight x
  have hS : (∑ x ∈ S, (g.weight x - 1 / (Fintype.card X : ℚ))) ≤ δ := by
    rw [Finset.sum_sub_distrib, Finset.sum_const, nsmul_eq_mul, mul_one_div]
    have := h S
    linarith
  refine le_trans ?_ hS
  rw [Finset.sum_filter]
  refine Finset.sum_le_sum fun x _ => ?_
  rw [← sub_mul]
  split
  · rename_i hx
    exact mul_le_of_le_one_right (sub_nonneg.mpr hx) (prob_le_one _)
  · rename_i hx
    exact mul_nonpos_of_nonpos_of_nonneg (sub_nonpos.mpr (not_le.mp hx).le) (prob_nonneg _)

end

variable {ps : ParamSet} {U : Nat} {sets : Fin U → ParamSet} {L B w : Nat}

/-- **C85** One key, as `C71`: the generator that key generation draws from makes no draw more than `c` times as likely as
a random one. -/
theorem C85_forge (P0 : Spec.Prims) (b : Build) (hw : 64 ≤ w) (hL : 492 + L ≤ B)
    (hB : 160 + (ps.sp.len + ps.sp.k) * ps.sp.n ≤ B) {q Q t : Nat} (ht : 22 ≤ t)
    (htn : t ≤ 8 * ps.sp.n) (hq : q ≤ 2 ^ 63) (hqt : q * 2 ^ 22 ≤ 2 ^ t) (hQ : Q + q + 1 < 2 ^ t)
    (A : PublicKey ps.params → ApiForger ps L B w q Q)
    {g : Source (Fin (256 ^ ps.sp.n) × Fin (256 ^ ps.sp.n) × Fin (256 ^ ps.sp.n))} {c : ℚ} (hc : 0 ≤ c) (hg : g.Weak c) :
    g.chance (fun ω : _ × (Query B → Fin (256 ^ w)) => ∃ o, romGenGame b P0 A ω.1 ω.2 = pure (some o) ∧ o.Forged) ≤
    c * (2 ^ (t + 5) / 2 ^ (8 * ps.sp.n) + 2 ^ (2 * t + 3) / 2 ^ 256 + 1 / 2 ^ 170) :=
  (hg.le _).trans (mul_le_mul_of_nonneg_left (C71_bits P0 b hw hL hB ht htn hq hqt hQ A) hc)

/-- **C85** ... or it is at distance `δ` from a random one. -/
theorem C85_forge_near (P0 : Spec.Prims) (b : Build) (hw : 64 ≤ w) (hL : 492 + L ≤ B)
    (hB : 160 + (ps.sp.len + ps.sp.k) * ps.sp.n ≤ B) {q Q t : Nat} (ht : 22 ≤ t)
    (htn : t ≤ 8 * ps.sp.n) (hq : q ≤ 2 ^ 63) (hqt : q * 2 ^ 22 ≤ 2 ^ t) (hQ : Q + q + 1 < 2 ^ t)
    (A : PublicKey ps.params → ApiForger ps L B w q Q)
    {g : Source (Fin (256 ^ ps.sp.n) × Fin (256 ^ ps.sp.n) × Fin (256 ^ ps.sp.n))} {δ : ℚ} (hg : g.Near δ) :
    g.chance (fun ω : _ × (Query B → Fin (256 ^ w)) => ∃ o, romGenGame b P0 A ω.1 ω.2 = pure (some o) ∧ o.Forged) ≤
    2 ^ (t + 5) / 2 ^ (8 * ps.sp.n) + 2 ^ (2 * t + 3) / 2 ^ 256 + 1 / 2 ^ 170 + δ :=
  (hg.le _).trans (add_le_add_left (C71_bits P0 b hw hL hB ht htn hq hqt hQ A) δ)

/-- **C85** With `keygen_with_seeds`, as `C70`: only `SK.seed` and `SK.prf` have to be unpredictable, `PK.seed` can be known
before. -/
theorem C85_seeds (P0 : Spec.Prims) (pk_seed : Vector UInt8 ps.params.N) (b : Build)
    (hw : 64 ≤ w) (hL : 492 + L ≤ B) (hB : 160 + (ps.sp.len + ps.sp.k) * ps.sp.n ≤ B)
    (hseed : pk_seed.toList.head? ∉ [some 0, some 0x36, some 0x5c]) {q Q t : Nat} (ht : 22 ≤ t)
    (htn : t ≤ 8 * ps.sp.n) (hq : q ≤ 2 ^ 63) (hqt : q * 2 ^ 22 ≤ 2 ^ t) (hQ : Q + q + 1 < 2 ^ t)
    (A : PublicKey ps.params → ApiForger ps L B w q Q)
    {g : Source (Fin (256 ^ ps.sp.n) × Fin (256 ^ ps.sp.n))} {c δ : ℚ} (hc : 0 ≤ c) :
    (g.Weak c → g.chance (fun ω : _ × (Query B → Fin (256 ^ w)) =>
        ∃ o, romApiGame b P0 ω.2 pk_seed A ω.1.1 ω.1.2 = pure o ∧ o.Forged) ≤
      c * (2 ^ (t + 5) / 2 ^ (8 * ps.sp.n) + 2 ^ (2 * t + 3) / 2 ^ 256)) ∧
    (g.Near δ → g.chance (fun ω : _ × (Query B → Fin (256 ^ w)) =>
        ∃ o, romApiGame b P0 ω.2 pk_seed A ω.1.1 ω.1.2 = pure o ∧ o.Forged) ≤
      2 ^ (t + 5) / 2 ^ (8 * ps.sp.n) + 2 ^ (2 * t + 3) / 2 ^ 256 + δ) :=
  ⟨fun hg => (hg.le _).trans (mul_le_mul_of_nonneg_left (C70_bits P0 pk_seed b hw hL hB hseed ht htn hq hqt hQ A) hc),
    fun hg => (hg.le _).trans (add_le_add_left (C70_bits P0 pk_seed b hw hL hB hseed ht htn hq hqt hQ A) δ)⟩

/-- **C85** Many keys, as `C73`: `g` is the joint distribution of all that is drawn for the `U` keys, which need not be
independent of each other. -/
theorem C85_forge_many (P0 : Spec.Prims) (b : Build) (hw : 64 ≤ w) (hL : 492 + L ≤ B)
    (hB : ∀ u, 160 + ((sets u).sp.len + (sets u).sp.k) * (sets u).sp.n ≤ B) {n q Q t : Nat}
    (hn : ∀ u, n ≤ (sets u).sp.n) (htn : t ≤ 8 * n) (hq : q ≤ 2 ^ 63) (hQ : Q + (q + U) * 2 ^ 22 + q + 1 < 2 ^ t)
    (A : ((u : Fin U) → PublicKey (sets u).params) → MultiForger sets L B w q Q) {g : Source (Coins sets)} {c δ : ℚ}
    (hc : 0 ≤ c) :
    (g.Weak c → g.chance (fun ω : _ × (Query B → Fin (256 ^ w)) =>
        ∃ o, romMultiGame b P0 A ω.1 ω.2 = pure (some o) ∧ o.Forged) ≤
      c * (U * (2 ^ (t + 5) / 2 ^ (8 * n) + 2 ^ (2 * t + 3) / 2 ^ 256 + 1 / 2 ^ 170))) ∧
    (g.Near δ → g.chance (fun ω : _ × (Query B → Fin (256 ^ w)) =>
        ∃ o, romMultiGame b P0 A ω.1 ω.2 = pure (some o) ∧ o.Forged) ≤
      U * (2 ^ (t + 5) / 2 ^ (8 * n) + 2 ^ (2 * t + 3) / 2 ^ 256 + 1 / 2 ^ 170) + δ) :=
  ⟨fun hg => (hg.le _).trans (mul_le_mul_of_nonneg_left (C73_users P0 b hw hL hB hn htn hq hQ A) hc),
    fun hg => (hg.le _).trans (add_le_add_left (C73_users P0 b hw hL hB hn htn hq hQ A) δ)⟩

/-- **C85** Finding a private key, as `C83`. -/
theorem C85_recover (P0 : Spec.Prims) (b : Build) (hw : 64 ≤ w) (hL : 492 + L ≤ B)
    (hB : ∀ u, 160 + ((sets u).sp.len + (sets u).sp.k) * (sets u).sp.n ≤ B) {n q Q t : Nat}
    (hn : ∀ u, n ≤ (sets u).sp.n) (htn : t ≤ 8 * n) (hq : q ≤ 2 ^ 63) (hQ : Q + (q + U + 1) * 2 ^ 22 + q + 1 < 2 ^ t)
    (A : ((u : Fin U) → PublicKey (sets u).params) → Recoverer sets L B w q Q) {g : Source (Coins sets)} {c δ : ℚ}
    (hc : 0 ≤ c) :
    (g.Weak c → g.chance (fun ω : _ × (Query B → Fin (256 ^ w)) =>
        ∃ o, romRecoverGame b P0 A ω.1 ω.2 = pure (some o) ∧ o.Won) ≤
      c * (U * (2 ^ (t + 5) / 2 ^ (8 * n) + 2 ^ (2 * t + 3) / 2 ^ 256 + 1 / 2 ^ 170))) ∧
    (g.Near δ → g.chance (fun ω : _ × (Query B → Fin (256 ^ w)) =>
        ∃ o, romRecoverGame b P0 A ω.1 ω.2 = pure (some o) ∧ o.Won) ≤
      U * (2 ^ (t + 5) / 2 ^ (8 * n) + 2 ^ (2 * t + 3) / 2 ^ 256 + 1 / 2 ^ 170) + δ) :=
  ⟨fun hg => (hg.le _).trans (mul_le_mul_of_nonneg_left (C83_users P0 b hw hL hB hn htn hq hQ A) hc),
    fun hg => (hg.le _).trans (add_le_add_left (C83_users P0 b hw hL hB hn htn hq hQ A) δ)⟩

/-! ## The hypotheses can be met -/

/-- A generator that delivers the members of `S`, all of them equally likely. -/
def Source.among {X : Type} [Fintype X] [DecidableEq X] (S : Finset X) (hS : S.Nonempty) : Source X where
  weight x := if x ∈ S then 1 / S.card else 0
  nonneg x := by split <;> positivity
  total := by
    rw [Finset.sum_ite_mem, Finset.univ_inter, Finset.sum_const, nsmul_eq_mul, mul_one_div, div_self]
    exact_mod_cast hS.card_pos.ne'

/-- It is weak by the part of the draws that it can deliver. -/
theorem among_weak {X : Type} [Fintype X] [DecidableEq X] (S : Finset X) (hS : S.Nonempty) {c : ℚ}
    (hc : Fintype.card X ≤ c * S.card) : (Source.among S hS).Weak c := by
  intro x
  have h0 : (0 : ℚ) < S.card := by exact_mod_cast hS.card_pos
  have h1 : (0 : ℚ) < Fintype.card X := by exact_mod_cast Fintype.card_pos_iff.mpr ⟨x⟩
  have h2 : (1 : ℚ) / S.card ≤ c / Fintype.card X := by
    rw [div_le_div_iff₀ h0 h1]
    linarith
  unfold Source.among
  dsimp only
  split
  · exact h2
  · exact le_trans (by positivity) h2

/-- It is near to a random one by the part that it cannot deliver. -/
theorem among_near {X : Type} [Fintype X] [DecidableEq X] (S : Finset X) (hS : S.Nonempty) :
    (Source.among S hS).Near (1 - S.card / Fintype.card X) := by
  intro T
  have h0 : (0 : ℚ) < S.card := by exact_mod_cast hS.card_pos
  obtain ⟨x, hx⟩ := hS
  have h1 : (0 : ℚ) < Fintype.card X := by exact_mod_cast Fintype.card_pos_iff.mpr ⟨x⟩
  have h2 : ∑ y ∈ T, (Source.among S ⟨x, hx⟩).weight y = (T ∩ S).card / S.card := by
    unfold Source.among
    dsimp only
    rw [Finset.sum_ite_mem, Finset.sum_const, nsmul_eq_mul, mul_one_div]
  have h3 : ((T ∩ S).card : ℚ) ≤ S.card := by exact_mod_cast Finset.card_le_card Finset.inter_subset_right
  have h4 : ((T ∩ S).card : ℚ) ≤ T.card := by exact_mod_cast Finset.card_le_card Finset.inter_subset_left
  have h5 : (S.card : ℚ) ≤ Fintype.card X := by exact_mod_cast Finset.card_le_univ S
  rw [h2]
  have e1 : ((T ∩ S).card : ℚ) / S.card = (T ∩ S).card / Fintype.card X +
      ((T ∩ S).card / S.card) * (1 - S.card / Fintype.card X) := by
    field_simp
    ring
  have h6 : ((T ∩ S).card : ℚ) / S.card ≤ 1 := div_le_one_of_le₀ h3 h0.le
  have h7 : 0 ≤ 1 - (S.card : ℚ) / Fintype.card X := sub_nonneg.mpr (div_le_one_of_le₀ h5 h1.le)
  rw [e1]
  refine add_le_add (div_le_div_of_nonneg_right h4 h1.le) ?_
  nlinarith

/-- Draws with zeros as the first `k` bits of `SK.seed`. -/
def shortSeeds (n k : Nat) : Finset (Fin (256 ^ n) × Fin (256 ^ n) × Fin (256 ^ n)) :=
  (Finset.univ.filter fun x : Fin (256 ^ n) => x.val < 2 ^ (8 * n - k)) ×ˢ Finset.univ

theorem shortSeeds_card {n k : Nat} (h : k ≤ 8 * n) :
    (shortSeeds n k).card * 2 ^ k = Fintype.card (Fin (256 ^ n) × Fin (256 ^ n) × Fin (256 ^ n)) := by
  have e : 256 ^ n = 2 ^ (8 * n) := by rw [Nat.pow_mul]
  have hle : 2 ^ (8 * n - k) ≤ 256 ^ n := e ▸ Nat.pow_le_pow_right (by decide) (Nat.sub_le _ _)
  rw [shortSeeds, Finset.card_product, Fintype.card_prod, Finset.card_univ]
  have h1 : (Finset.univ.filter fun x : Fin (256 ^ n) => x.val < 2 ^ (8 * n - k)).card = 2 ^ (8 * n - k) := by
    rw [Fin.card_filter_val_lt, min_eq_right hle]
  rw [h1, Fintype.card_fin, mul_right_comm, ← pow_add, Nat.sub_add_cancel h, ← e]

theorem shortSeeds_nonempty (n k : Nat) : (shortSeeds n k).Nonempty :=
  ⟨(⟨0, Nat.pow_pos (by decide)⟩, ⟨0, Nat.pow_pos (by decide)⟩, ⟨0, Nat.pow_pos (by decide)⟩),
    Finset.mem_product.mpr ⟨Finset.mem_filter.mpr ⟨Finset.mem_univ _, Nat.pow_pos (by decide)⟩, Finset.mem_univ _⟩⟩

/-- A generator that has `20` bits of `SK.seed` stuck at zero, and a forger with `2^40` evaluations. -/
example {ps : ParamSet} (b : Build) (A : PublicKey ps.params → ApiForger ps 10 4000 64 1000 1000000) :
    (Source.among (shortSeeds ps.sp.n 20) (shortSeeds_nonempty _ _)).chance (fun ω : _ × (Query 4000 → Fin (256 ^ 64)) =>
      ∃ o, romGenGame b demoPrims A ω.1 ω.2 = pure (some o) ∧ o.Forged) ≤
    2 ^ 20 * (2 ^ (40 + 5) / 2 ^ (8 * ps.sp.n) + 2 ^ (2 * 40 + 3) / 2 ^ 256 + 1 / 2 ^ 170) :=
  C85_forge demoPrims b (by decide) (by decide) (by cases ps <;> decide) (by decide) (by cases ps <;> decide) (by decide)
    (by decide) (by decide) A (by positivity) (among_weak _ _ (by
      rw [← shortSeeds_card (by cases ps <;> decide : 20 ≤ 8 * ps.sp.n), Nat.cast_mul, Nat.cast_pow]
      exact (mul_comm _ _).le))

end Fips205.Props
