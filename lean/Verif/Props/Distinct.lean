import Verif.Proofs.ResignAvg
import Verif.Props.Weak

/-!
# Generated keys differ (C86)

Keys are generated with the API, one after the other.  That two of them are the same public or private key, or have one of
the seeds in common, has a negligible chance, whatever the hash functions are: it depends on the random number generator
only.
-/

namespace Fips205.Props
open Fips205 Fips205.Model

variable {U : Nat} {sets : Fin U → ParamSet}

/-- The two keys have the same serialised public key, or the same serialised private key, or one of their three seeds is
the same. -/
def Alike (b : Build) (keys : Keys sets) (u v : Fin U) : Prop :=
  (∃ x y, ((keys u).1.into_bytes : Exec b _) = pure x ∧ ((keys v).1.into_bytes : Exec b _) = pure y ∧
    x.toList = y.toList) ∨
  (∃ x y, ((keys u).2.into_bytes : Exec b _) = pure x ∧ ((keys v).2.into_bytes : Exec b _) = pure y ∧
    x.toList = y.toList) ∨
  (keys u).2.key.sk_seed.toList = (keys v).2.key.sk_seed.toList ∨
  (keys u).2.key.sk_prf.toList = (keys v).2.key.sk_prf.toList ∨
  (keys u).2.key.pk_seed.toList = (keys v).2.key.pk_seed.toList

theorem Alike.symm {b : Build} {keys : Keys sets} {u v : Fin U} (h : Alike b keys u v) : Alike b keys v u := by
  rcases h with ⟨x, y, h1, h2, h3⟩ | ⟨x, y, h1, h2, h3⟩ | h | h | h
  · exact .inl ⟨y, x, h2, h1, h3.symm⟩
  · exact .inr (.inl ⟨y, x, h2, h1, h3.symm⟩)
  · exact .inr (.inr (.inl h.symm))
  · exact .inr (.inr (.inr (.inl h.symm)))
  · exact .inr (.inr (.inr (.inr h.symm)))

/-- The beginnings of two strings of twice (or four times) their length. -/
theorem half_eq {k : Nat} {a a' c c' : List UInt8} (h1 : a.length + c.length = (k + 1) * a.length)
    (h2 : a'.length + c'.length = (k + 1) * a'.length) (h : a ++ c = a' ++ c') : a = a' := by
  have hl := congrArg List.length h
  rw [List.length_append, List.length_append, h1, h2] at hl
  exact List.append_inj_left h (Nat.eq_of_mul_eq_mul_left (Nat.succ_pos k) hl)

/-- The draws for two keys have a string in common. -/
def Shared (coins : Coins sets) (u v : Fin U) : Prop :=
  Spec.toByte (coins u).1 (sets u).sp.n = Spec.toByte (coins v).1 (sets v).sp.n ∨
  Spec.toByte (coins u).2.1 (sets u).sp.n = Spec.toByte (coins v).2.1 (sets v).sp.n ∨
  Spec.toByte (coins u).2.2 (sets u).sp.n = Spec.toByte (coins v).2.2 (sets v).sp.n

/-- Keys that are alike were made from draws with a string in common. -/
theorem alike_draw {b : Build} (P : Spec.Prims) (coins : Coins sets) {u v : Fin U} (h : Alike b (coinKeys P coins) u v) :
    Shared coins u v := by
  have e : ∀ t (x : Fin (256 ^ (sets t).sp.n)), (toVec (sets t).params.N (Spec.toByte x (sets t).sp.n)).toList =
      Spec.toByte x (sets t).sp.n := fun t x => toVec_toList ((Spec.toByte_length _ _).trans (N_eq _))
  have e1 : ∀ t, (coinKeys P coins t).2.key.sk_seed.toList = Spec.toByte (coins t).1 (sets t).sp.n := fun t => e t _
  have e2 : ∀ t, (coinKeys P coins t).2.key.sk_prf.toList = Spec.toByte (coins t).2.1 (sets t).sp.n := fun t => e t _
  have e3 : ∀ t, (coinKeys P coins t).2.key.pk_seed.toList = Spec.toByte (coins t).2.2 (sets t).sp.n := fun t => e t _
  have e4 : ∀ t, (coinKeys P coins t).1.key.pk_seed.toList = Spec.toByte (coins t).2.2 (sets t).sp.n := fun t => e t _
  rcases h with ⟨x, y, h1, h2, h3⟩ | ⟨x, y, h1, h2, h3⟩ | h | h | h
  · obtain ⟨x', hx, hx'⟩ := exec_pk_into_bytes (b := b) (coinKeys P coins u).1
    obtain ⟨y', hy, hy'⟩ := exec_pk_into_bytes (b := b) (coinKeys P coins v).1
    obtain rfl := Exec.pure_inj (hx.symm.trans h1)
    obtain rfl := Exec.pure_inj (hy.symm.trans h2)
    rw [hx', hy', Spec.encodePK, Spec.encodePK] at h3
    have := half_eq (k := 1) (by simp only [Vector.length_toList]; omega) (by simp only [Vector.length_toList]; omega) h3
    rw [e4, e4] at this
    exact .inr (.inr this)
  · obtain ⟨x', hx, hx'⟩ := exec_sk_into_bytes (b := b) (coinKeys P coins u).2
    obtain ⟨y', hy, hy'⟩ := exec_sk_into_bytes (b := b) (coinKeys P coins v).2
    obtain rfl := Exec.pure_inj (hx.symm.trans h1)
    obtain rfl := Exec.pure_inj (hy.symm.trans h2)
    rw [hx', hy', Spec.encodeSK, Spec.encodeSK, List.append_assoc, List.append_assoc, List.append_assoc,
      List.append_assoc] at h3
    have := half_eq (k := 3) (by simp only [List.length_append, Vector.length_toList]; omega)
      (by simp only [List.length_append, Vector.length_toList]; omega) h3
    rw [e1, e1] at this
    exact .inl this
  · rw [e1, e1] at h
    exact .inl h
  · rw [e2, e2] at h
    exact .inr (.inl h)
  · rw [e3, e3] at h
    exact .inr (.inr h)

/-- A string that is drawn is seldom a given one. -/
theorem drawn_le {n : Nat} (x : List UInt8) :
    (Oracle.avg fun d : Fin (256 ^ n) => Oracle.ind (Spec.toByte d n = x)) ≤ 1 / 256 ^ n := by
  have : Nonempty (Fin (256 ^ n)) := ⟨⟨0, Nat.pow_pos (by decide)⟩⟩
  refine (Oracle.avg_mono fun d => Oracle.ind_mono fun h => List.mem_singleton.mpr h).trans
    ((avg_inj_le (fun d : Fin (256 ^ n) => Spec.toByte d n) (fun i j h => toByte_inj h) [x]).trans (le_of_eq ?_))
  rw [List.length_singleton]
  push_cast
  rfl

theorem drawn_three_le {n : Nat} (x y z : List UInt8) :
    (Oracle.avg fun d : Fin (256 ^ n) × Fin (256 ^ n) × Fin (256 ^ n) => Oracle.ind (
      Spec.toByte d.1 n = x ∨ Spec.toByte d.2.1 n = y ∨ Spec.toByte d.2.2 n = z)) ≤ 3 / 256 ^ n := by
  have : Nonempty (Fin (256 ^ n)) := ⟨⟨0, Nat.pow_pos (by decide)⟩⟩
  have h : ∀ d : Fin (256 ^ n) × Fin (256 ^ n) × Fin (256 ^ n),
      Oracle.ind (Spec.toByte d.1 n = x ∨ Spec.toByte d.2.1 n = y ∨ Spec.toByte d.2.2 n = z) ≤
      Oracle.ind (Spec.toByte d.1 n = x) + (Oracle.ind (Spec.toByte d.2.1 n = y) + Oracle.ind (Spec.toByte d.2.2 n = z)) :=
    fun d => (Oracle.ind_or_le _ _).trans (by
      have := Oracle.ind_or_le (Spec.toByte d.2.1 n = y) (Spec.toByte d.2.2 n = z)
      linarith)
  refine (Oracle.avg_mono h).trans ?_
  rw [Oracle.avg_add, Oracle.avg_add, Oracle.avg_prod, Oracle.avg_prod, Oracle.avg_prod]
  simp only [Oracle.avg_prod, Oracle.avg_const]
  have h1 := drawn_le (n := n) x
  have h2 := drawn_le (n := n) y
  have h3 := drawn_le (n := n) z
  have e : (3 : ℚ) / 256 ^ n = 1 / 256 ^ n + (1 / 256 ^ n + 1 / 256 ^ n) := by ring
  rw [e]
  exact add_le_add h1 (add_le_add h2 h3)

/-- This is seldom. -/
theorem pair_le (u v : Fin U) (huv : u ≠ v) :
    (Oracle.avg fun coins : Coins sets => Oracle.ind (Shared coins u v)) ≤ 3 / 256 ^ (sets u).sp.n := by
  have h0 : ∀ t, Nonempty (Fin (256 ^ (sets t).sp.n)) := fun t => ⟨⟨0, Nat.pow_pos (by decide)⟩⟩
  have h1 : ∀ t, Nonempty (Fin (256 ^ (sets t).sp.n) × Fin (256 ^ (sets t).sp.n) × Fin (256 ^ (sets t).sp.n)) := fun t =>
    ⟨((h0 t).some, (h0 t).some, (h0 t).some)⟩
  rw [avg_redraw u]
  refine (Oracle.avg_mono (g := fun _ => 3 / 256 ^ (sets u).sp.n) fun coins => ?_).trans (le_of_eq (Oracle.avg_const _))
  simp only [Shared, Function.update_self, Function.update_of_ne huv.symm]
  exact drawn_three_le _ _ _

/-- The number of pairs. -/
theorem pairs_sum (c : ℚ) : (∑ u : Fin U, ∑ v : Fin U, if v < u then c else 0) = U * (U - 1) / 2 * c := by
  have h1 : ∀ u : Fin U, (∑ v : Fin U, if v < u then c else 0) = (u.val : ℚ) * c := by
    intro u
    rw [← Finset.sum_filter, Finset.sum_const, nsmul_eq_mul]
    have e : (Finset.univ.filter fun v : Fin U => v < u) = Finset.Iio u := by
      ext v
      simp
    rw [e, Fin.card_Iio]
  rw [Finset.sum_congr rfl fun u _ => h1 u, ← Finset.sum_mul]
  congr 1
  rw [Fin.sum_univ_eq_sum_range (fun i : ℕ => (i : ℚ)) U]
  have h2 : ∀ k : ℕ, ∑ i ∈ Finset.range k, (i : ℚ) = k * (k - 1) / 2 := by
    intro k
    induction k with
    | zero => simp
    | succ k ih =>
      rw [Finset.sum_range_succ, ih]
      push_cast
      ring
  exact h2 U

/-- **C86** Key generation succeeds for all of the `U` keys. -/
theorem C86_runs (b : Build) (P : Spec.Prims) (coins : Coins sets) :
    ∃ keys, (genKeys (crypto P) sets coins.tape : Exec b _) = pure (some keys) :=
  ⟨_, exec_genKeys P coins⟩

/-- **C86** Let `U` keys with seeds of at least `n` bytes be generated from random strings.  For all hash functions, the
chance that two of the keys are alike is at most `3 U (U - 1) / (2 256^n)`. -/
theorem C86_distinct (b : Build) (P : Spec.Prims) {n : Nat} (hn : ∀ u, n ≤ (sets u).sp.n) :
    prob (fun coins : Coins sets => ∃ keys, (genKeys (crypto P) sets coins.tape : Exec b _) = pure (some keys) ∧
      ∃ u v, u ≠ v ∧ Alike b keys u v) ≤ 3 * (U * (U - 1)) / (2 * 256 ^ n) := by
  classical
  rw [prob_eq]
  refine (Oracle.avg_mono (g := fun coins => ∑ u, ∑ v, if v < u then Oracle.ind (Shared coins u v) else 0) fun coins => ?_).trans ?_
  · have hpos : ∀ u v : Fin U, (0 : ℚ) ≤ if v < u then Oracle.ind (Shared coins u v) else 0 := by
      intro u v
      split
      · exact Oracle.ind_nonneg _
      · exact le_rfl
    rw [Oracle.ind]
    split
    · rename_i h
      obtain ⟨keys, hk, u, v, huv, ha⟩ := h
      obtain rfl := Option.some.inj (Exec.pure_inj ((exec_genKeys P coins).symm.trans hk))
      have key : ∀ u v : Fin U, v < u → Alike b (coinKeys P coins) u v → (1 : ℚ) ≤ ∑ u, ∑ v, if v < u then Oracle.ind (Shared coins u v) else 0 := by
        intro u v hvu ha
        refine le_trans ?_ (Finset.single_le_sum (fun u _ => Finset.sum_nonneg fun v _ => hpos u v) (Finset.mem_univ u))
        refine le_trans ?_ (Finset.single_le_sum (fun v _ => hpos u v) (Finset.mem_univ v))
        rw [if_pos hvu, Oracle.ind, if_pos (alike_draw P coins ha)]
      rcases lt_or_gt_of_ne huv with h | h
      · exact key v u h ha.symm
      · exact key u v h ha
    · exact Finset.sum_nonneg fun u _ => Finset.sum_nonneg fun v _ => hpos u v
  · rw [Oracle.avg_sum]
    refine (Finset.sum_le_sum (g := fun u => ∑ v : Fin U, if v < u then (3 / 256 ^ n : ℚ) else 0) fun u _ => ?_).trans ?_
    · rw [Oracle.avg_sum]
      refine Finset.sum_le_sum fun v _ => ?_
      by_cases hvu : v < u
      · simp only [if_pos hvu]
        refine (pair_le u v hvu.ne').trans ?_
        exact div_le_div_of_nonneg_left (by norm_num) (by positivity) (pow_le_pow_right₀ (by norm_num) (hn u))
      · simp only [if_neg hvu]
        rw [Oracle.avg, Finset.sum_const_zero, zero_div]
    · rw [pairs_sum]
      refine le_of_eq ?_
      rw [mul_div_assoc', div_mul_eq_mul_div, div_div]
      ring

/-- **C86** In bits: with up to `2^t` keys at most `2^(2 t + 1 - 8 n)`. -/
theorem C86_bits (b : Build) (P : Spec.Prims) {n t : Nat} (hn : ∀ u, n ≤ (sets u).sp.n) (hU : U ≤ 2 ^ t) :
    prob (fun coins : Coins sets => ∃ keys, (genKeys (crypto P) sets coins.tape : Exec b _) = pure (some keys) ∧
      ∃ u v, u ≠ v ∧ Alike b keys u v) ≤ 2 ^ (2 * t + 1) / 2 ^ (8 * n) := by
  refine (C86_distinct b P hn).trans ?_
  have h1 : (U : ℚ) ≤ 2 ^ t := by exact_mod_cast hU
  have h0 : (0 : ℚ) ≤ U := Nat.cast_nonneg _
  have e : (256 : ℚ) ^ n = 2 ^ (8 * n) := by
    rw [pow_mul]
    norm_num
  rw [e, mul_comm 2 ((2 : ℚ) ^ (8 * n)), ← div_div, div_right_comm]
  refine div_le_div_of_nonneg_right ?_ (by positivity)
  have h2 : (U : ℚ) * (U - 1) ≤ 2 ^ t * 2 ^ t := by nlinarith
  have h3 : (2 : ℚ) ^ (2 * t + 1) = 2 * (2 ^ t * 2 ^ t) := by ring
  rw [h3]
  have h4 : (0 : ℚ) ≤ 2 ^ t * 2 ^ t := by positivity
  linarith

/-- A chance over draws alone. -/
theorem Source.Weak.draw {X : Type} [Fintype X] {g : Source X} {c : ℚ} (h : g.Weak c) (E : X → Prop) :
    g.chance (fun ω : X × Unit => E ω.1) ≤ c * prob E := by
  refine (h.le _).trans (le_of_eq ?_)
  rw [prob_eq, prob_eq, Oracle.avg_prod]
  simp only [Oracle.avg_const]

/-- **C86** With a weak random number generator (`C85`). -/
theorem C86_weak (b : Build) (P : Spec.Prims) {n t : Nat} (hn : ∀ u, n ≤ (sets u).sp.n) (hU : U ≤ 2 ^ t)
    {g : Source (Coins sets)} {c : ℚ} (hc : 0 ≤ c) (hg : g.Weak c) :
    g.chance (fun ω : Coins sets × Unit => ∃ keys, (genKeys (crypto P) sets ω.1.tape : Exec b _) = pure (some keys) ∧
      ∃ u v, u ≠ v ∧ Alike b keys u v) ≤ c * (2 ^ (2 * t + 1) / 2 ^ (8 * n)) :=
  (hg.draw fun coins => ∃ keys, (genKeys (crypto P) sets coins.tape : Exec b _) = pure (some keys) ∧
    ∃ u v, u ≠ v ∧ Alike b keys u v).trans (mul_le_mul_of_nonneg_left (C86_bits b P hn hU) hc)

/-! ## The hypotheses can be met, and the event can happen -/

/-- A thousand keys for all parameter sets in turn. -/
def thousand (u : Fin 1000) : ParamSet := twelve (Fin.ofNat 12 u)

example (b : Build) :
    prob (fun coins : Coins thousand => ∃ keys, (genKeys (crypto demoPrims) thousand coins.tape : Exec b _) = pure (some keys) ∧
      ∃ u v, u ≠ v ∧ Alike b keys u v) ≤ 2 ^ (2 * 10 + 1) / 2 ^ (8 * 16) :=
  C86_bits b demoPrims (fun u => by cases thousand u <;> decide) (by decide)

/-- Two keys made from the same strings are alike. -/
example {ps : ParamSet} (b : Build) (c : D ps × D ps × D ps) :
    ∃ keys, (genKeys (crypto demoPrims) (fun _ : Fin 2 => ps) (Coins.tape (sets := fun _ : Fin 2 => ps) fun _ => c) :
      Exec b _) = pure (some keys) ∧
      ∃ u v, u ≠ v ∧ Alike b keys u v := by
  refine ⟨_, exec_genKeys demoPrims _, 0, 1, by decide, .inl ?_⟩
  obtain ⟨x, hx, -⟩ := exec_pk_into_bytes (b := b) (coinPair demoPrims c).1
  exact ⟨x, x, hx, hx, rfl⟩

end Fips205.Props
