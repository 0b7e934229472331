import Verif.Proofs.Addresses
import Verif.Props.ApiForgery
import Verif.Props.GenGame

/-!
# Forging with the API when the key is generated with it (C71)

`C70` leaves `PK.seed` to the forger, except for values that are not allowed: for the SHAKE parameter sets those that an
address begins with, for the SHA2 parameter sets three.  Key generation draws `PK.seed` at random, and nothing is left
out.  For the SHAKE parameter sets the root of the key is random, too, and the public key (`PK.seed` and the root) begins
with an address with a negligible probability.
-/

namespace Fips205.Props
open Fips205 Fips205.Model

variable {ps : ParamSet} {L B w : Nat}

/-- The game with the seeds. -/
theorem romGenGame_eq (b : Build) (P0 : Spec.Prims) {q Q : Nat} (A : PublicKey ps.params → ApiForger ps L B w q Q)
    (s k p : Fin (256 ^ ps.sp.n)) (O : Query B → Fin (256 ^ w)) :
    romGenGame b P0 A (s, k, p) O = pure (some (apiOutcome P0 O (toVec _ (Spec.toByte p ps.sp.n)) A s k)) := by
  have h := romApiGame_eq (b := b) P0 O (toVec _ (Spec.toByte p ps.sp.n)) A s k
  rw [romApiGame, apiGame, exec_keygen_with_seeds, pure_bind] at h
  rw [romGenGame, genGame, exec_try_keygen_with_rng]
  simp only [tapeRng, pure_bind]
  exact congrArg (fun x : Exec b (ApiOutcome ps L) => x >>= fun o => pure (some o)) h

/-- **C71** The game runs to its end, and key generation succeeds, whatever the functions, the random bytes, the forger,
the parameter set and the build are. -/
theorem C71_runs (b : Build) (P0 : Spec.Prims) {q Q : Nat} (A : PublicKey ps.params → ApiForger ps L B w q Q)
    (coins : Fin (256 ^ ps.sp.n) × Fin (256 ^ ps.sp.n) × Fin (256 ^ ps.sp.n)) (O : Query B → Fin (256 ^ w)) :
    ∃ o, romGenGame b P0 A coins O = pure (some o) :=
  ⟨_, romGenGame_eq b P0 A coins.1 coins.2.1 coins.2.2 O⟩

/-- Drawing `PK.seed` first. -/
theorem gen_prob (b : Build) (P0 : Spec.Prims) {q Q : Nat} (A : PublicKey ps.params → ApiForger ps L B w q Q) :
    prob (fun ω : (Fin (256 ^ ps.sp.n) × Fin (256 ^ ps.sp.n) × Fin (256 ^ ps.sp.n)) × (Query B → Fin (256 ^ w)) =>
      ∃ o, romGenGame b P0 A ω.1 ω.2 = pure (some o) ∧ o.Forged) =
    Oracle.avg fun p : D ps => prob (fun ω : (D ps × D ps) × (Query B → Fin (256 ^ w)) =>
      ∃ o, romApiGame b P0 ω.2 (toVec _ (Spec.toByte p ps.sp.n)) A ω.1.1 ω.1.2 = pure o ∧ o.Forged) := by
  have e : ∀ s k p O, (∃ o, romGenGame b P0 A (s, k, p) O = pure (some o) ∧ o.Forged) ↔
      ∃ o, romApiGame b P0 O (toVec _ (Spec.toByte p ps.sp.n)) A s k = pure o ∧ o.Forged := by
    intro s k p O
    rw [romGenGame_eq, romApiGame_eq]
    constructor
    · rintro ⟨o, ho, hf⟩
      exact ⟨o, congrArg pure (Option.some.inj (Exec.pure_inj ho)), hf⟩
    · rintro ⟨o, ho, hf⟩
      exact ⟨o, congrArg (fun x => pure (some x)) (Exec.pure_inj ho), hf⟩
  simp only [prob_eq, Oracle.avg_prod, e]
  refine Eq.trans ?_ (Oracle.avg_comm _)
  refine congrArg Oracle.avg (funext fun s => ?_)
  exact Oracle.avg_comm _

/-- From the API to formatted messages. -/
theorem gen_le (b : Build) (P0 : Spec.Prims) (hw : 64 ≤ w) (hB : L ≤ B) {q Q : Nat}
    (A : PublicKey ps.params → ApiForger ps L B w q Q) {c : ℚ}
    (h : (Oracle.avg fun p : D ps => prob (fun ω : (D ps × D ps) × (Query B → Fin (256 ^ w)) =>
      ∃ o, fullGame P0 (toVec _ (Spec.toByte p ps.sp.n)) (fun pk => (A pk).full hB q (Q + q + 1) le_rfl le_rfl) ω.1.1
        ω.1.2 ω.2 = (pure o : Exec b _) ∧ o.Forged)) ≤ c) :
    prob (fun ω : (Fin (256 ^ ps.sp.n) × Fin (256 ^ ps.sp.n) × Fin (256 ^ ps.sp.n)) × (Query B → Fin (256 ^ w)) =>
      ∃ o, romGenGame b P0 A ω.1 ω.2 = pure (some o) ∧ o.Forged) ≤ c + gameCalls ps q Q ^ 2 / (2 * 256 ^ 32) := by
  have : Nonempty (D ps) := ⟨⟨0, Nat.pow_pos (by decide)⟩⟩
  rw [gen_prob]
  refine (Oracle.avg_mono fun p => api_le P0 _ b hw hB A).trans ?_
  rw [Oracle.avg_add, Oracle.avg_const]
  exact add_le_add_left h _

/-- The SHAKE parameter sets, with formatted messages. -/
theorem shake_random_seed (hps : ps.family = .shake) (P0 : Spec.Prims) (b : Build) (S : Finset (List UInt8))
    (hw : ps.sp.m ≤ w) (hS : ∀ M ∈ S, 3 * ps.sp.n + M.length ≤ B) (hB : 160 + (ps.sp.len + ps.sp.k) * ps.sp.n ≤ B)
    {q Q : Nat} (hq : q * (256 ^ ps.sp.n + Q) ≤ 2 ^ 64 * 256 ^ ps.sp.n)
    (A : PublicKey ps.params → FullForger ps S B w q Q) :
    (Oracle.avg fun p : D ps => prob (fun ω : (D ps × D ps) × (Query B → Fin (256 ^ w)) =>
      ∃ o, fullGame P0 (toVec _ (Spec.toByte p ps.sp.n)) A ω.1.1 ω.1.2 ω.2 = (pure o : Exec b _) ∧ o.Forged)) ≤
    (Q + 1) / 2 ^ coverLevel ps + (2 * (Q + ps.sp.verifyCost) + (Q + q + 2)) / 256 ^ ps.sp.n +
      placeCount ps.sp / 256 ^ 32 := by
  have : Nonempty (D ps) := ⟨⟨0, Nat.pow_pos (by decide)⟩⟩
  refine (Oracle.avg_mono fun p => shake_le hps P0 _ b S hw hS hB hq A).trans ?_
  rw [Oracle.avg_add, Oracle.avg_const]
  refine add_le_add_right (le_trans (le_of_eq ?_) (clear_le ps)) _
  refine congrArg Oracle.avg (funext fun p => ?_)
  rw [root_random hB P0 _ _ fun root => Oracle.ind (¬ Clear ps (toVec ps.params.N (Spec.toByte p ps.sp.n)).toList root)]
  refine congrArg Oracle.avg (funext fun r => ?_)
  rw [toVec_toList ((Spec.toByte_length _ _).trans (N_eq ps))]

/-- **C71** For the SHAKE parameter sets: take the hash functions to be random functions, with outputs of `w ≥ 64` bytes
of which the code uses the first ones, and the three strings that key generation draws to be random.  Then every user of
the API forges with probability at most that of `C70`, and `placeCount / 256^32`, where `placeCount` is the number of
addresses that are used with a key. -/
theorem C71_shake (hps : ps.family = .shake) (P0 : Spec.Prims) (b : Build) (hw : 64 ≤ w) (hL : 428 + L ≤ B)
    (hB : 160 + (ps.sp.len + ps.sp.k) * ps.sp.n ≤ B) {q Q : Nat}
    (hq : q * (256 ^ ps.sp.n + (Q + q + 1)) ≤ 2 ^ 64 * 256 ^ ps.sp.n)
    (A : PublicKey ps.params → ApiForger ps L B w q Q) :
    prob (fun ω : (Fin (256 ^ ps.sp.n) × Fin (256 ^ ps.sp.n) × Fin (256 ^ ps.sp.n)) × (Query B → Fin (256 ^ w)) =>
      ∃ o, romGenGame b P0 A ω.1 ω.2 = pure (some o) ∧ o.Forged) ≤
    ((Q + q + 1) + 1) / 2 ^ coverLevel ps +
      (2 * ((Q + q + 1) + ps.sp.verifyCost) + ((Q + q + 1) + q + 2)) / 256 ^ ps.sp.n +
      placeCount ps.sp / 256 ^ 32 + gameCalls ps q Q ^ 2 / (2 * 256 ^ 32) := by
  refine gen_le b P0 hw (by omega) A ?_
  have h := shake_random_seed hps P0 b (shortStrings (strLen L)) (w := w)
    ((show ps.sp.m ≤ 64 by cases ps <;> decide).trans hw) (fun M hM => by
      have := n_le_32 ps
      have := mem_shortStrings.mp hM
      unfold strLen at this
      omega) hB hq fun pk => (A pk).full (by omega) q (Q + q + 1) le_rfl le_rfl
  push_cast at h
  exact h

/-- **C71** For the SHA2 parameter sets: as `C70`, and three values of `PK.seed` in `256^n` are left out. -/
theorem C71_sha2 (hps : ps.family = .sha2) (P0 : Spec.Prims) (b : Build) (hw : 64 ≤ w) (hL : 492 + L ≤ B)
    (hB : 160 + (ps.sp.len + ps.sp.k) * ps.sp.n ≤ B) {q Q : Nat}
    (hq : q * (256 ^ ps.sp.n + (Q + q + 1)) ≤ 2 ^ 64 * 256 ^ ps.sp.n)
    (A : PublicKey ps.params → ApiForger ps L B w q Q) :
    prob (fun ω : (Fin (256 ^ ps.sp.n) × Fin (256 ^ ps.sp.n) × Fin (256 ^ ps.sp.n)) × (Query B → Fin (256 ^ w)) =>
      ∃ o, romGenGame b P0 A ω.1 ω.2 = pure (some o) ∧ o.Forged) ≤
    ((Q + q + 1) + 1) / 2 ^ coverLevel ps +
      (2 * ((Q + q + 1) + ps.sp.verifyCost) + (2 * (Q + q + 1) + ((Q + q + 1) + 2 * q + 2)) + 3) / 256 ^ ps.sp.n +
      (q ^ 2 + ((Q + q + 1) + 2 * q + 2) ^ 2) / 256 ^ hlen ps +
      gameCalls ps q Q ^ 2 / (2 * 256 ^ 32) := by
  refine gen_le b P0 hw (by omega) A ?_
  have h := C69_random_seed hps P0 b (shortStrings (strLen L)) (w := w) hw (fun M hM => by
      have := mem_shortStrings.mp hM
      unfold strLen at this
      omega) hB hq fun pk => (A pk).full (by omega) q (Q + q + 1) le_rfl le_rfl
  push_cast at h
  refine le_trans (le_of_eq ?_) h
  rw [prob_eq, Oracle.avg_prod]
  exact congrArg Oracle.avg (funext fun p => prob_eq _)

/-- **C71** In bits, for every parameter set: with up to `2^63` signatures, and `2^t` evaluations by the forger and by the
signer (`2^22` for a signature), the chance is at most `2^(t + 5 - 8 n) + 2^(2 t + 3 - 256) + 2^(-170)`. -/
theorem C71_bits (P0 : Spec.Prims) (b : Build) (hw : 64 ≤ w) (hL : 492 + L ≤ B)
    (hB : 160 + (ps.sp.len + ps.sp.k) * ps.sp.n ≤ B) {q Q t : Nat} (ht : 22 ≤ t)
    (htn : t ≤ 8 * ps.sp.n) (hq : q ≤ 2 ^ 63) (hqt : q * 2 ^ 22 ≤ 2 ^ t) (hQ : Q + q + 1 < 2 ^ t)
    (A : PublicKey ps.params → ApiForger ps L B w q Q) :
    prob (fun ω : (Fin (256 ^ ps.sp.n) × Fin (256 ^ ps.sp.n) × Fin (256 ^ ps.sp.n)) × (Query B → Fin (256 ^ w)) =>
      ∃ o, romGenGame b P0 A ω.1 ω.2 = pure (some o) ∧ o.Forged) ≤
    2 ^ (t + 5) / 2 ^ (8 * ps.sp.n) + 2 ^ (2 * t + 3) / 2 ^ 256 + 1 / 2 ^ 170 := by
  have hqt' : q ≤ 2 ^ t := (Nat.le_mul_of_pos_right q (by decide)).trans hqt
  have hpow : 256 ^ ps.sp.n = 2 ^ (8 * ps.sp.n) := by rw [show 256 = 2 ^ 8 from rfl, ← Nat.pow_mul]
  have hQ' : Q + q + 1 ≤ 256 ^ ps.sp.n := by
    rw [hpow]; exact hQ.le.trans (Nat.pow_le_pow_right (by decide) htn)
  have hq' : q * (256 ^ ps.sp.n + (Q + q + 1)) ≤ 2 ^ 64 * 256 ^ ps.sp.n := by
    calc q * (256 ^ ps.sp.n + (Q + q + 1)) ≤ 2 ^ 63 * (256 ^ ps.sp.n + 256 ^ ps.sp.n) :=
          Nat.mul_le_mul hq (Nat.add_le_add_left hQ' _)
      _ = _ := by ring
  have hT : (0 : ℚ) < 2 ^ t := by positivity
  have hN : (0 : ℚ) < 2 ^ (8 * ps.sp.n) := by positivity
  have h5 : (2 : ℚ) ^ (t + 5) = 32 * 2 ^ t := by rw [pow_add]; ring
  have hc := calls_bits ps ht hqt hQ
  rw [add_right_comm]
  cases hps : ps.family with
  | sha2 =>
    refine (C71_sha2 hps P0 b hw hL hB hq' A).trans (add_le_add ?_ hc)
    have h := sha2_bits ps (by omega) htn hqt' hQ
    push_cast at h
    have h1 : (1 : ℚ) ≤ 2 ^ t := one_le_pow₀ (by norm_num)
    have h3 : (3 : ℚ) / 256 ^ ps.sp.n ≤ 3 * 2 ^ t / 2 ^ (8 * ps.sp.n) := by
      rw [show (256 : ℚ) ^ ps.sp.n = 2 ^ (8 * ps.sp.n) by exact_mod_cast hpow]
      exact div_le_div_of_nonneg_right (by linarith) hN.le
    rw [add_div _ 3]
    have e : (2 : ℚ) ^ (t + 5) / 2 ^ (8 * ps.sp.n) = 29 * 2 ^ t / 2 ^ (8 * ps.sp.n) + 3 * 2 ^ t / 2 ^ (8 * ps.sp.n) := by
      rw [h5]; ring
    have h0 : (0 : ℚ) ≤ 1 / 2 ^ 170 := by positivity
    rw [e]
    linarith
  | shake =>
    refine (C71_shake hps P0 b hw (by omega) hB hq' A).trans (add_le_add (add_le_add ?_ ?_) hc)
    · have h := shake_bits ps (by omega) hqt' hQ
      push_cast at h
      refine h.trans (div_le_div_of_nonneg_right (pow_le_pow_right₀ (by norm_num) (by omega)) hN.le)
    · rw [div_le_div_iff₀ (by positivity) (by positivity)]
      have h : (placeCount ps.sp : ℚ) ≤ 2 ^ 86 := by exact_mod_cast placeCount_le ps
      calc (placeCount ps.sp : ℚ) * 2 ^ 170 ≤ 2 ^ 86 * 2 ^ 170 := mul_le_mul_of_nonneg_right h (by positivity)
        _ = 1 * 256 ^ 32 := by norm_num

/-! ## The hypotheses can be met, and the event can happen -/

/-- The bound for a forger with two signatures: with `2^23` evaluations. -/
example (b : Build) :
    prob (fun ω : (Fin (256 ^ ps.sp.n) × Fin (256 ^ ps.sp.n) × Fin (256 ^ ps.sp.n)) × (Query 4000 → Fin (256 ^ 64)) =>
      ∃ o, romGenGame b demoPrims (fun _ => demoApi ps) ω.1 ω.2 = pure (some o) ∧ o.Forged) ≤
    2 ^ (23 + 5) / 2 ^ (8 * ps.sp.n) + 2 ^ (2 * 23 + 3) / 2 ^ 256 + 1 / 2 ^ 170 :=
  C71_bits demoPrims b (by decide) (by decide) (by cases ps <;> decide) (show 22 ≤ 23 by decide)
    (by cases ps <;> decide) (by decide) (by decide) (by decide) _

/-- It succeeds if the functions are constant (and not zero). -/
example (b : Build) (coins : Fin (256 ^ ps.sp.n) × Fin (256 ^ ps.sp.n) × Fin (256 ^ ps.sp.n))
    (O : Query 4000 → Fin (256 ^ 64)) (x : Fin (256 ^ 64)) (hx : x.val ≠ 0) (hO : ∀ y, O y = x) :
    ∃ o, romGenGame b demoPrims (fun _ => demoApi ps) coins O = pure (some o) ∧ o.Forged :=
  ⟨_, romGenGame_eq b _ _ coins.1 coins.2.1 coins.2.2 O, demoApi_forged _ _ _ O x hx hO⟩

end Fips205.Props
