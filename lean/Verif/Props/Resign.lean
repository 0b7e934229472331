import Verif.Proofs.ResignAvg
import Verif.Props.Ownership

/-!
# A message that is not known cannot be signed again (C79)

Who sees the signature of a message, but not the message, should not be able to make a signature of the same message
for another key, or for another context or mode.  The signature and the public key determine the digest of the message;
this does not help, since the key is part of what is hashed to the digest.  Here the player chooses the private key, too;
they do not know the random bytes of the signer, nor which of `W` messages, which they choose, was signed.
-/

namespace Fips205.Props
open Fips205 Fips205.Model

variable {ps : ParamSet} {L W B w Q Q' : Nat}

/-- **C79** The game runs to its end, whatever the functions, the player, the message, the random bytes, the parameter set
and the build are. -/
theorem C79_runs (P0 : Spec.Prims) (b : Build) (A : Drafter ps L W B w Q' Q) (i : Fin W) (v : Fin (256 ^ ps.sp.n))
    (O : Query B → Fin (256 ^ w)) : ∃ o, romResignGame b P0 A i v O = pure o :=
  ⟨_, drafter_eq _ _ _ _ _⟩

/-- **C79** Take the hash functions to be random functions, with outputs of `w ≥ 64` bytes of which the code uses the
first ones.  A player, who evaluates them `Q` times before and `Q'` times after that, chooses a private key that
`try_from_bytes` accepts, a context, a mode (pure or with a pre-hash function) and `W` different messages; one of these,
drawn at random, is signed with `n` random bytes; the player sees the signature.  They then find a public key, a context
and a mode, not all three those of the signer, and a signature that verification accepts for the message that was drawn,
with probability at most `2 N / W + (len + k + 6) N (N + 2) / (2 256^n)`. -/
theorem C79_bound (P0 : Spec.Prims) (b : Build) (hw : 64 ≤ w) (hL : 492 + L ≤ B)
    (hB : 160 + (ps.sp.len + ps.sp.k) * ps.sp.n ≤ B) (hW : 0 < W) {N : Nat}
    (hN : N = Q + Q' + signMost ps + verifyWork ps + 8) (A : Drafter ps L W B w Q' Q) :
    prob (fun ω : Fin W × Fin (256 ^ ps.sp.n) × (Query B → Fin (256 ^ w)) =>
      ∃ o, romResignGame b P0 A ω.1 ω.2.1 ω.2.2 = pure (some o) ∧ o.Won) ≤
      2 * N / W + (ps.sp.len + ps.sp.k + 6) * (N * (N + 2)) / (2 * 256 ^ ps.sp.n) := by
  have : Nonempty (Fin W) := ⟨⟨0, hW⟩⟩
  rw [prob_eq]
  have h := resign_le P0 A hw hB hL hW rfl
  refine le_trans (Oracle.avg_mono fun ω => Oracle.ind_mono ?_) (h.trans ?_)
  · rintro ⟨o, ho, hwon⟩
    rw [romResignGame, drafter_eq] at ho
    exact ⟨o, Except.ok.inj ho, hwon⟩
  · have hle : resignMost ps Q Q' ≤ N := by
      have := steps_le ps
      rw [resignMost]
      omega
    generalize resignMost ps Q Q' = M at hle
    have h0 : (0 : ℚ) ≤ M := Nat.cast_nonneg _
    have hM : (M : ℚ) ≤ N := Nat.cast_le.mpr hle
    have h1 : ((12 : ℕ) : ℚ) ≤ ((ps.sp.len + ps.sp.k + 6 : ℕ) : ℚ) :=
      Nat.cast_le.mpr (by cases ps <;> decide)
    push_cast at h1 ⊢
    rw [add_assoc]
    refine add_le_add (div_le_div_of_nonneg_right (by linarith) (Nat.cast_nonneg _)) ?_
    rw [← mul_div_mul_left (6 * (M : ℚ)) _ (two_ne_zero), ← add_div]
    refine div_le_div_of_nonneg_right ?_ (by positivity)
    generalize (ps.sp.len : ℚ) + ps.sp.k + 6 = c at h1
    have h2 : (M : ℚ) * (M + 2) ≤ N * (N + 2) := by nlinarith
    nlinarith [mul_le_mul_of_nonneg_left h2 (show (0 : ℚ) ≤ c by linarith), mul_nonneg (sub_nonneg.mpr h1) h0]

/-- **C79** In bits: with less than `2^t` evaluations, `t ≥ 23`, the chance is at most
`2^(t + 2) / W + 2^(2 t + 9 - 8 n)`. -/
theorem C79_bits (P0 : Spec.Prims) (b : Build) (hw : 64 ≤ w) (hL : 492 + L ≤ B)
    (hB : 160 + (ps.sp.len + ps.sp.k) * ps.sp.n ≤ B) (hW : 0 < W) {t : Nat} (ht : 23 ≤ t) (hQ : Q + Q' < 2 ^ t)
    (A : Drafter ps L W B w Q' Q) :
    prob (fun ω : Fin W × Fin (256 ^ ps.sp.n) × (Query B → Fin (256 ^ w)) =>
      ∃ o, romResignGame b P0 A ω.1 ω.2.1 ω.2.2 = pure (some o) ∧ o.Won) ≤
      2 ^ (t + 2) / W + 2 ^ (2 * t + 9) / 2 ^ (8 * ps.sp.n) := by
  refine (C79_bound P0 b hw hL hB hW rfl A).trans ?_
  have h23 : 2 ^ 23 ≤ 2 ^ t := Nat.pow_le_pow_right (by decide) ht
  have h1 : signMost ps + verifyWork ps + 8 ≤ 2 ^ 23 := by cases ps <;> decide
  have h2 : Q + Q' + signMost ps + verifyWork ps + 8 ≤ 2 * 2 ^ t := by omega
  have hW : ps.sp.len + ps.sp.k + 6 ≤ 128 := by cases ps <;> decide
  generalize Q + Q' + signMost ps + verifyWork ps + 8 = N at h2 ⊢
  have h3 : (2 : ℚ) ≤ 2 ^ t := by exact_mod_cast (show 2 ≤ 2 ^ 23 by decide).trans h23
  have hN : (N : ℚ) ≤ 2 * 2 ^ t := by exact_mod_cast h2
  have hW : ((ps.sp.len + ps.sp.k + 6 : ℕ) : ℚ) ≤ 128 := by exact_mod_cast hW
  push_cast at hW
  have h0 : (0 : ℚ) ≤ N := Nat.cast_nonneg _
  refine add_le_add (div_le_div_of_nonneg_right ?_ (Nat.cast_nonneg _)) ?_
  · rw [pow_add]
    linarith
  rw [show (256 : ℚ) ^ ps.sp.n = 2 ^ (8 * ps.sp.n) by rw [pow_mul]; norm_num, ← div_div]
  refine div_le_div_of_nonneg_right ?_ (by positivity)
  rw [show (2 : ℚ) ^ (2 * t + 9) = (2 ^ t) ^ 2 * 512 by rw [pow_add, mul_comm 2 t, pow_mul]; norm_num]
  have h4 : (N : ℚ) * (N + 2) ≤ 2 * 2 ^ t * (4 * 2 ^ t) :=
    mul_le_mul hN (by linarith) (by positivity) (by positivity)
  have h5 := mul_le_mul hW h4 (by positivity) (by norm_num)
  nlinarith [h5]

/-! ## The hypotheses can be met, and the event can happen -/

/-- All messages of 32 bytes. -/
def demoChoice : Choice 32 (256 ^ 32) where
  msg i := Spec.toByte i 32
  inj i j h := by
    have := congrArg Spec.toInt h
    rw [Spec.toInt_toByte, Spec.toInt_toByte, Nat.mod_eq_of_lt i.2, Nat.mod_eq_of_lt j.2] at this
    exact Fin.ext this
  short _ := Nat.le_of_eq (Spec.toByte_length _ _)

/-- A player who evaluates SHA-256, has a message of 32 bytes signed with a private key that depends on the value,
evaluates SHA-512 at a part of the signature, and presents the signature with its last bytes as a public key. -/
def demoResign (ps : ParamSet) : Drafter ps 32 (256 ^ 32) 4000 64 1 1 :=
  .call ⟨⟨.sha256, [7]⟩, by decide⟩ fun d => .sign
    { sk := toVec _ (Spec.toByte d 64), x := ⟨none, [1]⟩, c := demoChoice,
      next := fun sig => .call (Query.of 4000 ⟨.sha512, sig.toList.take 100⟩) fun e =>
        .present (toVec _ (Spec.toByte e 64)) ⟨some .SHA256, []⟩ sig }

/-- The bound for this player. -/
example (b : Build) :
    prob (fun ω : Fin (256 ^ 32) × Fin (256 ^ ps.sp.n) × (Query 4000 → Fin (256 ^ 64)) =>
      ∃ o, romResignGame b demoPrims (demoResign ps) ω.1 ω.2.1 ω.2.2 = pure (some o) ∧ o.Won) ≤
      2 ^ (23 + 2) / ((256 ^ 32 : ℕ) : ℚ) + 2 ^ (2 * 23 + 9) / 2 ^ (8 * ps.sp.n) :=
  C79_bits demoPrims b (by decide) (by decide) (by cases ps <;> decide) (Nat.pow_pos (by decide)) (Nat.le_refl _)
    (by decide) _

/-- Two messages. -/
def twoChoice : Choice 10 2 where
  msg i := [UInt8.ofNat i]
  inj := by decide
  short := by decide

/-- The event happens if the functions are constant. -/
example (b : Build) (O : Query 4000 → Fin (256 ^ 64)) (x : Fin (256 ^ 64)) (hO : ∀ y, O y = x) (i : Fin 2)
    (v : Fin (256 ^ ps.sp.n)) :
    ∃ A : Drafter ps 10 2 4000 64 0 0, ∃ o, romResignGame b demoPrims A i v O = pure (some o) ∧ o.Won := by
  obtain ⟨sk, h⟩ := const_own (ps := ps) O x hO v
  obtain ⟨pk, hpk⟩ : ∃ pk : Vector UInt8 ps.params.PK_LEN, pkOf pk = (skOf sk).get_public_key := by
    obtain ⟨pk, -, e⟩ := exec_pk_into_bytes (b := demoBuild) (skOf sk).get_public_key
    refine ⟨pk, ?_⟩
    rw [pkOf, e, Spec.encodePK, List.take_left' (Vector.length_toList ..), List.drop_left' (Vector.length_toList ..),
      toVec_toList_self, toVec_toList_self]
  have key : ∀ x y : SignMode, x.ctx.length ≤ 255 → y.ctx.length ≤ 255 → y.ctx ≠ x.ctx →
      ∃ A : Drafter ps 10 2 4000 64 0 0, ∃ o, (A.draft O).outcome (withHash demoPrims O) O i
        (toVec _ (Spec.toByte v ps.sp.n)) = some o ∧ o.Won := by
    intro x y hx hy hne
    obtain ⟨sig, h1, h2⟩ := h (x.request twoChoice i) hx
    refine ⟨.sign ⟨sk, x, twoChoice, fun s => .present pk y s⟩,
      presented (withHash demoPrims O) (skOf sk).get_public_key x twoChoice i (pk, y, sig), ?_, ?_, ?_⟩
    · rw [Drafter.draft, Draft.outcome]
      dsimp only
      rw [h1]
      rfl
    · refine Eq.trans ?_ (h2 (y.request twoChoice i) hy)
      rw [← hpk]
      rfl
    · exact .inr fun e => hne (congrArg SigRequest.ctx e)
  obtain ⟨A, o, ho, hwon⟩ := key ⟨none, [1]⟩ ⟨some .SHA256, []⟩ (by decide) (by decide) (by decide)
  exact ⟨A, o, by rw [romResignGame, drafter_eq, ho], hwon⟩

end Fips205.Props
