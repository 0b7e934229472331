import Verif.Proofs.BindCases
import Verif.Props.ApiForgery

/-!
# One signature, two messages (C76)

A signer who can make keys and signatures as they like may want a signature that is accepted for two messages, so that
they can later say they signed the other one.  Such a signature shows a collision of the hash functions, or a WOTS+ chain
that comes back to a value it had before; with random functions neither can be found.
-/

namespace Fips205.Props
open Fips205 Fips205.Model

variable {ps : ParamSet} {L B w : Nat}

/-- **C76** For all hash functions and whatever the public key is, however it was made: if a signature is accepted for two
formatted messages, then the two verifications hash two different things with the same result, or a WOTS+ chain of the
signature comes back to a value it had before, or the digests of the two messages select the same leaf and begin with the
same `n` bytes. -/
theorem C76_accepted_twice {P : Spec.Prims} {pk : PublicKey ps.params} {sig : Vector UInt8 ps.params.SIG_LEN}
    {M M' : List UInt8} (h : Accepted P pk sig M) (h' : Accepted P pk sig M') :
    let c := Spec.attempt ps.sp (ps.hf P) M sig.toList [] pk.key.pk_seed.toList pk.key.pk_root.toList
    let c' := Spec.attempt ps.sp (ps.hf P) M' sig.toList [] pk.key.pk_seed.toList pk.key.pk_root.toList
    c.Clash c' ∨ c.Loop ∨ (c.t = c'.t ∧ c.l = c'.l ∧
      (digestOf P pk sig M).take ps.sp.n = (digestOf P pk sig M').take ps.sp.n) :=
  accepted_twice h.internal h'.internal

/-- **C76** The game runs to its end, whatever the functions, the player, the parameter set and the build are. -/
theorem C76_runs (P0 : Spec.Prims) (b : Build) {Q : Nat} (A : Repudiator ps L B w Q) (O : Query B → Fin (256 ^ w)) :
    ∃ o, romClaimGame b P0 O A = pure o :=
  ⟨_, play_eq _ _ _⟩

/-- **C76** Take the hash functions to be random functions, with outputs of `w ≥ 64` bytes of which the code uses the
first ones.  Then a player who evaluates them `Q` times finds a public key, a signature and two different requests (pure or
with a pre-hash function, contexts, messages) for which the signature is accepted, with probability at most
`N (2 N + 1) / (2 256^n)`, where `N` is the number of evaluations in the game, those of the two verifications included.  The
public key can be anything that `try_from_bytes` accepts. -/
theorem C76_bound (P0 : Spec.Prims) (b : Build) (hw : 64 ≤ w) (hL : 492 + L ≤ B)
    (hB : 160 + (ps.sp.len + ps.sp.k) * ps.sp.n ≤ B) {Q N : Nat} (hN : N = Q + 2 * (verifyWork ps + 1))
    (A : Repudiator ps L B w Q) :
    prob (fun O : Query B → Fin (256 ^ w) => ∃ o, romClaimGame b P0 O A = pure o ∧ o.Won) ≤
      N * (2 * N + 1) / (2 * 256 ^ ps.sp.n) := by
  subst hN
  have : Nonempty (Fin (256 ^ w)) := ⟨⟨0, Nat.pow_pos (by decide)⟩⟩
  rw [prob_eq]
  refine le_trans (Oracle.avg_mono fun O => Oracle.ind_mono ?_) ((claim_le hw P0 hB hL A).trans (le_of_eq ?_))
  · rintro ⟨o, ho, h⟩
    rw [romClaimGame, play_eq] at ho
    obtain rfl : A.outcome (withHash P0 O) O = o := Except.ok.inj ho
    exact h
  · rw [← add_div]
    congr 1
    ring

/-- **C76** In bits: with less than `2^t` evaluations, `t ≥ 16`, the chance is at most `2^(2 t + 3 - 8 n)`. -/
theorem C76_bits (P0 : Spec.Prims) (b : Build) (hw : 64 ≤ w) (hL : 492 + L ≤ B)
    (hB : 160 + (ps.sp.len + ps.sp.k) * ps.sp.n ≤ B) {Q t : Nat} (ht : 16 ≤ t) (hQ : Q < 2 ^ t)
    (A : Repudiator ps L B w Q) :
    prob (fun O : Query B → Fin (256 ^ w) => ∃ o, romClaimGame b P0 O A = pure o ∧ o.Won) ≤
      2 ^ (2 * t + 3) / 2 ^ (8 * ps.sp.n) := by
  refine (C76_bound P0 b hw hL hB rfl A).trans ?_
  have h16 : 2 ^ 16 ≤ 2 ^ t := Nat.pow_le_pow_right (by decide) ht
  have h1 : 2 * (verifyWork ps + 1) ≤ 2 ^ 16 := by cases ps <;> decide
  have h2 : Q + 2 * (verifyWork ps + 1) ≤ 2 * 2 ^ t := by omega
  generalize Q + 2 * (verifyWork ps + 1) = N at h2 ⊢
  have h3 : (1 : ℚ) ≤ 2 ^ t := one_le_pow₀ (by norm_num)
  have hN : (N : ℚ) ≤ 2 * 2 ^ t := by exact_mod_cast h2
  have h0 : (0 : ℚ) ≤ N := Nat.cast_nonneg _
  rw [show (256 : ℚ) ^ ps.sp.n = 2 ^ (8 * ps.sp.n) by rw [pow_mul]; norm_num, ← div_div]
  refine div_le_div_of_nonneg_right ?_ (by positivity)
  rw [show (2 : ℚ) ^ (2 * t + 3) = (2 ^ t) ^ 2 * 8 by rw [pow_add, mul_comm 2 t, pow_mul]; norm_num]
  nlinarith [mul_le_mul hN hN h0 (by positivity)]

/-! ## The hypotheses can be met, and the event can happen -/

/-- A player who evaluates SHA-256 and claims a signature of zeros for a message, pure and pre-hashed. -/
def demoClaim (ps : ParamSet) : Repudiator ps 10 4000 64 1 :=
  .call ⟨⟨.sha256, [7]⟩, by decide⟩ fun d => .claim (toVec _ (Spec.toByte d 64)) (toVec _ [])
    ⟨none, [1], [2], by decide⟩ ⟨some .SHA256, [], [2, 3], by decide⟩

/-- The bound for this player. -/
example (b : Build) :
    prob (fun O : Query 4000 → Fin (256 ^ 64) => ∃ o, romClaimGame b demoPrims O (demoClaim ps) = pure o ∧ o.Won) ≤
      2 ^ (2 * 16 + 3) / 2 ^ (8 * ps.sp.n) :=
  C76_bits demoPrims b (by decide) (by decide) (by cases ps <;> decide) (Nat.le_refl _) (by decide) _

/-- With constant functions a signature is accepted for all messages. -/
theorem const_claim (O : Query 4000 → Fin (256 ^ 64)) (x : Fin (256 ^ 64)) (hO : ∀ y, O y = x) :
    ∃ (v : Vector UInt8 ps.params.PK_LEN) (sig : Vector UInt8 ps.params.SIG_LEN), ∀ x : SigRequest 10,
      x.ctx.length ≤ 255 → x.check (withHash demoPrims O) (pkOf v) sig = true := by
  have z : Vector UInt8 ps.params.N := Vector.replicate _ 0
  have s : Fin (256 ^ ps.sp.n) := ⟨0, Nat.pow_pos (by decide)⟩
  obtain ⟨hcons, hpk⟩ := (widePair_generated demoPrims z s s O).consistent
  have hv : ∀ M M', Spec.verifyInternal ps.sp (ps.hf (withHash demoPrims O)) M' (sigVec ps (withHash demoPrims O) M
      (widePair demoPrims z s s O).2.key (widePair demoPrims z s s O).2.key.pk_seed).toList
      (widePair demoPrims z s s O).2.key.pk_seed.toList (widePair demoPrims z s s O).2.key.pk_root.toList = true := by
    cases hps : ps.family with
    | sha2 => exact const_sig2 hps (by decide) hO hcons
    | shake => exact const_sig hps (by cases ps <;> decide) hO hcons
  generalize (widePair demoPrims z s s O).2 = sk at hv
  refine ⟨toVec _ (sk.key.pk_seed.toList ++ sk.key.pk_root.toList),
    sigVec ps (withHash demoPrims O) [] sk.key sk.key.pk_seed, fun y hy => ?_⟩
  have e : pkOf (ps := ps) (toVec _ (sk.key.pk_seed.toList ++ sk.key.pk_root.toList)) =
      ⟨⟨sk.key.pk_seed, sk.key.pk_root⟩⟩ := by
    rw [pkOf, toVec_toList (n := ps.params.PK_LEN) (l := sk.key.pk_seed.toList ++ sk.key.pk_root.toList) (by
      rw [List.length_append, Vector.length_toList, Vector.length_toList]; cases ps <;> rfl),
      List.take_left' (Vector.length_toList ..), List.drop_left' (Vector.length_toList ..), toVec_toList_self,
      toVec_toList_self]
  rw [SigRequest.check, if_neg (by omega), e]
  exact hv [] _

/-- The event happens if the functions are constant. -/
example (b : Build) (O : Query 4000 → Fin (256 ^ 64)) (x : Fin (256 ^ 64)) (hO : ∀ y, O y = x) :
    ∃ A : Repudiator ps 10 4000 64 0, ∃ o, romClaimGame b demoPrims O A = pure o ∧ o.Won := by
  obtain ⟨v, sig, h⟩ := const_claim (ps := ps) O x hO
  have key : ∀ x y : SigRequest 10, x.ctx.length ≤ 255 → y.ctx.length ≤ 255 → x ≠ y →
      ((.claim v sig x y : Repudiator ps 10 4000 64 0).outcome (withHash demoPrims O) O).Won :=
    fun x y hx hy hne => ⟨h x hx, h y hy, hne⟩
  refine ⟨_, _, play_eq _ _ _, key ⟨none, [1], [2], by decide⟩ ⟨some .SHA256, [], [2, 3], by decide⟩ (by decide)
    (by decide) fun e => ?_⟩
  have e : ([1] : List UInt8) = [] := congrArg SigRequest.ctx e
  cases e

/-- The hypotheses of `C76_accepted_twice`, for two messages. -/
example (O : Query 4000 → Fin (256 ^ 64)) (x : Fin (256 ^ 64)) (hO : ∀ y, O y = x) :
    ∃ (pk : PublicKey ps.params) (sig : Vector UInt8 ps.params.SIG_LEN),
      Accepted (withHash demoPrims O) pk sig (Spec.pureMsg [1] [2]) ∧
      Accepted (withHash demoPrims O) pk sig (Spec.pureMsg [] [2, 3]) := by
  obtain ⟨v, sig, h⟩ := const_claim (ps := ps) O x hO
  have key : ∀ y : SigRequest 10, y.ph = none → y.ctx.length ≤ 255 →
      Accepted (withHash demoPrims O) (pkOf v) sig (Spec.pureMsg y.ctx y.msg) := by
    rintro ⟨_, ctx, msg, hs⟩ rfl hc
    have e := exec_request_verify (b := demoBuild) (withHash demoPrims O) (pkOf v) ⟨none, ctx, msg, hs⟩ sig
    rw [h _ hc] at e
    exact .pure demoBuild msg ctx e
  exact ⟨pkOf v, sig, key ⟨none, [1], [2], by decide⟩ rfl (by decide), key ⟨none, [], [2, 3], by decide⟩ rfl (by decide)⟩

end Fips205.Props
