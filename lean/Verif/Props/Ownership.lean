import Verif.Proofs.OwnCases
import Verif.Props.Binding

/-!
# One signature, one key and one message (C78)

A signature that an honest signer made, with random bytes that nobody knew before, should be accepted for the public key
of the signer and for the request they signed, and for nothing else.  Here the player chooses the private key, too, so
that it can be one with a special form; only the random bytes are not theirs.
-/

namespace Fips205.Props
open Fips205 Fips205.Model

variable {ps : ParamSet} {L B w : Nat}

/-- **C78** The game runs to its end, whatever the functions, the player, the random bytes, the parameter set and the build
are. -/
theorem C78_runs (P0 : Spec.Prims) (b : Build) {Q : Nat} (A : Chooser ps L B w Q) (v : Fin (256 ^ ps.sp.n))
    (O : Query B → Fin (256 ^ w)) : ∃ o, romOwnGame b P0 A v O = pure o :=
  ⟨_, chooser_eq _ _ _ _⟩

/-- **C78** Take the hash functions to be random functions, with outputs of `w ≥ 64` bytes of which the code uses the
first ones.  A player, who evaluates them `Q` times, chooses a private key that `try_from_bytes` accepts and a request (pure
or with a pre-hash function, a context, a message); it is signed with `n` random bytes; the player sees the signature.
They then find another public key or another request for which verification accepts this signature with probability at
most `(len + k + 6) N (N + 2) / (2 256^n)`, where `N` is the number of evaluations in the game, those of the API functions
included. -/
theorem C78_bound (P0 : Spec.Prims) (b : Build) (hw : 64 ≤ w) (hL : 492 + L ≤ B)
    (hB : 160 + (ps.sp.len + ps.sp.k) * ps.sp.n ≤ B) {Q N : Nat}
    (hN : N = Q + treeWork ps ps.sp.hp + signMost ps + verifyWork ps + 3) (A : Chooser ps L B w Q) :
    prob (fun ω : Fin (256 ^ ps.sp.n) × (Query B → Fin (256 ^ w)) =>
      ∃ o, romOwnGame b P0 A ω.1 ω.2 = pure (some o) ∧ o.Won) ≤
      (ps.sp.len + ps.sp.k + 6) * (N * (N + 2)) / (2 * 256 ^ ps.sp.n) := by
  rw [prob_eq]
  have h := own_le hw P0 hB hL A (N := N) (by rw [hN, signedMost]; omega)
  refine le_trans (Oracle.avg_mono fun ω => Oracle.ind_mono ?_) (h.trans ?_)
  · rintro ⟨o, ho, hwon⟩
    rw [romOwnGame, chooser_eq] at ho
    exact ⟨o, Except.ok.inj ho, hwon⟩
  · have h0 : (0 : ℚ) ≤ N := Nat.cast_nonneg _
    have h1 : (0 : ℚ) ≤ ps.sp.len := Nat.cast_nonneg _
    have h2 : (0 : ℚ) ≤ ps.sp.k := Nat.cast_nonneg _
    rw [← mul_div_mul_left (N : ℚ) _ (two_ne_zero), ← add_div]
    refine div_le_div_of_nonneg_right ?_ (by positivity)
    push_cast
    nlinarith [mul_nonneg h1 h0, mul_nonneg h2 h0]

/-- **C78** In bits: with less than `2^t` evaluations, `t ≥ 23`, the chance is at most `2^(2 t + 9 - 8 n)`. -/
theorem C78_bits (P0 : Spec.Prims) (b : Build) (hw : 64 ≤ w) (hL : 492 + L ≤ B)
    (hB : 160 + (ps.sp.len + ps.sp.k) * ps.sp.n ≤ B) {Q t : Nat} (ht : 23 ≤ t) (hQ : Q < 2 ^ t)
    (A : Chooser ps L B w Q) :
    prob (fun ω : Fin (256 ^ ps.sp.n) × (Query B → Fin (256 ^ w)) =>
      ∃ o, romOwnGame b P0 A ω.1 ω.2 = pure (some o) ∧ o.Won) ≤ 2 ^ (2 * t + 9) / 2 ^ (8 * ps.sp.n) := by
  refine (C78_bound P0 b hw hL hB rfl A).trans ?_
  have h23 : 2 ^ 23 ≤ 2 ^ t := Nat.pow_le_pow_right (by decide) ht
  have h1 : treeWork ps ps.sp.hp + signMost ps + verifyWork ps + 3 ≤ 2 ^ 23 := by cases ps <;> decide
  have h2 : Q + treeWork ps ps.sp.hp + signMost ps + verifyWork ps + 3 ≤ 2 * 2 ^ t := by omega
  have hW : ps.sp.len + ps.sp.k + 6 ≤ 128 := by cases ps <;> decide
  generalize Q + treeWork ps ps.sp.hp + signMost ps + verifyWork ps + 3 = N at h2 ⊢
  have h3 : (2 : ℚ) ≤ 2 ^ t := by exact_mod_cast (show 2 ≤ 2 ^ 23 by decide).trans h23
  have hN : (N : ℚ) ≤ 2 * 2 ^ t := by exact_mod_cast h2
  have hW : ((ps.sp.len + ps.sp.k + 6 : ℕ) : ℚ) ≤ 128 := by exact_mod_cast hW
  push_cast at hW
  have h0 : (0 : ℚ) ≤ N := Nat.cast_nonneg _
  rw [show (256 : ℚ) ^ ps.sp.n = 2 ^ (8 * ps.sp.n) by rw [pow_mul]; norm_num, ← div_div]
  refine div_le_div_of_nonneg_right ?_ (by positivity)
  rw [show (2 : ℚ) ^ (2 * t + 9) = (2 ^ t) ^ 2 * 512 by rw [pow_add, mul_comm 2 t, pow_mul]; norm_num]
  have h4 : (N : ℚ) * (N + 2) ≤ 2 * 2 ^ t * (4 * 2 ^ t) :=
    mul_le_mul hN (by linarith) (by positivity) (by positivity)
  have h5 := mul_le_mul hW h4 (by positivity) (by norm_num)
  nlinarith [h5]

/-! ## The hypotheses can be met, and the event can happen -/

/-- A player who evaluates SHA-256, has a message signed with a private key that depends on the value, and claims the
signature for its last bytes as a public key and another message. -/
def demoOwn (ps : ParamSet) : Chooser ps 10 4000 64 1 :=
  .call ⟨⟨.sha256, [7]⟩, by decide⟩ fun d => .sign (toVec _ (Spec.toByte d 64)) ⟨none, [1], [2], by decide⟩ fun sig =>
    .claim (toVec _ sig.toList) ⟨some .SHA256, [], [2, 3], by decide⟩

/-- The bound for this player. -/
example (b : Build) :
    prob (fun ω : Fin (256 ^ ps.sp.n) × (Query 4000 → Fin (256 ^ 64)) =>
      ∃ o, romOwnGame b demoPrims (demoOwn ps) ω.1 ω.2 = pure (some o) ∧ o.Won) ≤
      2 ^ (2 * 23 + 9) / 2 ^ (8 * ps.sp.n) :=
  C78_bits demoPrims b (by decide) (by decide) (by cases ps <;> decide) (Nat.le_refl _) (by decide) _

/-- With constant functions and any random bytes there is a private key whose signatures are accepted for all messages. -/
theorem const_own (O : Query 4000 → Fin (256 ^ 64)) (x : Fin (256 ^ 64)) (hO : ∀ y, O y = x)
    (v : Fin (256 ^ ps.sp.n)) : ∃ sk : Vector UInt8 ps.params.SK_LEN,
      ∀ x : SigRequest 10, x.ctx.length ≤ 255 → ∃ sig,
        ownSigned (withHash demoPrims O) (toVec _ (Spec.toByte v ps.sp.n)) x (decodeOf (withHash demoPrims O) sk) =
          some (skOf sk, sig) ∧
        ∀ y : SigRequest 10, y.ctx.length ≤ 255 →
          y.check (withHash demoPrims O) (skOf sk).get_public_key sig = true := by
  obtain ⟨z, hz⟩ : ∃ z : Vector UInt8 ps.params.N, z = toVec _ (Spec.toByte v ps.sp.n) := ⟨_, rfl⟩
  have s : Fin (256 ^ ps.sp.n) := ⟨0, Nat.pow_pos (by decide)⟩
  obtain ⟨hcons, hpk⟩ := (widePair_generated demoPrims z s s O).consistent
  have hv : ∀ M M', Spec.verifyInternal ps.sp (ps.hf (withHash demoPrims O)) M' (sigVec ps (withHash demoPrims O) M
      (widePair demoPrims z s s O).2.key (widePair demoPrims z s s O).2.key.pk_seed).toList
      (widePair demoPrims z s s O).2.key.pk_seed.toList (widePair demoPrims z s s O).2.key.pk_root.toList = true := by
    cases hps : ps.family with
    | sha2 => exact const_sig2 hps (by decide) hO hcons
    | shake => exact const_sig hps (by cases ps <;> decide) hO hcons
  have hseed : (widePair demoPrims z s s O).2.key.pk_seed = z := rfl
  generalize (widePair demoPrims z s s O).2 = sk at hv hcons hseed
  obtain ⟨vs, -, hvs⟩ := exec_sk_into_bytes (b := demoBuild) sk
  have hsk : skOf vs = sk := by
    rw [skOf, hvs, Spec.encodeSK, List.append_assoc, List.append_assoc, List.take_left' (Vector.length_toList ..),
      List.drop_left' (Vector.length_toList ..), List.take_left' (Vector.length_toList ..),
      List.drop_left' (Vector.length_toList ..), List.take_left' (Vector.length_toList ..),
      List.drop_left' (Vector.length_toList ..)]
    simp only [toVec_toList_self]
  have hdec : decodeOf (withHash demoPrims O) vs = .ok sk := by
    rw [decodeOf, hsk]
    exact if_pos hcons
  refine ⟨vs, fun x hx => ⟨sigVec ps (withHash demoPrims O) (x.str (withHash demoPrims O)) sk.key sk.key.pk_seed, ?_,
    fun y hy => ?_⟩⟩
  · rw [hdec, hsk, ownSigned]
    have e : x.answer (withHash demoPrims O) sk true (.ok (toVec _ (Spec.toByte v ps.sp.n))) =
        .ok (sigVec ps (withHash demoPrims O) (x.str (withHash demoPrims O)) sk.key sk.key.pk_seed) := by
      rw [SigRequest.answer, if_neg (by omega), hseed, hz]
      rfl
    rw [e]
  · rw [hsk, SigRequest.check, if_neg (by omega)]
    exact hv _ _

/-- The event happens if the functions are constant. -/
example (b : Build) (O : Query 4000 → Fin (256 ^ 64)) (x : Fin (256 ^ 64)) (hO : ∀ y, O y = x)
    (v : Fin (256 ^ ps.sp.n)) :
    ∃ A : Chooser ps 10 4000 64 0, ∃ o, romOwnGame b demoPrims A v O = pure (some o) ∧ o.Won := by
  obtain ⟨sk, h⟩ := const_own (ps := ps) O x hO v
  have key : ∀ x y : SigRequest 10, x.ctx.length ≤ 255 → y.ctx.length ≤ 255 → y ≠ x → ∃ A : Chooser ps 10 4000 64 0,
      ∃ o, A.outcome (withHash demoPrims O) O (toVec _ (Spec.toByte v ps.sp.n)) = some o ∧ o.Won := by
    intro x y hx hy hne
    obtain ⟨sig, h1, h2⟩ := h x hx
    obtain ⟨pk, hpk⟩ : ∃ pk : Vector UInt8 ps.params.PK_LEN, pkOf pk = (skOf sk).get_public_key := by
      obtain ⟨pk, -, e⟩ := exec_pk_into_bytes (b := demoBuild) (skOf sk).get_public_key
      refine ⟨pk, ?_⟩
      rw [pkOf, e, Spec.encodePK, List.take_left' (Vector.length_toList ..), List.drop_left' (Vector.length_toList ..),
        toVec_toList_self, toVec_toList_self]
    refine ⟨.sign sk x fun _ => .claim pk y, { pk := (skOf sk).get_public_key, x, pk' := pkOf pk, y, accepted := true },
      ?_, rfl, .inr hne⟩
    rw [Chooser.outcome, h1, Option.map_some, Claimant.outcome]
    dsimp only
    rw [hpk, h2 y hy]
  obtain ⟨A, o, ho, hwon⟩ := key ⟨none, [1], [2], by decide⟩ ⟨some .SHA256, [], [2, 3], by decide⟩ (by decide)
    (by decide) fun e => by
      have e : ([] : List UInt8) = [1] := congrArg SigRequest.ctx e
      cases e
  exact ⟨A, o, by rw [romOwnGame, chooser_eq, ho], hwon⟩

end Fips205.Props
