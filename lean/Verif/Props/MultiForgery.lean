import Verif.Proofs.Multi

/-!
# Forging when there are many keys (C73)

Many keys are generated with the API, for the same or for different parameter sets, all of which use the same hash
functions.  A user who gets the public keys, has signatures made with the private keys and even gets some of the private
keys does not forge for any of the others: in particular, a signature made with one key does not pass with another one.
The bound is the sum of those of `C71`, for a forger who evaluates the hash functions for the other keys as well.
-/

namespace Fips205.Props
open Fips205 Fips205.Model

variable {U : Nat} {sets : Fin U → ParamSet} {L B w : Nat}

/-- **C73** The game runs to its end, and key generation succeeds, whatever the functions, the random bytes, the forger,
the parameter sets and the build are. -/
theorem C73_runs (b : Build) (P0 : Spec.Prims) {q Q : Nat}
    (A : ((u : Fin U) → PublicKey (sets u).params) → MultiForger sets L B w q Q) (coins : Coins sets)
    (O : Query B → Fin (256 ^ w)) : ∃ o, romMultiGame b P0 A coins O = pure (some o) :=
  ⟨_, romMultiGame_eq b P0 A coins O⟩

/-- The bound of `C71`. -/
def keyBound (ps : ParamSet) (q Q : Nat) : ℚ :=
  match ps.family with
  | .shake => ((Q + q + 1) + 1) / 2 ^ coverLevel ps +
      (2 * ((Q + q + 1) + ps.sp.verifyCost) + ((Q + q + 1) + q + 2)) / 256 ^ ps.sp.n +
      placeCount ps.sp / 256 ^ 32 + gameCalls ps q Q ^ 2 / (2 * 256 ^ 32)
  | .sha2 => ((Q + q + 1) + 1) / 2 ^ coverLevel ps +
      (2 * ((Q + q + 1) + ps.sp.verifyCost) + (2 * (Q + q + 1) + ((Q + q + 1) + 2 * q + 2)) + 3) / 256 ^ ps.sp.n +
      (q ^ 2 + ((Q + q + 1) + 2 * q + 2) ^ 2) / 256 ^ hlen ps +
      gameCalls ps q Q ^ 2 / (2 * 256 ^ 32)

/-- **C73** Take the hash functions to be random functions, with outputs of `w ≥ 64` bytes of which the code uses the
first ones, and the strings that the generations of the `U` keys draw to be random.  A user of the API who gets all
public keys and as many private keys as they like, `q` signatures in all and `Q` values of the functions forges for one
of the other keys with probability at most the sum of the bounds of `C71` for the single keys, with
`Q' = Q + (q + U) 2^22` evaluations. -/
theorem C73_bound (P0 : Spec.Prims) (b : Build) (hw : 64 ≤ w) (hL : 492 + L ≤ B)
    (hB : ∀ u, 160 + ((sets u).sp.len + (sets u).sp.k) * (sets u).sp.n ≤ B) {q Q : Nat}
    (hq : ∀ u, q * (256 ^ (sets u).sp.n + (Q + (q + U) * 2 ^ 22 + q + 1)) ≤ 2 ^ 64 * 256 ^ (sets u).sp.n)
    (A : ((u : Fin U) → PublicKey (sets u).params) → MultiForger sets L B w q Q) :
    prob (fun ω : Coins sets × (Query B → Fin (256 ^ w)) =>
      ∃ o, romMultiGame b P0 A ω.1 ω.2 = pure (some o) ∧ o.Forged) ≤
    ∑ u, keyBound (sets u) q (Q + (q + U) * 2 ^ 22) := by
  have e : singleCalls U q Q = Q + (q + U) * 2 ^ 22 := by
    rw [singleCalls, signCap, Nat.add_mul, Nat.add_assoc]
  refine multi_le b P0 _ (fun t => ?_) A
  rw [e]
  intro A
  rw [keyBound]
  cases hps : (sets t).family with
  | shake => exact C71_shake hps P0 b hw (by omega) (hB t) (hq t) A
  | sha2 => exact C71_sha2 hps P0 b hw hL (hB t) (hq t) A

/-- **C73** In bits: with up to `2^63` signatures and `2^t` evaluations in all (`2^22` for a key and for a signature), the
chance is at most the sum over the keys of `2^(t + 5 - 8 n) + 2^(2 t + 3 - 256) + 2^(-170)`. -/
theorem C73_bits (P0 : Spec.Prims) (b : Build) (hw : 64 ≤ w) (hL : 492 + L ≤ B)
    (hB : ∀ u, 160 + ((sets u).sp.len + (sets u).sp.k) * (sets u).sp.n ≤ B) {q Q t : Nat}
    (htn : ∀ u, t ≤ 8 * (sets u).sp.n) (hq : q ≤ 2 ^ 63) (hQ : Q + (q + U) * 2 ^ 22 + q + 1 < 2 ^ t)
    (A : ((u : Fin U) → PublicKey (sets u).params) → MultiForger sets L B w q Q) :
    prob (fun ω : Coins sets × (Query B → Fin (256 ^ w)) =>
      ∃ o, romMultiGame b P0 A ω.1 ω.2 = pure (some o) ∧ o.Forged) ≤
    ∑ u, (2 ^ (t + 5) / 2 ^ (8 * (sets u).sp.n) + 2 ^ (2 * t + 3) / 2 ^ 256 + 1 / 2 ^ 170) := by
  have e : singleCalls U q Q = Q + (q + U) * 2 ^ 22 := by
    rw [singleCalls, signCap, Nat.add_mul, Nat.add_assoc]
  refine multi_le b P0 _ (fun u => ?_) A
  rw [e]
  intro A
  have ht : 22 ≤ t := by
    by_contra h
    have h1 : 1 ≤ q + U := by have := u.pos; omega
    have h2 : 2 ^ t ≤ 2 ^ 22 := Nat.pow_le_pow_right (by decide) (by omega)
    have h3 : 1 * 2 ^ 22 ≤ (q + U) * 2 ^ 22 := Nat.mul_le_mul_right _ h1
    omega
  refine C71_bits P0 b hw hL (hB u) ht (htn u) hq ?_ hQ A
  rw [Nat.add_mul] at hQ
  omega

/-- **C73** With `U` keys that all have seeds of at least `n` bytes. -/
theorem C73_users (P0 : Spec.Prims) (b : Build) (hw : 64 ≤ w) (hL : 492 + L ≤ B)
    (hB : ∀ u, 160 + ((sets u).sp.len + (sets u).sp.k) * (sets u).sp.n ≤ B) {n q Q t : Nat}
    (hn : ∀ u, n ≤ (sets u).sp.n) (htn : t ≤ 8 * n) (hq : q ≤ 2 ^ 63) (hQ : Q + (q + U) * 2 ^ 22 + q + 1 < 2 ^ t)
    (A : ((u : Fin U) → PublicKey (sets u).params) → MultiForger sets L B w q Q) :
    prob (fun ω : Coins sets × (Query B → Fin (256 ^ w)) =>
      ∃ o, romMultiGame b P0 A ω.1 ω.2 = pure (some o) ∧ o.Forged) ≤
    U * (2 ^ (t + 5) / 2 ^ (8 * n) + 2 ^ (2 * t + 3) / 2 ^ 256 + 1 / 2 ^ 170) := by
  refine (C73_bits P0 b hw hL hB (fun u => htn.trans (Nat.mul_le_mul_left 8 (hn u))) hq hQ A).trans ?_
  refine (Finset.sum_le_card_nsmul _ _ (2 ^ (t + 5) / 2 ^ (8 * n) + 2 ^ (2 * t + 3) / 2 ^ 256 + 1 / 2 ^ 170)
    fun u _ => ?_).trans (by rw [Finset.card_univ, Fintype.card_fin, nsmul_eq_mul])
  refine add_le_add_left (add_le_add_left ?_ _) _
  exact div_le_div_of_nonneg_left (by positivity) (by positivity)
    (pow_le_pow_right₀ (by norm_num) (Nat.mul_le_mul_left 8 (hn u)))

/-! ## The hypotheses can be met, and the event can happen -/

/-- One key for each parameter set. -/
def twelve (u : Fin 12) : ParamSet := allSets.getD u .slh_dsa_sha2_128s

/-- A forger against twelve keys with a thousand signatures and a million evaluations. -/
example (b : Build) (A : ((u : Fin 12) → PublicKey (twelve u).params) → MultiForger twelve 10 4000 64 1000 1000000) :
    prob (fun ω : Coins twelve × (Query 4000 → Fin (256 ^ 64)) =>
      ∃ o, romMultiGame b demoPrims A ω.1 ω.2 = pure (some o) ∧ o.Forged) ≤
    (12 : ℕ) * (2 ^ (32 + 5) / 2 ^ (8 * 16) + 2 ^ (2 * 32 + 3) / 2 ^ 256 + 1 / 2 ^ 170) :=
  C73_users demoPrims b (by decide) (by decide) (fun u => by cases twelve u <;> decide)
    (fun u => by cases twelve u <;> decide)
    (by decide) (by decide) (by decide) A

/-- A forger against two keys who gets the first private key and a signature with the second one, evaluates SHA-256, and
presents the signature for another message. -/
def demoMulti (ps : ParamSet) : MultiForger (fun _ : Fin 2 => ps) 10 4000 64 1 1 :=
  .expose 0 fun _ => .sign 1 ⟨none, [9], [1, 2], by decide⟩ false (.error ()) fun
    | .ok sig => .call ⟨⟨.sha256, [7]⟩, by decide⟩ fun d =>
        if d.val = 0 then .forge 0 ⟨none, [], [], by decide⟩ (toVec _ [])
        else .forge 1 ⟨some .SHA256, [8], [1], by decide⟩ sig
    | .error _ => .forge 0 ⟨none, [], [], by decide⟩ (toVec _ [])

/-- It succeeds if the functions are constant (and not zero). -/
example {ps : ParamSet} (b : Build) (coins : Coins fun _ : Fin 2 => ps) (O : Query 4000 → Fin (256 ^ 64))
    (x : Fin (256 ^ 64)) (hx : x.val ≠ 0) (hO : ∀ y, O y = x) :
    ∃ o, romMultiGame b demoPrims (fun _ => demoMulti ps) coins O = pure (some o) ∧ o.Forged := by
  refine ⟨_, romMultiGame_eq b _ _ coins O, ?_⟩
  obtain ⟨hcons, hpk⟩ := (widePair_generated demoPrims (toVec _ (Spec.toByte (coins 1).2.2 ps.sp.n)) (coins 1).1
    (coins 1).2.1 O).consistent
  have hk : coinKeys (withHash demoPrims O) coins 1 =
    widePair demoPrims (toVec _ (Spec.toByte (coins 1).2.2 ps.sp.n)) (coins 1).1 (coins 1).2.1 O := rfl
  rw [← hk] at hcons hpk
  have hv : ∀ M M', Spec.verifyInternal ps.sp (ps.hf (withHash demoPrims O)) M' (sigVec ps (withHash demoPrims O) M
      (coinKeys (withHash demoPrims O) coins 1).2.key (coinKeys (withHash demoPrims O) coins 1).2.key.pk_seed).toList
      (coinKeys (withHash demoPrims O) coins 1).2.key.pk_seed.toList
      (coinKeys (withHash demoPrims O) coins 1).2.key.pk_root.toList = true := by
    cases hps : ps.family with
    | sha2 => exact const_sig2 hps (by decide) hO hcons
    | shake => exact const_sig hps (by cases ps <;> decide) hO hcons
  rw [multiOutcome]
  simp only [demoMulti, MultiForger.outcome, SigRequest.answer, SigRequest.check, Props.coins, handedBy, hO, hx, if_false,
    List.length_cons, List.length_nil, Nat.reduceLT, Nat.reduceAdd, Bool.false_eq_true, Except.map,
    Option.getD_none, ← hpk]
  refine ⟨hv _ _, ?_, by simp⟩
  intro h
  have h : ([8] : List UInt8) = [9] := congrArg (fun e : Handed (fun _ : Fin 2 => ps) 10 => e.2.1.ctx)
    (List.mem_singleton.mp h)
  exact absurd h (by decide)

end Fips205.Props
