import Verif.Proofs.ApiTree
import Verif.Props.Sha2

/-!
# Forging with the API (C70)

The bounds of `C68` and `C69` carry over to the API.  The forger has pure and pre-hash signatures made, with contexts,
messages, pre-hash functions and random bytes of their choice, hedged or not, and with a random number generator that
may fail.  They win with any signature that is accepted, together with mode, context and message, and that was not handed
out for the same mode, context and message: a signature made for one context does not pass with another, a pure one not
as a pre-hash one, one with SHA-256 not as one with SHA-512, and no second signature of the same message is found.  A
term for collisions of the pre-hash functions is added.
-/

namespace Fips205.Props
open Fips205 Fips205.Model

variable {ps : ParamSet} {L B w : Nat}

/-- **C70** The game runs to its end, whatever the functions, the seeds, the forger, the parameter set and the build are:
no call of the API panics. -/
theorem C70_runs (P0 : Spec.Prims) (pk_seed : Vector UInt8 ps.params.N) (b : Build) {q Q : Nat}
    (A : PublicKey ps.params → ApiForger ps L B w q Q) (s k : Fin (256 ^ ps.sp.n)) (O : Query B → Fin (256 ^ w)) :
    ∃ o, romApiGame b P0 O pk_seed A s k = pure o :=
  ⟨_, romApiGame_eq _ _ _ _ _ _⟩

/-- **C70** At most `gameCalls` hashes are evaluated during the game: by key generation, by the signer, by the forger and
by the verifier. -/
theorem C70_calls (P0 : Spec.Prims) (pk_seed : Vector UInt8 ps.params.N) (b : Build) {q Q : Nat}
    (A : PublicKey ps.params → ApiForger ps L B w q Q) (s k : Fin (256 ^ ps.sp.n)) (O : Query B → Fin (256 ^ w)) :
    (apiGame (recording (withHash P0 O)) (fun y => LogExec.call y.1.alg y.1.input (O y)) pk_seed A s k :
      LogExec b _).log.length ≤ gameCalls ps q Q := by
  obtain ⟨l, h1, h2, -⟩ := log_apiGame (b := b) P0 O pk_seed A s k
  exact (congrArg (fun x : LogExec b _ => x.log.length) h1).trans_le h2

theorem avg_le_add {X Y : Type} [Fintype X] [Fintype Y] [Nonempty X] {F G : X × Y → ℚ} {c : ℚ}
    (h : ∀ x, (Oracle.avg fun y => F (x, y)) ≤ (Oracle.avg fun y => G (x, y)) + c) :
    Oracle.avg F ≤ Oracle.avg G + c := by
  rw [Oracle.avg_prod, Oracle.avg_prod]
  refine (Oracle.avg_mono h).trans (le_of_eq ?_)
  rw [Oracle.avg_add, Oracle.avg_const]

/-- From the API to formatted messages. -/
theorem api_le (P0 : Spec.Prims) (pk_seed : Vector UInt8 ps.params.N) (b : Build) (hw : 64 ≤ w) (hB : L ≤ B) {q Q : Nat}
    (A : PublicKey ps.params → ApiForger ps L B w q Q) :
    prob (fun ω : (Fin (256 ^ ps.sp.n) × Fin (256 ^ ps.sp.n)) × (Query B → Fin (256 ^ w)) =>
      ∃ o, romApiGame b P0 ω.2 pk_seed A ω.1.1 ω.1.2 = pure o ∧ o.Forged) ≤
    prob (fun ω : (Fin (256 ^ ps.sp.n) × Fin (256 ^ ps.sp.n)) × (Query B → Fin (256 ^ w)) =>
      ∃ o, fullGame P0 pk_seed (fun pk => (A pk).full hB q (Q + q + 1) le_rfl le_rfl) ω.1.1 ω.1.2 ω.2 =
        (pure o : Exec b _) ∧ o.Forged) +
    gameCalls ps q Q ^ 2 / (2 * 256 ^ 32) := by
  have pos : ∀ j, Nonempty (Fin (256 ^ j)) := fun j => ⟨⟨0, Nat.pow_pos (by decide)⟩⟩
  have := pos ps.sp.n
  have := pos w
  rw [prob_eq, prob_eq]
  refine avg_le_add fun ω => ?_
  refine le_trans ?_ (add_le_add_right
    (game_collide_le (b := b) ((show 32 ≤ 64 by decide).trans hw) P0 pk_seed A ω.1 ω.2) _)
  rw [← Oracle.avg_add]
  refine Oracle.avg_mono fun O => (Oracle.ind_mono ?_).trans (Oracle.ind_or_le _ _)
  rintro ⟨o, ho, hf⟩
  rw [romApiGame_eq] at ho
  obtain rfl : apiOutcome P0 O pk_seed A ω.1 ω.2 = o := Except.ok.inj ho
  obtain ⟨l, h1, -, h3⟩ := log_apiGame (b := b) P0 O pk_seed A ω.1 ω.2
  rcases forged_cases hB hw P0 O pk_seed A ω.1 ω.2 hf h3 with h | ⟨x, hx, y, hy, hne, he⟩
  · exact .inl ⟨_, fullGame_eq _ _ _ _ _ _, h⟩
  · refine .inr ⟨x, y, ?_, ?_, hne, he⟩ <;> rw [h1]
    · exact hx
    · exact hy

/-- **C70** For the SHAKE parameter sets: take the hash functions to be random functions, with outputs of `w ≥ 64` bytes
of which the code uses the first ones, and `SK.seed` and `SK.prf` to be random.  Let `PK.seed` not be the beginning of an
address, and let the messages have at most `L` bytes, which is not too long for the domain of the functions.  Then every
user of the API, with the public key, `q` signatures and `Q` values of the functions of their choice, forges with
probability at most that of `C68`, for `Q' = Q + q + 1` evaluations, and `N^2 / (2 256^32)`, where `N` is the number of
evaluations in the whole game, those for key generation, signing and verification included. -/
theorem C70_shake (hps : ps.family = .shake) (P0 : Spec.Prims) (pk_seed : Vector UInt8 ps.params.N) (b : Build)
    (hw : 64 ≤ w) (hL : 428 + L ≤ B) (hB : 160 + (ps.sp.len + ps.sp.k) * ps.sp.n ≤ B)
    (hseed : ∀ x : Place, x.Exists ps.sp → x.adrs.take ps.sp.n ≠ pk_seed.toList) {q Q : Nat}
    (hq : q * (256 ^ ps.sp.n + (Q + q + 1)) ≤ 2 ^ 64 * 256 ^ ps.sp.n)
    (A : PublicKey ps.params → ApiForger ps L B w q Q) :
    prob (fun ω : (Fin (256 ^ ps.sp.n) × Fin (256 ^ ps.sp.n)) × (Query B → Fin (256 ^ w)) =>
      ∃ o, romApiGame b P0 ω.2 pk_seed A ω.1.1 ω.1.2 = pure o ∧ o.Forged) ≤
    ((Q + q + 1) + 1) / 2 ^ coverLevel ps +
      (2 * ((Q + q + 1) + ps.sp.verifyCost) + ((Q + q + 1) + q + 2)) / 256 ^ ps.sp.n +
      gameCalls ps q Q ^ 2 / (2 * 256 ^ 32) := by
  refine (api_le P0 pk_seed b hw (by omega) A).trans (add_le_add_left ?_ _)
  have h := C68_shake hps P0 pk_seed b (shortStrings (strLen L)) (w := w)
    ((show ps.sp.m ≤ 64 by cases ps <;> decide).trans hw) (fun M hM => by
      have := n_le_32 ps
      have := mem_shortStrings.mp hM
      unfold strLen at this
      omega) hB hseed hq fun pk => (A pk).full (by omega) q (Q + q + 1) le_rfl le_rfl
  push_cast at h
  exact h

/-- **C70** For the SHA2 parameter sets: `PK.seed` is anything but `0…0`, `0x36…36` and `0x5c…5c`. -/
theorem C70_sha2 (hps : ps.family = .sha2) (P0 : Spec.Prims) (pk_seed : Vector UInt8 ps.params.N) (b : Build)
    (hw : 64 ≤ w) (hL : 492 + L ≤ B) (hB : 160 + (ps.sp.len + ps.sp.k) * ps.sp.n ≤ B)
    (hseed : ∀ c ∈ [0, 0x36, 0x5c], pk_seed.toList ≠ List.replicate ps.sp.n c) {q Q : Nat}
    (hq : q * (256 ^ ps.sp.n + (Q + q + 1)) ≤ 2 ^ 64 * 256 ^ ps.sp.n)
    (A : PublicKey ps.params → ApiForger ps L B w q Q) :
    prob (fun ω : (Fin (256 ^ ps.sp.n) × Fin (256 ^ ps.sp.n)) × (Query B → Fin (256 ^ w)) =>
      ∃ o, romApiGame b P0 ω.2 pk_seed A ω.1.1 ω.1.2 = pure o ∧ o.Forged) ≤
    ((Q + q + 1) + 1) / 2 ^ coverLevel ps +
      (2 * ((Q + q + 1) + ps.sp.verifyCost) + (2 * (Q + q + 1) + ((Q + q + 1) + 2 * q + 2))) / 256 ^ ps.sp.n +
      (q ^ 2 + ((Q + q + 1) + 2 * q + 2) ^ 2) / 256 ^ hlen ps +
      gameCalls ps q Q ^ 2 / (2 * 256 ^ 32) := by
  refine (api_le P0 pk_seed b hw (by omega) A).trans (add_le_add_left ?_ _)
  have h := C69_sha2 hps P0 pk_seed b (shortStrings (strLen L)) (w := w) hw (fun M hM => by
      have := mem_shortStrings.mp hM
      unfold strLen at this
      omega) hB hseed hq fun pk => (A pk).full (by omega) q (Q + q + 1) le_rfl le_rfl
  push_cast at h
  exact h

theorem seed_const {pk_seed : Vector UInt8 ps.params.N} {c : UInt8} (hc : c ∈ [0, 0x36, 0x5c])
    (h : pk_seed.toList.head? ∉ [some 0, some 0x36, some 0x5c]) : pk_seed.toList ≠ List.replicate ps.sp.n c := by
  intro e
  have hn := n_pos ps
  obtain ⟨j, hj⟩ : ∃ j, ps.sp.n = j + 1 := ⟨ps.sp.n - 1, by omega⟩
  rw [e, hj, List.replicate_succ, List.head?_cons] at h
  exact h (List.mem_map_of_mem (f := some) hc)

/-- The number of evaluations in bits. -/
theorem calls_bits (ps : ParamSet) {q Q t : Nat} (ht : 22 ≤ t) (hqt : q * 2 ^ 22 ≤ 2 ^ t) (hQ : Q + q + 1 < 2 ^ t) :
    (gameCalls ps q Q : ℚ) ^ 2 / (2 * 256 ^ 32) ≤ 2 ^ (2 * t + 3) / 2 ^ 256 := by
  have h22 : 2 ^ 22 ≤ 2 ^ t := Nat.pow_le_pow_right (by decide) ht
  have h1 : signMost ps + 1 ≤ 2 ^ 22 := by cases ps <;> decide
  have h2 : treeWork ps ps.sp.hp + verifyWork ps + 1 ≤ 2 ^ 22 := by cases ps <;> decide
  have h3 : q * (signMost ps + 1) ≤ 2 ^ t := (Nat.mul_le_mul_left q h1).trans hqt
  have hN : gameCalls ps q Q ≤ 4 * 2 ^ t := by
    unfold gameCalls
    omega
  have hN' : (gameCalls ps q Q : ℚ) ≤ 4 * 2 ^ t := by exact_mod_cast hN
  have hsq : (gameCalls ps q Q : ℚ) ^ 2 ≤ (4 * 2 ^ t) ^ 2 := pow_le_pow_left₀ (Nat.cast_nonneg _) hN' 2
  rw [show (2 : ℚ) * 256 ^ 32 = 2 * 2 ^ 256 by norm_num, div_le_div_iff₀ (by positivity) (by positivity)]
  calc (gameCalls ps q Q : ℚ) ^ 2 * 2 ^ 256 ≤ (4 * 2 ^ t) ^ 2 * 2 ^ 256 :=
        mul_le_mul_of_nonneg_right hsq (by positivity)
    _ = 2 ^ (2 * t + 3) * (2 * 2 ^ 256) := by
        rw [show (2 : ℚ) ^ (2 * t + 3) = (2 ^ t) ^ 2 * 8 by rw [pow_add, mul_comm 2 t, pow_mul]; norm_num]
        ring

/-- **C70** In bits, for every parameter set: with a `PK.seed` that begins with none of the bytes `0`, `0x36`, `0x5c`, up
to `2^63` signatures, and `2^t` evaluations by the forger and by the signer (`2^22` for a signature), the chance is at
most `2^(t + 5 - 8 n) + 2^(2 t + 3 - 256)`. -/
theorem C70_bits (P0 : Spec.Prims) (pk_seed : Vector UInt8 ps.params.N) (b : Build)
    (hw : 64 ≤ w) (hL : 492 + L ≤ B) (hB : 160 + (ps.sp.len + ps.sp.k) * ps.sp.n ≤ B)
    (hseed : pk_seed.toList.head? ∉ [some 0, some 0x36, some 0x5c]) {q Q t : Nat} (ht : 22 ≤ t)
    (htn : t ≤ 8 * ps.sp.n) (hq : q ≤ 2 ^ 63) (hqt : q * 2 ^ 22 ≤ 2 ^ t) (hQ : Q + q + 1 < 2 ^ t)
    (A : PublicKey ps.params → ApiForger ps L B w q Q) :
    prob (fun ω : (Fin (256 ^ ps.sp.n) × Fin (256 ^ ps.sp.n)) × (Query B → Fin (256 ^ w)) =>
      ∃ o, romApiGame b P0 ω.2 pk_seed A ω.1.1 ω.1.2 = pure o ∧ o.Forged) ≤
    2 ^ (t + 5) / 2 ^ (8 * ps.sp.n) + 2 ^ (2 * t + 3) / 2 ^ 256 := by
  have hqt' : q ≤ 2 ^ t := (Nat.le_mul_of_pos_right q (by decide)).trans hqt
  refine (api_le P0 pk_seed b hw (by omega) A).trans (add_le_add ?_ ?_)
  · have hS : ∀ M ∈ shortStrings (strLen L), 160 + M.length ≤ B := fun M hM => by
      have := mem_shortStrings.mp hM
      unfold strLen at this
      omega
    cases hps : ps.family with
    | sha2 => exact C69_bits hps P0 pk_seed b _ hw hS hB (fun c hc => seed_const hc hseed) (by omega) htn hq hqt' hQ _
    | shake =>
      refine (C68_bits hps P0 pk_seed b (shortStrings (strLen L)) (w := w)
        ((show ps.sp.m ≤ 64 by cases ps <;> decide).trans hw) (fun M hM => ?_) hB
        (seed_ok fun h => hseed (by simp [h])) (by omega) htn hq hqt' hQ _).trans ?_
      · have := n_le_32 ps
        have := hS M hM
        omega
      · refine div_le_div_of_nonneg_right (pow_le_pow_right₀ (by norm_num) (by omega)) (by positivity)
  · exact calls_bits ps ht hqt hQ

/-! ## The hypotheses can be met, and the event can happen -/

/-- A forger who has a message signed with a context, then has their generator fail, evaluates SHA-256, and presents the
signature as a pre-hash signature of another message with another context. -/
def demoApi (ps : ParamSet) : ApiForger ps 10 4000 64 2 1 :=
  .sign ⟨none, [9], [1, 2], by decide⟩ false (.error ()) fun
    | .ok sig => .sign ⟨some .SHA512, [], [3], by decide⟩ true (.error ()) fun _ =>
        .call ⟨⟨.sha256, [7]⟩, by decide⟩ fun d =>
          if d.val = 0 then .forge ⟨none, [], [], by decide⟩ (toVec _ [])
          else .forge ⟨some .SHA256, [8], [1], by decide⟩ sig
    | .error _ => .forge ⟨none, [], [], by decide⟩ (toVec _ [])

/-- The bound for this forger, if `PK.seed` consists of bytes `0xff`: with `2^23` evaluations. -/
example (b : Build) :
    prob (fun ω : (Fin (256 ^ ps.sp.n) × Fin (256 ^ ps.sp.n)) × (Query 4000 → Fin (256 ^ 64)) =>
      ∃ o, romApiGame b demoPrims ω.2 (Vector.replicate _ 0xff) (fun _ => demoApi ps) ω.1.1 ω.1.2 = pure o ∧ o.Forged) ≤
    2 ^ (23 + 5) / 2 ^ (8 * ps.sp.n) + 2 ^ (2 * 23 + 3) / 2 ^ 256 :=
  C70_bits demoPrims _ b (by decide) (by decide) (by cases ps <;> decide) (by cases ps <;> decide)
    (show 22 ≤ 23 by decide) (by cases ps <;> decide) (by decide) (by decide) (by decide) _

theorem demoApi_forged (z : Vector UInt8 ps.params.N) (s k : Fin (256 ^ ps.sp.n))
    (O : Query 4000 → Fin (256 ^ 64)) (x : Fin (256 ^ 64)) (hx : x.val ≠ 0) (hO : ∀ y, O y = x) :
    (apiOutcome demoPrims O z (fun _ => demoApi ps) s k).Forged := by
  obtain ⟨hcons, hpk⟩ := (widePair_generated demoPrims z s k O).consistent
  have hv : ∀ M M', Spec.verifyInternal ps.sp (ps.hf (withHash demoPrims O)) M' (sigVec ps (withHash demoPrims O) M
      (widePair demoPrims z s k O).2.key (widePair demoPrims z s k O).2.key.pk_seed).toList
      (widePair demoPrims z s k O).2.key.pk_seed.toList (widePair demoPrims z s k O).2.key.pk_root.toList = true := by
    cases hps : ps.family with
    | sha2 => exact const_sig2 hps (by decide) hO hcons
    | shake => exact const_sig hps (by cases ps <;> decide) hO hcons
  rw [apiOutcome, ← hpk]
  simp only [demoApi, ApiForger.outcome, SigRequest.answer, SigRequest.check, coins, handed, hO, hx, if_false,
    List.length_cons, List.length_nil, Nat.reduceLT, Nat.reduceAdd, Bool.false_eq_true, if_true, Except.map,
    Option.getD_none]
  refine ⟨hv _ _, ?_⟩
  intro h
  have h : ([8] : List UInt8) = [9] := congrArg (fun e : SigRequest 10 × Vector UInt8 ps.params.SIG_LEN => e.1.ctx)
    (List.mem_singleton.mp h)
  exact absurd h (by decide)

/-- It succeeds if the functions are constant (and not zero). -/
example (b : Build) (z : Vector UInt8 ps.params.N) (s k : Fin (256 ^ ps.sp.n))
    (O : Query 4000 → Fin (256 ^ 64)) (x : Fin (256 ^ 64)) (hx : x.val ≠ 0) (hO : ∀ y, O y = x) :
    ∃ o, romApiGame b demoPrims O z (fun _ => demoApi ps) s k = pure o ∧ o.Forged :=
  ⟨_, romApiGame_eq _ _ _ _ _ _, demoApi_forged z s k O x hx hO⟩

end Fips205.Props
