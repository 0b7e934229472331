import Verif.Props.Observed
import Verif.Props.Clients
import Verif.Model.Tests

/-!
# What the repository's test vectors establish: C58

Each theorem says, for all test data and hash functions, when a test passes; so a vector that passes is
a vector of FIPS 205, and one that fails is not.
-/

namespace Fips205.Props
open Fips205 Fips205.Model

variable {ps : ParamSet} {P : Spec.Prims} {b : Build} {σ : Type}

/-! ## C58: test vectors -/

theorem params_N (ps : ParamSet) : ps.params.N = ps.sp.n := by cases ps <;> rfl

theorem exec_copy {n : Nat} {x : List UInt8} (h : x.length = n) :
    ∃ v : Vector UInt8 n, v.toList = x ∧ (copyFromSlice n x : Exec b _) = pure v :=
  ⟨⟨x.toArray, by simpa using h⟩, rfl, by rw [copyFromSlice, dif_pos h]⟩

theorem test_fill (data : List (List UInt8)) {x : List UInt8} {n : Nat} (buf : Vector UInt8 n)
    (h : x.length = n) : ∃ v : Vector UInt8 n, v.toList = x ∧
      ((testRng : Rng (Exec b) _).tryFill (data ++ [x]) buf) = pure (data, .ok v) := by
  obtain ⟨v, hv, hc⟩ := exec_copy (b := b) h
  exact ⟨v, hv, by simp [testRng, hc]⟩

theorem test_fill_panics (data : List (List UInt8)) {x : List UInt8} {n : Nat} (buf : Vector UInt8 n)
    (h : x.length ≠ n) : ((testRng : Rng (Exec b) _).tryFill (data ++ [x]) buf) = panic .copyLen := by
  have hc : (copyFromSlice n x : Exec b _) = panic .copyLen := by rw [copyFromSlice, dif_neg h]
  simp only [testRng, List.getLast?_append, List.getLast?_singleton, Option.some_or, hc]
  rfl

theorem exec_panic_bind {α β : Type} {e : Panic} (f : α → Exec b β) :
    ((panic e : Exec b α) >>= f) = panic e := rfl

theorem exec_tryInto {n : Nat} {x : List UInt8} (h : x.length = n) :
    ∃ v : Vector UInt8 n, v.toList = x ∧ (tryIntoArray n x : Exec b _) = pure v :=
  ⟨⟨x.toArray, by simpa using h⟩, rfl, by rw [tryIntoArray, dif_pos h]⟩

theorem exec_tryInto_panics {n : Nat} {x : List UInt8} (h : x.length ≠ n) :
    (tryIntoArray n x : Exec b _) = panic .unwrap := by rw [tryIntoArray, dif_neg h]

/-- Key generation from the seeds of a test. -/
theorem test_keygen (data : List (List UInt8)) (x y z : List UInt8) :
    (x.length = ps.sp.n ∧ y.length = ps.sp.n ∧ z.length = ps.sp.n → ∃ a c d : Vector UInt8 ps.params.N,
      a.toList = x ∧ c.toList = y ∧ d.toList = z ∧
      (try_keygen_with_rng ps.params (crypto P) testRng (((data ++ [z]) ++ [y]) ++ [x]) : Exec b _) =
        pure (data, .ok (keyPair ps P a c d))) ∧
    (¬ (x.length = ps.sp.n ∧ y.length = ps.sp.n ∧ z.length = ps.sp.n) →
      (try_keygen_with_rng ps.params (crypto P) testRng (((data ++ [z]) ++ [y]) ++ [x]) : Exec b _) =
        panic .copyLen) := by
  rw [exec_try_keygen_with_rng, ← params_N]
  by_cases hx : x.length = ps.params.N
  · obtain ⟨a, ha, h1⟩ := test_fill (b := b) ((data ++ [z]) ++ [y]) (zeroBytes ps.params.N) hx
    rw [h1, pure_bind]
    by_cases hy : y.length = ps.params.N
    · obtain ⟨c, hc, h2⟩ := test_fill (b := b) (data ++ [z]) (zeroBytes ps.params.N) hy
      simp only [h2, pure_bind]
      by_cases hz : z.length = ps.params.N
      · obtain ⟨d, hd, h3⟩ := test_fill (b := b) data (zeroBytes ps.params.N) hz
        simp only [h3, pure_bind]
        exact ⟨fun _ => ⟨a, c, d, ha, hc, hd, rfl⟩, fun h => absurd ⟨hx, hy, hz⟩ h⟩
      · have h3 := test_fill_panics (b := b) data (zeroBytes ps.params.N) hz
        simp only [h3]
        exact ⟨fun h => absurd h.2.2 hz, fun _ => rfl⟩
    · have h2 := test_fill_panics (b := b) (data ++ [z]) (zeroBytes ps.params.N) hy
      simp only [h2]
      exact ⟨fun h => absurd h.2.1 hy, fun _ => rfl⟩
  · have h1 := test_fill_panics (b := b) ((data ++ [z]) ++ [y]) (zeroBytes ps.params.N) hx
    rw [h1]
    exact ⟨fun h => absurd h.1 hx, fun _ => rfl⟩

/-- **C58** A key generation test (ACVP) passes exactly when the seeds have `n` bytes each (otherwise the test
program panics) and the keys are those of Algorithm 18. -/
theorem C58_acvp_keygen (sk_seed sk_prf pk_seed sk pk : List UInt8) :
    (acvp_keygen ps.params (crypto P) sk_seed sk_prf pk_seed sk pk : Exec b Bool) =
      if sk_seed.length = ps.sp.n ∧ sk_prf.length = ps.sp.n ∧ pk_seed.length = ps.sp.n then
        pure (decide ((sk, pk) = Spec.keygenInternal ps.sp (ps.hf P) sk_seed sk_prf pk_seed))
      else panic .copyLen := by
  obtain ⟨h1, h2⟩ := test_keygen (ps := ps) (P := P) (b := b) [] sk_seed sk_prf pk_seed
  rw [acvp_keygen]
  split
  · rename_i h
    obtain ⟨a, c, d, rfl, rfl, rfl, hk⟩ := h1 h
    obtain ⟨v, hv, ev⟩ := exec_pk_into_bytes (b := b) (keyPair ps P a c d).1
    obtain ⟨w, hw, ew⟩ := exec_sk_into_bytes (b := b) (keyPair ps P a c d).2
    simp only [hk, pure_bind, unwrap, hv, hw]
    refine congrArg _ ?_
    rw [ev, ew, Spec.keygenInternal, ← rootVec_toList]
    rw [Bool.eq_iff_iff, Bool.and_eq_true, beq_iff_eq, beq_iff_eq, decide_eq_true_eq, Prod.mk.injEq]
    exact ⟨fun h => ⟨h.2.symm, h.1.symm⟩, fun h => ⟨h.2.symm, h.1.symm⟩⟩
  · rename_i h
    simp only [h2 h]
    rfl

/-- **C58** A signing test (ACVP) with a private key of the right length passes exactly when the signature is the
one of Algorithm 19, with the additional randomness of the test or, in a deterministic test, `PK.seed`; the
test program panics when the root in the private key is wrong or the randomness has the wrong length. -/
theorem C58_acvp_sign (deterministic : Bool) {a c d r : List UInt8} (ha : a.length = ps.sp.n)
    (hc : c.length = ps.sp.n) (hd : d.length = ps.sp.n) (hr : r.length = ps.sp.n)
    (additional_randomness message signature : List UInt8) :
    (acvp_sign ps.params (crypto P) deterministic (Spec.encodeSK a c d r) additional_randomness message signature :
      Exec b Bool) =
      if r ≠ Spec.pkRoot ps.sp (ps.hf P) a d then panic .unwrap
      else if deterministic then
        pure (decide (signature = Spec.signInternal ps.sp (ps.hf P) message a c d r d))
      else if additional_randomness.length = ps.sp.n then
        pure (decide (signature = Spec.signInternal ps.sp (ps.hf P) message a c d r additional_randomness))
      else panic .copyLen := by
  have hlen : (Spec.encodeSK a c d r).length = ps.params.SK_LEN := by
    simp only [Spec.encodeSK, List.length_append, ha, hc, hd, hr]
    cases ps <;> rfl
  obtain ⟨v, ev, hv⟩ := exec_tryInto (b := b) hlen
  obtain ⟨sk, esk, hsk⟩ := exec_sk_try_from_bytes (b := b) (P := P) v
  rw [ev] at esk
  have hn : ∀ w : Vector UInt8 ps.params.N, w.toList.length = ps.sp.n := fun w => by
    rw [Vector.length_toList, params_N]
  obtain ⟨e1, e2, e3, e4⟩ : sk.key.sk_seed.toList = a ∧ sk.key.sk_prf.toList = c ∧
      sk.key.pk_seed.toList = d ∧ sk.key.pk_root.toList = r := by
    simp only [Spec.encodeSK] at esk
    obtain ⟨esk, e4⟩ := List.append_inj' esk (by rw [hn, hr])
    obtain ⟨esk, e3⟩ := List.append_inj' esk (by rw [hn, hd])
    obtain ⟨e1, e2⟩ := List.append_inj' esk (by rw [hn, hc])
    exact ⟨e1, e2, e3, e4⟩
  rw [acvp_sign, hv, pure_bind, hsk, pure_bind]
  have hroot : sk.key.pk_root = rootVec ps P sk.key.sk_seed sk.key.pk_seed ↔
      r = Spec.pkRoot ps.sp (ps.hf P) a d := by
    rw [← Vector.toList_inj, rootVec_toList, e1, e3, e4]
  simp only [hroot]
  by_cases hrt : r = Spec.pkRoot ps.sp (ps.hf P) a d
  · have hsym : ∀ (o : Vector UInt8 ps.params.N), ((sigVec ps P message sk.key o).toList == signature) =
        decide (signature = Spec.signInternal ps.sp (ps.hf P) message a c d r o.toList) := by
      intro o
      rw [sigVec_toList, e1, e2, e3, e4, Bool.eq_iff_iff, beq_iff_eq, decide_eq_true_eq]
      exact eq_comm
    rw [if_pos hrt, if_neg (not_not.mpr hrt), unwrap, pure_bind]
    cases deterministic
    · simp only [Bool.false_eq_true, if_false]
      rw [exec_raw_sign, if_pos rfl]
      by_cases hx : additional_randomness.length = ps.sp.n
      · obtain ⟨o, eo, ho⟩ := test_fill (b := b) [] sk.key.pk_seed (hx.trans (params_N ps).symm)
        rw [if_pos hx, ho]
        simp only [pure_bind, signOutcome, unwrap]
        rw [hsym, eo]
      · have := test_fill_panics (b := b) [] sk.key.pk_seed (fun h => hx (h.trans (params_N ps)))
        rw [if_neg hx, this]
        rfl
    · simp only [if_true]
      rw [exec_raw_sign, if_neg (by simp), pure_bind]
      simp only [unwrap, pure_bind]
      rw [hsym, e3]
  · rw [if_neg hrt, if_pos hrt]
    rfl

/-- **C58** With a private key of the wrong length the test program panics. -/
theorem C58_acvp_sign_length (deterministic : Bool) {sk : List UInt8} (h : sk.length ≠ 4 * ps.sp.n)
    (additional_randomness message signature : List UInt8) :
    (acvp_sign ps.params (crypto P) deterministic sk additional_randomness message signature :
      Exec b Bool) = panic .unwrap := by
  have h : sk.length ≠ ps.params.SK_LEN := by
    refine fun e => h (e.trans ?_)
    cases ps <;> rfl
  rw [acvp_sign, exec_tryInto_panics h]
  rfl

/-- **C58** A verification test (ACVP) passes exactly when its verdict is that of Algorithm 20; public keys and
signatures of the wrong length are to be rejected. -/
theorem C58_acvp_verify (pk message signature : List UInt8) (test_passed : Bool) :
    acvp_verdict (acvp_verify_closure ps.params (crypto P) pk message signature : Exec b Bool) test_passed = true ↔
      (test_passed = true ↔ ∃ pk_seed pk_root, pk_seed.length = ps.sp.n ∧ pk_root.length = ps.sp.n ∧
        pk = Spec.encodePK pk_seed pk_root ∧
        Spec.verifyInternal ps.sp (ps.hf P) message signature pk_seed pk_root = true) := by
  have hn : ∀ w : Vector UInt8 ps.params.N, w.toList.length = ps.sp.n := fun w => by
    rw [Vector.length_toList, params_N]
  have hv : ∀ (x : Bool) (T : Prop), (x = true ↔ T) →
      (acvp_verdict (.ok x) test_passed = true ↔ (test_passed = true ↔ T)) := by
    intro x T h
    rw [← h]
    cases x <;> cases test_passed <;> decide
  have hp : ∀ (e : Panic) (T : Prop), ¬ T →
      (acvp_verdict (.error e) test_passed = true ↔ (test_passed = true ↔ T)) := by
    intro e T h
    simp only [h, iff_false]
    cases test_passed <;> simp [acvp_verdict]
  rw [acvp_verify_closure]
  by_cases h1 : pk.length = ps.params.PK_LEN
  · obtain ⟨v, ev, hv'⟩ := exec_tryInto (b := b) h1
    obtain ⟨k, hk, ek⟩ := exec_pk_try_from_bytes (b := b) v
    rw [hv', pure_bind, hk, pure_bind, unwrap, pure_bind]
    have huniq : ∀ s r : List UInt8, s.length = ps.sp.n → r.length = ps.sp.n → pk = Spec.encodePK s r →
        k.key.pk_seed.toList = s ∧ k.key.pk_root.toList = r := by
      intro s r _ hr e
      rw [← ev, ← ek] at e
      exact List.append_inj' e (by rw [hn, hr])
    by_cases h2 : signature.length = ps.params.SIG_LEN
    · obtain ⟨w, rfl, hw'⟩ := exec_tryInto (b := b) h2
      rw [hw', pure_bind, exec_raw_verify, pure_bind]
      refine hv _ _ ⟨fun h => ⟨_, _, hn _, hn _, by rw [ek, ev], h⟩, ?_⟩
      rintro ⟨s, r, hs, hr, e, h⟩
      obtain ⟨rfl, rfl⟩ := huniq s r hs hr e
      exact h
    · rw [exec_tryInto_panics h2]
      refine hp _ _ ?_
      rintro ⟨s, r, hs, hr, e, h⟩
      rw [Spec.verifyInternal, if_pos] at h
      · cases h
      · refine fun e => h2 (e.trans ?_)
        cases ps <;> rfl
  · rw [exec_tryInto_panics h1]
    refine hp _ _ ?_
    rintro ⟨s, r, hs, hr, rfl, -⟩
    refine h1 ?_
    rw [Spec.encodePK, List.length_append, hs, hr]
    cases ps <;> rfl

/-- **C58** A test of `tests/py_vectors.rs` passes exactly when seeds and randomness have `n` bytes each and the
expected signature is the one of Algorithms 18 and 19. -/
theorem C58_py_vector (M sk_seed sk_prf pk_seed opt_rand sig_exp : List UInt8) :
    (py_vector ps.params (crypto P) M sk_seed sk_prf pk_seed opt_rand sig_exp : Exec b Unit) =
      if sk_seed.length = ps.sp.n ∧ sk_prf.length = ps.sp.n ∧ pk_seed.length = ps.sp.n ∧
          opt_rand.length = ps.sp.n then
        if sig_exp = Spec.signInternal ps.sp (ps.hf P) M sk_seed sk_prf pk_seed
          (Spec.pkRoot ps.sp (ps.hf P) sk_seed pk_seed) opt_rand then pure () else panic .assertion
      else panic .copyLen := by
  obtain ⟨h1, h2⟩ := test_keygen (ps := ps) (P := P) (b := b) ([] ++ [opt_rand]) sk_seed sk_prf pk_seed
  rw [py_vector]
  by_cases h : sk_seed.length = ps.sp.n ∧ sk_prf.length = ps.sp.n ∧ pk_seed.length = ps.sp.n
  · obtain ⟨a, c, d, rfl, rfl, rfl, hk⟩ := h1 h
    simp only [hk, pure_bind, unwrap]
    rw [exec_raw_sign, if_pos rfl]
    by_cases hx : opt_rand.length = ps.sp.n
    · obtain ⟨o, rfl, ho⟩ := test_fill (b := b) [] (keyPair ps P a c d).2.key.pk_seed
        (hx.trans (params_N ps).symm)
      rw [if_pos ⟨h.1, h.2.1, h.2.2, hx⟩, ho]
      have hver := verifyInternal_sigVec (keyPair_consistent (P := P) a c d) M o
      simp only [pure_bind, signOutcome, unwrap]
      generalize hS : sigVec ps P M (keyPair ps P a c d).2.key o = S at hver
      have eS : S.toList = Spec.signInternal ps.sp (ps.hf P) M a.toList c.toList d.toList
          (Spec.pkRoot ps.sp (ps.hf P) a.toList d.toList) o.toList := by
        rw [← hS, sigVec_toList]
        simp only [keyPair, rootVec_toList]
      rw [← eS]
      by_cases he : sig_exp = S.toList
      · subst he
        have hv : (PublicKey._test_only_raw_verify (crypto P) (keyPair ps P a c d).1 M S : Exec b _) =
            pure (.ok true) := by
          rw [exec_raw_verify]
          exact congrArg (fun x => (pure (Except.ok x) : Exec b (Except String Bool))) hver
        simp only [beq_self_eq_true, assert, if_true, pure_bind, hv]
      · rw [if_neg he]
        have he' : (S.toList == sig_exp) = false := by
          rw [beq_eq_false_iff_ne]; exact fun e => he e.symm
        by_cases hl : S.toList.length = sig_exp.length
        · simp only [hl, beq_self_eq_true, assert, if_true, pure_bind, he']
          rfl
        · have hl' : (S.toList.length == sig_exp.length) = false := by
            rw [beq_eq_false_iff_ne]; exact hl
          simp only [assert, hl']
          rfl
    · have := test_fill_panics (b := b) [] (keyPair ps P a c d).2.key.pk_seed
        (fun h => hx (h.trans (params_N ps)))
      rw [if_neg fun h => hx h.2.2.2, this]
      rfl
  · rw [if_neg fun h' => h ⟨h'.1, h'.2.1, h'.2.2.1⟩]
    simp only [h2 h]
    rfl

/-- Passing and failing tests. -/
example (ps : ParamSet) : ∃ x sk pk sig : List UInt8, x.length = ps.sp.n ∧
    (acvp_keygen ps.params (crypto demoPrims) x x x sk pk : Exec demoBuild Bool) = pure true ∧
    (acvp_keygen ps.params (crypto demoPrims) x x x (0 :: sk) pk : Exec demoBuild Bool) = pure false ∧
    (py_vector ps.params (crypto demoPrims) [1] x x x x sig : Exec demoBuild Unit) = pure () ∧
    (py_vector ps.params (crypto demoPrims) [1] x x x x (0 :: sig) : Exec demoBuild Unit) = panic .assertion := by
  refine ⟨List.replicate ps.sp.n 0, (Spec.keygenInternal ps.sp (ps.hf demoPrims) (List.replicate ps.sp.n 0)
    (List.replicate ps.sp.n 0) (List.replicate ps.sp.n 0)).1, (Spec.keygenInternal ps.sp (ps.hf demoPrims)
    (List.replicate ps.sp.n 0) (List.replicate ps.sp.n 0) (List.replicate ps.sp.n 0)).2,
    Spec.signInternal ps.sp (ps.hf demoPrims) [1] (List.replicate ps.sp.n 0) (List.replicate ps.sp.n 0)
      (List.replicate ps.sp.n 0) (Spec.pkRoot ps.sp (ps.hf demoPrims) (List.replicate ps.sp.n 0)
      (List.replicate ps.sp.n 0)) (List.replicate ps.sp.n 0), by simp, ?_, ?_, ?_, ?_⟩
  · rw [C58_acvp_keygen, if_pos (by simp), decide_eq_true rfl]
  · rw [C58_acvp_keygen, if_pos (by simp), decide_eq_false]
    intro h
    rw [Spec.keygenInternal, Prod.mk.injEq] at h
    exact List.cons_ne_self _ _ h.1
  · rw [C58_py_vector, if_pos (by simp), if_pos rfl]
  · rw [C58_py_vector, if_pos (by simp), if_neg (List.cons_ne_self _ _)]

end Fips205.Props
