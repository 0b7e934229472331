import Verif.Props.Visits
import Verif.Proofs.RunApi

/-!
# The hashes are computed in the order of the standard (C63)

`Spec.Run` writes the algorithms of the standard once more, as programs that record the calls of SHA-256,
SHA-512 and SHAKE they make.  The runs of the code make the same calls with the same inputs in the same order.
-/

namespace Fips205.Props
open Fips205 Fips205.Model

variable {ps : ParamSet} {P : Spec.Prims} {b : Build} {σ : Type}

/-- The functions of section 11 for a parameter set, as programs. -/
abbrev fns (P : Spec.Prims) (ps : ParamSet) : Spec.Run.Fns := Spec.Run.hashFns P ps.family ps.row

/-! ## The programs compute the values of the algorithms -/

/-- **C63** Without their logs the programs are the algorithms of the standard as stated in `Spec.Fips205`. -/
theorem C63_values (M ctx SIG sk_seed sk_prf pk_seed pk_root opt : List UInt8) (ph : Spec.PreHash) :
    (Spec.Run.pkRoot ps.sp (fns P ps) sk_seed pk_seed).val = Spec.pkRoot ps.sp (ps.hf P) sk_seed pk_seed ∧
    (Spec.Run.sign ps.sp (fns P ps) M ctx sk_seed sk_prf pk_seed pk_root opt).val =
      Spec.sign ps.sp (ps.hf P) M ctx sk_seed sk_prf pk_seed pk_root opt ∧
    (Spec.Run.hashSign ps.sp (fns P ps) P ph M ctx sk_seed sk_prf pk_seed pk_root opt).val =
      Spec.hashSign ps.sp (ps.hf P) (Spec.oid ph) (Spec.preHash P M ph) ctx sk_seed sk_prf pk_seed pk_root
        opt ∧
    (Spec.Run.verify ps.sp (fns P ps) M SIG ctx pk_seed pk_root).val =
      Spec.verify ps.sp (ps.hf P) M SIG ctx pk_seed pk_root ∧
    (Spec.Run.hashVerify ps.sp (fns P ps) P ph M SIG ctx pk_seed pk_root).val =
      Spec.hashVerify ps.sp (ps.hf P) (Spec.oid ph) (Spec.preHash P M ph) SIG ctx pk_seed pk_root := by
  have h := ps.hr_vals P
  refine ⟨?_, ?_, ?_, ?_, ?_⟩
  · rw [Spec.Run.pkRoot_val, ← h]
  · rw [Spec.Run.sign_val, ← h]
  · rw [Spec.Run.hashSign_val, ← h]
  · rw [Spec.Run.verify_val, ← h]
  · rw [Spec.Run.hashVerify_val, ← h]

/-! ## Verification -/

/-- **C63** A run of `verify` is the run of algorithm 24: the same calls in the same order, the same result,
and no panic. -/
theorem C63_verify (pk : PublicKey ps.params) (msg ctx : List UInt8)
    (sig : Vector UInt8 ps.params.SIG_LEN) :
    let r := Spec.Run.verify ps.sp (fns P ps) msg sig.toList ctx pk.key.pk_seed.toList pk.key.pk_root.toList
    (pk.verify (recording P) msg sig ctx : LogExec b Bool) = (r.log, .ok r.val) :=
  verify_does pk msg ctx sig

/-- **C63** The same for `hash_verify` and algorithm 25. -/
theorem C63_hash_verify (pk : PublicKey ps.params) (msg ctx : List UInt8) (ph : Ph)
    (sig : Vector UInt8 ps.params.SIG_LEN) :
    let r := Spec.Run.hashVerify ps.sp (fns P ps) P ph.spec msg sig.toList ctx pk.key.pk_seed.toList
      pk.key.pk_root.toList
    (pk.hash_verify (recording P) msg sig ctx ph : LogExec b Bool) = (r.log, .ok r.val) :=
  hash_verify_does pk msg ctx ph sig

/-- **C63** The same for `_test_only_raw_verify` and algorithm 20. -/
theorem C63_raw_verify (pk : PublicKey ps.params) (msg : List UInt8)
    (sig : Vector UInt8 ps.params.SIG_LEN) :
    let r := Spec.Run.verifyInternal ps.sp (fns P ps) msg sig.toList pk.key.pk_seed.toList
      pk.key.pk_root.toList
    (pk._test_only_raw_verify (recording P) msg sig : LogExec b _) = (r.log, .ok (.ok r.val)) :=
  raw_verify_does pk msg sig

/-! ## Signing -/

/-- **C63** A run of `try_sign_with_rng` that signs makes the calls of algorithm 22 with the randomness it
drew, in the same order, and returns its signature.  A run that fails makes none. -/
theorem C63_try_sign_with_rng {rng : Rng (LogExec b) σ} (hq : UnloggedRng rng) (s : σ)
    (sk : PrivateKey ps.params) (msg ctx : List UInt8) (hedged : Bool) :
    let x := sk.try_sign_with_rng (recording P) rng s msg ctx hedged
    let r := fun opt => Spec.Run.sign ps.sp (fns P ps) msg ctx sk.key.sk_seed.toList sk.key.sk_prf.toList
      sk.key.pk_seed.toList sk.key.pk_root.toList opt
    (∀ s' sig, x.result = .ok (s', .ok sig) → ∃ opt, Drawn sk rng s s' hedged opt ∧
      x.log = (r opt.toList).log ∧ some sig.toList = (r opt.toList).val) ∧
    ((∀ s' sig, x.result ≠ .ok (s', .ok sig)) → x.log = []) := by
  by_cases hc : ctx.length ≤ 255
  · obtain ⟨h1, h2⟩ := try_sign_does (P := P) sk hq s msg ctx hc hedged
    refine ⟨fun s' sig h => ?_, h2⟩
    obtain ⟨opt, h3, h4, h5⟩ := h1 s' sig h
    refine ⟨opt, h3, ?_, ?_⟩
    · dsimp only
      rw [h5, Spec.Run.sign, if_neg (by omega), Spec.Run.log_bind, Spec.Run.log_pure, List.append_nil]
    · dsimp only
      rw [h4, Spec.Run.sign, if_neg (by omega), Spec.Run.val_bind, Spec.Run.val_pure]
  · unfold PrivateKey.try_sign_with_rng
    rw [if_pos (by omega)]
    exact ⟨fun s' sig h => (nomatch h), fun _ => rfl⟩

/-- **C63** The same for `_test_only_raw_sign` and algorithm 19. -/
theorem C63_raw_sign {rng : Rng (LogExec b) σ} (hq : UnloggedRng rng) (s : σ) (sk : PrivateKey ps.params)
    (msg : List UInt8) (hedged : Bool) :
    let x := sk._test_only_raw_sign (recording P) rng s msg hedged
    let r := fun opt => Spec.Run.signInternal ps.sp (fns P ps) msg sk.key.sk_seed.toList
      sk.key.sk_prf.toList sk.key.pk_seed.toList sk.key.pk_root.toList opt
    (∀ s' sig, x.result = .ok (s', .ok sig) → ∃ opt, Drawn sk rng s s' hedged opt ∧
      x.log = (r opt.toList).log ∧ sig.toList = (r opt.toList).val) ∧
    ((∀ s' sig, x.result ≠ .ok (s', .ok sig)) → x.log = []) := by
  obtain ⟨h1, h2⟩ := raw_sign_does (P := P) sk hq s msg hedged
  refine ⟨fun s' sig h => ?_, h2⟩
  obtain ⟨opt, h3, h4, h5⟩ := h1 s' sig h
  exact ⟨opt, h3, h5, h4⟩

/-- **C63** The same for `try_hash_sign_with_rng` and algorithm 23, except that the code hashes the message
before it draws: a run that fails for want of randomness has made that call. -/
theorem C63_try_hash_sign_with_rng {rng : Rng (LogExec b) σ} (hq : UnloggedRng rng) (s : σ)
    (sk : PrivateKey ps.params) (msg ctx : List UInt8) (ph : Ph) (hedged : Bool) :
    let x := sk.try_hash_sign_with_rng (recording P) rng s msg ctx ph hedged
    let r := fun opt => Spec.Run.hashSign ps.sp (fns P ps) P ph.spec msg ctx sk.key.sk_seed.toList
      sk.key.sk_prf.toList sk.key.pk_seed.toList sk.key.pk_root.toList opt
    (∀ s' sig, x.result = .ok (s', .ok sig) → ∃ opt, Drawn sk rng s s' hedged opt ∧
      x.log = (r opt.toList).log ∧ some sig.toList = (r opt.toList).val) ∧
    ((∀ s' sig, x.result ≠ .ok (s', .ok sig)) →
      x.log = if ctx.length ≤ 255 then [⟨ph.spec, msg⟩] else []) := by
  by_cases hc : ctx.length ≤ 255
  · obtain ⟨L, h0, h1, h2⟩ := try_hash_sign_does (P := P) sk hq s msg ctx hc ph hedged
    refine ⟨fun s' sig h => ?_, fun h => by rw [if_pos hc, h0, h2 h]⟩
    obtain ⟨opt, h3, h4, h5⟩ := h1 s' sig h
    refine ⟨opt, h3, ?_, ?_⟩
    · dsimp only
      rw [h0, h5, Spec.Run.hashSign, if_neg (by omega), Spec.Run.log_bind, Spec.Run.log_bind,
        Spec.Run.log_pure, List.append_nil]
      rfl
    · dsimp only
      rw [h4, Spec.Run.hashSign, if_neg (by omega), Spec.Run.val_bind, Spec.Run.val_bind, Spec.Run.val_pure]
      rfl
  · unfold PrivateKey.try_hash_sign_with_rng
    rw [if_pos (by omega), if_neg hc]
    exact ⟨fun s' sig h => (nomatch h), fun _ => rfl⟩

/-- The hypotheses are met: the runs with `demoRng` sign. -/
example (ps : ParamSet) (ph : Ph) (hedged : Bool) :
    UnloggedRng (demoRng.lift : Rng (LogExec demoBuild) Nat) ∧
    (∃ s' sig, ((demoKeys ps).2.try_sign_with_rng (recording demoPrims)
      (demoRng.lift : Rng (LogExec demoBuild) Nat) 3 [104, 105] [9] hedged).result = .ok (s', .ok sig)) ∧
    (∃ s' sig, ((demoKeys ps).2.try_hash_sign_with_rng (recording demoPrims)
      (demoRng.lift : Rng (LogExec demoBuild) Nat) 3 [104, 105] [9] ph hedged).result =
        .ok (s', .ok sig)) := by
  obtain ⟨s1, sig1, h1⟩ := demo_sign ps demoBuild hedged
  obtain ⟨s2, sig2, h2⟩ := demo_hash_sign ps demoBuild ph hedged
  exact ⟨fun _ _ _ => rfl, ⟨s1, sig1, (LogExec.erase.map_try_sign_with_rng (recording demoPrims)
    (demoKeys ps).2 (demoRng.lift : Rng (LogExec demoBuild) Nat) 3 [104, 105] [9] hedged).trans h1⟩,
    ⟨s2, sig2, (LogExec.erase.map_try_hash_sign_with_rng (recording demoPrims) (demoKeys ps).2
    (demoRng.lift : Rng (LogExec demoBuild) Nat) 3 [104, 105] [9] ph hedged).trans h2⟩⟩

/-! ## Keys -/

/-- **C63** Key generation makes the calls of algorithm 18 for the seeds it drew, in the same order. -/
theorem C63_try_keygen_with_rng {rng : Rng (LogExec b) σ} (hq : UnloggedRng rng) (s : σ) :
    let x := try_keygen_with_rng ps.params (recording P) rng s
    (∀ s' pk sk, x.result = .ok (s', .ok (pk, sk)) →
      let r := Spec.Run.pkRoot ps.sp (fns P ps) sk.key.sk_seed.toList sk.key.pk_seed.toList
      x.log = r.log ∧ sk.key.pk_root.toList = r.val ∧ pk.key.pk_root = sk.key.pk_root ∧
        pk.key.pk_seed = sk.key.pk_seed) ∧
    ((∀ s' kp, x.result ≠ .ok (s', .ok kp)) → x.log = []) := by
  obtain ⟨h1, h2⟩ := try_keygen_does (ps := ps) (P := P) hq s
  refine ⟨fun s' pk sk h => ?_, h2⟩
  obtain ⟨h3, h4, h5⟩ := h1 s' pk sk h
  exact ⟨h5, h4, by rw [h3], by rw [h3]⟩

theorem C63_keygen_with_seeds {n : Nat} (x y z : Vector UInt8 n) :
    let t : LogExec b _ := keygen_with_seeds ps.params (recording P) x y z
    (∀ pk sk, t.result = .ok (pk, sk) →
      let r := Spec.Run.pkRoot ps.sp (fns P ps) sk.key.sk_seed.toList sk.key.pk_seed.toList
      t.log = r.log ∧ sk.key.pk_root.toList = r.val ∧ pk.key.pk_root = sk.key.pk_root ∧
        pk.key.pk_seed = sk.key.pk_seed) ∧
    ((∀ kp, t.result ≠ .ok kp) → t.log = []) := by
  obtain ⟨h1, h2⟩ := keygen_with_seeds_does (b := b) (ps := ps) (P := P) x y z
  refine ⟨fun pk sk h => ?_, h2⟩
  obtain ⟨h3, h4, h5⟩ := h1 pk sk h
  exact ⟨h5, h4, by rw [h3], by rw [h3]⟩

/-- **C63** Decoding a private key computes the root from its seeds in the same way, and nothing else,
whether or not it accepts. -/
theorem C63_sk_try_from_bytes (v : Vector UInt8 ps.params.SK_LEN) :
    (PrivateKey.try_from_bytes (recording P) v : LogExec b (Except String (PrivateKey ps.params))).log =
      (Spec.Run.pkRoot ps.sp (fns P ps) (Spec.slice v.toList 0 ps.sp.n)
        (Spec.slice v.toList (2 * ps.sp.n) (3 * ps.sp.n))).log :=
  sk_try_from_bytes_does v

/-- Key generation with `demoRng` returns. -/
example (ps : ParamSet) : ∃ s' pk sk, (try_keygen_with_rng ps.params (recording demoPrims)
      (demoRng.lift : Rng (LogExec demoBuild) Nat) 0).result = .ok (s', .ok (pk, sk)) :=
  ⟨3, (demoKeys ps).1, (demoKeys ps).2, (LogExec.erase.map_try_keygen_with_rng (p := ps.params)
    (recording demoPrims) (demoRng.lift : Rng (LogExec demoBuild) Nat) 0).trans (demo_keygen ps demoBuild)⟩

/-! ## The order matters -/

/-- The first call of verification is over `R`, the public key and the representative: one
call in the SHAKE sets. -/
example (P : Spec.Prims) (M ctx SIG pk_seed pk_root : List UInt8) (hc : ctx.length ≤ 255)
    (hS : SIG.length = (ParamSet.slh_dsa_shake_128s).sp.sigLen) :
    ∃ L, (Spec.Run.verify (ParamSet.slh_dsa_shake_128s).sp (fns P .slh_dsa_shake_128s) M SIG ctx pk_seed pk_root).log =
      ⟨.shake256, Spec.slice SIG 0 16 ++ pk_seed ++ pk_root ++ Spec.pureMsg ctx M⟩ :: L := by
  rw [Spec.Run.verify, if_neg (by omega), Spec.Run.verifyInternal, if_neg (by rw [hS]; simp)]
  exact ⟨_, rfl⟩

/-- Programs with the same calls in another order are told apart. -/
example : (do
    let x ← Spec.Run.shake256 zeroPrims [1] 16
    let y ← Spec.Run.shake256 zeroPrims [2] 16
    pure (x ++ y) : Spec.Run _).log ≠ (do
    let y ← Spec.Run.shake256 zeroPrims [2] 16
    let x ← Spec.Run.shake256 zeroPrims [1] 16
    pure (x ++ y) : Spec.Run _).log := by
  intro h
  have : ([⟨.shake256, [1]⟩, ⟨.shake256, [2]⟩] : List Call) = [⟨.shake256, [2]⟩, ⟨.shake256, [1]⟩] := h
  simp at this

end Fips205.Props
