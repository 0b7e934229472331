import Verif.Props.Counts
import Verif.Proofs.Both

/-!
# The observer sees the calls that are made (C55)

The model runs the code in two ways: with what an observer of control flow and memory accesses sees
(`TraceExec`; C28, C29, C31, C45, C53), and with the calls of the hash functions and their inputs (`LogExec`;
C47, C54).  Here the two are shown to be views of one run, so that the exact numbers of C54 are also what an
observer counts.
-/

namespace Fips205.Props
open Fips205 Fips205.Model

variable {ps : ParamSet} {P : Spec.Prims} {b : Build} {σ : Type}

/-- The RNG without what an observer sees of it. -/
def unseen (rng : Rng (TraceExec b) σ) : Rng (LogExec b) σ where
  tryFill s _ v := ([], (rng.tryFill s v).result)

/-- The RNG, for runs recording both. -/
def bothRng {rng : Rng (TraceExec b) σ} (hq : QuietRng rng) : Rng (Both b) σ where
  tryFill s _ v := ⟨(rng.tryFill s v).trace, [], (rng.tryFill s v).result, by
    have h : hashCalls (rng.tryFill s v).trace = 0 := hq s v
    generalize (rng.tryFill s v).trace = t at h ⊢
    induction t with
    | nil => rfl
    | cons l t ih =>
      change hashCalls ([l] ++ t) = 0 at h
      rw [hashCalls_append] at h
      have := Agree.append (t := [l]) (L := []) (by
        cases l <;> first | rfl | exact absurd h (by simp [hashCalls, Leak.isHash])) (ih (by omega))
      exact this⟩

/-- **C55** Key generation and signing: the hash functions an observer sees called, with the number of bytes they
hash, are those of the calls recorded, in the same order, and the results are the same.  Any RNG that does not
use the crate's hash functions. -/
theorem C55_same_runs {rng : Rng (TraceExec b) σ} (hq : QuietRng rng) (s : σ) (sk : PrivateKey ps.params)
    (msg ctx : List UInt8) (ph : Ph) (hedged : Bool) :
    SameRun (try_keygen_with_rng ps.params (crypto P) rng s)
      (try_keygen_with_rng ps.params (recording P) (unseen rng) s) ∧
    SameRun (sk.try_sign_with_rng (crypto P) rng s msg ctx hedged)
      (sk.try_sign_with_rng (recording P) (unseen rng) s msg ctx hedged) ∧
    SameRun (sk.try_hash_sign_with_rng (crypto P) rng s msg ctx ph hedged)
      (sk.try_hash_sign_with_rng (recording P) (unseen rng) s msg ctx ph hedged) ∧
    SameRun (sk._test_only_raw_sign (crypto P) rng s msg hedged)
      (sk._test_only_raw_sign (recording P) (unseen rng) s msg hedged) := by
  have hr : Both.toTrace.rng (bothRng hq) = rng := rfl
  have hl : Both.toLog.rng (bothRng hq) = unseen rng := rfl
  refine ⟨.of (try_keygen_with_rng ps.params (Both.recording P) (bothRng hq) s) ?_ ?_,
    .of (sk.try_sign_with_rng (Both.recording P) (bothRng hq) s msg ctx hedged) ?_ ?_,
    .of (sk.try_hash_sign_with_rng (Both.recording P) (bothRng hq) s msg ctx ph hedged) ?_ ?_,
    .of (sk._test_only_raw_sign (Both.recording P) (bothRng hq) s msg hedged) ?_ ?_⟩
  · rw [RustHom.map_try_keygen_with_rng, hr, Both.toTrace_crypto]
  · rw [RustHom.map_try_keygen_with_rng, hl, Both.toLog_crypto]
  · rw [RustHom.map_try_sign_with_rng, hr, Both.toTrace_crypto]
  · rw [RustHom.map_try_sign_with_rng, hl, Both.toLog_crypto]
  · rw [RustHom.map_try_hash_sign_with_rng, hr, Both.toTrace_crypto]
  · rw [RustHom.map_try_hash_sign_with_rng, hl, Both.toLog_crypto]
  · rw [RustHom.map_raw_sign, hr, Both.toTrace_crypto]
  · rw [RustHom.map_raw_sign, hl, Both.toLog_crypto]

/-- **C55** The same for verification and for decoding a private key. -/
theorem C55_same_checks (pk : PublicKey ps.params) (msg ctx : List UInt8) (ph : Ph)
    (sig : Vector UInt8 ps.params.SIG_LEN) (v : Vector UInt8 ps.params.SK_LEN) :
    SameRun (b := b) (pk.verify (crypto P) msg sig ctx) (pk.verify (recording P) msg sig ctx) ∧
    SameRun (b := b) (pk.hash_verify (crypto P) msg sig ctx ph) (pk.hash_verify (recording P) msg sig ctx ph) ∧
    SameRun (b := b) (pk._test_only_raw_verify (crypto P) msg sig)
      (pk._test_only_raw_verify (recording P) msg sig) ∧
    SameRun (PrivateKey.try_from_bytes (crypto P) v : TraceExec b (Except String (PrivateKey ps.params)))
      (PrivateKey.try_from_bytes (recording P) v) := by
  refine ⟨.of (pk.verify (Both.recording P) msg sig ctx) ?_ ?_,
    .of (pk.hash_verify (Both.recording P) msg sig ctx ph) ?_ ?_,
    .of (pk._test_only_raw_verify (Both.recording P) msg sig) ?_ ?_,
    .of (PrivateKey.try_from_bytes (Both.recording P) v) ?_ ?_⟩
  · rw [RustHom.map_verify, Both.toTrace_crypto]
  · rw [RustHom.map_verify, Both.toLog_crypto]
  · rw [RustHom.map_hash_verify, Both.toTrace_crypto]
  · rw [RustHom.map_hash_verify, Both.toLog_crypto]
  · rw [RustHom.map_raw_verify, Both.toTrace_crypto]
  · rw [RustHom.map_raw_verify, Both.toLog_crypto]
  · rw [RustHom.map_sk_try_from_bytes, Both.toTrace_crypto]
  · rw [RustHom.map_sk_try_from_bytes, Both.toLog_crypto]

/-- **C55** The same for seeded key generation. -/
theorem C55_same_seeded {n : Nat} (x y z : Vector UInt8 n) :
    SameRun (b := b) (keygen_with_seeds ps.params (crypto P) x y z)
      (keygen_with_seeds ps.params (recording P) x y z) := by
  refine .of (keygen_with_seeds ps.params (Both.recording P) x y z) ?_ ?_
  · rw [RustHom.map_keygen_with_seeds, Both.toTrace_crypto]
  · rw [RustHom.map_keygen_with_seeds, Both.toLog_crypto]

/-- **C55** The same for the functions of the C interface. -/
theorem C55_same_ffi {os : Rng (TraceExec b) σ} (hq : QuietRng os) (s : σ) (buf : Ptr) (len : Int)
    (pk : Option (Vector UInt8 slh_dsa_sha2_128f.PK_LEN)) (sk : Option (Vector UInt8 slh_dsa_sha2_128f.SK_LEN))
    (sig : Option (Vector UInt8 slh_dsa_sha2_128f.SIG_LEN)) :
    SameRun (slh_dsa_sha2_128f_keygen (crypto P) os s pk sk)
      (slh_dsa_sha2_128f_keygen (recording P) (unseen os) s pk sk) ∧
    SameRun (slh_dsa_sha2_128f_sign (crypto P) os s buf len sk sig)
      (slh_dsa_sha2_128f_sign (recording P) (unseen os) s buf len sk sig) ∧
    SameRun (b := b) (slh_dsa_sha2_128f_verify (crypto P) buf len pk sig)
      (slh_dsa_sha2_128f_verify (recording P) buf len pk sig) := by
  have hr : Both.toTrace.rng (bothRng hq) = os := rfl
  have hl : Both.toLog.rng (bothRng hq) = unseen os := rfl
  refine ⟨.of (slh_dsa_sha2_128f_keygen (Both.recording P) (bothRng hq) s pk sk) ?_ ?_,
    .of (slh_dsa_sha2_128f_sign (Both.recording P) (bothRng hq) s buf len sk sig) ?_ ?_,
    .of (slh_dsa_sha2_128f_verify (Both.recording P) buf len pk sig) ?_ ?_⟩
  · rw [RustHom.map_c_keygen, hr, Both.toTrace_crypto]
  · rw [RustHom.map_c_keygen, hl, Both.toLog_crypto]
  · rw [RustHom.map_c_sign, hr, Both.toTrace_crypto]
  · rw [RustHom.map_c_sign, hl, Both.toLog_crypto]
  · rw [RustHom.map_c_verify, Both.toTrace_crypto]
  · rw [RustHom.map_c_verify, Both.toLog_crypto]

theorem unseen_unlogged (rng : Rng (TraceExec b) σ) : UnloggedRng (unseen rng) := fun _ _ _ => rfl

/-! ## What the observer counts -/

/-- **C55** An observer of key generation counts the hashes of a full tree. -/
theorem C55_try_keygen_with_rng {rng : Rng (TraceExec b) σ} (hq : QuietRng rng) (s s' : σ)
    (pk : PublicKey ps.params) (sk : PrivateKey ps.params)
    (h : (try_keygen_with_rng ps.params (crypto P) rng s).result = .ok (s', .ok (pk, sk))) :
    hashCalls (try_keygen_with_rng ps.params (crypto P) rng s).trace = treeWork ps ps.sp.hp := by
  obtain ⟨ha, hr⟩ := (C55_same_runs (P := P) hq s sk [] [] .SHA256 false).1
  rw [ha.hashCalls]
  exact C54_try_keygen_with_rng (unseen_unlogged rng) s s' pk sk (hr ▸ h)

theorem C55_keygen_with_seeds (sk_seed sk_prf pk_seed : Vector UInt8 ps.params.N) :
    hashCalls (keygen_with_seeds ps.params (crypto P) sk_seed sk_prf pk_seed : TraceExec b _).trace =
      treeWork ps ps.sp.hp := by
  rw [(C55_same_seeded sk_seed sk_prf pk_seed).1.hashCalls]
  exact C54_keygen_with_seeds sk_seed sk_prf pk_seed

/-- **C55** The number of hashes an observer of signing counts is a function of the digits that the signature
shows for the layer at the top. -/
theorem C55_try_sign_with_rng {rng : Rng (TraceExec b) σ} (hq : QuietRng rng) (s s' : σ)
    (sk : PrivateKey ps.params) (msg ctx : List UInt8) (hedged : Bool)
    (sig : Vector UInt8 ps.params.SIG_LEN)
    (h : (sk.try_sign_with_rng (crypto P) rng s msg ctx hedged).result = .ok (s', .ok sig)) :
    hashCalls (sk.try_sign_with_rng (crypto P) rng s msg ctx hedged).trace =
      signCount ps (topDigits P sk (Spec.pureMsg ctx msg) sig) := by
  obtain ⟨ha, hr⟩ := (C55_same_runs (P := P) hq s sk msg ctx .SHA256 hedged).2.1
  rw [ha.hashCalls]
  exact C54_try_sign_with_rng (unseen_unlogged rng) s s' sk msg ctx hedged sig (hr ▸ h)

theorem C55_try_hash_sign_with_rng {rng : Rng (TraceExec b) σ} (hq : QuietRng rng) (s s' : σ)
    (sk : PrivateKey ps.params) (msg ctx : List UInt8) (ph : Ph) (hedged : Bool)
    (sig : Vector UInt8 ps.params.SIG_LEN)
    (h : (sk.try_hash_sign_with_rng (crypto P) rng s msg ctx ph hedged).result = .ok (s', .ok sig)) :
    hashCalls (sk.try_hash_sign_with_rng (crypto P) rng s msg ctx ph hedged).trace =
      signCount ps (topDigits P sk (phMsg P ctx msg ph) sig) + 1 := by
  obtain ⟨ha, hr⟩ := (C55_same_runs (P := P) hq s sk msg ctx ph hedged).2.2.1
  rw [ha.hashCalls]
  exact C54_try_hash_sign_with_rng (unseen_unlogged rng) s s' sk msg ctx ph hedged sig (hr ▸ h)

/-- **C55** An observer of verification counts what the digits the signature shows leave to be computed. -/
theorem C55_verify (pk : PublicKey ps.params) (msg ctx : List UInt8) (sig : Vector UInt8 ps.params.SIG_LEN) :
    hashCalls (pk.verify (crypto P) msg sig ctx : TraceExec b Bool).trace =
      if ctx.length ≤ 255 then verifyCount ps (digitsSeen P pk (Spec.pureMsg ctx msg) sig) else 0 := by
  rw [(C55_same_checks (b := b) pk msg ctx .SHA256 sig (Vector.replicate _ 0)).1.1.hashCalls]
  exact C54_verify pk msg ctx sig

theorem C55_hash_verify (pk : PublicKey ps.params) (msg ctx : List UInt8) (ph : Ph)
    (sig : Vector UInt8 ps.params.SIG_LEN) :
    hashCalls (pk.hash_verify (crypto P) msg sig ctx ph : TraceExec b Bool).trace =
      if ctx.length ≤ 255 then verifyCount ps (digitsSeen P pk (phMsg P ctx msg ph) sig) + 1 else 0 := by
  rw [(C55_same_checks (b := b) pk msg ctx ph sig (Vector.replicate _ 0)).2.1.1.hashCalls]
  exact C54_hash_verify pk msg ctx ph sig

theorem C55_sk_try_from_bytes (v : Vector UInt8 ps.params.SK_LEN) :
    hashCalls (PrivateKey.try_from_bytes (crypto P) v :
      TraceExec b (Except String (PrivateKey ps.params))).trace = treeWork ps ps.sp.hp := by
  rw [(C55_same_checks (b := b) (P := P) ⟨⟨Vector.replicate _ 0, Vector.replicate _ 0⟩⟩ [] [] .SHA256
    (Vector.replicate _ 0) v).2.2.2.1.hashCalls]
  exact C54_sk_try_from_bytes v

/-- The hypotheses are met; an observation that is a call, one that is not, and a call. -/
example (ps : ParamSet) (hedged : Bool) : QuietRng (demoRng.lift : Rng (TraceExec demoBuild) Nat) ∧
    (∃ s' pk sk, (try_keygen_with_rng ps.params (crypto demoPrims)
      (demoRng.lift : Rng (TraceExec demoBuild) Nat) 0).result = .ok (s', .ok (pk, sk))) ∧
    (∃ s' sig, ((demoKeys ps).2.try_sign_with_rng (crypto demoPrims)
      (demoRng.lift : Rng (TraceExec demoBuild) Nat) 3 [104, 105] [9] hedged).result = .ok (s', .ok sig)) ∧
    Agree [.branch true, .hash .sha256 [2, 1] 32] [⟨.sha256, [7, 8, 9]⟩] ∧
    ¬ Agree [.branch true, .hash .sha256 [2, 1] 32] [⟨.sha256, [7, 8]⟩] ∧ ¬ Agree [] [⟨.sha256, [7, 8]⟩] := by
  obtain ⟨s1, sig1, h1⟩ := demo_sign ps demoBuild hedged
  refine ⟨fun _ _ _ => rfl, ⟨3, (demoKeys ps).1, (demoKeys ps).2, ?_⟩,
    ⟨s1, sig1, (TraceExec.erase.map_try_sign_with_rng (crypto demoPrims) (demoKeys ps).2
      (demoRng.lift : Rng (TraceExec demoBuild) Nat) 3 [104, 105] [9] hedged).trans h1⟩, ?_, ?_, ?_⟩
  · exact (TraceExec.erase.map_try_keygen_with_rng (p := ps.params) (crypto demoPrims)
      (demoRng.lift : Rng (TraceExec demoBuild) Nat) 0).trans (demo_keygen ps demoBuild)
  · rfl
  · show ¬ [(HashAlg.sha256, 3)] = [(HashAlg.sha256, 2)]
    decide
  · simp [Agree]

end Fips205.Props
