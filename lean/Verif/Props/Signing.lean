import Verif.Props.Common

/-! # Signing and verification: C01–C05, C08–C10 -/

namespace Fips205.Props
open Fips205 Fips205.Model

variable {P : Spec.Prims} {ps : ParamSet} {σ : Type}

/-- **C01** Pure signatures of a generated key pair verify, whatever the hash functions, the RNGs, the
message, the context and the builds. -/
theorem C01_pure_signatures_verify {b b' : Build} {pk : PublicKey ps.params} {sk : PrivateKey ps.params}
    (hk : Generated P pk sk) {rng : Rng (Exec b) σ} {s s' : σ} {msg ctx : List UInt8} {hedged : Bool}
    {sig : Vector UInt8 ps.params.SIG_LEN}
    (hs : sk.try_sign_with_rng (crypto P) rng s msg ctx hedged = pure (s', .ok sig)) :
    pk.verify (crypto P) msg sig ctx = (pure true : Exec b' Bool) := by
  obtain ⟨hc, rfl⟩ := hk.consistent
  exact (hc.signsFor b b' σ rng s s' msg ctx hedged sig).1 hs

example (ps : ParamSet) (b : Build) (hedged : Bool) :
    Generated demoPrims (demoKeys ps).1 (demoKeys ps).2 ∧ ∃ s' sig,
      (demoKeys ps).2.try_sign_with_rng (crypto demoPrims) (demoRng.lift : Rng (Exec b) Nat) 3
        [104, 105] [9] hedged = pure (s', .ok sig) :=
  ⟨demo_generated ps, demo_sign ps b hedged⟩

/-- **C02** Pre-hash signatures of a generated key pair verify. -/
theorem C02_prehash_signatures_verify {b b' : Build} {pk : PublicKey ps.params}
    {sk : PrivateKey ps.params} (hk : Generated P pk sk) {rng : Rng (Exec b) σ} {s s' : σ}
    {msg ctx : List UInt8} {ph : Ph} {hedged : Bool} {sig : Vector UInt8 ps.params.SIG_LEN}
    (hs : sk.try_hash_sign_with_rng (crypto P) rng s msg ctx ph hedged = pure (s', .ok sig)) :
    pk.hash_verify (crypto P) msg sig ctx ph = (pure true : Exec b' Bool) := by
  obtain ⟨hc, rfl⟩ := hk.consistent
  exact (hc.signsFor b b' σ rng s s' msg ctx hedged sig).2 ph hs

example (ps : ParamSet) (b : Build) (ph : Ph) (hedged : Bool) :
    Generated demoPrims (demoKeys ps).1 (demoKeys ps).2 ∧ ∃ s' sig,
      (demoKeys ps).2.try_hash_sign_with_rng (crypto demoPrims) (demoRng.lift : Rng (Exec b) Nat) 3
        [104, 105] [9] ph hedged = pure (s', .ok sig) :=
  ⟨demo_generated ps, demo_hash_sign ps b ph hedged⟩

/-- The private-key bytes of an accepted key are consistent. -/
theorem try_from_bytes_ok {b : Build} {v : Vector UInt8 ps.params.SK_LEN} {sk : PrivateKey ps.params}
    (h : (PrivateKey.try_from_bytes (crypto P) v : Exec b _) = pure (.ok sk)) :
    Consistent P ps sk ∧ Spec.encodeSK sk.key.sk_seed.toList sk.key.sk_prf.toList sk.key.pk_seed.toList
      sk.key.pk_root.toList = v.toList := by
  obtain ⟨sk', h1, h2⟩ := exec_sk_try_from_bytes (b := b) (P := P) v
  rw [h] at h2
  have := Exec.pure_inj h2
  split at this
  · rename_i hc
    cases this
    exact ⟨hc, h1⟩
  · cases this

/-- **C03** (first part) Both keys of a generated pair can be written as bytes and read back, in any
builds; the result is a pair whose signatures verify, under the transported public key and under the
one derived from the transported private key. -/
theorem C03_transported_keys {pk : PublicKey ps.params} {sk : PrivateKey ps.params}
    (hk : Generated P pk sk) :
    ∃ pkb skb, (∀ b : Build, (pk.into_bytes : Exec b _) = pure pkb ∧
      (sk.into_bytes : Exec b _) = pure skb) ∧ ∃ pk' sk', (∀ b : Build,
        (PublicKey.try_from_bytes pkb : Exec b _) = pure (.ok pk') ∧
        (PrivateKey.try_from_bytes (crypto P) skb : Exec b _) = pure (.ok sk')) ∧
      SignsFor P sk' pk' ∧ SignsFor P sk' sk'.get_public_key ∧ SignsFor P sk' pk ∧
      SignsFor P sk pk' := by
  obtain ⟨hc, rfl⟩ := hk.consistent
  obtain ⟨pkb, hp, hp'⟩ := exec_pk_into_bytes (b := demoBuild) sk.get_public_key
  obtain ⟨skb, hs, hs'⟩ := exec_sk_into_bytes (b := demoBuild) sk
  refine ⟨pkb, skb, fun b => ⟨?_, ?_⟩, sk.get_public_key, sk, fun b => ⟨?_, ?_⟩, hc.signsFor,
    hc.signsFor, hc.signsFor, hc.signsFor⟩
  · obtain ⟨v, h, h'⟩ := exec_pk_into_bytes (b := b) sk.get_public_key
    rw [h, Vector.toList_inj.mp (h'.trans hp'.symm)]
  · obtain ⟨v, h, h'⟩ := exec_sk_into_bytes (b := b) sk
    rw [h, Vector.toList_inj.mp (h'.trans hs'.symm)]
  · obtain ⟨pk', h, h'⟩ := exec_pk_try_from_bytes (b := b) pkb
    rw [h, PublicKey.encode_inj (h'.trans hp')]
  · obtain ⟨sk', h', h⟩ := exec_sk_try_from_bytes (b := b) (P := P) skb
    have := PrivateKey.encode_inj (h'.trans hs')
    subst this
    rw [h, if_pos (show _ = _ from hc)]

/-- **C03** (second part) Every private key that decodes signs verifiably for the public key it
reports. -/
theorem C03_decoded_key_signs {b : Build} {v : Vector UInt8 ps.params.SK_LEN}
    {sk : PrivateKey ps.params}
    (h : (PrivateKey.try_from_bytes (crypto P) v : Exec b _) = pure (.ok sk)) :
    SignsFor P sk sk.get_public_key :=
  (try_from_bytes_ok h).1.signsFor

example (ps : ParamSet) (b : Build) : ∃ v sk, (PrivateKey.try_from_bytes (p := ps.params)
    (crypto demoPrims) v : Exec b _) = pure (.ok sk) := by
  obtain ⟨_, skb, _, _, sk', h, _⟩ := C03_transported_keys (demo_generated ps)
  exact ⟨skb, sk', (h b).2⟩

/-- **C04** Over-long contexts are refused: signing returns the error and leaves the RNG alone (whatever
the RNG would do), verification returns `false`. -/
theorem C04_long_context_refused {b : Build} (sk : PrivateKey ps.params) (pk : PublicKey ps.params)
    (rng : Rng (Exec b) σ) (s : σ) (msg ctx : List UInt8) (hedged : Bool) (ph : Ph)
    (sig : Vector UInt8 ps.params.SIG_LEN) (hc : 255 < ctx.length) :
    sk.try_sign_with_rng (crypto P) rng s msg ctx hedged =
        pure (s, .error "ctx must be less than 256 bytes") ∧
      sk.try_hash_sign_with_rng (crypto P) rng s msg ctx ph hedged =
        pure (s, .error "ctx must be less than 256 bytes") ∧
      pk.verify (crypto P) msg sig ctx = (pure false : Exec b _) ∧
      pk.hash_verify (crypto P) msg sig ctx ph = (pure false : Exec b _) := by
  refine ⟨?_, ?_, ?_, ?_⟩
  · rw [exec_try_sign_with_rng, if_pos hc]
  · rw [exec_try_hash_sign_with_rng, if_pos hc]
  · rw [exec_verify, Spec.verify, if_pos hc]
  · rw [exec_hash_verify, Spec.hashVerify, if_pos hc]

example : 255 < (List.replicate 256 (0 : UInt8)).length := by rw [List.length_replicate]; decide

/-- **C04** (converse) Contexts of up to 255 bytes are never refused for their length: deterministic
signing succeeds, and the signature of a generated pair is accepted. -/
theorem C04_short_context_accepted {b : Build} {pk : PublicKey ps.params} {sk : PrivateKey ps.params}
    (hk : Generated P pk sk) (rng : Rng (Exec b) σ) (s : σ) (msg ctx : List UInt8) (ph : Ph)
    (hc : ctx.length ≤ 255) :
    (∃ sig, sk.try_sign_with_rng (crypto P) rng s msg ctx false = pure (s, .ok sig) ∧
      pk.verify (crypto P) msg sig ctx = (pure true : Exec b _)) ∧
    (∃ sig, sk.try_hash_sign_with_rng (crypto P) rng s msg ctx ph false = pure (s, .ok sig) ∧
      pk.hash_verify (crypto P) msg sig ctx ph = (pure true : Exec b _)) := by
  constructor
  · have h : sk.try_sign_with_rng (crypto P) rng s msg ctx false =
        pure (s, .ok (sigVec ps P (Spec.pureMsg ctx msg) sk.key sk.key.pk_seed)) := by
      rw [exec_try_sign_with_rng, if_neg (by omega)]
      exact if_neg (by decide)
    exact ⟨_, h, C01_pure_signatures_verify hk h⟩
  · have h : sk.try_hash_sign_with_rng (crypto P) rng s msg ctx ph false =
        pure (s, .ok (sigVec ps P (phMsg P ctx msg ph) sk.key sk.key.pk_seed)) := by
      rw [exec_try_hash_sign_with_rng, if_neg (by omega)]
      exact if_neg (by decide)
    exact ⟨_, h, C02_prehash_signatures_verify hk h⟩

example : (List.replicate 255 (0 : UInt8)).length ≤ 255 := by rw [List.length_replicate]

/-- What a signing function of key `sk` does for a request with context `ctx`: refuse the context; or
make one draw of `n` bytes (into a buffer holding `PK.seed`), fail if the draw fails, and else succeed;
or, deterministically, make no draw and succeed.  `call` may not panic unless the draw does. -/
def SignsLike {b : Build} (sk : PrivateKey ps.params) (rng : Rng (Exec b) σ) (s : σ)
    (ctx : List UInt8) (hedged : Bool)
    (call : Exec b (σ × Except String (Vector UInt8 ps.params.SIG_LEN))) : Prop :=
  ∃ make : Vector UInt8 ps.params.N → Vector UInt8 ps.params.SIG_LEN,
    call =
      if 255 < ctx.length then pure (s, .error "ctx must be less than 256 bytes")
      else if hedged then do
        match ← rng.tryFill s sk.key.pk_seed with
        | (s', .error _) => pure (s', .error "Alg17: rng failed")
        | (s', .ok rnd) => pure (s', .ok (make rnd))
      else pure (s, .ok (make sk.key.pk_seed))

/-- **C05** Signing fails only for the documented reasons, draws exactly once (hedged) or never
(deterministic), and does not panic.  The key is arbitrary, even inconsistent. -/
theorem C05_signing_outcomes {b : Build} (sk : PrivateKey ps.params) (rng : Rng (Exec b) σ) (s : σ)
    (msg ctx : List UInt8) (ph : Ph) (hedged : Bool) :
    SignsLike sk rng s ctx hedged (sk.try_sign_with_rng (crypto P) rng s msg ctx hedged) ∧
    SignsLike sk rng s ctx hedged (sk.try_hash_sign_with_rng (crypto P) rng s msg ctx ph hedged) := by
  constructor
  · refine ⟨sigVec ps P (Spec.pureMsg ctx msg) sk.key, ?_⟩
    rw [exec_try_sign_with_rng]
    congr 2
    congr 1
    funext ⟨s', r⟩
    cases r <;> rfl
  · refine ⟨sigVec ps P (phMsg P ctx msg ph) sk.key, ?_⟩
    rw [exec_try_hash_sign_with_rng]
    congr 2
    congr 1
    funext ⟨s', r⟩
    cases r <;> rfl

/-- **C05**, for an RNG that does not panic: signing always returns, with an error exactly when the
context is over-long or hedging was requested and the draw failed. -/
theorem C05_error_iff {b : Build} (sk : PrivateKey ps.params) (rng : PureRng σ) (s : σ)
    (msg ctx : List UInt8) (hedged : Bool) :
    ∃ s' r, sk.try_sign_with_rng (crypto P) (rng.lift : Rng (Exec b) σ) s msg ctx hedged =
        pure (s', r) ∧
      ((∃ e, r = .error e) ↔
        255 < ctx.length ∨ hedged = true ∧ ∃ e, (rng.fill s sk.key.pk_seed).2 = .error e) := by
  rw [exec_try_sign_with_rng]
  by_cases hc : 255 < ctx.length
  · rw [if_pos hc]
    exact ⟨_, _, rfl, by simp [hc]⟩
  · rw [if_neg hc]
    cases hedged
    · exact ⟨_, _, rfl, by simp [hc]⟩
    · refine ⟨_, _, rfl, ?_⟩
      cases h : (rng.fill s sk.key.pk_seed).2 <;> simp [hc, signOutcome]

theorem C05_hash_error_iff {b : Build} (sk : PrivateKey ps.params) (rng : PureRng σ) (s : σ)
    (msg ctx : List UInt8) (ph : Ph) (hedged : Bool) :
    ∃ s' r, sk.try_hash_sign_with_rng (crypto P) (rng.lift : Rng (Exec b) σ) s msg ctx ph hedged =
        pure (s', r) ∧
      ((∃ e, r = .error e) ↔
        255 < ctx.length ∨ hedged = true ∧ ∃ e, (rng.fill s sk.key.pk_seed).2 = .error e) := by
  rw [exec_try_hash_sign_with_rng]
  by_cases hc : 255 < ctx.length
  · rw [if_pos hc]
    exact ⟨_, _, rfl, by simp [hc]⟩
  · rw [if_neg hc]
    cases hedged
    · exact ⟨_, _, rfl, by simp [hc]⟩
    · refine ⟨_, _, rfl, ?_⟩
      cases h : (rng.fill s sk.key.pk_seed).2 <;> simp [hc, signOutcome]

/-- **C08** Deterministic signing returns the same result whatever RNG it is given (even one that would
panic), and does not touch that RNG. -/
theorem C08_deterministic_signing (sk : PrivateKey ps.params) (msg ctx : List UInt8)
    (ph : Ph) :
    (∃ r, ∀ (b : Build) (σ : Type) (rng : Rng (Exec b) σ) (s : σ),
      sk.try_sign_with_rng (crypto P) rng s msg ctx false = pure (s, r)) ∧
    (∃ r, ∀ (b : Build) (σ : Type) (rng : Rng (Exec b) σ) (s : σ),
      sk.try_hash_sign_with_rng (crypto P) rng s msg ctx ph false = pure (s, r)) := by
  by_cases hc : 255 < ctx.length
  · refine ⟨⟨.error "ctx must be less than 256 bytes", fun b σ rng s => ?_⟩,
      ⟨.error "ctx must be less than 256 bytes", fun b σ rng s => ?_⟩⟩
    · rw [exec_try_sign_with_rng, if_pos hc]
    · rw [exec_try_hash_sign_with_rng, if_pos hc]
  · refine ⟨⟨.ok (sigVec ps P (Spec.pureMsg ctx msg) sk.key sk.key.pk_seed), fun b σ rng s => ?_⟩,
      ⟨.ok (sigVec ps P (phMsg P ctx msg ph) sk.key sk.key.pk_seed), fun b σ rng s => ?_⟩⟩
    · rw [exec_try_sign_with_rng, if_neg hc]
      exact if_neg (by decide)
    · rw [exec_try_hash_sign_with_rng, if_neg hc]
      exact if_neg (by decide)

/-- **C09** Two hedged calls whose draw gives the same bytes return the same signature. -/
theorem C09_hedged_same_draw {b b' : Build} {τ : Type} {sk : PrivateKey ps.params}
    {msg ctx : List UInt8} {rng : Rng (Exec b) σ} {s s' : σ} {rng' : Rng (Exec b') τ} {t t' : τ}
    {rnd : Vector UInt8 ps.params.N} (h : rng.tryFill s sk.key.pk_seed = pure (s', .ok rnd))
    (h' : rng'.tryFill t sk.key.pk_seed = pure (t', .ok rnd)) (ph : Ph) :
    (∃ r, sk.try_sign_with_rng (crypto P) rng s msg ctx true = pure r ∧
      ∃ r', sk.try_sign_with_rng (crypto P) rng' t msg ctx true = pure r' ∧ r.2 = r'.2) ∧
    (∃ r, sk.try_hash_sign_with_rng (crypto P) rng s msg ctx ph true = pure r ∧
      ∃ r', sk.try_hash_sign_with_rng (crypto P) rng' t msg ctx ph true = pure r' ∧ r.2 = r'.2) := by
  simp only [exec_try_sign_with_rng, exec_try_hash_sign_with_rng, h, h', pure_bind]
  by_cases hc : 255 < ctx.length
  · simp only [if_pos hc]
    exact ⟨⟨_, rfl, _, rfl, rfl⟩, ⟨_, rfl, _, rfl, rfl⟩⟩
  · simp only [if_neg hc]
    exact ⟨⟨_, rfl, _, rfl, rfl⟩, ⟨_, rfl, _, rfl, rfl⟩⟩

example (ps : ParamSet) (b : Build) : ∃ s' rnd, (demoRng.lift : Rng (Exec b) Nat).tryFill 3
    (demoKeys ps).2.key.pk_seed = pure (s', .ok rnd) := ⟨_, _, rfl⟩

/-- **C09** (second part) A hedged call whose draw gives `PK.seed` signs like a deterministic call. -/
theorem C09_hedged_pk_seed {b : Build} {sk : PrivateKey ps.params} {msg ctx : List UInt8}
    {rng : Rng (Exec b) σ} {s s' : σ}
    (h : rng.tryFill s sk.key.pk_seed = pure (s', .ok sk.key.pk_seed)) (ph : Ph) :
    (∃ r, sk.try_sign_with_rng (crypto P) rng s msg ctx true = pure r ∧
      ∃ r', sk.try_sign_with_rng (crypto P) rng s msg ctx false = pure r' ∧ r.2 = r'.2) ∧
    (∃ r, sk.try_hash_sign_with_rng (crypto P) rng s msg ctx ph true = pure r ∧
      ∃ r', sk.try_hash_sign_with_rng (crypto P) rng s msg ctx ph false = pure r' ∧ r.2 = r'.2) := by
  simp only [exec_try_sign_with_rng, exec_try_hash_sign_with_rng, h, pure_bind]
  by_cases hc : 255 < ctx.length
  · simp only [if_pos hc]
    exact ⟨⟨_, rfl, _, rfl, rfl⟩, ⟨_, rfl, _, rfl, rfl⟩⟩
  · simp only [if_neg hc]
    exact ⟨⟨_, rfl, _, rfl, rfl⟩, ⟨_, rfl, _, rfl, rfl⟩⟩

/-- The identity RNG leaves `PK.seed` in the buffer. -/
example (ps : ParamSet) (b : Build) (sk : PrivateKey ps.params) :
    (PureRng.lift ⟨fun s {_} v => (s, .ok v)⟩ : Rng (Exec b) Nat).tryFill 0 sk.key.pk_seed =
      pure (0, .ok sk.key.pk_seed) := rfl

/-- **C10** Verification returns a boolean, the same in every build, on any input: it never panics. -/
theorem C10_verification_total (pk : PublicKey ps.params) (msg ctx : List UInt8) (ph : Ph)
    (sig : Vector UInt8 ps.params.SIG_LEN) :
    (∃ r : Bool, ∀ b : Build, pk.verify (crypto P) msg sig ctx = (pure r : Exec b Bool)) ∧
    (∃ r : Bool, ∀ b : Build, pk.hash_verify (crypto P) msg sig ctx ph = (pure r : Exec b Bool)) :=
  ⟨⟨_, fun _ => exec_verify pk msg sig ctx⟩, ⟨_, fun _ => exec_hash_verify pk msg sig ctx ph⟩⟩

end Fips205.Props
