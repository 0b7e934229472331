import Verif.Props.Encoding
import Verif.Model.Ffi

/-! # The C entry points: C34–C36, C41 -/

namespace Fips205.Props
open Fips205 Fips205.Model

variable {P : Spec.Prims} {σ : Type}

/-- The parameter set behind the C interface. -/
abbrev ffiSet : ParamSet := .slh_dsa_sha2_128f

/-! ## Key generation -/

/-- **C34** A null output pointer gives `NULL_PTR_ERROR`; nothing is written and the RNG is not used. -/
theorem C34_keygen_null {b : Build} (os : Rng (Exec b) σ) (s : σ)
    (pko : Option (Vector UInt8 ffiSet.params.PK_LEN)) (sko : Option (Vector UInt8 ffiSet.params.SK_LEN))
    (h : pko = none ∨ sko = none) :
    slh_dsa_sha2_128f_keygen (crypto P) os s pko sko =
      pure (s, SLH_DSA_NULL_PTR_ERROR, pko, sko) := by
  cases pko <;> cases sko <;> first | rfl | simp at h

/-- **C34** With both pointers present the call reports exactly what key generation did: an error with
both buffers untouched, or success with the two buffers holding the serialised pair. -/
theorem C34_keygen_present {b : Build} (os : Rng (Exec b) σ) (s : σ)
    (pk0 : Vector UInt8 ffiSet.params.PK_LEN) (sk0 : Vector UInt8 ffiSet.params.SK_LEN) :
    (∀ s' e, try_keygen_with_rng ffiSet.params (crypto P) os s = pure (s', .error e) →
      slh_dsa_sha2_128f_keygen (crypto P) os s (some pk0) (some sk0) =
        pure (s', SLH_DSA_KEYGEN_ERROR, some pk0, some sk0)) ∧
    (∀ s' pk sk, try_keygen_with_rng ffiSet.params (crypto P) os s = pure (s', .ok (pk, sk)) →
      ∃ pkb skb, (pk.into_bytes : Exec b _) = pure pkb ∧ (sk.into_bytes : Exec b _) = pure skb ∧
        slh_dsa_sha2_128f_keygen (crypto P) os s (some pk0) (some sk0) =
          pure (s', SLH_DSA_OK, some pkb, some skb)) := by
  constructor
  · intro s' e h
    have h : try_keygen slh_dsa_sha2_128f (crypto P) os s = pure (s', .error e) := h
    simp only [slh_dsa_sha2_128f_keygen, h, pure_bind]
    rfl
  · intro s' pk sk h
    have h : try_keygen slh_dsa_sha2_128f (crypto P) os s = pure (s', .ok (pk, sk)) := h
    obtain ⟨pkb, h1, _⟩ := exec_pk_into_bytes (b := b) (ps := ffiSet) pk
    obtain ⟨skb, h2, _⟩ := exec_sk_into_bytes (b := b) (ps := ffiSet) sk
    refine ⟨pkb, skb, h1, h2, ?_⟩
    have h1 : (PublicKey.into_bytes (p := slh_dsa_sha2_128f) pk : Exec b _) = pure pkb := h1
    have h2 : (PrivateKey.into_bytes (p := slh_dsa_sha2_128f) sk : Exec b _) = pure skb := h2
    simp only [slh_dsa_sha2_128f_keygen, h, h1, h2, pure_bind]
    rfl

example (b : Build) : ∃ s' pk sk, try_keygen_with_rng ffiSet.params (crypto demoPrims)
    (demoRng.lift : Rng (Exec b) Nat) 0 = pure (s', .ok (pk, sk)) := ⟨_, _, _, demo_keygen _ b⟩

example (b : Build) : ∃ s' e, try_keygen_with_rng ffiSet.params (crypto demoPrims)
    (brokenRng.lift : Rng (Exec b) Nat) 0 = pure (s', .error e) := by
  rw [exec_try_keygen_with_rng]
  exact ⟨_, _, rfl⟩

/-- **C34** For any RNG that does not panic the call returns one of three codes; on the two error codes
the outputs are untouched, on success they hold a generated pair. -/
theorem C34_keygen_outcomes (b : Build) (os : PureRng σ) (s : σ)
    (pko : Option (Vector UInt8 ffiSet.params.PK_LEN))
    (sko : Option (Vector UInt8 ffiSet.params.SK_LEN)) :
    ∃ s' code pko' sko', slh_dsa_sha2_128f_keygen (crypto P) (os.lift : Rng (Exec b) σ) s pko sko =
        pure (s', code, pko', sko') ∧
      ((code = SLH_DSA_NULL_PTR_ERROR ∧ (pko = none ∨ sko = none) ∧ pko' = pko ∧ sko' = sko ∧ s' = s) ∨
       (code = SLH_DSA_KEYGEN_ERROR ∧ pko' = pko ∧ sko' = sko) ∨
       (code = SLH_DSA_OK ∧ ∃ (pk : PublicKey ffiSet.params) (sk : PrivateKey ffiSet.params),
          Generated P pk sk ∧ ∃ pkb skb, pko' = some pkb ∧ sko' = some skb ∧
            (pk.into_bytes : Exec b _) = pure pkb ∧ (sk.into_bytes : Exec b _) = pure skb)) := by
  match pko, sko with
  | none, sko => exact ⟨_, _, _, _, C34_keygen_null _ _ _ _ (.inl rfl), .inl ⟨rfl, .inl rfl, rfl, rfl, rfl⟩⟩
  | pko, none => exact ⟨_, _, _, _, C34_keygen_null _ _ _ _ (.inr rfl), .inl ⟨rfl, .inr rfl, rfl, rfl, rfl⟩⟩
  | some pk0, some sk0 =>
    obtain ⟨h1, h2⟩ := C34_keygen_present (P := P) (os.lift : Rng (Exec b) σ) s pk0 sk0
    have htot : ∃ r, try_keygen_with_rng ffiSet.params (crypto P) (os.lift : Rng (Exec b) σ) s =
        pure r := by
      rw [exec_try_keygen_with_rng]
      simp only [PureRng.lift, pure_bind]
      cases (os.fill s (zeroBytes ffiSet.params.N)).2 with
      | error e => exact ⟨_, rfl⟩
      | ok x =>
        dsimp only
        cases (os.fill (os.fill s (zeroBytes ffiSet.params.N)).1 (zeroBytes ffiSet.params.N)).2 with
        | error e => exact ⟨_, rfl⟩
        | ok y =>
          dsimp only
          split <;> exact ⟨_, rfl⟩
    obtain ⟨⟨s', r⟩, hr⟩ := htot
    cases r with
    | error e => exact ⟨_, _, _, _, h1 s' e hr, .inr (.inl ⟨rfl, rfl, rfl⟩)⟩
    | ok kp =>
      obtain ⟨pk, sk⟩ := kp
      obtain ⟨pkb, skb, e1, e2, h⟩ := h2 s' pk sk hr
      exact ⟨_, _, _, _, h, .inr (.inr ⟨rfl, pk, sk, .rng _ _ _ hr, pkb, skb, rfl, rfl, e1, e2⟩)⟩

/-! ## Signing -/

/-- What `slh_dsa_sha2_128f_sign` does when all pointers are present and `message_len` is the length of
a readable prefix `msg` of the message buffer. -/
theorem ffi_sign_eq {b : Build} (os : Rng (Exec b) σ) (s : σ) (buf : List UInt8) (len : Int)
    (h0 : 0 ≤ len) (hlen : len.toNat ≤ buf.length) (hw : len < 2 ^ b.usizeBits)
    (skb : Vector UInt8 ffiSet.params.SK_LEN) (out : Vector UInt8 ffiSet.params.SIG_LEN) :
    slh_dsa_sha2_128f_sign (crypto P) os s (.to buf) len (some skb) (some out) = (do
      match ← PrivateKey.try_from_bytes (p := ffiSet.params) (crypto P) skb with
      | .error _ => pure (.ret (s, SLH_DSA_DESERIALIZATION_ERROR, some out))
      | .ok sk =>
        let d ← sk.try_sign_with_rng (crypto P) os s (buf.take len.toNat) [] true
        match d.2 with
        | .error _ => pure (.ret (d.1, SLH_DSA_SIGN_ERROR, some out))
        | .ok sig => pure (.ret (d.1, SLH_DSA_OK, some sig)) : Exec b _) := by
  have h1 : (usizeFromCInt len : Exec b Nat) = pure len.toNat := by
    rw [usizeFromCInt, if_pos ⟨h0, hw⟩]
  have h2 : fromRawParts (.to buf) len.toNat = .ret (buf.take len.toNat) := by
    rw [fromRawParts]; exact if_pos hlen
  simp only [slh_dsa_sha2_128f_sign, h1, pure_bind, h2]
  rfl

/-- **C35** Signing through C returns `OK` exactly when the key decodes and the (single) draw succeeds;
the buffer then holds the signature the Rust API makes; otherwise the buffer is untouched. -/
theorem C35_sign {b : Build} (os : Rng (Exec b) σ) (s : σ) (buf : List UInt8) (len : Int)
    (h0 : 0 ≤ len) (hlen : len.toNat ≤ buf.length) (hw : len < 2 ^ b.usizeBits)
    (skb : Vector UInt8 ffiSet.params.SK_LEN) (out : Vector UInt8 ffiSet.params.SIG_LEN) :
    (∀ e, (PrivateKey.try_from_bytes (crypto P) skb : Exec b (Except _ (PrivateKey ffiSet.params))) =
        pure (.error e) →
      slh_dsa_sha2_128f_sign (crypto P) os s (.to buf) len (some skb) (some out) =
        pure (.ret (s, SLH_DSA_DESERIALIZATION_ERROR, some out))) ∧
    (∀ sk : PrivateKey ffiSet.params,
      (PrivateKey.try_from_bytes (crypto P) skb : Exec b _) = pure (.ok sk) →
      (∀ s' e, os.tryFill s sk.key.pk_seed = pure (s', .error e) →
        slh_dsa_sha2_128f_sign (crypto P) os s (.to buf) len (some skb) (some out) =
          pure (.ret (s', SLH_DSA_SIGN_ERROR, some out))) ∧
      (∀ s' rnd, os.tryFill s sk.key.pk_seed = pure (s', .ok rnd) →
        ∃ sig, sk.try_sign_with_rng (crypto P) os s (buf.take len.toNat) [] true = pure (s', .ok sig) ∧
          slh_dsa_sha2_128f_sign (crypto P) os s (.to buf) len (some skb) (some out) =
            pure (.ret (s', SLH_DSA_OK, some sig)))) := by
  rw [ffi_sign_eq os s buf len h0 hlen hw]
  refine ⟨fun e h => ?_, fun sk h => ⟨fun s' e hf => ?_, fun s' rnd hf => ?_⟩⟩
  · simp only [h, pure_bind]
  · have : sk.try_sign_with_rng (crypto P) os s (buf.take len.toNat) [] true =
        pure (s', .error "Alg17: rng failed") := by
      rw [exec_try_sign_with_rng, if_neg (by simp), if_pos rfl, hf]
      rfl
    simp only [h, this, pure_bind]
  · have : sk.try_sign_with_rng (crypto P) os s (buf.take len.toNat) [] true = pure (s', .ok
        (sigVec ffiSet P (Spec.pureMsg [] (buf.take len.toNat)) sk.key rnd)) := by
      rw [exec_try_sign_with_rng, if_neg (by simp), if_pos rfl, hf]
      rfl
    exact ⟨_, this, by simp only [h, this, pure_bind]⟩

/-- **C35** A null key, output or message pointer gives `NULL_PTR_ERROR`, with the output untouched and
no use of the RNG, whatever the length. -/
theorem C35_sign_null {b : Build} (os : Rng (Exec b) σ) (s : σ) (buf : Ptr) (len : Int)
    (sko : Option (Vector UInt8 ffiSet.params.SK_LEN))
    (out : Option (Vector UInt8 ffiSet.params.SIG_LEN))
    (h : sko = none ∨ out = none ∨ buf = .null) :
    slh_dsa_sha2_128f_sign (crypto P) os s buf len sko out =
      pure (.ret (s, SLH_DSA_NULL_PTR_ERROR, out)) := by
  cases sko <;> cases out <;> cases buf <;> first | rfl | simp at h

/-- **C35** Whatever the arguments, a signing call that returns a code other than `OK` has not touched
the output buffer. -/
theorem C35_sign_error_untouched {b : Build} {os : Rng (Exec b) σ} {s s' : σ} {buf : Ptr} {len : Int}
    {sko : Option (Vector UInt8 ffiSet.params.SK_LEN)}
    {out out' : Option (Vector UInt8 ffiSet.params.SIG_LEN)} {code : UInt8}
    (hr : slh_dsa_sha2_128f_sign (crypto P) os s buf len sko out = pure (.ret (s', code, out')))
    (hc : code ≠ SLH_DSA_OK) : out' = out := by
  match sko, out, buf with
  | none, _, _ | some _, none, _ | some _, some _, .null =>
    rw [C35_sign_null _ _ _ _ _ _ (by simp)] at hr
    have := Exec.pure_inj hr
    simp only [Ffi.ret.injEq] at this
    exact (congrArg (fun x => x.2.2) this).symm
  | some skb, some out, .to bytes =>
    by_cases h : 0 ≤ len ∧ len < 2 ^ b.usizeBits
    · by_cases hl : len.toNat ≤ bytes.length
      · replace hr := (ffi_sign_eq os s bytes len h.1 hl h.2 skb out).symm.trans hr
        obtain ⟨r, _, h2⟩ := Exec.bind_eq_pure hr
        cases r with
        | error e =>
          have := Exec.pure_inj h2
          simp only [Ffi.ret.injEq] at this
          exact (congrArg (fun x => x.2.2) this).symm
        | ok sk =>
          obtain ⟨⟨s1, r⟩, _, h4⟩ := Exec.bind_eq_pure h2
          cases r with
          | error e =>
            have := Exec.pure_inj h4
            simp only [Ffi.ret.injEq] at this
            exact (congrArg (fun x => x.2.2) this).symm
          | ok sig =>
            have := Exec.pure_inj h4
            simp only [Ffi.ret.injEq] at this
            exact absurd (congrArg (fun x => x.2.1) this).symm hc
      · have h1 : (usizeFromCInt len : Exec b Nat) = pure len.toNat := by
          rw [usizeFromCInt]; exact if_pos h
        simp only [slh_dsa_sha2_128f_sign, h1, pure_bind, fromRawParts, if_neg hl] at hr
        have := Exec.pure_inj hr
        simp at this
    · have h1 : (usizeFromCInt len : Exec b Nat) = panic .unwrap := by
        rw [usizeFromCInt]; exact if_neg h
      simp only [slh_dsa_sha2_128f_sign, h1] at hr
      exact absurd hr Exec.panic_ne_pure

/-! ## Verification -/

theorem ffi_verify_eq {b : Build} (buf : List UInt8) (len : Int) (h0 : 0 ≤ len)
    (hlen : len.toNat ≤ buf.length) (hw : len < 2 ^ b.usizeBits)
    (pkb : Vector UInt8 ffiSet.params.PK_LEN) (sig : Vector UInt8 ffiSet.params.SIG_LEN)
    (pk : PublicKey ffiSet.params)
    (hpk : (PublicKey.try_from_bytes pkb : Exec b _) = pure (.ok pk)) :
    slh_dsa_sha2_128f_verify (crypto P) (.to buf) len (some pkb) (some sig) = (do
      let r ← pk.verify (crypto P) (buf.take len.toNat) sig []
      if r then pure (.ret SLH_DSA_OK) else pure (.ret SLH_DSA_VERIFY_ERROR) : Exec b _) := by
  have h1 : (usizeFromCInt len : Exec b Nat) = pure len.toNat := by
    rw [usizeFromCInt, if_pos ⟨h0, hw⟩]
  have h2 : fromRawParts (.to buf) len.toNat = .ret (buf.take len.toNat) := by
    rw [fromRawParts]; exact if_pos hlen
  have hpk : (PublicKey.try_from_bytes (p := slh_dsa_sha2_128f) pkb : Exec b _) = pure (.ok pk) := hpk
  simp only [slh_dsa_sha2_128f_verify, h1, pure_bind, h2, hpk]
  rfl

/-- **C35** Verification through C returns `OK` exactly when the Rust API accepts with an empty context,
and else `VERIFY_ERROR`; the public key always decodes. -/
theorem C35_verify {b : Build} (buf : List UInt8) (len : Int) (h0 : 0 ≤ len)
    (hlen : len.toNat ≤ buf.length) (hw : len < 2 ^ b.usizeBits)
    (pkb : Vector UInt8 ffiSet.params.PK_LEN) (sig : Vector UInt8 ffiSet.params.SIG_LEN) :
    ∃ pk : PublicKey ffiSet.params, ∃ r : Bool,
      (PublicKey.try_from_bytes pkb : Exec b _) = pure (.ok pk) ∧
      (pk.verify (crypto P) (buf.take len.toNat) sig [] : Exec b _) = pure r ∧
      slh_dsa_sha2_128f_verify (crypto P) (.to buf) len (some pkb) (some sig) =
        (pure (.ret (if r then SLH_DSA_OK else SLH_DSA_VERIFY_ERROR)) : Exec b _) := by
  obtain ⟨pk, h⟩ := C11_public_key_decode_encode (ps := ffiSet) pkb
  refine ⟨pk, _, (h b).1, exec_verify _ _ _ _, ?_⟩
  rw [ffi_verify_eq buf len h0 hlen hw pkb sig pk (h b).1, exec_verify, pure_bind]
  split <;> rfl

/-- **C35** A signature made through C verifies through C: under the public key whose bytes are the
second half of the private key's. -/
theorem C35_sign_then_verify {b b' : Build} {os : Rng (Exec b) σ} {s s' : σ} {buf : List UInt8}
    {len : Int} (h0 : 0 ≤ len) (hlen : len.toNat ≤ buf.length) (hw : len < 2 ^ b.usizeBits)
    (hw' : len < 2 ^ b'.usizeBits) {skb : Vector UInt8 ffiSet.params.SK_LEN}
    {pkb : Vector UInt8 ffiSet.params.PK_LEN} (hpk : pkb.toList = skb.toList.drop 32)
    {out : Vector UInt8 ffiSet.params.SIG_LEN}
    {out' : Option (Vector UInt8 ffiSet.params.SIG_LEN)}
    (hs : slh_dsa_sha2_128f_sign (crypto P) os s (.to buf) len (some skb) (some out) =
      pure (.ret (s', SLH_DSA_OK, out'))) :
    slh_dsa_sha2_128f_verify (crypto P) (.to buf) len (some pkb) out' =
      (pure (.ret SLH_DSA_OK) : Exec b' _) := by
  rw [ffi_sign_eq os s buf len h0 hlen hw] at hs
  obtain ⟨r, h1, h2⟩ := Exec.bind_eq_pure hs
  cases r with
  | error e =>
    have := Exec.pure_inj h2
    simp only [Ffi.ret.injEq] at this
    exact absurd (show SLH_DSA_DESERIALIZATION_ERROR = SLH_DSA_OK from congrArg (·.2.1) this)
      (by decide)
  | ok sk =>
    obtain ⟨⟨s1, r⟩, h3, h4⟩ := Exec.bind_eq_pure h2
    cases r with
    | error e =>
      have := Exec.pure_inj h4
      simp only [Ffi.ret.injEq] at this
      exact absurd (show SLH_DSA_SIGN_ERROR = SLH_DSA_OK from congrArg (·.2.1) this) (by decide)
    | ok sig =>
      have := Exec.pure_inj h4
      simp only [Ffi.ret.injEq, Prod.mk.injEq] at this
      obtain ⟨rfl, _, rfl⟩ := this
      obtain ⟨pk, h⟩ := C11_public_key_decode_encode (ps := ffiSet) pkb
      have hpk' : pk = sk.get_public_key := by
        obtain ⟨_, he⟩ := try_from_bytes_ok (ps := ffiSet) h1
        obtain ⟨v, hv1, hv2⟩ := exec_pk_into_bytes (b := b) pk
        have := Exec.pure_inj (hv1.symm.trans (h b).2)
        subst this
        apply PublicKey.encode_inj
        rw [← hv2, hpk, ← he, Spec.encodeSK, List.append_assoc]
        exact List.drop_left' (by simp [ParamSet.params, slh_dsa_sha2_128f])
      subst hpk'
      rw [ffi_verify_eq buf len h0 hlen hw' pkb sig _ (h b').1,
        ((C03_decoded_key_signs h1) b b' σ os s s1 _ _ true sig).1 h3]
      rfl

/-- The hypotheses are met: a key pair made and a message signed through C. -/
example (b : Build) (out : Vector UInt8 ffiSet.params.SIG_LEN) :
    ∃ (pkb : Vector UInt8 ffiSet.params.PK_LEN) (skb : Vector UInt8 ffiSet.params.SK_LEN),
      pkb.toList = skb.toList.drop 32 ∧ ∃ s' out',
      slh_dsa_sha2_128f_sign (crypto demoPrims) (demoRng.lift : Rng (Exec b) Nat) 0 (.to [1, 2, 3]) 2
        (some skb) (some out) = pure (.ret (s', SLH_DSA_OK, out')) := by
  obtain ⟨skb, pkb, h1, h2⟩ := C15_public_key_bytes (demoKeys ffiSet).2
  refine ⟨pkb, skb, h2, ?_⟩
  obtain ⟨v, hv⟩ := C12_generated_key_roundtrip (demo_generated ffiSet)
  have e := Exec.pure_inj ((hv b).1.symm.trans (h1 b).1)
  subst e
  have hw : (2 : Int) < 2 ^ b.usizeBits := by
    have h16 := b.usizeBits_ge
    have : (2 : Int) ^ 16 ≤ 2 ^ b.usizeBits := pow_le_pow_right₀ (by decide) h16
    omega
  obtain ⟨sig, _, h⟩ := ((C35_sign (P := demoPrims) (demoRng.lift : Rng (Exec b) Nat) 0 [1, 2, 3] 2
    (by decide) (by decide) hw v out).2 _ (hv b).2).2 _ _ rfl
  exact ⟨_, _, h⟩

/-! ## Null pointers and negative lengths -/

/-- **C36** (the part that holds) Key generation and signing return an error code for every combination
of null pointers (for signing: whatever the length); verification does so for a null key or signature
pointer.  What is missing from C36: `C36_verify_null_message_is_ub` and `C36_negative_length_aborts`
refute it for the other arguments. -/
theorem C36_null_pointers_partial {b : Build} (os : Rng (Exec b) σ) (s : σ) (buf : Ptr) (len : Int)
    (pko : Option (Vector UInt8 ffiSet.params.PK_LEN)) (sko : Option (Vector UInt8 ffiSet.params.SK_LEN))
    (out : Option (Vector UInt8 ffiSet.params.SIG_LEN)) :
    (pko = none ∨ sko = none → slh_dsa_sha2_128f_keygen (crypto P) os s pko sko =
      pure (s, SLH_DSA_NULL_PTR_ERROR, pko, sko)) ∧
    (sko = none ∨ out = none ∨ buf = .null → slh_dsa_sha2_128f_sign (crypto P) os s buf len sko out =
      pure (.ret (s, SLH_DSA_NULL_PTR_ERROR, out))) ∧
    (pko = none ∨ out = none → slh_dsa_sha2_128f_verify (crypto P) buf len pko out =
      (pure (.ret SLH_DSA_NULL_PTR_ERROR) : Exec b _)) := by
  refine ⟨C34_keygen_null _ _ _ _, C35_sign_null _ _ _ _ _ _, fun h => ?_⟩
  cases pko <;> cases out <;> first | rfl | simp at h

/-- **C36 is refuted**: verification checks the key and signature pointers but not the message pointer;
with a null message pointer and any length it may legally receive (even 0) the behaviour is undefined. -/
theorem C36_verify_null_message_is_ub {b : Build} (len : Int) (h0 : 0 ≤ len)
    (hw : len < 2 ^ b.usizeBits) (pkb : Vector UInt8 ffiSet.params.PK_LEN)
    (sig : Vector UInt8 ffiSet.params.SIG_LEN) :
    slh_dsa_sha2_128f_verify (crypto P) .null len (some pkb) (some sig) =
      (pure .ub : Exec b (Ffi UInt8)) := by
  have h1 : (usizeFromCInt len : Exec b Nat) = pure len.toNat := by
    rw [usizeFromCInt, if_pos ⟨h0, hw⟩]
  simp only [slh_dsa_sha2_128f_verify, h1, pure_bind]
  rfl

example (b : Build) : (0 : Int) ≤ 0 ∧ (0 : Int) < 2 ^ b.usizeBits := ⟨le_refl _, by positivity⟩

/-- **C36 is refuted**: a negative length makes both signing and verification panic, which aborts the
process (an `extern "C"` function cannot unwind), instead of returning an error code. -/
theorem C36_negative_length_aborts {b : Build} (os : Rng (Exec b) σ) (s : σ) (buf : List UInt8)
    (len : Int) (h : len < 0) (skb : Vector UInt8 ffiSet.params.SK_LEN)
    (out : Vector UInt8 ffiSet.params.SIG_LEN) (mbuf : Ptr) (pkb : Vector UInt8 ffiSet.params.PK_LEN)
    (sig : Vector UInt8 ffiSet.params.SIG_LEN) :
    slh_dsa_sha2_128f_sign (crypto P) os s (.to buf) len (some skb) (some out) = panic .unwrap ∧
    slh_dsa_sha2_128f_verify (crypto P) mbuf len (some pkb) (some sig) =
      (panic .unwrap : Exec b (Ffi UInt8)) := by
  have h1 : (usizeFromCInt len : Exec b Nat) = panic .unwrap := by
    rw [usizeFromCInt, if_neg (by omega)]
  constructor
  · simp only [slh_dsa_sha2_128f_sign, h1]; rfl
  · simp only [slh_dsa_sha2_128f_verify, h1]; rfl

example : (-1 : Int) < 0 := by decide

/-- **C41** The C verification on all arguments: it is undefined behaviour exactly when key and
signature are present, the length is acceptable and the message pointer does not point to that many
bytes (null included); it aborts exactly when key and signature are present and the length is negative
(or does not fit `usize`); otherwise it returns a code. -/
theorem C41_verify_characterised {b : Build} (mbuf : Ptr) (len : Int)
    (pko : Option (Vector UInt8 ffiSet.params.PK_LEN))
    (sigo : Option (Vector UInt8 ffiSet.params.SIG_LEN)) :
    let r : Exec b (Ffi UInt8) := slh_dsa_sha2_128f_verify (crypto P) mbuf len pko sigo
    let present := pko ≠ none ∧ sigo ≠ none
    let fits := 0 ≤ len ∧ len < 2 ^ b.usizeBits
    let readable := ∃ bytes, mbuf = .to bytes ∧ len.toNat ≤ bytes.length
    ((¬ present) → r = pure (.ret SLH_DSA_NULL_PTR_ERROR)) ∧
    (present → ¬ fits → r = panic .unwrap) ∧
    (present → fits → ¬ readable → r = pure .ub) ∧
    (present → fits → readable → ∃ code, (code = SLH_DSA_OK ∨ code = SLH_DSA_VERIFY_ERROR) ∧
      r = pure (.ret code)) := by
  dsimp only
  match pko, sigo with
  | none, sigo =>
    refine ⟨fun _ => rfl, fun h => ?_, fun h => ?_, fun h => ?_⟩ <;> simp at h
  | some pkb, none =>
    refine ⟨fun _ => rfl, fun h => ?_, fun h => ?_, fun h => ?_⟩ <;> simp at h
  | some pkb, some sig =>
    refine ⟨fun h => by simp at h, fun _ h => ?_, fun _ h hr => ?_, fun _ h hr => ?_⟩
    · have h1 : (usizeFromCInt len : Exec b Nat) = panic .unwrap := by
        rw [usizeFromCInt]
        exact if_neg h
      simp only [slh_dsa_sha2_128f_verify, h1]; rfl
    · have h1 : (usizeFromCInt len : Exec b Nat) = pure len.toNat := by
        rw [usizeFromCInt]
        exact if_pos h
      simp only [slh_dsa_sha2_128f_verify, h1, pure_bind]
      cases mbuf with
      | null => rfl
      | «to» bytes =>
        have : ¬ len.toNat ≤ bytes.length := fun hl => hr ⟨bytes, rfl, hl⟩
        have hl : ∀ e, (leak e : Exec b Unit) = pure () := fun _ => rfl
        simp only [fromRawParts, if_neg this, hl, pure_bind]
    · obtain ⟨bytes, rfl, hl⟩ := hr
      obtain ⟨pk, r, _, _, h3⟩ := C35_verify (P := P) bytes len h.1 hl h.2 pkb sig
      refine ⟨_, ?_, h3⟩
      cases r
      · exact .inr rfl
      · exact .inl rfl

/-- **C41** The C signing on all arguments, with an RNG that does not panic. -/
theorem C41_sign_characterised {b : Build} (os : PureRng σ) (s : σ) (mbuf : Ptr) (len : Int)
    (sko : Option (Vector UInt8 ffiSet.params.SK_LEN))
    (out : Option (Vector UInt8 ffiSet.params.SIG_LEN)) :
    let r := slh_dsa_sha2_128f_sign (crypto P) (os.lift : Rng (Exec b) σ) s mbuf len sko out
    let present := sko ≠ none ∧ out ≠ none ∧ mbuf ≠ .null
    let fits := 0 ≤ len ∧ len < 2 ^ b.usizeBits
    let readable := ∃ bytes, mbuf = .to bytes ∧ len.toNat ≤ bytes.length
    ((¬ present) → r = pure (.ret (s, SLH_DSA_NULL_PTR_ERROR, out))) ∧
    (present → ¬ fits → r = panic .unwrap) ∧
    (present → fits → ¬ readable → r = pure .ub) ∧
    (present → fits → readable → ∃ s' code out',
      (code = SLH_DSA_OK ∨ code = SLH_DSA_DESERIALIZATION_ERROR ∨ code = SLH_DSA_SIGN_ERROR) ∧
      r = pure (.ret (s', code, out'))) := by
  dsimp only
  match sko, out, mbuf with
  | none, out, mbuf =>
    exact ⟨fun _ => C35_sign_null _ _ _ _ _ _ (.inl rfl), fun h => by simp at h,
      fun h => by simp at h, fun h => by simp at h⟩
  | some _, none, mbuf =>
    exact ⟨fun _ => C35_sign_null _ _ _ _ _ _ (.inr (.inl rfl)), fun h => by simp at h,
      fun h => by simp at h, fun h => by simp at h⟩
  | some _, some _, .null =>
    exact ⟨fun _ => C35_sign_null _ _ _ _ _ _ (.inr (.inr rfl)), fun h => by simp at h,
      fun h => by simp at h, fun h => by simp at h⟩
  | some skb, some out, .to bytes =>
    refine ⟨fun h => by simp at h, fun _ h => ?_, fun _ h hr => ?_, fun _ h hr => ?_⟩
    · have h1 : (usizeFromCInt len : Exec b Nat) = panic .unwrap := by
        rw [usizeFromCInt]
        exact if_neg h
      simp only [slh_dsa_sha2_128f_sign, h1]; rfl
    · have h1 : (usizeFromCInt len : Exec b Nat) = pure len.toNat := by
        rw [usizeFromCInt]
        exact if_pos h
      have : ¬ len.toNat ≤ bytes.length := fun hl => hr ⟨bytes, rfl, hl⟩
      have hl : ∀ e, (leak e : Exec b Unit) = pure () := fun _ => rfl
      simp only [slh_dsa_sha2_128f_sign, h1, hl, pure_bind, fromRawParts, if_neg this]
    · obtain ⟨bytes', he, hl⟩ := hr
      cases he
      obtain ⟨h1, h2⟩ := C35_sign (P := P) (os.lift : Rng (Exec b) σ) s bytes len h.1 hl h.2 skb out
      obtain ⟨sk, _, hk⟩ := exec_sk_try_from_bytes (b := b) (P := P) (ps := ffiSet) skb
      split at hk
      · obtain ⟨h3, h4⟩ := h2 sk hk
        rcases hd : os.fill s sk.key.pk_seed with ⟨s', e | rnd⟩
        · exact ⟨_, _, _, .inr (.inr rfl), h3 s' e (by rw [← hd]; rfl)⟩
        · obtain ⟨sig, _, h5⟩ := h4 s' rnd (by rw [← hd]; rfl)
          exact ⟨_, _, _, .inl rfl, h5⟩
      · exact ⟨_, _, _, .inr (.inl rfl), h1 _ hk⟩

end Fips205.Props
