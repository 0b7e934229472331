import Verif.Props.Clients

/-! # The Python wrapper: C52 -/

namespace Fips205.Props
open Fips205 Fips205.Model

variable {P : Spec.Prims} {σ : Type}


/-! ## Codes -/

/-- **C34** **C52** The codes of the library are those of the C header and of the Python class, and no two of them are
the same: a caller can tell what happened. -/
theorem C34_codes :
    (⟨SLH_DSA_OK, SLH_DSA_NULL_PTR_ERROR, SLH_DSA_SERIALIZATION_ERROR, SLH_DSA_DESERIALIZATION_ERROR,
      SLH_DSA_KEYGEN_ERROR, SLH_DSA_SIGN_ERROR, SLH_DSA_VERIFY_ERROR⟩ : ErrCodes) = headerErr ∧ pyErr = headerErr ∧
    [SLH_DSA_OK, SLH_DSA_NULL_PTR_ERROR, SLH_DSA_SERIALIZATION_ERROR, SLH_DSA_DESERIALIZATION_ERROR,
      SLH_DSA_KEYGEN_ERROR, SLH_DSA_SIGN_ERROR, SLH_DSA_VERIFY_ERROR].Nodup := by
  decide


theorem ctypesInt_nonneg {n : Nat} (h : n % 2 ^ 32 < 2 ^ 31) : ctypesInt n = ((n % 2 ^ 32 : Nat) : Int) := by
  rw [ctypesInt, if_pos h]

theorem ctypesInt_neg {n : Nat} (h : 2 ^ 31 ≤ n % 2 ^ 32) : ctypesInt n < 0 := by
  rw [ctypesInt, if_neg (by omega)]
  have := Nat.mod_lt n (show 2 ^ 32 > 0 by decide)
  omega

/-- The bytes of the key objects, as arguments of the Rust functions. -/
def _root_.Fips205.Model.PyPublicKey.rust (k : PyPublicKey) : Vector UInt8 ffiSet.params.PK_LEN := k.key
@[inherit_doc PyPublicKey.rust]
def _root_.Fips205.Model.PyPrivateKey.rust (k : PyPrivateKey) : Vector UInt8 ffiSet.params.SK_LEN := k.key

/-- **C52** Key objects can be made from byte strings of the right length only, and give the bytes back. -/
theorem C52_py_key_objects (data : List UInt8) :
    (data.length = 32 → ∃ k, PyPublicKey.init data = .ret k ∧ k.bytes = data) ∧
    (data.length ≠ 32 → ∃ e, PyPublicKey.init data = .raise e) ∧
    (data.length = 64 → ∃ k, PyPrivateKey.init data = .ret k ∧ k.bytes = data) ∧
    (data.length ≠ 64 → ∃ e, PyPrivateKey.init data = .raise e) :=
  ⟨fun h => ⟨_, dif_pos h, by simp [PyPublicKey.bytes, Vector.toList]⟩, fun h => ⟨_, dif_neg h⟩,
    fun h => ⟨_, dif_pos h, by simp [PyPrivateKey.bytes, Vector.toList]⟩, fun h => ⟨_, dif_neg h⟩⟩

/-- **C52** `keygen` raises if key generation fails, and else gives two objects with the serialised
generated pair. -/
theorem C52_py_keygen (b : Build) (os : PureRng σ) (s : σ) :
    (∃ s' e msg, try_keygen_with_rng ffiSet.params (crypto P) (os.lift : Rng (Exec b) σ) s =
        pure (s', .error e) ∧ py_keygen (crypto P) (os.lift : Rng (Exec b) σ) s = pure (.raise msg)) ∨
    (∃ s' k k', ∃ (pk : PublicKey ffiSet.params) (sk : PrivateKey ffiSet.params),
      py_keygen (crypto P) (os.lift : Rng (Exec b) σ) s = pure (.ret (s', k, k')) ∧
      try_keygen_with_rng ffiSet.params (crypto P) (os.lift : Rng (Exec b) σ) s = pure (s', .ok (pk, sk)) ∧
      (∃ pkb, (pk.into_bytes : Exec b _) = pure pkb ∧ k.bytes = pkb.toList) ∧
      ∃ skb, (sk.into_bytes : Exec b _) = pure skb ∧ k'.bytes = skb.toList) := by
  obtain ⟨⟨s', r⟩, hr⟩ := Total.keygen (P := P) ffiSet b os s
  obtain ⟨h1, h2⟩ := C34_keygen_present (P := P) (os.lift : Rng (Exec b) σ) s
    (Vector.replicate PY_PK_LEN 0) (Vector.replicate PY_SK_LEN 0)
  cases r with
  | error e =>
    have h1 : slh_dsa_sha2_128f_keygen (crypto P) (os.lift : Rng (Exec b) σ) s
      (some (Vector.replicate PY_PK_LEN 0)) (some (Vector.replicate PY_SK_LEN 0)) = _ := h1 _ _ hr
    refine .inl ⟨s', e, s!"slh_dsa_sha2_128f_keygen() returned {SLH_DSA_KEYGEN_ERROR}", hr, ?_⟩
    rw [py_keygen, h1]
    rfl
  | ok kp =>
    obtain ⟨pk, sk⟩ := kp
    obtain ⟨(pkb : Vector UInt8 slh_dsa_sha2_128f.PK_LEN), (skb : Vector UInt8 slh_dsa_sha2_128f.SK_LEN),
      e1, e2, h2⟩ := h2 _ _ _ hr
    have h2 : slh_dsa_sha2_128f_keygen (crypto P) (os.lift : Rng (Exec b) σ) s
      (some (Vector.replicate PY_PK_LEN 0)) (some (Vector.replicate PY_SK_LEN 0)) =
        pure (s', SLH_DSA_OK, some pkb, some skb) := h2
    refine .inr ⟨s', ⟨pkb⟩, ⟨skb⟩, pk, sk, ?_, hr, ⟨pkb, e1, rfl⟩, skb, e2, rfl⟩
    rw [py_keygen, h2]
    have hp : PyPublicKey.init pkb.toList = .ret ⟨pkb⟩ := by
      rw [PyPublicKey.init, dif_pos (show pkb.toList.length = PY_PK_LEN from Vector.length_toList)]
      rfl
    have hs : PyPrivateKey.init skb.toList = .ret ⟨skb⟩ := by
      rw [PyPrivateKey.init, dif_pos (show skb.toList.length = PY_SK_LEN from Vector.length_toList)]
      rfl
    have hp : PyPublicKey.init ((some pkb).getD (Vector.replicate PY_PK_LEN 0)).toList = .ret ⟨pkb⟩ := hp
    have hs : PyPrivateKey.init ((some skb).getD (Vector.replicate PY_SK_LEN 0)).toList = .ret ⟨skb⟩ := hs
    simp only [pure_bind, ne_eq, show SLH_DSA_OK = pyErr.ok from rfl, not_true, if_false]
    rw [hp, hs]

/-- **C52** `verify` raises for signatures of another length. -/
theorem C52_py_verify_length {b : Build} (k : PyPublicKey) (message signature : List UInt8)
    (h : signature.length ≠ 17088) :
    k.verify (crypto P) message signature = (pure (.raise "Inconsistent signature source/length") :
      Exec b (Py Bool)) := dif_neg h

/-- What `verify` does if the length survives the conversion to a C `int` as a number that is not
negative. -/
theorem py_verify_eq {b : Build} (k : PyPublicKey) (message signature : List UInt8)
    (h : signature.length = 17088) (hm : message.length % 2 ^ 32 < 2 ^ 31)
    (hw : message.length % 2 ^ 32 < 2 ^ b.usizeBits) :
    ∃ (pk : PublicKey ffiSet.params) (r : Bool),
      (∀ b' : Build, (PublicKey.try_from_bytes k.rust : Exec b' _) = pure (.ok pk)) ∧
      (pk.verify (crypto P) (message.take (message.length % 2 ^ 32)) ⟨signature.toArray, h⟩ [] :
        Exec b _) = pure r ∧
      k.verify (crypto P) message signature = (pure (.ret r) : Exec b _) := by
  obtain ⟨pk, r, h1, h2, h3⟩ := C35_verify (P := P) (b := b) message (ctypesInt message.length)
    (by rw [ctypesInt_nonneg hm]; omega)
    (by rw [ctypesInt_nonneg hm, Int.toNat_natCast]; exact Nat.mod_le _ _)
    (by rw [ctypesInt_nonneg hm]; exact_mod_cast hw) k.key ⟨signature.toArray, h⟩
  rw [ctypesInt_nonneg hm, Int.toNat_natCast] at h2
  refine ⟨pk, r, ?_, h2, ?_⟩
  · obtain ⟨pk', h'⟩ := C11_public_key_decode_encode k.rust
    cases Exec.pure_inj ((h' b).1.symm.trans h1)
    exact fun b' => (h' b').1
  · have h3 : (slh_dsa_sha2_128f_verify (crypto P) (.to message) (ctypesInt message.length) (some k.key)
      (some ⟨signature.toArray, h⟩) : Exec b _) = _ := h3
    rw [PyPublicKey.verify, dif_pos (show signature.length = PY_SIG_LEN from h), h3]
    cases r <;> rfl

/-- **C52** For messages of less than `2^31` bytes `verify` answers what the Rust API answers with an empty
context. -/
theorem C52_py_verify {b : Build} (k : PyPublicKey) (message signature : List UInt8)
    (h : signature.length = 17088) (hm : message.length < 2 ^ 31) (hw : message.length < 2 ^ b.usizeBits) :
    ∃ (pk : PublicKey ffiSet.params) (r : Bool),
      (∀ b' : Build, (PublicKey.try_from_bytes k.rust : Exec b' _) = pure (.ok pk)) ∧
      (pk.verify (crypto P) message ⟨signature.toArray, h⟩ [] : Exec b _) = pure r ∧
      k.verify (crypto P) message signature = (pure (.ret r) : Exec b _) := by
  have e : message.length % 2 ^ 32 = message.length := Nat.mod_eq_of_lt (by omega)
  obtain ⟨pk, r, h1, h2, h3⟩ := py_verify_eq (P := P) (b := b) k message signature h (by rw [e]; exact hm)
    (by rw [e]; exact hw)
  rw [e, List.take_length] at h2
  exact ⟨pk, r, h1, h2, h3⟩

/-- What `sign` does if the length survives the conversion to a C `int` as a number that is not negative. -/
theorem py_sign_eq {b : Build} (os : Rng (Exec b) σ) (s : σ) (k : PyPrivateKey) (message : List UInt8)
    (hm : message.length % 2 ^ 32 < 2 ^ 31) (hw : message.length % 2 ^ 32 < 2 ^ b.usizeBits) :
    k.sign (crypto P) os s message = (do
      match ← PrivateKey.try_from_bytes (crypto P) k.rust with
      | .error _ => pure (.raise "slh_dsa_sha2_128f_sign() returned 3")
      | .ok sk =>
        let d ← sk.try_sign_with_rng (crypto P) os s (message.take (message.length % 2 ^ 32)) [] true
        match d.2 with
        | .error _ => pure (.raise "slh_dsa_sha2_128f_sign() returned 5")
        | .ok sig => pure (.ret (d.1, sig.toList)) : Exec b _) := by
  have h := ffi_sign_eq (P := P) os s message (ctypesInt message.length)
    (by rw [ctypesInt_nonneg hm]; omega)
    (by rw [ctypesInt_nonneg hm, Int.toNat_natCast]; exact Nat.mod_le _ _)
    (by rw [ctypesInt_nonneg hm]; exact_mod_cast hw) k.key (Vector.replicate PY_SIG_LEN 0)
  have h : slh_dsa_sha2_128f_sign (crypto P) os s (.to message) (ctypesInt message.length) (some k.key)
    (some (Vector.replicate PY_SIG_LEN 0)) = _ := h
  have e : (ctypesInt message.length).toNat = message.length % 2 ^ 32 := by
    rw [ctypesInt_nonneg hm, Int.toNat_natCast]
  rw [PyPrivateKey.sign, h, e, bind_assoc]
  refine congrArg _ (funext fun r => ?_)
  cases r with
  | error e => rfl
  | ok sk =>
    dsimp only
    rw [bind_assoc]
    refine congrArg _ (funext fun d => ?_)
    obtain ⟨s', d⟩ := d
    cases d with
    | error e => rfl
    | ok sig => rfl

/-- **C52** For messages of less than `2^31` bytes `sign` raises exactly when the key does not decode or the
RNG fails, and else gives the hedged signature the Rust API makes with an empty context. -/
theorem C52_py_sign {b : Build} (os : Rng (Exec b) σ) (s : σ) (k : PyPrivateKey) (message : List UInt8)
    (hm : message.length < 2 ^ 31) (hw : message.length < 2 ^ b.usizeBits) :
    (∀ e, (PrivateKey.try_from_bytes (crypto P) k.rust : Exec b (Except _ (PrivateKey ffiSet.params))) =
        pure (.error e) →
      k.sign (crypto P) os s message = pure (.raise "slh_dsa_sha2_128f_sign() returned 3")) ∧
    (∀ sk : PrivateKey ffiSet.params,
      (PrivateKey.try_from_bytes (crypto P) k.rust : Exec b _) = pure (.ok sk) →
      (∀ s' e, os.tryFill s sk.key.pk_seed = pure (s', .error e) →
        k.sign (crypto P) os s message = pure (.raise "slh_dsa_sha2_128f_sign() returned 5")) ∧
      (∀ s' rnd, os.tryFill s sk.key.pk_seed = pure (s', .ok rnd) →
        ∃ sig, sk.try_sign_with_rng (crypto P) os s message [] true = pure (s', .ok sig) ∧
          k.sign (crypto P) os s message = pure (.ret (s', sig.toList)))) := by
  have e : message.length % 2 ^ 32 = message.length := Nat.mod_eq_of_lt (by omega)
  rw [py_sign_eq os s k message (by rw [e]; exact hm) (by rw [e]; exact hw), e, List.take_length]
  refine ⟨fun e h => ?_, fun sk h => ⟨fun s' e hf => ?_, fun s' rnd hf => ?_⟩⟩
  · simp only [h, pure_bind]
  · have : sk.try_sign_with_rng (crypto P) os s message [] true = pure (s', .error "Alg17: rng failed") := by
      rw [exec_try_sign_with_rng, if_neg (by simp), if_pos rfl, hf]
      rfl
    simp only [h, this, pure_bind]
  · have : sk.try_sign_with_rng (crypto P) os s message [] true = pure (s', .ok
        (sigVec ffiSet P (Spec.pureMsg [] message) sk.key rnd)) := by
      rw [exec_try_sign_with_rng, if_neg (by simp), if_pos rfl, hf]
      rfl
    exact ⟨_, this, by simp only [h, this, pure_bind]⟩

/-- **C52** What `sign` returns `verify` accepts, in every build where the length fits `usize`, under the
public key whose bytes are the second half of the private key's. -/
theorem C52_py_sign_then_verify {b b' : Build} {os : Rng (Exec b) σ} {s s' : σ} {k : PyPrivateKey}
    {k' : PyPublicKey} (hk : k'.bytes = k.bytes.drop 32) {message signature : List UInt8}
    (hm : message.length % 2 ^ 32 < 2 ^ 31) (hw : message.length % 2 ^ 32 < 2 ^ b.usizeBits)
    (hw' : message.length % 2 ^ 32 < 2 ^ b'.usizeBits)
    (hs : k.sign (crypto P) os s message = pure (.ret (s', signature))) :
    k'.verify (crypto P) message signature = (pure (.ret true) : Exec b' _) := by
  rw [py_sign_eq os s k message hm hw] at hs
  obtain ⟨r, h1, h2⟩ := Exec.bind_eq_pure hs
  cases r with
  | error e => cases Exec.pure_inj h2
  | ok sk =>
    obtain ⟨⟨s1, r⟩, h3, h4⟩ := Exec.bind_eq_pure h2
    cases r with
    | error e => cases Exec.pure_inj h4
    | ok sig =>
      cases Exec.pure_inj h4
      have hl : sig.toList.length = 17088 := Vector.length_toList
      obtain ⟨pk, r, g1, g2, g3⟩ := py_verify_eq (P := P) (b := b') k' message sig.toList hl hm hw'
      have hpk : pk = sk.get_public_key := by
        obtain ⟨_, he⟩ := try_from_bytes_ok (ps := ffiSet) h1
        obtain ⟨pk', h'⟩ := C11_public_key_decode_encode k'.rust
        cases Exec.pure_inj ((h' b).1.symm.trans (g1 b))
        obtain ⟨v, hv1, hv2⟩ := exec_pk_into_bytes (b := b) (ps := ffiSet) pk
        cases Exec.pure_inj (hv1.symm.trans (h' b).2)
        apply PublicKey.encode_inj
        refine hv2.symm.trans (hk.trans ?_)
        rw [show k.bytes = k.rust.toList from rfl, ← he, Spec.encodeSK, List.append_assoc]
        exact List.drop_left' (by simp [ParamSet.params, slh_dsa_sha2_128f])
      subst hpk
      have hsig : (⟨sig.toList.toArray, hl⟩ : Vector UInt8 ffiSet.params.SIG_LEN) = sig := rfl
      rw [hsig, ((C03_decoded_key_signs h1) b b' σ os s s1 _ _ true sig).1 h3] at g2
      rw [g3, ← Exec.pure_inj g2]

/-- **C52 (limit)** If the length of the message modulo `2^32` is `2^31` or more, the process is aborted:
the length reaches C as a negative number. -/
theorem C52_py_aborts {b : Build} (os : Rng (Exec b) σ) (s : σ) (k : PyPrivateKey) (k' : PyPublicKey)
    (message signature : List UInt8) (hm : 2 ^ 31 ≤ message.length % 2 ^ 32)
    (h : signature.length = 17088) :
    k.sign (crypto P) os s message = panic .unwrap ∧
    k'.verify (crypto P) message signature = (panic .unwrap : Exec b _) := by
  obtain ⟨h1, h2⟩ := C36_negative_length_aborts (P := P) os s message _ (ctypesInt_neg hm) k.key
    (Vector.replicate PY_SIG_LEN 0) (.to message) k'.key ⟨signature.toArray, h⟩
  have h1 : slh_dsa_sha2_128f_sign (crypto P) os s (.to message) (ctypesInt message.length) (some k.key)
    (some (Vector.replicate PY_SIG_LEN 0)) = _ := h1
  have h2 : (slh_dsa_sha2_128f_verify (crypto P) (.to message) (ctypesInt message.length) (some k'.key)
      (some ⟨signature.toArray, h⟩) : Exec b _) = _ := h2
  refine ⟨?_, ?_⟩
  · rw [PyPrivateKey.sign, h1]
    rfl
  · rw [PyPublicKey.verify, dif_pos (show signature.length = PY_SIG_LEN from h), h2]
    rfl

/-- **C52 (limit)** Bytes after the first `length mod 2^32` do not matter: a message of less than `2^31` bytes
and the same message followed by any `2^32 * j` bytes have the same signatures, and a signature of one is
accepted for the other. -/
theorem C52_py_long_messages {b : Build} (os : Rng (Exec b) σ) (s : σ) (k : PyPrivateKey) (k' : PyPublicKey)
    (message pad signature : List UInt8) (j : Nat) (hp : pad.length = 2 ^ 32 * j)
    (hm : message.length < 2 ^ 31) (hw : message.length < 2 ^ b.usizeBits) :
    k.sign (crypto P) os s (message ++ pad) = k.sign (crypto P) os s message ∧
    k'.verify (crypto P) (message ++ pad) signature =
      (k'.verify (crypto P) message signature : Exec b _) := by
  have e : (message ++ pad).length % 2 ^ 32 = message.length := by
    rw [List.length_append, hp, Nat.add_mul_mod_self_left]
    exact Nat.mod_eq_of_lt (by omega)
  have e' : message.length % 2 ^ 32 = message.length := Nat.mod_eq_of_lt (by omega)
  constructor
  · rw [py_sign_eq _ _ _ _ (by rw [e]; exact hm) (by rw [e]; exact hw),
      py_sign_eq _ _ _ _ (by rw [e']; exact hm) (by rw [e']; exact hw), e, e', List.take_left',
      List.take_length]
    rfl
  · by_cases h : signature.length = 17088
    · obtain ⟨pk, r, g1, g2, g3⟩ := py_verify_eq (P := P) (b := b) k' (message ++ pad) signature h
        (by rw [e]; exact hm) (by rw [e]; exact hw)
      obtain ⟨pk', r', g1', g2', g3'⟩ := py_verify_eq (P := P) (b := b) k' message signature h
        (by rw [e']; exact hm) (by rw [e']; exact hw)
      cases Exec.pure_inj ((g1 b).symm.trans (g1' b))
      rw [e, List.take_left' rfl] at g2
      rw [e', List.take_length] at g2'
      rw [g3, g3', Exec.pure_inj (g2.symm.trans g2')]
    · rw [C52_py_verify_length _ _ _ h, C52_py_verify_length _ _ _ h]

/-- **C52** With at least 32 bits of `usize` the three calls never run into undefined behaviour: `verify` and
`sign` abort exactly in the case of `C52_py_aborts`. -/
theorem C52_py_no_ub {b : Build} (hb : 32 ≤ b.usizeBits) (os : PureRng σ) (s : σ) (k : PyPrivateKey)
    (k' : PyPublicKey) (message signature : List UInt8) (hm : message.length % 2 ^ 32 < 2 ^ 31) :
    (∃ r, r ≠ .ub ∧ k.sign (crypto P) (os.lift : Rng (Exec b) σ) s message = pure r) ∧
    (∃ r, r ≠ .ub ∧ k'.verify (crypto P) message signature = (pure r : Exec b _)) := by
  have hw : message.length % 2 ^ 32 < 2 ^ b.usizeBits :=
    lt_of_lt_of_le (Nat.mod_lt _ (by decide)) (Nat.pow_le_pow_right (by decide) hb)
  constructor
  · rw [py_sign_eq _ _ _ _ hm hw]
    obtain ⟨_, _, hr⟩ := exec_sk_try_from_bytes (P := P) (b := b) k.rust
    rw [hr, pure_bind]
    split
    · exact ⟨_, by simp, rfl⟩
    · rename_i sk _
      obtain ⟨⟨s1, r⟩, h1⟩ := Total.sign (P := P) ffiSet b os s sk (message.take (message.length % 2 ^ 32)) []
        true
      rw [h1, pure_bind]
      cases r with
      | error e => exact ⟨_, by simp, rfl⟩
      | ok sig => exact ⟨_, by simp, rfl⟩
  · by_cases h : signature.length = 17088
    · obtain ⟨_, r, _, _, h⟩ := py_verify_eq (P := P) (b := b) k' message signature h hm hw
      exact ⟨_, by simp, h⟩
    · exact ⟨_, by simp, C52_py_verify_length _ _ _ h⟩

/-- **C52** The whole way: `keygen`, `sign`, `verify` in one process.  If the RNG works the message is signed,
and the signature verifies. -/
theorem C52_py_keygen_sign_verify {b : Build} (hb : 32 ≤ b.usizeBits) {os : PureRng σ} {s s' : σ}
    {k : PyPublicKey} {k' : PyPrivateKey}
    (hk : py_keygen (crypto P) (os.lift : Rng (Exec b) σ) s = pure (.ret (s', k, k')))
    (hos : ∀ (s : σ) (n : Nat) (x : Vector UInt8 n), ∃ s' v, os.fill s x = (s', .ok v))
    (message : List UInt8) (hm : message.length < 2 ^ 31) :
    ∃ s'' signature, k'.sign (crypto P) (os.lift : Rng (Exec b) σ) s' message =
        pure (.ret (s'', signature)) ∧
      k.verify (crypto P) message signature = (pure (.ret true) : Exec b _) := by
  have hp : 2 ^ 32 ≤ 2 ^ b.usizeBits := Nat.pow_le_pow_right (by decide) hb
  rcases C52_py_keygen (P := P) b os s with ⟨_, _, _, _, h⟩ | ⟨s1, k1, k2, pk, sk, h, hg, ⟨pkb, e1, e2⟩, skb, e3, e4⟩
  · cases Exec.pure_inj (h.symm.trans hk)
  · cases Exec.pure_inj (h.symm.trans hk)
    have hg : Generated P pk sk := .rng _ _ _ hg
    obtain ⟨skb', hd⟩ := C12_generated_key_roundtrip hg
    cases Exec.pure_inj ((hd b).1.symm.trans e3)
    have hkey : k'.rust = skb := Vector.toList_inj.mp e4
    obtain ⟨s2, v, hf⟩ := hos s' _ sk.key.pk_seed
    have hf : (os.lift : Rng (Exec b) σ).tryFill s' sk.key.pk_seed = pure (s2, .ok v) := congrArg pure hf
    have hdk : (PrivateKey.try_from_bytes (crypto P) k'.rust : Exec b _) = pure (.ok sk) := by
      rw [hkey]; exact (hd b).2
    obtain ⟨sig, _, hs⟩ := ((C52_py_sign (P := P) (os.lift : Rng (Exec b) σ) s' k' message hm (by omega)).2 _
      hdk).2 _ _ hf
    refine ⟨_, _, hs, ?_⟩
    refine C52_py_sign_then_verify ?_ ?_ ?_ ?_ hs
    · obtain ⟨skb'', pkb'', h1, h2⟩ := C15_public_key_bytes sk
      cases Exec.pure_inj ((h1 b).1.symm.trans e3)
      have : sk.get_public_key = pk := hg.consistent.2
      rw [this] at h1
      cases Exec.pure_inj ((h1 b).2.symm.trans e1)
      rw [e2, h2, e4]
      rfl
    · rw [Nat.mod_eq_of_lt (by omega)]; exact hm
    · rw [Nat.mod_eq_of_lt (by omega)]; omega
    · rw [Nat.mod_eq_of_lt (by omega)]; omega

/-- The hypotheses are met: by a key pair made in Python and a short message. -/
example (b : Build) : (∃ s' k k', py_keygen (crypto demoPrims) (demoRng.lift : Rng (Exec b) Nat) 0 =
    pure (.ret (s', k, k'))) ∧
    (∀ (s n : Nat) (x : Vector UInt8 n), ∃ s' v, demoRng.fill s x = (s', .ok v)) ∧
    [104, 105].length < 2 ^ 31 := by
  refine ⟨?_, fun s n x => ⟨_, _, rfl⟩, by decide⟩
  rcases C52_py_keygen (P := demoPrims) b demoRng 0 with ⟨_, _, _, h, _⟩ | ⟨s1, k1, k2, _, _, h, _⟩
  · cases Exec.pure_inj (h.symm.trans (demo_keygen ffiSet b))
  · exact ⟨_, _, _, h⟩

/-- The messages of the two limits exist. -/
example : 2 ^ 31 ≤ (List.replicate (2 ^ 31) (0 : UInt8)).length % 2 ^ 32 ∧
    (List.replicate (2 ^ 32) (0 : UInt8)).length = 2 ^ 32 * 1 ∧
    (List.replicate 17088 (0 : UInt8)).length = 17088 := by
  simp only [List.length_replicate]
  decide

end Fips205.Props
