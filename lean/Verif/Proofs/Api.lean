import Verif.Proofs.Lib

/-! # The API as equations

In every build, each API function of `Verif.Model.Lib` and `Verif.Model.Traits` run in `Exec` equals an
expression over the specification; the RNG is arbitrary (it may even panic). -/

namespace Fips205.Model
open Fips205

variable {b : Build} {P : Spec.Prims} {ps : ParamSet} {σ : Type}

/-- FIPS 205 Algorithm 19 on a private key, as an array of `SIG_LEN` bytes. -/
def sigVec (ps : ParamSet) (P : Spec.Prims) (M : List UInt8) (sk : SlhPrivateKey ps.params.N)
    (optRand : Vector UInt8 ps.params.N) : Vector UInt8 ps.params.SIG_LEN :=
  toVec _ (Spec.signInternal ps.sp (ps.hf P) M sk.sk_seed.toList sk.sk_prf.toList sk.pk_seed.toList
    sk.pk_root.toList optRand.toList)

theorem exec_sign_serialize {mp : List (List UInt8)} (hmp : mp.length ≤ 5)
    (sk : SlhPrivateKey ps.params.N) (o : Vector UInt8 ps.params.N) :
    ∃ sig, (slh_sign_internal ps.params.A ps.params.D ps.params.H ps.params.HP
        (HASHERS ps.params (crypto P)) mp sk o : Exec b _) = pure (.ok sig) ∧
      (mapSerialize ps.params (.ok sig) : Exec b _) = pure (.ok (sigVec ps P mp.flatten sk o)) := by
  obtain ⟨r, h1, sig, rfl, hsig⟩ := Exec.returns_iff.mp
    (slh_sign_internal_returns ps.matches (ps.hashers P (m := Exec b)) hmp sk o)
  refine ⟨sig, h1, ?_⟩
  obtain ⟨v, h2, hv⟩ := Exec.returns_iff.mp
    (serialize_returns (m := Exec b) ps.matches sig ps.sizes.sig)
  have : v = sigVec ps P mp.flatten sk o := eq_toVec (hv.trans hsig)
  have hl : ∀ e, (leak e : Exec b Unit) = pure () := fun _ => rfl
  simp [mapSerialize, h2, this, hl]

/-- `sigVec` has the bytes the standard prescribes. -/
theorem sigVec_toList (M : List UInt8) (sk : SlhPrivateKey ps.params.N)
    (o : Vector UInt8 ps.params.N) :
    (sigVec ps P M sk o).toList = Spec.signInternal ps.sp (ps.hf P) M sk.sk_seed.toList
      sk.sk_prf.toList sk.pk_seed.toList sk.pk_root.toList o.toList := by
  let b : Build := ⟨false, false, 64, by decide⟩
  obtain ⟨r, h1, sig, rfl, hsig⟩ := Exec.returns_iff.mp
    (sign_serialize_returns ps.sizes (ps.hashers P (m := Exec b)) (mp := [M]) (by simp) sk o)
  rw [List.flatten_singleton] at hsig
  exact toVec_toList (by rw [← hsig]; simp)

/-- What signing the representative `M` returns for the outcome of the RNG draw. -/
def signOutcome (ps : ParamSet) (P : Spec.Prims) (M : List UInt8) (sk : SlhPrivateKey ps.params.N) :
    Except Unit (Vector UInt8 ps.params.N) → Except String (Vector UInt8 ps.params.SIG_LEN)
  | .error _ => .error "Alg17: rng failed"
  | .ok rnd => .ok (sigVec ps P M sk rnd)

theorem exec_sign_with_rng {mp : List (List UInt8)} (hmp : mp.length ≤ 5)
    (sk : SlhPrivateKey ps.params.N) (rng : Rng (Exec b) σ) (s : σ) (hedged : Bool) :
    (do
      let (s, sig) ← slh_sign_with_rng ps.params.A ps.params.D ps.params.H ps.params.HP rng s
        (HASHERS ps.params (crypto P)) mp sk hedged
      let r ← mapSerialize ps.params sig
      pure (s, r) : Exec b _) =
    if hedged then do
      let d ← rng.tryFill s sk.pk_seed
      pure (d.1, signOutcome ps P mp.flatten sk d.2)
    else pure (s, .ok (sigVec ps P mp.flatten sk sk.pk_seed)) := by
  unfold slh_sign_with_rng
  have hl : ∀ e, (leak e : Exec b Unit) = pure () := fun _ => rfl
  simp only [hl, pure_bind]
  cases hedged
  · obtain ⟨sig, h1, h2⟩ := exec_sign_serialize (b := b) (P := P) hmp sk sk.pk_seed
    simp [h1, h2]
  · simp only [if_true, bind_assoc]
    congr 1
    funext ⟨s', r⟩
    cases r with
    | error e => simp [mapSerialize, signOutcome, hl]
    | ok o =>
      obtain ⟨sig, h1, h2⟩ := exec_sign_serialize (b := b) (P := P) hmp sk o
      simp [h1, h2, signOutcome]

/-- `try_sign_with_rng` -/
theorem exec_try_sign_with_rng (sk : PrivateKey ps.params) (rng : Rng (Exec b) σ) (s : σ)
    (msg ctx : List UInt8) (hedged : Bool) :
    sk.try_sign_with_rng (crypto P) rng s msg ctx hedged =
      if 255 < ctx.length then pure (s, .error "ctx must be less than 256 bytes")
      else if hedged then do
        let d ← rng.tryFill s sk.key.pk_seed
        pure (d.1, signOutcome ps P (Spec.pureMsg ctx msg) sk.key d.2)
      else pure (s, .ok (sigVec ps P (Spec.pureMsg ctx msg) sk.key sk.key.pk_seed)) := by
  unfold PrivateKey.try_sign_with_rng
  have hl : ∀ e, (leak e : Exec b Unit) = pure () := fun _ => rfl
  simp only [hl, pure_bind, ctxError]
  split
  · rfl
  · rw [← pure_flatten]
    exact exec_sign_with_rng (by simp) sk.key rng s hedged

/-- The message representative of a pre-hash signature. -/
def phMsg (P : Spec.Prims) (ctx msg : List UInt8) (ph : Ph) : List UInt8 :=
  Spec.prehashMsg ctx (Spec.oid ph.spec) (Spec.preHash P msg ph.spec)

/-- `try_hash_sign_with_rng` -/
theorem exec_try_hash_sign_with_rng (sk : PrivateKey ps.params) (rng : Rng (Exec b) σ) (s : σ)
    (msg ctx : List UInt8) (ph : Ph) (hedged : Bool) :
    sk.try_hash_sign_with_rng (crypto P) rng s msg ctx ph hedged =
      if 255 < ctx.length then pure (s, .error "ctx must be less than 256 bytes")
      else if hedged then do
        let d ← rng.tryFill s sk.key.pk_seed
        pure (d.1, signOutcome ps P (phMsg P ctx msg ph) sk.key d.2)
      else pure (s, .ok (sigVec ps P (phMsg P ctx msg ph) sk.key sk.key.pk_seed)) := by
  unfold PrivateKey.try_hash_sign_with_rng
  have hl : ∀ e, (leak e : Exec b Unit) = pure () := fun _ => rfl
  simp only [hl, pure_bind, ctxError]
  split
  · rfl
  · obtain ⟨⟨o, l, buf⟩, h1, h2, h3, h4⟩ := Exec.returns_iff.mp
      (hash_message_returns (m := Exec b) P msg ph (zeroBytes 64))
    simp only at h2 h3 h4
    have h5 : (slice buf.toList 0 l : Exec b _) = pure (Spec.preHash P msg ph.spec) := by
      rw [slice, hl, pure_bind, if_pos ⟨by omega, by simpa using h3⟩, h4]
    rw [phMsg, ← h2, ← prehash_flatten, h1, pure_bind]
    dsimp only
    rw [h5, pure_bind]
    exact exec_sign_with_rng (by simp) sk.key rng s hedged

/-- `_test_only_raw_sign` -/
theorem exec_raw_sign (sk : PrivateKey ps.params) (rng : Rng (Exec b) σ) (s : σ)
    (msg : List UInt8) (hedged : Bool) :
    sk._test_only_raw_sign (crypto P) rng s msg hedged =
      if hedged then do
        let d ← rng.tryFill s sk.key.pk_seed
        pure (d.1, signOutcome ps P msg sk.key d.2)
      else pure (s, .ok (sigVec ps P msg sk.key sk.key.pk_seed)) := by
  unfold PrivateKey._test_only_raw_sign
  have hl : ∀ e, (leak e : Exec b Unit) = pure () := fun _ => rfl
  have hf : [msg].flatten = msg := by simp
  simp only [hl, pure_bind]
  cases hedged
  · obtain ⟨sig, h1, h2⟩ := exec_sign_serialize (b := b) (P := P) (mp := [msg]) (by simp) sk.key
      sk.key.pk_seed
    rw [hf] at h2
    simp [h1, h2]
  · simp only [if_true]
    congr 1
    funext ⟨s', r⟩
    cases r with
    | error e => simp [signOutcome]
    | ok o =>
      obtain ⟨sig, h1, h2⟩ := exec_sign_serialize (b := b) (P := P) (mp := [msg]) (by simp) sk.key o
      rw [hf] at h2
      simp [h1, h2, signOutcome]

theorem exec_eq {α : Type} {x : Exec b α} {v : α} (h : Returns x (· = v)) : x = pure v := by
  obtain ⟨w, hw, rfl⟩ := Exec.returns_iff.mp h
  exact hw

/-- `verify` -/
theorem exec_verify (pk : PublicKey ps.params) (msg : List UInt8)
    (sig : Vector UInt8 ps.params.SIG_LEN) (ctx : List UInt8) :
    (pk.verify (crypto P) msg sig ctx : Exec b _) = pure (Spec.verify ps.sp (ps.hf P) msg sig.toList
      ctx pk.key.pk_seed.toList pk.key.pk_root.toList) :=
  exec_eq (verify_returns ps.sizes (ps.hashers P) pk msg sig ctx)

/-- `hash_verify` -/
theorem exec_hash_verify (pk : PublicKey ps.params) (msg : List UInt8)
    (sig : Vector UInt8 ps.params.SIG_LEN) (ctx : List UInt8) (ph : Ph) :
    (pk.hash_verify (crypto P) msg sig ctx ph : Exec b _) =
      pure (Spec.hashVerify ps.sp (ps.hf P) (Spec.oid ph.spec) (Spec.preHash P msg ph.spec) sig.toList
        ctx pk.key.pk_seed.toList pk.key.pk_root.toList) :=
  exec_eq (hash_verify_returns ps.sizes (ps.hashers P) pk msg sig ctx ph)

/-- `_test_only_raw_verify` -/
theorem exec_raw_verify (pk : PublicKey ps.params) (msg : List UInt8)
    (sig : Vector UInt8 ps.params.SIG_LEN) :
    (pk._test_only_raw_verify (crypto P) msg sig : Exec b _) =
      pure (.ok (Spec.verifyInternal ps.sp (ps.hf P) msg sig.toList pk.key.pk_seed.toList
        pk.key.pk_root.toList)) := by
  have := exec_eq (b := b) (deserialize_verify_returns ps.sizes (ps.hashers P) (mp := [msg]) (by simp)
    pk.key sig)
  rw [List.flatten_singleton] at this
  unfold PublicKey._test_only_raw_verify
  rw [← bind_assoc, this, pure_bind]

/-! ## Keys -/

/-- The root of the key pair with the given seeds, as an array. -/
def rootVec (ps : ParamSet) (P : Spec.Prims) (sk_seed pk_seed : Vector UInt8 ps.params.N) :
    Vector UInt8 ps.params.N :=
  toVec _ (Spec.pkRoot ps.sp (ps.hf P) sk_seed.toList pk_seed.toList)

/-- The key pair with the given seeds. -/
def keyPair (ps : ParamSet) (P : Spec.Prims) (sk_seed sk_prf pk_seed : Vector UInt8 ps.params.N) :
    PublicKey ps.params × PrivateKey ps.params :=
  (⟨⟨pk_seed, rootVec ps P sk_seed pk_seed⟩⟩,
   ⟨⟨sk_seed, sk_prf, pk_seed, rootVec ps P sk_seed pk_seed⟩⟩)

theorem exec_keygen_internal (a c d : Vector UInt8 ps.params.N) :
    (slh_keygen_internal ps.params.D ps.params.HP (HASHERS ps.params (crypto P)) a c d : Exec b _) =
      pure ((keyPair ps P a c d).2.key, (keyPair ps P a c d).1.key) := by
  obtain ⟨v, h, root, hroot, rfl⟩ := Exec.returns_iff.mp
    (slh_keygen_internal_returns ps.matches (ps.hashers P (m := Exec b)) a c d)
  rw [h, keyPair, rootVec, ← eq_toVec hroot]

theorem rootVec_toList (a d : Vector UInt8 ps.params.N) :
    (rootVec ps P a d).toList = Spec.pkRoot ps.sp (ps.hf P) a.toList d.toList := by
  let b : Build := ⟨false, false, 64, by decide⟩
  obtain ⟨v, h, root, hroot, rfl⟩ := Exec.returns_iff.mp
    (slh_keygen_internal_returns ps.matches (ps.hashers P (m := Exec b)) a a d)
  exact toVec_toList (by rw [← hroot]; simp)

/-- `try_keygen_with_rng` -/
theorem exec_try_keygen_with_rng (rng : Rng (Exec b) σ) (s : σ) :
    try_keygen_with_rng ps.params (crypto P) rng s = (do
      let d1 ← rng.tryFill s (zeroBytes _)
      match d1.2 with
      | .error _ => pure (d1.1, .error "Alg17: rng failed1")
      | .ok sk_seed => do
        let d2 ← rng.tryFill d1.1 (zeroBytes _)
        match d2.2 with
        | .error _ => pure (d2.1, .error "Alg17: rng failed2")
        | .ok sk_prf => do
          let d3 ← rng.tryFill d2.1 (zeroBytes _)
          match d3.2 with
          | .error _ => pure (d3.1, .error "Alg17: rng failed3")
          | .ok pk_seed => pure (d3.1, .ok (keyPair ps P sk_seed sk_prf pk_seed)) : Exec b _) := by
  unfold try_keygen_with_rng slh_keygen_with_rng
  have hl : ∀ e, (leak e : Exec b Unit) = pure () := fun _ => rfl
  simp only [hl, pure_bind, bind_assoc]
  congr 1
  funext ⟨s1, r1⟩
  cases r1 with
  | error e => simp
  | ok a =>
    simp only [bind_assoc]
    congr 1
    funext ⟨s2, r2⟩
    cases r2 with
    | error e => simp
    | ok c =>
      simp only [bind_assoc]
      congr 1
      funext ⟨s3, r3⟩
      cases r3 with
      | error e => simp
      | ok d => simp [exec_keygen_internal, keyPair]

/-- `into_bytes` and `try_from_bytes` of `PublicKey` -/
theorem exec_pk_into_bytes (pk : PublicKey ps.params) :
    ∃ v, (pk.into_bytes : Exec b _) = pure v ∧
      v.toList = Spec.encodePK pk.key.pk_seed.toList pk.key.pk_root.toList :=
  Exec.returns_iff.mp (pk_into_bytes_returns ps.sizes pk)

theorem exec_pk_try_from_bytes (v : Vector UInt8 ps.params.PK_LEN) :
    ∃ pk : PublicKey ps.params, (PublicKey.try_from_bytes v : Exec b _) = pure (.ok pk) ∧
      Spec.encodePK pk.key.pk_seed.toList pk.key.pk_root.toList = v.toList := by
  obtain ⟨r, h, pk, rfl, hpk⟩ := Exec.returns_iff.mp
    (pk_try_from_bytes_returns (m := Exec b) ps.sizes v)
  exact ⟨pk, h, hpk⟩

theorem exec_sk_into_bytes (sk : PrivateKey ps.params) :
    ∃ v, (sk.into_bytes : Exec b _) = pure v ∧
      v.toList = Spec.encodeSK sk.key.sk_seed.toList sk.key.sk_prf.toList sk.key.pk_seed.toList
        sk.key.pk_root.toList :=
  Exec.returns_iff.mp (sk_into_bytes_returns ps.sizes sk)

theorem exec_sk_try_from_bytes (v : Vector UInt8 ps.params.SK_LEN) :
    ∃ sk : PrivateKey ps.params,
      Spec.encodeSK sk.key.sk_seed.toList sk.key.sk_prf.toList sk.key.pk_seed.toList
        sk.key.pk_root.toList = v.toList ∧
      (PrivateKey.try_from_bytes (crypto P) v : Exec b _) =
        pure (if sk.key.pk_root = rootVec ps P sk.key.sk_seed sk.key.pk_seed
          then .ok sk else .error "Corrupted key") := by
  obtain ⟨r, h, sk, hsk, rfl⟩ := Exec.returns_iff.mp
    (sk_try_from_bytes_returns (m := Exec b) ps.sizes (ps.hashers P) v)
  refine ⟨sk, hsk, ?_⟩
  rw [h, ← rootVec_toList]
  simp only [Vector.toList_inj]

theorem encodePK_inj {n : Nat} {a b c d : Vector UInt8 n}
    (h : Spec.encodePK a.toList b.toList = Spec.encodePK c.toList d.toList) : a = c ∧ b = d := by
  obtain ⟨h1, h2⟩ := append_inj_len (by simp) h
  exact ⟨Vector.toList_inj.mp h1, Vector.toList_inj.mp h2⟩

theorem PublicKey.encode_inj {p : Params} {k l : PublicKey p}
    (h : Spec.encodePK k.key.pk_seed.toList k.key.pk_root.toList =
      Spec.encodePK l.key.pk_seed.toList l.key.pk_root.toList) : k = l := by
  obtain ⟨⟨a, b⟩⟩ := k
  obtain ⟨⟨c, d⟩⟩ := l
  obtain ⟨h1, h2⟩ := encodePK_inj h
  simp only at h1 h2
  rw [h1, h2]

theorem PrivateKey.encode_inj {p : Params} {k l : PrivateKey p}
    (h : Spec.encodeSK k.key.sk_seed.toList k.key.sk_prf.toList k.key.pk_seed.toList
        k.key.pk_root.toList =
      Spec.encodeSK l.key.sk_seed.toList l.key.sk_prf.toList l.key.pk_seed.toList
        l.key.pk_root.toList) : k = l := by
  obtain ⟨⟨a, b, c, d⟩⟩ := k
  obtain ⟨⟨e, f, g, i⟩⟩ := l
  obtain ⟨h1, h2⟩ := append_inj_len (by simp) h
  obtain ⟨h3, h4⟩ := append_inj_len (by simp) h1
  obtain ⟨h5, h6⟩ := append_inj_len (by simp) h3
  have e1 : a = e := Vector.toList_inj.mp h5
  have e2 : b = f := Vector.toList_inj.mp h6
  have e3 : c = g := Vector.toList_inj.mp h4
  have e4 : d = i := Vector.toList_inj.mp h2
  rw [e1, e2, e3, e4]

end Fips205.Model
