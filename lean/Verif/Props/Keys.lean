import Verif.Props.Signing

/-! # Keys: C06, C07, C11–C13, C15, C33, C39 -/

namespace Fips205.Props
open Fips205 Fips205.Model

variable {P : Spec.Prims} {ps : ParamSet} {σ : Type}

/-- **C06** Key generation draws `n` bytes (into zeroed buffers) three times, stops with an error at the
first draw that fails, and otherwise returns keys determined by the three draws; it does not panic
unless the RNG does.  `make` does not depend on the RNG, its state or the build. -/
theorem C06_keygen_draws (P : Spec.Prims) (ps : ParamSet) :
    ∃ make : (sk_seed sk_prf pk_seed : Vector UInt8 ps.params.N) →
        PublicKey ps.params × PrivateKey ps.params,
      (∀ a c d, (make a c d).2.key.sk_seed = a ∧ (make a c d).2.key.sk_prf = c ∧
        (make a c d).2.key.pk_seed = d) ∧
      ∀ (b : Build) (σ : Type) (rng : Rng (Exec b) σ) (s : σ),
        try_keygen_with_rng ps.params (crypto P) rng s = (do
          match ← rng.tryFill s (zeroBytes ps.params.N) with
          | (s, .error _) => pure (s, .error "Alg17: rng failed1")
          | (s, .ok sk_seed) =>
            match ← rng.tryFill s (zeroBytes ps.params.N) with
            | (s, .error _) => pure (s, .error "Alg17: rng failed2")
            | (s, .ok sk_prf) =>
              match ← rng.tryFill s (zeroBytes ps.params.N) with
              | (s, .error _) => pure (s, .error "Alg17: rng failed3")
              | (s, .ok pk_seed) => pure (s, .ok (make sk_seed sk_prf pk_seed))) := by
  refine ⟨keyPair ps P, fun _ _ _ => ⟨rfl, rfl, rfl⟩, fun b σ rng s => ?_⟩
  rw [exec_try_keygen_with_rng]
  congr 1
  funext ⟨s1, r1⟩
  cases r1 with
  | error e => rfl
  | ok a =>
    dsimp only
    congr 1
    funext ⟨s2, r2⟩
    cases r2 with
    | error e => rfl
    | ok c =>
      dsimp only
      congr 1
      funext ⟨s3, r3⟩
      cases r3 <;> rfl

/-- **C07** Seeded key generation returns what RNG key generation returns when the RNG yields the three
seeds. -/
theorem C07_seeds_equal_rng {b b' : Build} (sk_seed sk_prf pk_seed : Vector UInt8 ps.params.N)
    {rng : Rng (Exec b) σ} {s s1 s2 s3 : σ}
    (h1 : rng.tryFill s (zeroBytes ps.params.N) = pure (s1, .ok sk_seed))
    (h2 : rng.tryFill s1 (zeroBytes ps.params.N) = pure (s2, .ok sk_prf))
    (h3 : rng.tryFill s2 (zeroBytes ps.params.N) = pure (s3, .ok pk_seed)) :
    ∃ kp, try_keygen_with_rng ps.params (crypto P) rng s = pure (s3, .ok kp) ∧
      (keygen_with_seeds ps.params (crypto P) sk_seed sk_prf pk_seed : Exec b' _) = pure kp := by
  refine ⟨_, ?_, exec_keygen_with_seeds _ _ _⟩
  simp only [exec_try_keygen_with_rng, h1, h2, h3, pure_bind]

/-- An RNG that yields given seeds. -/
example (ps : ParamSet) (b : Build) (x y z : Vector UInt8 ps.params.N) :
    ∃ rng : Rng (Exec b) (DummyRng ps.params.N), ∃ s s1 s2 s3,
      rng.tryFill s (zeroBytes ps.params.N) = pure (s1, .ok x) ∧
      rng.tryFill s1 (zeroBytes ps.params.N) = pure (s2, .ok y) ∧
      rng.tryFill s2 (zeroBytes ps.params.N) = pure (s3, .ok z) :=
  ⟨dummyRng _, ⟨#v[x, y, z], 0⟩, _, _, _, dummy_fill _ (by decide) _, dummy_fill _ (by decide) _,
    dummy_fill _ (by decide) _⟩

/-- **C07** With seeds of the right length seeded key generation never panics, in any build. -/
theorem C07_seeds_total (sk_seed sk_prf pk_seed : Vector UInt8 ps.params.N) :
    ∃ kp, ∀ b : Build, (keygen_with_seeds ps.params (crypto P) sk_seed sk_prf pk_seed : Exec b _) =
      pure kp :=
  ⟨_, fun _ => exec_keygen_with_seeds _ _ _⟩

/-- **C07** With seeds of any other length — which the types allow — it panics, in every build. -/
theorem C07_wrong_length_panics {b : Build} {n : Nat} (hn : n ≠ ps.params.N)
    (sk_seed sk_prf pk_seed : Vector UInt8 n) :
    (keygen_with_seeds ps.params (crypto P) sk_seed sk_prf pk_seed : Exec b _) = panic .copyLen :=
  exec_keygen_with_seeds_panics hn _ _ _

example : 24 ≠ ParamSet.slh_dsa_sha2_128f.params.N := by decide

/-- **C11** Every byte string of the right length decodes to a public key, and encoding that key gives
back the bytes. -/
theorem C11_public_key_decode_encode (v : Vector UInt8 ps.params.PK_LEN) :
    ∃ pk : PublicKey ps.params, ∀ b : Build,
      (PublicKey.try_from_bytes v : Exec b _) = pure (.ok pk) ∧ (pk.into_bytes : Exec b _) = pure v := by
  obtain ⟨pk, _, h⟩ := exec_pk_try_from_bytes (b := demoBuild) v
  refine ⟨pk, fun b => ⟨?_, ?_⟩⟩
  · obtain ⟨pk', h1, h2⟩ := exec_pk_try_from_bytes (b := b) v
    rw [h1, PublicKey.encode_inj (h2.trans h.symm)]
  · obtain ⟨w, h1, h2⟩ := exec_pk_into_bytes (b := b) pk
    rw [h1, Vector.toList_inj.mp (h2.trans h)]

/-- **C11** Every public key encodes as `PK.seed ‖ PK.root` and decodes back to itself. -/
theorem C11_public_key_encode_decode (pk : PublicKey ps.params) :
    ∃ v : Vector UInt8 ps.params.PK_LEN, v.toList = pk.key.pk_seed.toList ++ pk.key.pk_root.toList ∧
      ∀ b : Build, (pk.into_bytes : Exec b _) = pure v ∧
        (PublicKey.try_from_bytes v : Exec b _) = pure (.ok pk) := by
  obtain ⟨v, _, h⟩ := exec_pk_into_bytes (b := demoBuild) pk
  refine ⟨v, h, fun b => ⟨?_, ?_⟩⟩
  · obtain ⟨w, h1, h2⟩ := exec_pk_into_bytes (b := b) pk
    rw [h1, Vector.toList_inj.mp (h2.trans h.symm)]
  · obtain ⟨pk', h1, h2⟩ := exec_pk_try_from_bytes (b := b) v
    rw [h1, PublicKey.encode_inj (h2.trans h)]

/-- Field `i` of an encoded private key. -/
def skField (v : Vector UInt8 ps.params.SK_LEN) (i : Nat) : List UInt8 :=
  (v.toList.drop (i * ps.params.N)).take ps.params.N

theorem skField_encode {n : Nat} (a b c d : Vector UInt8 n) :
    let l := Spec.encodeSK a.toList b.toList c.toList d.toList
    (l.drop (0 * n)).take n = a.toList ∧ (l.drop (1 * n)).take n = b.toList ∧
      (l.drop (2 * n)).take n = c.toList ∧ (l.drop (3 * n)).take n = d.toList := by
  have e : Spec.encodeSK a.toList b.toList c.toList d.toList =
      a.toList ++ (b.toList ++ (c.toList ++ d.toList)) := by simp [Spec.encodeSK]
  have key : ∀ (x : Vector UInt8 n) (l : List UInt8), (x.toList ++ l).drop n = l := fun x l =>
    List.drop_left' (by simp)
  have key2 : ∀ (x : Vector UInt8 n) (l : List UInt8), (x.toList ++ l).take n = x.toList :=
    fun x l => List.take_left' (by simp)
  have h1 : ∀ l : List UInt8, l.drop (1 * n) = l.drop n := fun l => by rw [Nat.one_mul]
  have h2 : ∀ l : List UInt8, l.drop (2 * n) = (l.drop n).drop n := fun l => by
    rw [List.drop_drop, Nat.two_mul]
  have h3 : ∀ l : List UInt8, l.drop (3 * n) = ((l.drop n).drop n).drop n := fun l => by
    rw [List.drop_drop, List.drop_drop]; congr 1; omega
  dsimp only
  rw [e, h1, h2, h3, key, key, key, Nat.zero_mul, List.drop_zero, key2, key2, key2]
  exact ⟨rfl, rfl, rfl, List.take_of_length_le (by simp)⟩

/-- **C12** A private key decodes exactly when its last `n` bytes are the root FIPS 205 derives from the
`SK.seed` and `PK.seed` it contains; then the decoded key has the four fields and encodes to the same
bytes; otherwise the error is `"Corrupted key"`.  Decoding never panics. -/
theorem C12_private_key_decode (P : Spec.Prims) (v : Vector UInt8 ps.params.SK_LEN) :
    (skField v 3 = Spec.pkRoot ps.sp (ps.hf P) (skField v 0) (skField v 2) →
      ∃ sk : PrivateKey ps.params, sk.key.sk_seed.toList = skField v 0 ∧
        sk.key.sk_prf.toList = skField v 1 ∧ sk.key.pk_seed.toList = skField v 2 ∧
        sk.key.pk_root.toList = skField v 3 ∧
        ∀ b : Build, (PrivateKey.try_from_bytes (crypto P) v : Exec b _) = pure (.ok sk) ∧
          (sk.into_bytes : Exec b _) = pure v) ∧
    (skField v 3 ≠ Spec.pkRoot ps.sp (ps.hf P) (skField v 0) (skField v 2) →
      ∀ b : Build, (PrivateKey.try_from_bytes (crypto P) v : Exec b (Except _ (PrivateKey ps.params))) =
        pure (.error "Corrupted key")) := by
  obtain ⟨sk, h, _⟩ := exec_sk_try_from_bytes (b := demoBuild) (P := P) v
  have hf : sk.key.sk_seed.toList = skField v 0 ∧ sk.key.sk_prf.toList = skField v 1 ∧
      sk.key.pk_seed.toList = skField v 2 ∧ sk.key.pk_root.toList = skField v 3 := by
    obtain ⟨e1, e2, e3, e4⟩ := skField_encode sk.key.sk_seed sk.key.sk_prf sk.key.pk_seed sk.key.pk_root
    unfold skField
    rw [← h]
    exact ⟨e1.symm, e2.symm, e3.symm, e4.symm⟩
  have hroot : sk.key.pk_root = rootVec ps P sk.key.sk_seed sk.key.pk_seed ↔
      skField v 3 = Spec.pkRoot ps.sp (ps.hf P) (skField v 0) (skField v 2) := by
    rw [← Vector.toList_inj, rootVec_toList, hf.1, hf.2.2.1, hf.2.2.2]
  have hdec : ∀ b : Build, (PrivateKey.try_from_bytes (crypto P) v : Exec b _) =
      pure (if sk.key.pk_root = rootVec ps P sk.key.sk_seed sk.key.pk_seed
          then .ok sk else .error "Corrupted key") := by
    intro b
    obtain ⟨sk', h', h2⟩ := exec_sk_try_from_bytes (b := b) (P := P) v
    have := PrivateKey.encode_inj (h'.trans h.symm)
    subst this
    exact h2
  constructor
  · intro hr
    refine ⟨sk, hf.1, hf.2.1, hf.2.2.1, hf.2.2.2, fun b => ⟨?_, ?_⟩⟩
    · rw [hdec b, if_pos (hroot.mpr hr)]
    · obtain ⟨w, h1, h2⟩ := exec_sk_into_bytes (b := b) sk
      rw [h1, Vector.toList_inj.mp (h2.trans h)]
  · intro hr b
    rw [hdec b, if_neg (fun h => hr (hroot.mp h))]

/-- **C12** The bytes of every generated private key are accepted and decode to that key. -/
theorem C12_generated_key_roundtrip {pk : PublicKey ps.params} {sk : PrivateKey ps.params}
    (hk : Generated P pk sk) : ∃ v, ∀ b : Build, (sk.into_bytes : Exec b _) = pure v ∧
      (PrivateKey.try_from_bytes (crypto P) v : Exec b _) = pure (.ok sk) := by
  obtain ⟨hc, _⟩ := hk.consistent
  obtain ⟨v, _, h⟩ := exec_sk_into_bytes (b := demoBuild) sk
  refine ⟨v, fun b => ⟨?_, ?_⟩⟩
  · obtain ⟨w, h1, h2⟩ := exec_sk_into_bytes (b := b) sk
    rw [h1, Vector.toList_inj.mp (h2.trans h.symm)]
  · obtain ⟨sk', h', h2⟩ := exec_sk_try_from_bytes (b := b) (P := P) v
    have := PrivateKey.encode_inj (h'.trans h)
    subst this
    rw [h2, if_pos (show _ = _ from hc)]

example (ps : ParamSet) : Generated demoPrims (demoKeys ps).1 (demoKeys ps).2 := demo_generated ps

/-- A private key whose root was altered is rejected: both cases of `C12_private_key_decode` occur. -/
example (ps : ParamSet) (b : Build) : ∃ v : Vector UInt8 ps.params.SK_LEN,
    (PrivateKey.try_from_bytes (crypto demoPrims) v : Exec b (Except _ (PrivateKey ps.params))) =
      pure (.error "Corrupted key") := by
  let sk : PrivateKey ps.params := ⟨{ (demoKeys ps).2.key with
    pk_root := (demoKeys ps).2.key.pk_root.map (· + 1) }⟩
  obtain ⟨v, _, h⟩ := exec_sk_into_bytes (b := b) sk
  obtain ⟨sk', h', h2⟩ := exec_sk_try_from_bytes (b := b) (P := demoPrims) v
  have := PrivateKey.encode_inj (h'.trans h)
  subst this
  refine ⟨v, ?_⟩
  rw [h2, if_neg]
  intro he
  have h0 : 0 < ps.params.N := by cases ps <;> decide
  have he : (rootVec ps demoPrims (Vector.replicate _ 0) (Vector.replicate _ 2)).map (· + 1) =
    rootVec ps demoPrims (Vector.replicate _ 0) (Vector.replicate _ 2) := he
  have := congrArg (fun x : Vector UInt8 ps.params.N => x[0]) he
  simp at this

/-- **C13** Decoding does not depend on `SK.prf`: replacing it in an accepted private key gives another
accepted private key with the same public key. -/
theorem C13_sk_prf_not_validated {b : Build} {sk : PrivateKey ps.params}
    {v : Vector UInt8 ps.params.SK_LEN}
    (h : (PrivateKey.try_from_bytes (crypto P) v : Exec b _) = pure (.ok sk))
    (prf : Vector UInt8 ps.params.N) :
    ∃ v' : Vector UInt8 ps.params.SK_LEN, ∃ sk' : PrivateKey ps.params,
      v'.toList = v.toList.take ps.params.N ++ prf.toList ++ v.toList.drop (2 * ps.params.N) ∧
      (PrivateKey.try_from_bytes (crypto P) v' : Exec b _) = pure (.ok sk') ∧
      sk'.key.sk_prf = prf ∧ sk'.get_public_key = sk.get_public_key := by
  obtain ⟨hc, he⟩ := try_from_bytes_ok h
  let sk' : PrivateKey ps.params := ⟨{ sk.key with sk_prf := prf }⟩
  obtain ⟨v', _, h'⟩ := exec_sk_into_bytes (b := b) sk'
  refine ⟨v', sk', ?_, ?_, rfl, rfl⟩
  · have e2 : v.toList.drop (2 * ps.params.N) = sk.key.pk_seed.toList ++ sk.key.pk_root.toList := by
      rw [← he, Spec.encodeSK, List.append_assoc]
      exact List.drop_left' (by simp; omega)
    have e1 : v.toList.take ps.params.N = sk.key.sk_seed.toList := by
      rw [← he, Spec.encodeSK, List.append_assoc, List.append_assoc]
      exact List.take_left' (by simp)
    rw [h', e1, e2, Spec.encodeSK]
    simp [sk']
  · obtain ⟨sk2, h1, h2⟩ := exec_sk_try_from_bytes (b := b) (P := P) v'
    have := PrivateKey.encode_inj (h1.trans h')
    subst this
    rw [h2, if_pos (show _ = _ from hc)]

/-- **C15** `get_public_key` of a generated private key is the public key of the pair. -/
theorem C15_get_public_key {pk : PublicKey ps.params} {sk : PrivateKey ps.params}
    (hk : Generated P pk sk) : sk.get_public_key = pk :=
  hk.consistent.2

/-- **C15** For every private key the encoding of the public key it reports is the second half of its
own encoding. -/
theorem C15_public_key_bytes (sk : PrivateKey ps.params) :
    ∃ skv pkv, (∀ b : Build, (sk.into_bytes : Exec b _) = pure skv ∧
      (sk.get_public_key.into_bytes : Exec b _) = pure pkv) ∧
      pkv.toList = skv.toList.drop (2 * ps.params.N) := by
  obtain ⟨skv, _, h⟩ := exec_sk_into_bytes (b := demoBuild) sk
  obtain ⟨pkv, _, h'⟩ := exec_pk_into_bytes (b := demoBuild) sk.get_public_key
  refine ⟨skv, pkv, fun b => ⟨?_, ?_⟩, ?_⟩
  · obtain ⟨w, h1, h2⟩ := exec_sk_into_bytes (b := b) sk
    rw [h1, Vector.toList_inj.mp (h2.trans h.symm)]
  · obtain ⟨w, h1, h2⟩ := exec_pk_into_bytes (b := b) sk.get_public_key
    rw [h1, Vector.toList_inj.mp (h2.trans h'.symm)]
  · rw [h, h', Spec.encodeSK, Spec.encodePK, List.append_assoc]
    exact (List.drop_left' (by simp; omega)).symm

/-- **C33** After `zeroize` a private key encodes as zeros, and so does a public key. -/
theorem C33_zeroize (sk : PrivateKey ps.params) (pk : PublicKey ps.params) (b : Build) :
    (sk.zeroize.into_bytes : Exec b _) = pure (Vector.replicate _ 0) ∧
    (pk.zeroize.into_bytes : Exec b _) = pure (Vector.replicate _ 0) := by
  have hs := ps.sizes.sk
  have hp := ps.sizes.pk
  constructor
  · obtain ⟨v, h1, h2⟩ := exec_sk_into_bytes (b := b) sk.zeroize
    rw [h1]
    congr 1
    apply Vector.toList_inj.mp
    rw [h2, Spec.encodeSK]
    simp only [PrivateKey.zeroize, zeroBytes, Vector.toList_replicate, List.replicate_append_replicate]
    congr 1
    omega
  · obtain ⟨v, h1, h2⟩ := exec_pk_into_bytes (b := b) pk.zeroize
    rw [h1]
    congr 1
    apply Vector.toList_inj.mp
    rw [h2, Spec.encodePK]
    simp only [PublicKey.zeroize, zeroBytes, Vector.toList_replicate, List.replicate_append_replicate]
    congr 1
    omega

/-- **C33** (limit) Nothing marks a zeroized key as unusable: it still signs without an error. -/
theorem C33_zeroized_key_still_signs {b : Build} (sk : PrivateKey ps.params) (rng : Rng (Exec b) σ)
    (s : σ) (msg : List UInt8) : ∃ sig, sk.zeroize.try_sign_with_rng (crypto P) rng s msg [] false =
      pure (s, .ok sig) := by
  rw [exec_try_sign_with_rng]
  exact ⟨_, rfl⟩

/-- **C39** The public key does not depend on `SK.prf`. -/
theorem C39_public_key_ignores_sk_prf {b b' : Build} (sk_seed sk_prf sk_prf' pk_seed :
      Vector UInt8 ps.params.N) {pk pk' : PublicKey ps.params} {sk sk' : PrivateKey ps.params}
    (h : (keygen_with_seeds ps.params (crypto P) sk_seed sk_prf pk_seed : Exec b _) = pure (pk, sk))
    (h' : (keygen_with_seeds ps.params (crypto P) sk_seed sk_prf' pk_seed : Exec b' _) =
      pure (pk', sk')) : pk = pk' := by
  rw [exec_keygen_with_seeds] at h h'
  have e := congrArg Prod.fst (Exec.pure_inj h)
  have e' := congrArg Prod.fst (Exec.pure_inj h')
  exact e.symm.trans e'

/-- **C39** for RNG key generation: equal first and third draws give equal public keys. -/
theorem C39_rng {b b' : Build} {τ : Type} {rng : Rng (Exec b) σ} {rng' : Rng (Exec b') τ}
    {s s1 s2 s3 : σ} {t t1 t2 t3 : τ} {x y y' z : Vector UInt8 ps.params.N}
    (h1 : rng.tryFill s (zeroBytes ps.params.N) = pure (s1, .ok x))
    (h2 : rng.tryFill s1 (zeroBytes ps.params.N) = pure (s2, .ok y))
    (h3 : rng.tryFill s2 (zeroBytes ps.params.N) = pure (s3, .ok z))
    (h1' : rng'.tryFill t (zeroBytes ps.params.N) = pure (t1, .ok x))
    (h2' : rng'.tryFill t1 (zeroBytes ps.params.N) = pure (t2, .ok y'))
    (h3' : rng'.tryFill t2 (zeroBytes ps.params.N) = pure (t3, .ok z)) :
    ∃ pk sk sk', try_keygen_with_rng ps.params (crypto P) rng s = pure (s3, .ok (pk, sk)) ∧
      try_keygen_with_rng ps.params (crypto P) rng' t = pure (t3, .ok (pk, sk')) := by
  simp only [exec_try_keygen_with_rng, h1, h2, h3, h1', h2', h3', pure_bind]
  exact ⟨_, _, _, rfl, rfl⟩

/-- Two RNGs whose second draws differ. -/
example (ps : ParamSet) (b : Build) : ∃ (rng : PureRng Nat) (x y y' z : Vector UInt8 ps.params.N), y ≠ y' ∧
    (demoRng.lift : Rng (Exec b) Nat).tryFill 0 (zeroBytes ps.params.N) = pure (1, .ok x) ∧
    (demoRng.lift : Rng (Exec b) Nat).tryFill 1 (zeroBytes ps.params.N) = pure (2, .ok y) ∧
    (demoRng.lift : Rng (Exec b) Nat).tryFill 2 (zeroBytes ps.params.N) = pure (3, .ok z) ∧
    (rng.lift : Rng (Exec b) Nat).tryFill 0 (zeroBytes ps.params.N) = pure (7, .ok x) ∧
    (rng.lift : Rng (Exec b) Nat).tryFill 7 (zeroBytes ps.params.N) = pure (2, .ok y') ∧
    (rng.lift : Rng (Exec b) Nat).tryFill 2 (zeroBytes ps.params.N) = pure (9, .ok z) := by
  refine ⟨⟨fun s {n} _ => (if s = 7 then 2 else s + 7, .ok (Vector.replicate n (UInt8.ofNat s)))⟩, _, _, _, _, ?_,
    rfl, rfl, rfl, rfl, rfl, rfl⟩
  cases ps <;> decide

end Fips205.Props
