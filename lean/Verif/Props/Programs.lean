import Verif.Props.Vectors

/-! # The C test program and the round trip tests: C57, C59 -/

namespace Fips205.Props
open Fips205 Fips205.Model

variable {ps : ParamSet} {P : Spec.Prims} {b : Build} {σ : Type}

/-- The bytes a successful key generation writes decode to the keys. -/
theorem decode_generated {pk : PublicKey ps.params} {sk : PrivateKey ps.params} (hk : Generated P pk sk)
    {pkb : Vector UInt8 ps.params.PK_LEN} {skb : Vector UInt8 ps.params.SK_LEN}
    (h1 : (pk.into_bytes : Exec b _) = pure pkb) (h2 : (sk.into_bytes : Exec b _) = pure skb) :
    (PublicKey.try_from_bytes pkb : Exec b _) = pure (.ok pk) ∧
    (PrivateKey.try_from_bytes (crypto P) skb : Exec b _) = pure (.ok sk) := by
  constructor
  · obtain ⟨v, hv, ev⟩ := exec_pk_into_bytes (b := b) pk
    rw [hv] at h1
    obtain rfl := Exec.pure_inj h1
    obtain ⟨k, h, ek⟩ := exec_pk_try_from_bytes (b := b) v
    rw [ev] at ek
    rw [h, PublicKey.encode_inj ek]
  · obtain ⟨v, hv, ev⟩ := exec_sk_into_bytes (b := b) sk
    rw [hv] at h2
    obtain rfl := Exec.pure_inj h2
    obtain ⟨k, ek, h⟩ := exec_sk_try_from_bytes (b := b) (P := P) v
    rw [ev] at ek
    obtain rfl := PrivateKey.encode_inj ek
    rw [h, if_pos (show k.key.pk_root = _ from hk.consistent.1)]

theorem exec_step {α β : Type} {x : Exec b α} {v : α} {f : α → Exec b β} {r : Exec b β} (h : x = pure v)
    (h' : f v = r) : x >>= f = r := by rw [h, pure_bind, h']

/-! ## C57: `ffi/tests/baseline.c` -/

/-- The last part of the program: null pointers are reported as such. -/
theorem baseline_nulls_ok (os : Rng (Exec b) σ) (s : σ) (message : List UInt8)
    (pk : Option (Vector UInt8 ffiSet.params.PK_LEN)) (sk : Option (Vector UInt8 ffiSet.params.SK_LEN))
    (sig : Option (Vector UInt8 ffiSet.params.SIG_LEN)) :
    baseline_nulls (crypto P) os s message pk sk sig = pure (.ret 0) := by
  have h1 : slh_dsa_sha2_128f_keygen (crypto P) os s pk none = pure (s, SLH_DSA_NULL_PTR_ERROR, pk, none) :=
    C34_keygen_null os s pk none (.inr rfl)
  have h2 : slh_dsa_sha2_128f_keygen (crypto P) os s none sk = pure (s, SLH_DSA_NULL_PTR_ERROR, none, sk) :=
    C34_keygen_null os s none sk (.inl rfl)
  have h3 : slh_dsa_sha2_128f_sign (crypto P) os s .null 3 sk sig =
    pure (.ret (s, SLH_DSA_NULL_PTR_ERROR, sig)) := C35_sign_null os s .null 3 sk sig (.inr (.inr rfl))
  have h4 : slh_dsa_sha2_128f_sign (crypto P) os s (.to message) 3 none sig =
    pure (.ret (s, SLH_DSA_NULL_PTR_ERROR, sig)) := C35_sign_null os s (.to message) 3 none sig (.inl rfl)
  have h5 : slh_dsa_sha2_128f_sign (crypto P) os s (.to message) 3 sk none =
    pure (.ret (s, SLH_DSA_NULL_PTR_ERROR, none)) :=
    C35_sign_null os s (.to message) 3 sk none (.inr (.inl rfl))
  unfold baseline_nulls
  refine exec_step h1 ((if_neg (not_not.mpr rfl)).trans (exec_step h2 ((if_neg (not_not.mpr rfl)).trans ?_)))
  unfold baseline_null_sign
  exact exec_step h3 ((if_neg (not_not.mpr rfl)).trans (exec_step h4 ((if_neg (not_not.mpr rfl)).trans
    (exec_step h5 (if_neg (not_not.mpr rfl))))))

/-- **C57** The C test program, whatever its uninitialised variables contain and whatever the operating system's
RNG delivers: it ends, and its exit code is 1 exactly when that RNG failed in key generation or in signing, or
the signature is accepted for the other message. -/
theorem C57_baseline (b : Build) (os : PureRng σ) (s : σ) (pk0 : Vector UInt8 ffiSet.params.PK_LEN)
    (sk0 : Vector UInt8 ffiSet.params.SK_LEN) (sig0 : Vector UInt8 ffiSet.params.SIG_LEN) :
    ∃ code, baseline_main (crypto P) (os.lift : Rng (Exec b) σ) s pk0 sk0 sig0 = pure (.ret code) ∧
      (code = 0 ∨ code = 1) ∧
      (code = 1 ↔
        (∃ s' e, try_keygen_with_rng ffiSet.params (crypto P) (os.lift : Rng (Exec b) σ) s =
          pure (s', .error e)) ∨
        ∃ s' pk sk, try_keygen_with_rng ffiSet.params (crypto P) (os.lift : Rng (Exec b) σ) s =
            pure (s', .ok (pk, sk)) ∧
          ((∃ s'' e, sk.try_sign_with_rng (crypto P) (os.lift : Rng (Exec b) σ) s' [0x00, 0x11, 0x22] [] true =
            pure (s'', .error e)) ∨
          ∃ s'' sig, sk.try_sign_with_rng (crypto P) (os.lift : Rng (Exec b) σ) s' [0x00, 0x11, 0x22] [] true =
              pure (s'', .ok sig) ∧
            (pk.verify (crypto P) [99, 0x11, 0x22] sig [] : Exec b Bool) = pure true)) := by
  have hw : (3 : Int) < 2 ^ b.usizeBits := by
    have h : 2 ^ 16 ≤ 2 ^ b.usizeBits := Nat.pow_le_pow_right (by decide) b.usizeBits_ge
    have h : ((2 ^ 16 : Nat) : Int) ≤ ((2 ^ b.usizeBits : Nat) : Int) := Int.ofNat_le.mpr h
    push_cast at h
    omega
  obtain ⟨hk1, hk2⟩ := C34_keygen_present (P := P) (os.lift : Rng (Exec b) σ) s pk0 sk0
  obtain ⟨⟨s1, r⟩, hkg⟩ := Total.keygen (P := P) ffiSet b os s
  unfold baseline_main
  cases r with
  | error e =>
    have h := hk1 s1 e hkg
    refine ⟨1, ?_, .inr rfl, fun _ => .inl ⟨_, _, hkg⟩, fun _ => rfl⟩
    exact exec_step h (if_pos (by decide))
  | ok kp =>
    obtain ⟨pk, sk⟩ := kp
    obtain ⟨pkb, skb, hpb, hsb, h⟩ := hk2 s1 pk sk hkg
    have hg : Generated P pk sk := .rng _ _ _ hkg
    obtain ⟨hdp, hds⟩ := decode_generated hg hpb hsb
    obtain ⟨⟨s2, r⟩, hsg⟩ := Total.sign (P := P) ffiSet b os s1 sk [0x00, 0x11, 0x22] [] true
    have hsign : slh_dsa_sha2_128f_sign (crypto P) (os.lift : Rng (Exec b) σ) s1 (.to [0x00, 0x11, 0x22]) 3
        (some skb) (some sig0) = (match r with
        | .error _ => pure (.ret (s2, SLH_DSA_SIGN_ERROR, some sig0))
        | .ok sig => pure (.ret (s2, SLH_DSA_OK, some sig)) : Exec b _) := by
      refine (ffi_sign_eq _ _ _ _ (by decide) (by decide) hw _ _).trans (exec_step hds (exec_step hsg ?_))
      cases r <;> rfl
    have hne : ∀ {s' e}, (pure (s1, .ok (pk, sk)) : Exec b (σ × Except String _)) ≠ pure (s', .error e) := by
      intro s' e h
      have := congrArg Prod.snd (Exec.pure_inj h)
      cases this
    cases r with
    | error e =>
      refine ⟨1, exec_step h ((if_neg (by decide)).trans (exec_step hsign (if_pos (by decide)))), .inr rfl, fun _ => .inr ⟨s1, pk, sk, hkg, .inl ⟨_, _, hsg⟩⟩, fun _ => rfl⟩
    | ok sig =>
      have hver : ∀ msg : List UInt8, (3 : Int).toNat ≤ msg.length → msg.take (3 : Int).toNat = msg →
          (slh_dsa_sha2_128f_verify (crypto P) (.to msg) 3 (some pkb) (some sig) : Exec b _) =
          pure (.ret (if Spec.verify ffiSet.sp (ffiSet.hf P) msg sig.toList [] pk.key.pk_seed.toList
            pk.key.pk_root.toList then SLH_DSA_OK else SLH_DSA_VERIFY_ERROR)) := by
        intro msg hl ht
        rw [ffi_verify_eq msg 3 (by decide) hl hw pkb sig pk hdp, ht, exec_verify, pure_bind]
        split <;> rfl
      have hown : (pk.verify (crypto P) [0x00, 0x11, 0x22] sig [] : Exec b Bool) = pure true :=
        C01_pure_signatures_verify hg hsg
      rw [exec_verify] at hown
      have h1 := hver [0x00, 0x11, 0x22] (by decide) rfl
      rw [Exec.pure_inj hown, if_pos rfl] at h1
      have h2 := hver [99, 0x11, 0x22] (by decide) rfl
      have hrun : ∀ {code}, (if (if Spec.verify ffiSet.sp (ffiSet.hf P) [99, 0x11, 0x22] sig.toList []
            pk.key.pk_seed.toList pk.key.pk_root.toList then SLH_DSA_OK else SLH_DSA_VERIFY_ERROR) ≠
            SLH_DSA_VERIFY_ERROR then (pure (.ret 1) : Exec b (Ffi Nat))
          else baseline_nulls (crypto P) (os.lift : Rng (Exec b) σ) s2 [99, 0x11, 0x22] (some pkb) (some skb)
            (some sig)) = pure (.ret code) →
          baseline_main (crypto P) (os.lift : Rng (Exec b) σ) s pk0 sk0 sig0 = pure (.ret code) :=
        fun hr => exec_step h ((if_neg (by decide)).trans (exec_step hsign ((if_neg (by decide)).trans
          (exec_step h1 ((if_neg (by decide)).trans (exec_step h2 hr))))))
      simp only [exec_verify]
      cases hb : Spec.verify ffiSet.sp (ffiSet.hf P) [99, 0x11, 0x22] sig.toList [] pk.key.pk_seed.toList
        pk.key.pk_root.toList
      · rw [hb] at hrun
        refine ⟨0, hrun ((if_neg (by decide)).trans (baseline_nulls_ok _ _ _ _ _ _)), .inl rfl, fun h => absurd h (by decide), ?_⟩
        rintro (⟨s', e, h⟩ | ⟨s', pk', sk', h, ⟨s'', e, h'⟩ | ⟨s'', sig', h', h''⟩⟩)
        · exact absurd (hkg.symm.trans h) hne
        · obtain ⟨rfl, hx⟩ := Prod.mk.inj (Exec.pure_inj (hkg.symm.trans h))
          obtain ⟨rfl, rfl⟩ := Prod.mk.inj (Except.ok.inj hx)
          have := congrArg Prod.snd (Exec.pure_inj (hsg.symm.trans h'))
          cases this
        · obtain ⟨rfl, hx⟩ := Prod.mk.inj (Exec.pure_inj (hkg.symm.trans h))
          obtain ⟨rfl, rfl⟩ := Prod.mk.inj (Except.ok.inj hx)
          obtain ⟨rfl, hx⟩ := Prod.mk.inj (Exec.pure_inj (hsg.symm.trans h'))
          obtain rfl := Except.ok.inj hx
          rw [hb] at h''
          exact absurd (Exec.pure_inj h'') (by decide)
      · rw [hb] at hrun
        refine ⟨1, hrun (if_pos (by decide)), .inr rfl, fun _ => .inr ⟨s1, pk, sk, hkg, .inr ⟨s2, sig, hsg, ?_⟩⟩, fun _ => rfl⟩
        rw [hb]

/-- The RNG never fails. -/
def PureRng.Works (r : PureRng σ) : Prop := ∀ s {n : Nat} (v : Vector UInt8 n), ∃ s' w, r.fill s v = (s', .ok w)

theorem PureRng.Works.keygen {r : PureRng σ} (h : r.Works) (ps : ParamSet) (s : σ) :
    ∃ s' pk sk, try_keygen_with_rng ps.params (crypto P) (r.lift : Rng (Exec b) σ) s = pure (s', .ok (pk, sk)) := by
  obtain ⟨s1, a, h1⟩ := h s (zeroBytes ps.params.N)
  obtain ⟨s2, c, h2⟩ := h s1 (zeroBytes ps.params.N)
  obtain ⟨s3, d, h3⟩ := h s2 (zeroBytes ps.params.N)
  refine ⟨s3, (keyPair ps P a c d).1, (keyPair ps P a c d).2, ?_⟩
  rw [exec_try_keygen_with_rng]
  simp only [PureRng.lift, h1, h2, h3, pure_bind]

theorem PureRng.Works.sign {r : PureRng σ} (h : r.Works) (s : σ) (sk : PrivateKey ps.params)
    (msg ctx : List UInt8) (hc : ctx.length ≤ 255) : ∃ s' sig,
      sk.try_sign_with_rng (crypto P) (r.lift : Rng (Exec b) σ) s msg ctx true = pure (s', .ok sig) := by
  obtain ⟨s1, o, h1⟩ := h s sk.key.pk_seed
  refine ⟨s1, sigVec ps P (Spec.pureMsg ctx msg) sk.key o, ?_⟩
  rw [exec_try_sign_with_rng, if_neg (by omega), if_pos rfl]
  simp only [PureRng.lift, h1, pure_bind, signOutcome]

theorem PureRng.Works.hash_sign {r : PureRng σ} (h : r.Works) (s : σ) (sk : PrivateKey ps.params)
    (msg ctx : List UInt8) (hc : ctx.length ≤ 255) (ph : Ph) : ∃ s' sig,
      sk.try_hash_sign_with_rng (crypto P) (r.lift : Rng (Exec b) σ) s msg ctx ph true = pure (s', .ok sig) := by
  obtain ⟨s1, o, h1⟩ := h s sk.key.pk_seed
  refine ⟨s1, sigVec ps P (phMsg P ctx msg ph) sk.key o, ?_⟩
  rw [exec_try_hash_sign_with_rng, if_neg (by omega), if_pos rfl]
  simp only [PureRng.lift, h1, pure_bind, signOutcome]

/-- What it takes that a signature made for one formatted message is accepted for another: a break of `F`, `H`
or `T` or an unpublished chain value, or two secrets of the key that are equal, or `H_msg` selecting the same
secrets for both. -/
def TwoMessages (P : Spec.Prims) {ps : ParamSet} (pk : PublicKey ps.params) (sk : PrivateKey ps.params)
    (sig : Vector UInt8 ps.params.SIG_LEN) (M M' : List UInt8) : Prop :=
  (against P sk sig M').Break ∨
  (∃ i < ps.sp.k, opened P pk sig M i ≠ opened P pk sig M' i ∧
    prfInput ps pk.key.pk_seed.toList sk.key.sk_seed.toList (opened P pk sig M i) ≠
      prfInput ps pk.key.pk_seed.toList sk.key.sk_seed.toList (opened P pk sig M' i) ∧
    secretAt P sk (opened P pk sig M i) = secretAt P sk (opened P pk sig M' i)) ∨
  ∀ i < ps.sp.k, opened P pk sig M i = opened P pk sig M' i

/-- **C57** With an RNG that works, the program fails only if the hash functions are broken. -/
theorem C57_baseline_failure {b : Build} {os : PureRng σ} (hos : os.Works) {s : σ}
    {pk0 : Vector UInt8 ffiSet.params.PK_LEN} {sk0 : Vector UInt8 ffiSet.params.SK_LEN}
    {sig0 : Vector UInt8 ffiSet.params.SIG_LEN}
    (h : baseline_main (crypto P) (os.lift : Rng (Exec b) σ) s pk0 sk0 sig0 ≠ pure (.ret 0)) :
    ∃ (pk : PublicKey ffiSet.params) (sk : PrivateKey ffiSet.params), ∃ sig, Generated P pk sk ∧
      SignedBy P sk sig (Spec.pureMsg [] [0x00, 0x11, 0x22]) ∧ Accepted P pk sig (Spec.pureMsg [] [99, 0x11, 0x22]) ∧
      TwoMessages P pk sk sig (Spec.pureMsg [] [0x00, 0x11, 0x22]) (Spec.pureMsg [] [99, 0x11, 0x22]) := by
  obtain ⟨code, h1, h2 | h2, h3⟩ := C57_baseline (P := P) b os s pk0 sk0 sig0
  · rw [h2] at h1; exact absurd h1 h
  · rcases h3.mp h2 with ⟨s', e, h⟩ | ⟨s', pk, sk, h, ⟨s'', e, h'⟩ | ⟨s'', sig, h', h''⟩⟩
    · obtain ⟨s1, pk, sk, hk⟩ := hos.keygen (P := P) (b := b) ffiSet s
      rw [hk] at h
      have := congrArg Prod.snd (Exec.pure_inj h)
      cases this
    · obtain ⟨s1, sig, hs⟩ := hos.sign (P := P) (b := b) s' sk [0x00, 0x11, 0x22] [] (by simp)
      rw [hs] at h'
      have := congrArg Prod.snd (Exec.pure_inj h')
      cases this
    · have hg : Generated P pk sk := .rng _ _ _ h
      have hs : SignedBy P sk sig (Spec.pureMsg [] [0x00, 0x11, 0x22]) := .pure b _ _ _ _ _ _ h'
      have ha : Accepted P pk sig (Spec.pureMsg [] [99, 0x11, 0x22]) := .pure b _ _ h''
      exact ⟨pk, sk, sig, hg, hs, ha, C49_signed_for_another hg hs ha⟩

/-- The program does fail with hash functions that are constant. -/
example (s : Nat) : baseline_main (crypto zeroPrims) (demoRng.lift : Rng (Exec demoBuild) Nat) s
    (Vector.replicate _ 0) (Vector.replicate _ 0) (Vector.replicate _ 0) = pure (.ret 1) := by
  obtain ⟨code, h1, -, h3⟩ := C57_baseline (P := zeroPrims) demoBuild demoRng s (Vector.replicate _ 0)
    (Vector.replicate _ 0) (Vector.replicate _ 0)
  have hw : demoRng.Works := fun _ _ _ => ⟨_, _, rfl⟩
  obtain ⟨s1, pk, sk, hk⟩ := hw.keygen (P := zeroPrims) (b := demoBuild) ffiSet s
  obtain ⟨s2, sig, hs⟩ := hw.sign (P := zeroPrims) (b := demoBuild) s1 sk [0x00, 0x11, 0x22] [] (by simp)
  rw [h3.mpr (.inr ⟨s1, pk, sk, hk, .inr ⟨s2, sig, hs, ?_⟩⟩)] at h1
  · exact h1
  obtain ⟨a, c, d, e⟩ := (Generated.rng _ _ _ hk).keyPair
  rw [keyPair, Prod.mk.injEq] at e
  rw [exec_verify, Spec.verify, if_neg (by simp)]
  refine congrArg _ ?_
  rw [e.1, rootVec_toList]
  refine zero_accepts ffiSet _ _ _ _ ?_
  rw [Vector.length_toList]
  rfl

/-! ## C59: round trips -/

theorem round_trip_ph_eq {rng : Rng (Exec b) σ} {pk : PublicKey ps.params} {sk : PrivateKey ps.params} {ph : Ph}
    {s s' : σ} {sig : Vector UInt8 ps.params.SIG_LEN} {v : Bool}
    (h1 : sk.try_hash_sign_with_rng (crypto P) rng s [0, 1, 2, 3] ctxBytes ph true = pure (s', .ok sig))
    (h2 : (pk.hash_verify (crypto P) [0, 1, 2, 3] sig ctxBytes ph : Exec b Bool) = pure true)
    (h3 : (pk.hash_verify (crypto P) [0, 1, 2, 3] sig otherCtxBytes ph : Exec b Bool) = pure v) :
    round_trip_ph ps.params (crypto P) rng pk sk ph s = (do assert (!v); pure s') :=
  exec_step h1 (exec_step rfl (exec_step h2 (exec_step rfl (exec_step h3 rfl))))

/-- **C59** The round trip test of the crate, with any RNG that works: everything it expects to be accepted is;
it panics exactly when something it expects to be rejected is accepted.  The keys, the signature of the key
with the constant seeds and the signatures of the loop are those named. -/
theorem C59_round_trips {os : PureRng σ} (hos : os.Works) (s : σ) :
    ∃ (pk pk3 : PublicKey ps.params) (sk sk3 : PrivateKey ps.params) (sig3 : Vector UInt8 ps.params.SIG_LEN)
      (sigs : Ph → Vector UInt8 ps.params.SIG_LEN),
      Generated P pk sk ∧
      (keygen_with_seeds ps.params (crypto P) (Vector.replicate ps.params.N 0) (Vector.replicate ps.params.N 1)
        (Vector.replicate ps.params.N 2) : Exec b _) = pure (pk3, sk3) ∧
      SignedBy P sk3 sig3 (Spec.pureMsg ctxBytes [0, 1, 2, 3]) ∧
      (∀ ph, SignedBy P sk (sigs ph) (phMsg P ctxBytes [0, 1, 2, 3] ph)) ∧
      let bad := (pk.verify (crypto P) [0, 1, 2, 3] sig3 otherCtxBytes : Exec b Bool) = pure true ∨
        ∃ ph, (pk.hash_verify (crypto P) [0, 1, 2, 3] (sigs ph) otherCtxBytes ph : Exec b Bool) = pure true
      (bad → simple_round_trips ps.params (crypto P) (os.lift : Rng (Exec b) σ) s = panic .assertion) ∧
      (¬ bad → simple_round_trips ps.params (crypto P) (os.lift : Rng (Exec b) σ) s = pure ()) := by
  obtain ⟨s1, pk, sk, hk⟩ := hos.keygen (P := P) (b := b) ps s
  have hg : Generated P pk sk := .rng _ _ _ hk
  obtain ⟨pkb, hpb, -⟩ := exec_pk_into_bytes (b := b) pk
  obtain ⟨skb, hsb, -⟩ := exec_sk_into_bytes (b := b) sk
  obtain ⟨hdp, hds⟩ := decode_generated hg hpb hsb
  obtain ⟨s2, sig, hsg⟩ := hos.sign (P := P) (b := b) s1 sk [0, 1, 2, 3] ctxBytes (by decide)
  have hv : (pk.verify (crypto P) [0, 1, 2, 3] sig ctxBytes : Exec b Bool) = pure true :=
    C01_pure_signatures_verify hg hsg
  let z : UInt8 → Vector UInt8 ps.params.N := fun x => Vector.replicate _ x
  have hk3 : (keygen_with_seeds ps.params (crypto P) (z 0) (z 1) (z 2) : Exec b _) =
    pure ((keyPair ps P (z 0) (z 1) (z 2)).1, (keyPair ps P (z 0) (z 1) (z 2)).2) := exec_keygen_with_seeds _ _ _
  generalize (keyPair ps P (z 0) (z 1) (z 2)).1 = pk3 at hk3
  generalize (keyPair ps P (z 0) (z 1) (z 2)).2 = sk3 at hk3
  have hg3 : Generated P pk3 sk3 := .seeds _ _ _ hk3
  obtain ⟨s3, sig3, hsg3⟩ := hos.sign (P := P) (b := b) s2 sk3 [0, 1, 2, 3] ctxBytes (by decide)
  have hv3 : (pk3.verify (crypto P) [0, 1, 2, 3] sig3 ctxBytes : Exec b Bool) = pure true :=
    C01_pure_signatures_verify hg3 hsg3
  obtain ⟨t1, u1, k1⟩ := hos.hash_sign (P := P) (b := b) s3 sk [0, 1, 2, 3] ctxBytes (by decide) .SHA256
  obtain ⟨t2, u2, k2⟩ := hos.hash_sign (P := P) (b := b) t1 sk [0, 1, 2, 3] ctxBytes (by decide) .SHA512
  obtain ⟨t3, u3, k3⟩ := hos.hash_sign (P := P) (b := b) t2 sk [0, 1, 2, 3] ctxBytes (by decide) .SHAKE128
  obtain ⟨t4, u4, k4⟩ := hos.hash_sign (P := P) (b := b) t3 sk [0, 1, 2, 3] ctxBytes (by decide) .SHAKE256
  have e1 : (pk.hash_verify (crypto P) [0, 1, 2, 3] u1 ctxBytes .SHA256 : Exec b Bool) = pure true :=
    C02_prehash_signatures_verify hg k1
  have e2 : (pk.hash_verify (crypto P) [0, 1, 2, 3] u2 ctxBytes .SHA512 : Exec b Bool) = pure true :=
    C02_prehash_signatures_verify hg k2
  have e3 : (pk.hash_verify (crypto P) [0, 1, 2, 3] u3 ctxBytes .SHAKE128 : Exec b Bool) = pure true :=
    C02_prehash_signatures_verify hg k3
  have e4 : (pk.hash_verify (crypto P) [0, 1, 2, 3] u4 ctxBytes .SHAKE256 : Exec b Bool) = pure true :=
    C02_prehash_signatures_verify hg k4
  have hl : ∀ e, (leak e : Exec b Unit) = pure () := fun _ => rfl
  let sigs : Ph → Vector UInt8 ps.params.SIG_LEN
    | .SHA256 => u1
    | .SHA512 => u2
    | .SHAKE128 => u3
    | .SHAKE256 => u4
  have hB := exec_verify (b := b) (P := P) pk [0, 1, 2, 3] sig3 otherCtxBytes
  have hH : ∀ ph, (pk.hash_verify (crypto P) [0, 1, 2, 3] (sigs ph) otherCtxBytes ph : Exec b Bool) =
    pure _ := fun ph => exec_hash_verify pk _ _ _ ph
  generalize Spec.verify ps.sp (ps.hf P) [0, 1, 2, 3] sig3.toList otherCtxBytes pk.key.pk_seed.toList
    pk.key.pk_root.toList = v0 at hB
  let vs : Ph → Bool := fun ph => Spec.hashVerify ps.sp (ps.hf P) (Spec.oid ph.spec)
    (Spec.preHash P [0, 1, 2, 3] ph.spec) (sigs ph).toList otherCtxBytes pk.key.pk_seed.toList
    pk.key.pk_root.toList
  replace hH : ∀ ph, (pk.hash_verify (crypto P) [0, 1, 2, 3] (sigs ph) otherCtxBytes ph : Exec b Bool) =
    pure (vs ph) := hH
  generalize vs = vs at hH
  have hrun : simple_round_trips ps.params (crypto P) (os.lift : Rng (Exec b) σ) s =
      (do assert (!v0); assert (!vs .SHA256); assert (!vs .SHA512); assert (!vs .SHAKE128)
          assert (!vs .SHAKE256) : Exec b Unit) := by
    have q1 := hH .SHA256
    have q2 := hH .SHA512
    have q3 := hH .SHAKE128
    have q4 := hH .SHAKE256
    dsimp only [sigs] at q1 q2 q3 q4
    have ht : (assert true : Exec b Unit) = pure () := rfl
    unfold simple_round_trips
    refine exec_step hk (exec_step rfl (exec_step hpb (exec_step hsb (exec_step hdp (exec_step rfl
      (exec_step hds (exec_step rfl (exec_step hsg (exec_step rfl (exec_step hv (exec_step rfl (exec_step hk3
      (exec_step hsg3 (exec_step rfl (exec_step hv3 (exec_step rfl (exec_step hB ?_)))))))))))))))))
    refine congrArg (assert (!v0) >>= ·) (funext fun _ => ?_)
    have r1 := round_trip_ph_eq k1 e1 q1
    have r2 := round_trip_ph_eq k2 e2 q2
    have r3 := round_trip_ph_eq k3 e3 q3
    have r4 := round_trip_ph_eq k4 e4 q4
    simp only [forEach, hl, pure_bind, List.foldlM_cons, List.foldlM_nil, r1, r2, r3, r4, bind_assoc,
      bind_pure_unit]
  refine ⟨pk, pk3, sk, sk3, sig3, sigs, hg, hk3, .pure b _ _ _ _ _ _ hsg3, ?_, ?_⟩
  · intro ph
    cases ph
    · exact .hash b _ _ _ _ _ _ _ k1
    · exact .hash b _ _ _ _ _ _ _ k2
    · exact .hash b _ _ _ _ _ _ _ k3
    · exact .hash b _ _ _ _ _ _ _ k4
  · rw [hB, hrun]
    simp only [hH, Exec.pure_bind_inj]
    constructor
    · rintro (rfl | ⟨ph, h⟩)
      · rfl
      · cases v0
        · cases h1 : vs .SHA256
          · cases h2 : vs .SHA512
            · cases h3 : vs .SHAKE128
              · cases h4 : vs .SHAKE256
                · cases ph <;> simp_all
                · rfl
              · rfl
            · rfl
          · rfl
        · rfl
    · intro h
      push Not at h
      simp only [Bool.eq_false_iff.mpr h.1, Bool.eq_false_iff.mpr (h.2 _)]
      rfl

/-- **C59** With an RNG that works, the round trip test fails only if the hash functions are broken: one of the
signatures of the loop serves two contexts, or a signature by the key with constant seeds shows a break or a
FORS secret of the other key. -/
theorem C59_failure_needs {os : PureRng σ} (hos : os.Works) {s : σ}
    (h : simple_round_trips ps.params (crypto P) (os.lift : Rng (Exec b) σ) s ≠ pure ()) :
    ∃ (pk : PublicKey ps.params) (sk : PrivateKey ps.params) (sig : Vector UInt8 ps.params.SIG_LEN),
      Generated P pk sk ∧
      ((∃ ph, SignedBy P sk sig (phMsg P ctxBytes [0, 1, 2, 3] ph) ∧
          Accepted P pk sig (phMsg P otherCtxBytes [0, 1, 2, 3] ph) ∧
          TwoMessages P pk sk sig (phMsg P ctxBytes [0, 1, 2, 3] ph) (phMsg P otherCtxBytes [0, 1, 2, 3] ph)) ∨
        (∃ pk3 sk3, (keygen_with_seeds ps.params (crypto P) (Vector.replicate ps.params.N 0)
            (Vector.replicate ps.params.N 1) (Vector.replicate ps.params.N 2) : Exec b _) = pure (pk3, sk3) ∧
          SignedBy P sk3 sig (Spec.pureMsg ctxBytes [0, 1, 2, 3]) ∧
          Accepted P pk sig (Spec.pureMsg otherCtxBytes [0, 1, 2, 3]) ∧
          ((against P sk sig (Spec.pureMsg otherCtxBytes [0, 1, 2, 3])).Break ∨
            ∃ i < ps.sp.k, disclosed sig i =
              secretAt P sk (opened P pk sig (Spec.pureMsg otherCtxBytes [0, 1, 2, 3]) i)))) := by
  obtain ⟨pk, pk3, sk, sk3, sig3, sigs, hg, hk3, h3, hs, -, hgood⟩ :=
    C59_round_trips (ps := ps) (P := P) (b := b) hos s
  rcases not_not.mp (mt hgood h) with ha | ⟨ph, ha⟩
  · have ha := Accepted.pure b _ _ ha
    refine ⟨pk, sk, sig3, hg, .inr ⟨pk3, sk3, hk3, h3, ha, ?_⟩⟩
    rcases C48_new_signature_needs hg (Q := fun _ _ => False) (fun _ _ h => h.elim) ha (fun h => h) with
      h | ⟨i, hi, h, -⟩ | ⟨-, h⟩
    · exact .inl h
    · exact .inr ⟨i, hi, h⟩
    · obtain ⟨_, _, h, -⟩ := h 0 (by cases ps <;> decide)
      exact h.elim
  · have ha := Accepted.hash b _ _ ph ha
    exact ⟨pk, sk, sigs ph, hg, .inl ⟨ph, hs ph, ha, C49_signed_for_another hg (hs ph) ha⟩⟩

/-- **C59** The test of `tests/messages.rs` signs with an empty context and verifies with another one: whatever
keys and signature it expects, with any RNG, it passes only if the hash functions are broken. -/
theorem C59_browser_message {rng : Rng (Exec b) σ} {s : σ} {sk_exp sig_exp pk_exp : List UInt8}
    (h : test_browser_message (crypto P) rng s sk_exp sig_exp pk_exp = pure ()) :
    ∃ (pk : PublicKey ffiSet.params) (sk : PrivateKey ffiSet.params), ∃ sig, Generated P pk sk ∧
      SignedBy P sk sig (Spec.pureMsg [] [97, 115, 100, 102]) ∧
      Accepted P pk sig (Spec.pureMsg ctxBytes [97, 115, 100, 102]) ∧
      TwoMessages P pk sk sig (Spec.pureMsg [] [97, 115, 100, 102]) (Spec.pureMsg ctxBytes [97, 115, 100, 102]) := by
  unfold test_browser_message at h
  obtain ⟨⟨s1, r⟩, hk, h⟩ := Exec.bind_eq_pure h
  cases r with
  | error e => obtain ⟨_, h, -⟩ := Exec.bind_eq_pure h; exact absurd h Exec.panic_ne_pure
  | ok kp =>
    obtain ⟨pk, sk⟩ := kp
    obtain ⟨kp, h', h⟩ := Exec.bind_eq_pure h
    obtain rfl := Exec.pure_inj h'
    obtain ⟨⟨s2, r⟩, hs, h⟩ := Exec.bind_eq_pure h
    cases r with
    | error e => obtain ⟨_, h, -⟩ := Exec.bind_eq_pure h; exact absurd h Exec.panic_ne_pure
    | ok sig =>
      obtain ⟨_, h', h⟩ := Exec.bind_eq_pure h
      obtain rfl := Exec.pure_inj h'
      obtain ⟨v, hv, h⟩ := Exec.bind_eq_pure h
      obtain ⟨_, ha, -⟩ := Exec.bind_eq_pure h
      cases v
      · exact absurd ha Exec.panic_ne_pure
      · have hg : Generated (ps := ffiSet) P pk sk := .rng _ _ _ hk
        have hs : SignedBy (ps := ffiSet) P sk sig (Spec.pureMsg [] [97, 115, 100, 102]) := .pure b _ _ _ _ _ _ hs
        have ha : Accepted (ps := ffiSet) P pk sig (Spec.pureMsg ctxBytes [97, 115, 100, 102]) := .pure b _ _ hv
        exact ⟨pk, sk, sig, hg, hs, ha, C49_signed_for_another hg hs ha⟩

/-- It does pass with hash functions that are constant, if it expects what they give. -/
example (s : Nat) : ∃ sk_exp sig_exp pk_exp, test_browser_message (crypto zeroPrims)
    (demoRng.lift : Rng (Exec demoBuild) Nat) s sk_exp sig_exp pk_exp = pure () := by
  have hw : demoRng.Works := fun _ _ _ => ⟨_, _, rfl⟩
  obtain ⟨s1, pk, sk, hk⟩ := hw.keygen (P := zeroPrims) (b := demoBuild) ffiSet s
  obtain ⟨s2, sig, hs⟩ := hw.sign (P := zeroPrims) (b := demoBuild) s1 sk [97, 115, 100, 102] [] (by simp)
  obtain ⟨pkb, hpb, -⟩ := exec_pk_into_bytes (b := demoBuild) pk
  obtain ⟨skb, hsb, -⟩ := exec_sk_into_bytes (b := demoBuild) sk
  have hv : (pk.verify (crypto zeroPrims) [97, 115, 100, 102] sig ctxBytes : Exec demoBuild Bool) = pure true := by
    obtain ⟨a, c, d, e⟩ := (Generated.rng _ _ _ hk).keyPair
    rw [keyPair, Prod.mk.injEq] at e
    rw [exec_verify, Spec.verify, if_neg (by decide)]
    refine congrArg _ ?_
    rw [e.1, rootVec_toList]
    refine zero_accepts ffiSet _ _ _ _ ?_
    rw [Vector.length_toList]
    rfl
  have ht : ∀ x : List UInt8, (assert (x == x) : Exec demoBuild Unit) = pure () := fun x => by simp [assert]
  exact ⟨skb.toList, sig.toList, pkb.toList, exec_step hk (exec_step rfl (exec_step hs (exec_step rfl
    (exec_step hv (exec_step rfl (exec_step hsb (exec_step (ht _) (exec_step (ht _) (exec_step hpb (ht _))))))))))⟩

/-- An RNG that works; the round trip test does fail with hash functions that are constant. -/
example (ps : ParamSet) (s : Nat) : demoRng.Works ∧ simple_round_trips ps.params (crypto zeroPrims)
    (demoRng.lift : Rng (Exec demoBuild) Nat) s = panic .assertion := by
  have hw : demoRng.Works := fun _ _ _ => ⟨_, _, rfl⟩
  refine ⟨hw, ?_⟩
  obtain ⟨pk, pk3, sk, sk3, sig3, sigs, hg, -, -, -, hbad, -⟩ :=
    C59_round_trips (ps := ps) (P := zeroPrims) (b := demoBuild) hw s
  refine hbad (.inl ?_)
  obtain ⟨a, c, d, e⟩ := hg.keyPair
  rw [keyPair, Prod.mk.injEq] at e
  rw [exec_verify, Spec.verify, if_neg (by decide)]
  refine congrArg _ ?_
  rw [e.1, rootVec_toList]
  refine zero_accepts ps _ _ _ _ ?_
  rw [Vector.length_toList]
  cases ps <;> rfl

end Fips205.Props
