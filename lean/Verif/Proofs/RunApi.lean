import Verif.Proofs.RunSlh

/-! # The calls of the API functions, in order -/

namespace Fips205.Model
open Fips205

variable {b : Build} {σ : Type} {p : Params} {sp : Spec.Params} {hr : Spec.Run.Fns} {P : Spec.Prims}
  {C : Crypto (LogExec b)} {ps : ParamSet}

theorem sign_serialize_does (S : Sizes p sp) (R : HashersRun (HASHERS p C) hr)
    {mp : List (List UInt8)} (hmp : mp.length ≤ 5) (sk : SlhPrivateKey p.N) (o : Vector UInt8 p.N) :
    let r := Spec.Run.signInternal sp hr mp.flatten sk.sk_seed.toList sk.sk_prf.toList sk.pk_seed.toList
      sk.pk_root.toList o.toList
    ∃ sig : Vector UInt8 p.SIG_LEN, sig.toList = r.val ∧
      (slh_sign_internal p.A p.D p.H p.HP (HASHERS p C) mp sk o >>= mapSerialize p) =
        (r.log, .ok (.ok sig)) := by
  obtain ⟨r, h3, hr⟩ := (slh_sign_internal_does S.m R hmp sk o).last (f := mapSerialize p)
      (Q := fun r => ∃ sig : Vector UInt8 p.SIG_LEN,
      r = .ok sig ∧ sig.toList = Spec.signInternal sp hr.vals mp.flatten sk.sk_seed.toList
        sk.sk_prf.toList sk.pk_seed.toList sk.pk_root.toList o.toList) (by
    rintro _ ⟨sig, rfl, hsig⟩
    unfold mapSerialize
    dsimp only
    refine (serialize_returns S.m sig S.sig).bind fun v hv => ?_
    exact Returns.pure ⟨v, rfl, by rw [hv, hsig]⟩)
  obtain ⟨sig, rfl, hsig⟩ := hr
  exact ⟨sig, by rw [Spec.Run.signInternal_val, hsig], h3⟩

/-- What signing draws, returns and logs: the run `r opt` with the additional randomness `opt`. -/
def SignsAs (r : List UInt8 → Spec.Run (List UInt8)) (sk : SlhPrivateKey p.N) (rng : Rng (LogExec b) σ)
    (s : σ) (hedged : Bool) (L : List Call)
    (result : Except Panic (σ × Except String (Vector UInt8 p.SIG_LEN))) : Prop :=
  (∀ s' sig, result = .ok (s', .ok sig) → ∃ opt : Vector UInt8 p.N,
    (if hedged then (rng.tryFill s sk.pk_seed).result = .ok (s', .ok opt)
      else opt = sk.pk_seed ∧ s' = s) ∧ sig.toList = (r opt.toList).val ∧ L = (r opt.toList).log) ∧
  ((∀ s' sig, result ≠ .ok (s', .ok sig)) → L = [])

/-- `slh_sign_internal` with the key `sk`. -/
abbrev signAs (sp : Spec.Params) (hr : Spec.Run.Fns) {N : Nat} (sk : SlhPrivateKey N) (M opt : List UInt8) :
    Spec.Run (List UInt8) :=
  Spec.Run.signInternal sp hr M sk.sk_seed.toList sk.sk_prf.toList sk.pk_seed.toList sk.pk_root.toList opt

theorem slh_sign_with_rng_does (S : Sizes p sp) (R : HashersRun (HASHERS p C) hr)
    {mp : List (List UInt8)} (hmp : mp.length ≤ 5) (sk : SlhPrivateKey p.N) {rng : Rng (LogExec b) σ} (hq : UnloggedRng rng)
    (s : σ) (hedged : Bool) {x : LogExec b (σ × Except String (Vector UInt8 p.SIG_LEN))}
    (hx : x = do
      let (s, sig) ← slh_sign_with_rng p.A p.D p.H p.HP rng s (HASHERS p C) mp sk hedged
      let r ← mapSerialize p sig
      pure (s, r)) :
    SignsAs (signAs sp hr sk mp.flatten) sk rng s hedged x.log x.result := by
  have key : ∀ (o : Vector UInt8 p.N) (s' : σ), ∃ L sig, (sig.toList = (signAs sp hr sk mp.flatten o.toList).val ∧
      L = (signAs sp hr sk mp.flatten o.toList).log) ∧ (do
        let sig ← slh_sign_internal p.A p.D p.H p.HP (HASHERS p C) mp sk o
        let r ← mapSerialize p sig
        pure (s', r) : LogExec b _) = (L, .ok (s', .ok sig)) := by
    intro o s'
    obtain ⟨sig, h1, h2⟩ := sign_serialize_does S R hmp sk o
    refine ⟨_, sig, ⟨h1, rfl⟩, ?_⟩
    rw [← bind_assoc, h2]
    exact Prod.ext (List.append_nil _) rfl
  unfold slh_sign_with_rng at hx
  rw [show ∀ e, (leak e : LogExec b Unit) = pure () from fun _ => rfl, pure_bind] at hx
  cases hedged with
  | false =>
    rw [if_neg (by simp)] at hx
    simp only [bind_assoc, pure_bind] at hx
    obtain ⟨L, sig, h1, h2⟩ := key sk.pk_seed s
    rw [h2] at hx
    subst hx
    refine ⟨fun s' sig' h => ?_, fun h => absurd rfl (h s sig)⟩
    cases h
    exact ⟨sk.pk_seed, ⟨rfl, rfl⟩, h1⟩
  | true =>
    rw [if_pos rfl] at hx
    simp only [bind_assoc] at hx
    have hd := hq s sk.pk_seed
    unfold SignsAs
    generalize rng.tryFill s sk.pk_seed = d at *
    obtain ⟨l, d⟩ := d
    cases (show l = [] from hd)
    cases d with
    | error e =>
      subst hx
      exact ⟨fun s' sig h => (nomatch h), fun _ => rfl⟩
    | ok d =>
      obtain ⟨s', r⟩ := d
      cases r with
      | error e =>
        subst hx
        exact ⟨fun s' sig h => (nomatch h), fun _ => rfl⟩
      | ok o =>
        obtain ⟨L, sig, h1, h2⟩ := key o s'
        rw [LogExec.bind_ok rfl] at hx
        simp only [bind_assoc, pure_bind] at hx
        rw [h2] at hx
        subst hx
        refine ⟨fun s'' sig' h => ?_, fun h => absurd rfl (h s' sig)⟩
        cases h
        exact ⟨o, rfl, h1⟩

theorem try_sign_does (sk : PrivateKey ps.params) {rng : Rng (LogExec b) σ} (hq : UnloggedRng rng) (s : σ)
    (msg ctx : List UInt8) (hc : ctx.length ≤ 255) (hedged : Bool) :
    let x := sk.try_sign_with_rng (recording P) rng s msg ctx hedged
    SignsAs (signAs ps.sp (ps.hr P) sk.key (Spec.pureMsg ctx msg)) sk.key rng s hedged x.log x.result := by
  rw [← pure_flatten]
  refine slh_sign_with_rng_does ps.sizes (ps.hashersRun P) (by simp) sk.key hq s hedged ?_
  unfold PrivateKey.try_sign_with_rng
  rw [show ∀ e, (leak e : LogExec b Unit) = pure () from fun _ => rfl, pure_bind, if_neg (by omega)]

theorem raw_sign_does (sk : PrivateKey ps.params) {rng : Rng (LogExec b) σ} (hq : UnloggedRng rng) (s : σ)
    (msg : List UInt8) (hedged : Bool) :
    let x := sk._test_only_raw_sign (recording P) rng s msg hedged
    SignsAs (signAs ps.sp (ps.hr P) sk.key msg) sk.key rng s hedged x.log x.result := by
  have := slh_sign_with_rng_does (mp := [msg]) ps.sizes (ps.hashersRun P) (by simp) sk.key hq s hedged (raw_sign_eq sk rng s msg hedged)
  rwa [List.flatten_singleton] at this

theorem try_hash_sign_does (sk : PrivateKey ps.params) {rng : Rng (LogExec b) σ} (hq : UnloggedRng rng) (s : σ)
    (msg ctx : List UInt8) (hc : ctx.length ≤ 255) (ph : Ph) (hedged : Bool) :
    let x := sk.try_hash_sign_with_rng (recording P) rng s msg ctx ph hedged
    ∃ L, x.log = ⟨ph.spec, msg⟩ :: L ∧
    SignsAs (signAs ps.sp (ps.hr P) sk.key (phMsg P ctx msg ph)) sk.key rng s hedged L x.result := by
  unfold PrivateKey.try_hash_sign_with_rng
  rw [show ∀ e, (leak e : LogExec b Unit) = pure () from fun _ => rfl, pure_bind, if_neg (by omega)]
  obtain ⟨o, l, d, h1, h2, h3, h4⟩ := hash_message_value (b := b) (P := P) msg ph (zeroBytes 64)
  dsimp only
  rw [LogExec.bind_ok h1]
  dsimp only
  rw [slice_eq (by omega) (by simpa using h3), pure_bind, h2, h4, phMsg, ← prehash_flatten]
  exact ⟨_, rfl, slh_sign_with_rng_does ps.sizes (ps.hashersRun P) (by simp) sk.key hq s hedged rfl⟩

theorem verify_internal_eq (mp : List (List UInt8)) (hmp : mp.length ≤ 5) (pk : SlhPublicKey ps.params.N)
    {SIG : List UInt8}
    {sig : SlhDsaSig ps.params.A ps.params.D ps.params.HP ps.params.K ps.params.LEN ps.params.N}
    (hs : sig.bytes = SIG) :
    let r := Spec.Run.verifyInternal ps.sp (ps.hr P) mp.flatten SIG pk.pk_seed.toList pk.pk_root.toList
    slh_verify_internal ps.params.H (HASHERS ps.params (recording P : Crypto (LogExec b))) mp sig pk =
      (r.log, .ok r.val) := by
  subst hs
  obtain ⟨v, h, rfl⟩ := slh_verify_internal_does ps.matches (ps.hashersRun (b := b) P) hmp sig pk
  dsimp only
  rw [h, Spec.Run.verifyInternal_val]

theorem verify_does (pk : PublicKey ps.params) (msg ctx : List UInt8)
    (sig : Vector UInt8 ps.params.SIG_LEN) :
    let r := Spec.Run.verify ps.sp (ps.hr P) msg sig.toList ctx pk.key.pk_seed.toList pk.key.pk_root.toList
    (pk.verify (recording P) msg sig ctx : LogExec b Bool) = (r.log, .ok r.val) := by
  unfold PublicKey.verify Spec.Run.verify
  rw [show ∀ e, (leak e : LogExec b Unit) = pure () from fun _ => rfl, pure_bind]
  split
  · rfl
  obtain ⟨s, h1, hs⟩ := deserialize_eq (b := b) sig
  rw [h1, pure_bind, slh_verify, ← pure_flatten]
  exact verify_internal_eq _ (by simp) pk.key hs

theorem raw_verify_does (pk : PublicKey ps.params) (msg : List UInt8)
    (sig : Vector UInt8 ps.params.SIG_LEN) :
    let r := Spec.Run.verifyInternal ps.sp (ps.hr P) msg sig.toList pk.key.pk_seed.toList
      pk.key.pk_root.toList
    (pk._test_only_raw_verify (recording P) msg sig : LogExec b _) = (r.log, .ok (.ok r.val)) := by
  unfold PublicKey._test_only_raw_verify
  obtain ⟨s, h1, hs⟩ := deserialize_eq (b := b) sig
  have h3 := verify_internal_eq (b := b) (P := P) [msg] (by simp) pk.key hs
  dsimp only
  rw [h1, pure_bind, LogExec.bind_ok h3, List.flatten_singleton]
  exact Prod.ext (List.append_nil _) rfl

theorem hash_verify_does (pk : PublicKey ps.params) (msg ctx : List UInt8) (ph : Ph)
    (sig : Vector UInt8 ps.params.SIG_LEN) :
    let r := Spec.Run.hashVerify ps.sp (ps.hr P) P ph.spec msg sig.toList ctx pk.key.pk_seed.toList
      pk.key.pk_root.toList
    (pk.hash_verify (recording P) msg sig ctx ph : LogExec b Bool) = (r.log, .ok r.val) := by
  unfold PublicKey.hash_verify Spec.Run.hashVerify
  rw [show ∀ e, (leak e : LogExec b Unit) = pure () from fun _ => rfl, pure_bind]
  split
  · rfl
  obtain ⟨s, h1, hs⟩ := deserialize_eq (b := b) sig
  rw [h1, pure_bind]
  obtain ⟨o, l, d, e1, e2, e3, e4⟩ := hash_message_value (b := b) (P := P) msg ph (zeroBytes 64)
  dsimp only
  rw [LogExec.bind_ok e1]
  dsimp only
  rw [slice_eq (by omega) (by simpa using e3), pure_bind, e2, e4, slh_verify]
  have h3 := verify_internal_eq (b := b) (P := P) [[1], [UInt8.ofNat ctx.length], ctx, Spec.oid ph.spec,
      Spec.preHash P msg ph.spec] (by simp) pk.key hs
  rw [h3, prehash_flatten]
  rfl

/-! ## Keys -/

theorem keygen_internal_eq (sk_seed sk_prf pk_seed : Vector UInt8 ps.params.N) :
    let r := Spec.Run.pkRoot ps.sp (ps.hr P) sk_seed.toList pk_seed.toList
    ∃ root : Vector UInt8 ps.params.N, root.toList = r.val ∧
      slh_keygen_internal ps.params.D ps.params.HP (HASHERS ps.params (recording P : Crypto (LogExec b)))
        sk_seed sk_prf pk_seed = (r.log, .ok (⟨sk_seed, sk_prf, pk_seed, root⟩, ⟨pk_seed, root⟩)) := by
  obtain ⟨v, h, root, h1, rfl⟩ :=
    slh_keygen_internal_does ps.matches (ps.hashersRun (b := b) P) sk_seed sk_prf pk_seed
  exact ⟨root, by rw [Spec.Run.pkRoot_val, h1], h⟩

/-- What key generation logs. -/
theorem try_keygen_does {rng : Rng (LogExec b) σ} (hq : UnloggedRng rng) (s : σ) :
    let x := try_keygen_with_rng ps.params (recording P) rng s
    (∀ s' pk sk, x.result = .ok (s', .ok (pk, sk)) →
      pk.key = ⟨sk.key.pk_seed, sk.key.pk_root⟩ ∧
      let r := Spec.Run.pkRoot ps.sp (ps.hr P) sk.key.sk_seed.toList sk.key.pk_seed.toList
      sk.key.pk_root.toList = r.val ∧ x.log = r.log) ∧
    ((∀ s' kp, x.result ≠ .ok (s', .ok kp)) → x.log = []) := by
  unfold try_keygen_with_rng slh_keygen_with_rng
  simp only [bind_assoc]
  have h1 := hq s (zeroBytes ps.params.N)
  generalize rng.tryFill s (zeroBytes ps.params.N) = d at *
  obtain ⟨l, d⟩ := d
  cases (show l = [] from h1)
  cases d with
  | error e => exact ⟨fun s' pk sk h => (nomatch h), fun _ => rfl⟩
  | ok d =>
  obtain ⟨s1, r⟩ := d
  rw [LogExec.bind_ok rfl]
  cases r with
  | error e => exact ⟨fun s' pk sk h => (nomatch h), fun _ => rfl⟩
  | ok sk_seed =>
  simp only [bind_assoc]
  have h2 := hq s1 (zeroBytes ps.params.N)
  generalize rng.tryFill s1 (zeroBytes ps.params.N) = d at *
  obtain ⟨l, d⟩ := d
  cases (show l = [] from h2)
  cases d with
  | error e => exact ⟨fun s' pk sk h => (nomatch h), fun _ => rfl⟩
  | ok d =>
  obtain ⟨s2, r⟩ := d
  rw [LogExec.bind_ok rfl]
  cases r with
  | error e => exact ⟨fun s' pk sk h => (nomatch h), fun _ => rfl⟩
  | ok sk_prf =>
  simp only [bind_assoc]
  have h3 := hq s2 (zeroBytes ps.params.N)
  generalize rng.tryFill s2 (zeroBytes ps.params.N) = d at *
  obtain ⟨l, d⟩ := d
  cases (show l = [] from h3)
  cases d with
  | error e => exact ⟨fun s' pk sk h => (nomatch h), fun _ => rfl⟩
  | ok d =>
  obtain ⟨s3, r⟩ := d
  rw [LogExec.bind_ok rfl]
  cases r with
  | error e => exact ⟨fun s' pk sk h => (nomatch h), fun _ => rfl⟩
  | ok pk_seed =>
  simp only [bind_assoc]
  obtain ⟨root, hroot, hv⟩ := keygen_internal_eq (b := b) (ps := ps) (P := P) sk_seed sk_prf pk_seed
  rw [LogExec.bind_ok hv]
  refine ⟨fun s' pk sk h => ?_, fun h => absurd rfl (h _ _)⟩
  cases h
  exact ⟨rfl, hroot, List.append_nil _⟩

theorem sk_try_from_bytes_does (v : Vector UInt8 ps.params.SK_LEN) :
    (PrivateKey.try_from_bytes (recording P) v : LogExec b (Except String (PrivateKey ps.params))).log =
      (Spec.Run.pkRoot ps.sp (ps.hr P) (Spec.slice v.toList 0 ps.sp.n)
        (Spec.slice v.toList (2 * ps.sp.n) (3 * ps.sp.n))).log := by
  suffices h : Makes (Spec.Run.pkRoot ps.sp (ps.hr P) (Spec.slice v.toList 0 ps.sp.n)
        (Spec.slice v.toList (2 * ps.sp.n) (3 * ps.sp.n))).log (fun _ => True)
      (PrivateKey.try_from_bytes (recording P) v : LogExec b (Except String (PrivateKey ps.params))) by
    obtain ⟨r, h2, _⟩ := h
    rw [h2]
    rfl
  have S := ps.sizes
  have h := S.sk
  have hN := S.m.N_le
  have e1 : ps.params.SK_LEN / 4 = ps.params.N := by omega
  have e2 : ps.params.SK_LEN / 2 = 2 * ps.params.N := by omega
  have e3 : 3 * ps.params.SK_LEN / 4 = 3 * ps.params.N := by omega
  have en : ps.sp.n = ps.params.N := S.m.n
  unfold PrivateKey.try_from_bytes
  refine Makes.ret (P := (· = ps.params.N)) (Returns.tail (Returns.divUsize (by omega) (Returns.pure e1))) ?_
  rintro _ rfl
  refine Makes.slice (by omega) (by simp; omega) ?_
  refine Makes.copyFromSlice (by simp; omega) fun a ha => ?_
  refine Makes.ret (P := (· = ps.params.N)) (Returns.tail (Returns.divUsize (by omega) (Returns.pure e1))) ?_
  rintro _ rfl
  refine Makes.ret (P := (· = 2 * ps.params.N)) (Returns.tail (Returns.divUsize (by omega) (Returns.pure e2))) ?_
  rintro _ rfl
  refine Makes.slice (by omega) (by simp; omega) ?_
  refine Makes.copyFromSlice (by simp; omega) fun c hc => ?_
  refine Makes.ret (P := (· = 2 * ps.params.N)) (Returns.tail (Returns.divUsize (by omega) (Returns.pure e2))) ?_
  rintro _ rfl
  refine Makes.ret (P := (· = 3 * ps.params.SK_LEN))
    (Returns.tail (Returns.mulUsize (by omega) (Returns.pure rfl))) ?_
  rintro _ rfl
  refine Makes.ret (P := (· = 3 * ps.params.N)) (Returns.tail (Returns.divUsize (by omega) (Returns.pure e3))) ?_
  rintro _ rfl
  refine Makes.slice (by omega) (by simp; omega) ?_
  refine Makes.copyFromSlice (by simp; omega) fun d hd => ?_
  refine Makes.ret (P := (· = 3 * ps.params.SK_LEN))
    (Returns.tail (Returns.mulUsize (by omega) (Returns.pure rfl))) ?_
  rintro _ rfl
  refine Makes.ret (P := (· = 3 * ps.params.N)) (Returns.tail (Returns.divUsize (by omega) (Returns.pure e3))) ?_
  rintro _ rfl
  refine Makes.slice (by omega) (by simp) ?_
  refine Makes.copyFromSlice (by simp; omega) fun e he => ?_
  have hd' : d.toList = Spec.slice v.toList (2 * ps.sp.n) (3 * ps.sp.n) := by rw [hd, en]; rfl
  have ha' : a.toList = Spec.slice v.toList 0 ps.sp.n := by rw [ha, en]; rfl
  rw [← hd', ← ha']
  refine Makes.last (slh_keygen_internal_does ps.matches (ps.hashersRun (b := b) P) a c d) ?_
  rintro ⟨sk, pk⟩ _
  dsimp only
  refine Returns.leak ?_
  split <;> exact Returns.pure trivial

theorem keygen_with_seeds_does {n : Nat} (x y z : Vector UInt8 n) :
    let r : LogExec b _ := keygen_with_seeds ps.params (recording P) x y z
    (∀ pk sk, r.result = .ok (pk, sk) →
      pk.key = ⟨sk.key.pk_seed, sk.key.pk_root⟩ ∧
      let t := Spec.Run.pkRoot ps.sp (ps.hr P) sk.key.sk_seed.toList sk.key.pk_seed.toList
      sk.key.pk_root.toList = t.val ∧ r.log = t.log) ∧
    ((∀ kp, r.result ≠ .ok kp) → r.log = []) := by
  have h := try_keygen_does (b := b) (ps := ps) (P := P) (dummyRng_unlogged n) ⟨#v[x, y, z], 0⟩
  unfold keygen_with_seeds
  generalize try_keygen_with_rng ps.params (recording P) (dummyRng n : Rng (LogExec b) _)
    ⟨#v[x, y, z], 0⟩ = t at *
  obtain ⟨L, t⟩ := t
  obtain ⟨h1, h2⟩ := h
  rw [← List.append_nil L] at h1 h2
  cases t with
  | error e =>
    rw [List.append_nil] at h2
    exact ⟨fun pk sk h => (nomatch h), fun _ => h2 fun s' kp h => nomatch h⟩
  | ok t =>
    obtain ⟨s, r⟩ := t
    rw [LogExec.bind_ok rfl]
    cases r with
    | error e => exact ⟨fun pk sk h => (nomatch h), fun _ => h2 fun s' kp h => nomatch h⟩
    | ok kp =>
      obtain ⟨pk, sk⟩ := kp
      refine ⟨fun pk' sk' h => ?_, fun h => absurd rfl (h (pk, sk))⟩
      cases h
      exact h1 s pk sk rfl

end Fips205.Model
