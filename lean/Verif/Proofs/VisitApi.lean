import Verif.Proofs.VisitSlh
import Verif.Proofs.Consistent

/-! # The calls of hash functions made by the API functions -/

namespace Fips205.Model
open Fips205

variable {b : Build} {σ : Type} {p : Params} {sp : Spec.Params} {hf : Spec.HashFns}
  {pm : List UInt8 → List UInt8 → List UInt8 → List Call}
  {hm : List UInt8 → List UInt8 → List UInt8 → List UInt8 → List Call} {P : Spec.Prims}

/-- The RNG calls none of the hash functions.  It may fail or panic. -/
def UnloggedRng (rng : Rng (LogExec b) σ) : Prop :=
  ∀ (s : σ) {n : Nat} (v : Vector UInt8 n), (rng.tryFill s v).log = []

/-- The calls of `slh_sign_internal`. -/
def SignLog (At : Place → Call → Prop) (pm : List UInt8 → List UInt8 → List UInt8 → List Call)
    (hm : List UInt8 → List UInt8 → List UInt8 → List UInt8 → List Call) (sp : Spec.Params)
    (hf : Spec.HashFns) {N : Nat} (sk : SlhPrivateKey N) (M opt SIG : List UInt8) (L : List Call) : Prop :=
  ∃ L', EachOnce At (signPlaces (Spec.attempt sp hf M SIG sk.sk_seed.toList sk.pk_seed.toList
      sk.pk_root.toList)) L' ∧
    L = pm sk.sk_prf.toList opt M ++ (hm (Spec.slice SIG 0 sp.n) sk.pk_seed.toList sk.pk_root.toList M ++ L')

/-- The calls of `slh_verify_internal`. -/
def VerifyLog (At : Place → Call → Prop) (hm : List UInt8 → List UInt8 → List UInt8 → List UInt8 → List Call)
    (sp : Spec.Params) (hf : Spec.HashFns) {N : Nat} (pk : SlhPublicKey N) (M SIG : List UInt8)
    (L : List Call) : Prop :=
  ∃ L', EachOnce At (verifyPlaces (Spec.attempt sp hf M SIG [] pk.pk_seed.toList pk.pk_root.toList)) L' ∧
    L = hm (Spec.slice SIG 0 sp.n) pk.pk_seed.toList pk.pk_root.toList M ++ L'

section
variable {At : Place → Call → Prop} {C : Crypto (LogExec b)}

theorem sign_serialize_makes (S : Sizes p sp) (W : sp.WF) {mlen : Nat} (V : Spec.Valid hf sp.n mlen)
    (R' : HashersRefine (LogExec.erase.hashers (HASHERS p C)) hf) (RM : HashersMsg pm hm (HASHERS p C))
    {mp : List (List UInt8)} (hmp : mp.length ≤ 5) (sk : SlhPrivateKey p.N)
    (R : HashersAt At sk.pk_seed.toList (HASHERS p C)) (o : Vector UInt8 p.N) :
    ∃ L sig, SignLog At pm hm sp hf sk mp.flatten o.toList sig.toList L ∧
      (slh_sign_internal p.A p.D p.H p.HP (HASHERS p C) mp sk o >>= mapSerialize p) =
        (L, .ok (.ok sig)) := by
  obtain ⟨L, h1, h2⟩ := slh_sign_internal_makes S.m W V R' RM hmp sk R o rfl
  obtain ⟨r, h3, hr⟩ := h2.last (f := mapSerialize p) (Q := fun r => ∃ sig : Vector UInt8 p.SIG_LEN,
      r = .ok sig ∧ sig.toList = Spec.signInternal sp hf mp.flatten sk.sk_seed.toList
        sk.sk_prf.toList sk.pk_seed.toList sk.pk_root.toList o.toList) (by
    rintro _ ⟨sig, rfl, hsig⟩
    unfold mapSerialize
    dsimp only
    refine (serialize_returns S.m sig S.sig).bind fun v hv => ?_
    exact Returns.pure ⟨v, rfl, by rw [hv, hsig]⟩)
  obtain ⟨sig, rfl, hsig⟩ := hr
  rw [← hsig] at h1 h3
  exact ⟨_, sig, ⟨L, h1, rfl⟩, h3⟩

/-- What signing draws and logs. -/
def SignRun (At : Place → Call → Prop) (pm : List UInt8 → List UInt8 → List UInt8 → List Call)
    (hm : List UInt8 → List UInt8 → List UInt8 → List UInt8 → List Call) (sp : Spec.Params)
    (hf : Spec.HashFns) (sk : SlhPrivateKey p.N) (M : List UInt8) (rng : Rng (LogExec b) σ) (s : σ)
    (hedged : Bool) (L : List Call)
    (result : Except Panic (σ × Except String (Vector UInt8 p.SIG_LEN))) : Prop :=
  (∀ s' sig, result = .ok (s', .ok sig) → ∃ opt : Vector UInt8 p.N,
    (if hedged then (rng.tryFill s sk.pk_seed).result = .ok (s', .ok opt)
      else opt = sk.pk_seed ∧ s' = s) ∧ SignLog At pm hm sp hf sk M opt.toList sig.toList L) ∧
  ((∀ s' sig, result ≠ .ok (s', .ok sig)) → L = [])

theorem slh_sign_with_rng_run (S : Sizes p sp) (W : sp.WF) {mlen : Nat} (V : Spec.Valid hf sp.n mlen)
    (R' : HashersRefine (LogExec.erase.hashers (HASHERS p C)) hf) (RM : HashersMsg pm hm (HASHERS p C))
    {mp : List (List UInt8)} (hmp : mp.length ≤ 5) (sk : SlhPrivateKey p.N)
    (R : HashersAt At sk.pk_seed.toList (HASHERS p C)) {rng : Rng (LogExec b) σ} (hq : UnloggedRng rng)
    (s : σ) (hedged : Bool) {x : LogExec b (σ × Except String (Vector UInt8 p.SIG_LEN))}
    (hx : x = do
      let (s, sig) ← slh_sign_with_rng p.A p.D p.H p.HP rng s (HASHERS p C) mp sk hedged
      let r ← mapSerialize p sig
      pure (s, r)) :
    SignRun At pm hm sp hf sk mp.flatten rng s hedged x.log x.result := by
  have key : ∀ (o : Vector UInt8 p.N) (s' : σ), ∃ L sig, SignLog At pm hm sp hf sk mp.flatten o.toList
      sig.toList L ∧ (do
        let sig ← slh_sign_internal p.A p.D p.H p.HP (HASHERS p C) mp sk o
        let r ← mapSerialize p sig
        pure (s', r) : LogExec b _) = (L, .ok (s', .ok sig)) := by
    intro o s'
    obtain ⟨L, sig, h1, h2⟩ := sign_serialize_makes S W V R' RM hmp sk R o
    refine ⟨L, sig, h1, ?_⟩
    rw [← bind_assoc, h2]
    exact Prod.ext (List.append_nil _) rfl
  unfold slh_sign_with_rng at hx
  rw [show ∀ e, (leak e : LogExec b Unit) = pure () from fun _ => rfl, pure_bind] at hx
  cases hedged with
  | false =>
    rw [if_neg (by simp)] at hx
    simp only [bind_assoc, pure_bind] at hx
    obtain ⟨L, sig, h1, h2⟩ := key sk.pk_seed s
    rw [h2] at hx
    subst hx
    refine ⟨fun s' sig' h => ?_, fun h => absurd rfl (h s sig)⟩
    cases h
    exact ⟨sk.pk_seed, ⟨rfl, rfl⟩, h1⟩
  | true =>
    rw [if_pos rfl] at hx
    simp only [bind_assoc] at hx
    have hd := hq s sk.pk_seed
    unfold SignRun
    generalize rng.tryFill s sk.pk_seed = d at *
    obtain ⟨l, d⟩ := d
    cases (show l = [] from hd)
    cases d with
    | error e =>
      subst hx
      exact ⟨fun s' sig h => (nomatch h), fun _ => rfl⟩
    | ok d =>
      obtain ⟨s', r⟩ := d
      cases r with
      | error e =>
        subst hx
        exact ⟨fun s' sig h => (nomatch h), fun _ => rfl⟩
      | ok o =>
        obtain ⟨L, sig, h1, h2⟩ := key o s'
        rw [LogExec.bind_ok rfl] at hx
        simp only [bind_assoc, pure_bind] at hx
        rw [h2] at hx
        subst hx
        refine ⟨fun s'' sig' h => ?_, fun h => absurd rfl (h s' sig)⟩
        cases h
        exact ⟨o, rfl, h1⟩

theorem deserialize_verify_makes (S : Sizes p sp) (W : sp.WF)
    (R' : HashersRefine (LogExec.erase.hashers (HASHERS p C)) hf) (RM : HashersMsg pm hm (HASHERS p C))
    {mp : List (List UInt8)} (hmp : mp.length ≤ 5) (pk : SlhPublicKey p.N)
    (R : HashersAt At pk.pk_seed.toList (HASHERS p C)) {SIG : List UInt8}
    {sig : SlhDsaSig p.A p.D p.HP p.K p.LEN p.N} (hs : sig.bytes = SIG) :
    ∃ L, VerifyLog At hm sp hf pk mp.flatten SIG L ∧
      slh_verify_internal p.H (HASHERS p C) mp sig pk =
        (L, .ok (Spec.verifyInternal sp hf mp.flatten SIG pk.pk_seed.toList pk.pk_root.toList)) := by
  subst hs
  obtain ⟨L, h1, v, h2, rfl⟩ := slh_verify_internal_makes S.m W R' RM hmp sig pk R []
  exact ⟨_, ⟨L, h1, rfl⟩, h2⟩

end

variable {ps : ParamSet}

/-- Abbreviation: the calls of the functions of section 11 for a parameter set. -/
abbrev ParamSet.callAt (ps : ParamSet) (pk_seed : List UInt8) : Place → Call → Prop :=
  CallAt ps.family ps.row pk_seed

theorem try_sign_run (sk : PrivateKey ps.params) {rng : Rng (LogExec b) σ} (hq : UnloggedRng rng) (s : σ)
    (msg ctx : List UInt8) (hc : ctx.length ≤ 255) (hedged : Bool) :
    let x := sk.try_sign_with_rng (recording P) rng s msg ctx hedged
    SignRun (ps.callAt sk.key.pk_seed.toList) (prfMsgLog P ps.family ps.row) (hMsgLog P ps.family ps.row)
      ps.sp (ps.hf P) sk.key (Spec.pureMsg ctx msg) rng s hedged x.log x.result := by
  rw [← pure_flatten]
  refine slh_sign_with_rng_run ps.sizes ps.wf (ps.valid P) (ps.hashersErase P) (ps.hashersMsg P) (by simp)
    sk.key (ps.hashersAt P _) hq s hedged ?_
  unfold PrivateKey.try_sign_with_rng
  rw [show ∀ e, (leak e : LogExec b Unit) = pure () from fun _ => rfl, pure_bind, if_neg (by omega)]

theorem raw_sign_eq {C : Crypto (LogExec b)} (sk : PrivateKey p) (rng : Rng (LogExec b) σ) (s : σ)
    (msg : List UInt8) (hedged : Bool) :
    sk._test_only_raw_sign C rng s msg hedged = (do
      let (s, sig) ← slh_sign_with_rng p.A p.D p.H p.HP rng s (HASHERS p C) [msg] sk.key hedged
      let r ← mapSerialize p sig
      pure (s, r)) := by
  unfold PrivateKey._test_only_raw_sign slh_sign_with_rng
  have hl : ∀ e, (leak e : LogExec b Unit) = pure () := fun _ => rfl
  simp only [bind_assoc, hl, pure_bind]
  cases hedged with
  | false => simp
  | true =>
    simp only [if_true, bind_assoc]
    congr 1
    funext ⟨s', r⟩
    cases r with
    | error e => simp [mapSerialize, hl]
    | ok o => simp

theorem raw_sign_run (sk : PrivateKey ps.params) {rng : Rng (LogExec b) σ} (hq : UnloggedRng rng) (s : σ)
    (msg : List UInt8) (hedged : Bool) :
    let x := sk._test_only_raw_sign (recording P) rng s msg hedged
    SignRun (ps.callAt sk.key.pk_seed.toList) (prfMsgLog P ps.family ps.row) (hMsgLog P ps.family ps.row)
      ps.sp (ps.hf P) sk.key msg rng s hedged x.log x.result := by
  have := slh_sign_with_rng_run (mp := [msg]) ps.sizes ps.wf (ps.valid P) (ps.hashersErase P)
    (ps.hashersMsg P) (by simp) sk.key (ps.hashersAt P _) hq s hedged (raw_sign_eq sk rng s msg hedged)
  rwa [List.flatten_singleton] at this

theorem hash_message_value (message : List UInt8) (ph : Ph) (phm : Vector UInt8 64) :
    ∃ o l d, hash_message (recording P : Crypto (LogExec b)) message ph phm =
        ([⟨ph.spec, message⟩], .ok (o, l, d)) ∧ o.toList = Spec.oid ph.spec ∧ l ≤ 64 ∧
      (d.toList.drop 0).take (l - 0) = Spec.preHash P message ph.spec := by
  obtain ⟨⟨o, l, d⟩, h1, _, h2⟩ := (hash_message_makes P message ph phm).value
    (LogExec.erase.map_hash_message _ message ph phm) (hash_message_returns P message ph phm)
  exact ⟨o, l, d, h1, h2⟩

theorem slice_eq {l : List UInt8} {x y : Nat} (h1 : x ≤ y) (h2 : y ≤ l.length) :
    (slice l x y : LogExec b _) = pure ((l.drop x).take (y - x)) := by
  have : Returns (slice l x y : LogExec b _) (· = (l.drop x).take (y - x)) :=
    Returns.tail (Returns.slice h1 h2 (Returns.pure rfl))
  obtain ⟨v, h, rfl⟩ := LogExec.returns_iff.mp this
  exact h

theorem try_hash_sign_run (sk : PrivateKey ps.params) {rng : Rng (LogExec b) σ} (hq : UnloggedRng rng) (s : σ)
    (msg ctx : List UInt8) (hc : ctx.length ≤ 255) (ph : Ph) (hedged : Bool) :
    let x := sk.try_hash_sign_with_rng (recording P) rng s msg ctx ph hedged
    ∃ L, x.log = ⟨ph.spec, msg⟩ :: L ∧
    SignRun (ps.callAt sk.key.pk_seed.toList) (prfMsgLog P ps.family ps.row) (hMsgLog P ps.family ps.row)
      ps.sp (ps.hf P) sk.key (phMsg P ctx msg ph) rng s hedged L x.result := by
  unfold PrivateKey.try_hash_sign_with_rng
  rw [show ∀ e, (leak e : LogExec b Unit) = pure () from fun _ => rfl, pure_bind, if_neg (by omega)]
  obtain ⟨o, l, d, h1, h2, h3, h4⟩ := hash_message_value (b := b) (P := P) msg ph (zeroBytes 64)
  dsimp only
  rw [LogExec.bind_ok h1]
  dsimp only
  rw [slice_eq (by omega) (by simpa using h3), pure_bind, h2, h4, phMsg, ← prehash_flatten]
  exact ⟨_, rfl, slh_sign_with_rng_run ps.sizes ps.wf (ps.valid P) (ps.hashersErase P) (ps.hashersMsg P)
    (by simp) sk.key (ps.hashersAt P _) hq s hedged rfl⟩

theorem deserialize_eq (sig : Vector UInt8 ps.params.SIG_LEN) :
    ∃ s : SlhDsaSig ps.params.A ps.params.D ps.params.HP ps.params.K ps.params.LEN ps.params.N,
      (SlhDsaSig.deserialize ps.params.A ps.params.D ps.params.HP ps.params.K ps.params.LEN ps.params.N
        sig.toList : LogExec b _) = pure s ∧ s.bytes = sig.toList :=
  LogExec.returns_iff.mp (deserialize_returns ps.matches (by simpa using ps.sizes.sig))

theorem verify_run (pk : PublicKey ps.params) (msg ctx : List UInt8) (hc : ctx.length ≤ 255)
    (sig : Vector UInt8 ps.params.SIG_LEN) :
    VerifyLog (ps.callAt pk.key.pk_seed.toList) (hMsgLog P ps.family ps.row) ps.sp (ps.hf P) pk.key
      (Spec.pureMsg ctx msg) sig.toList (pk.verify (recording P) msg sig ctx : LogExec b Bool).log := by
  unfold PublicKey.verify
  rw [show ∀ e, (leak e : LogExec b Unit) = pure () from fun _ => rfl, pure_bind, if_neg (by omega)]
  obtain ⟨s, h1, hs⟩ := deserialize_eq (b := b) sig
  rw [h1, pure_bind, slh_verify, ← pure_flatten]
  obtain ⟨L, h2, h3⟩ := deserialize_verify_makes ps.sizes ps.wf (ps.hashersErase (b := b) P)
    (ps.hashersMsg P) (mp := [[0], [UInt8.ofNat ctx.length], ctx, msg]) (by simp) pk.key
    (ps.hashersAt P _) hs
  rw [h3]
  exact h2

theorem raw_verify_run (pk : PublicKey ps.params) (msg : List UInt8)
    (sig : Vector UInt8 ps.params.SIG_LEN) :
    VerifyLog (ps.callAt pk.key.pk_seed.toList) (hMsgLog P ps.family ps.row) ps.sp (ps.hf P) pk.key
      msg sig.toList (pk._test_only_raw_verify (recording P) msg sig : LogExec b _).log := by
  unfold PublicKey._test_only_raw_verify
  obtain ⟨s, h1, hs⟩ := deserialize_eq (b := b) sig
  rw [h1, pure_bind]
  obtain ⟨L, h2, h3⟩ := deserialize_verify_makes ps.sizes ps.wf (ps.hashersErase (b := b) P)
    (ps.hashersMsg P) (mp := [msg]) (by simp) pk.key (ps.hashersAt P _) hs
  rw [List.flatten_singleton] at h2
  rw [LogExec.bind_ok h3]
  rw [← List.append_nil L] at h2
  exact h2

theorem hash_verify_run (pk : PublicKey ps.params) (msg ctx : List UInt8) (hc : ctx.length ≤ 255) (ph : Ph)
    (sig : Vector UInt8 ps.params.SIG_LEN) :
    ∃ L, (pk.hash_verify (recording P) msg sig ctx ph : LogExec b Bool).log = ⟨ph.spec, msg⟩ :: L ∧
    VerifyLog (ps.callAt pk.key.pk_seed.toList) (hMsgLog P ps.family ps.row) ps.sp (ps.hf P) pk.key
      (phMsg P ctx msg ph) sig.toList L := by
  unfold PublicKey.hash_verify
  rw [show ∀ e, (leak e : LogExec b Unit) = pure () from fun _ => rfl, pure_bind, if_neg (by omega)]
  obtain ⟨s, h1, hs⟩ := deserialize_eq (b := b) sig
  rw [h1, pure_bind]
  obtain ⟨o, l, d, e1, e2, e3, e4⟩ := hash_message_value (b := b) (P := P) msg ph (zeroBytes 64)
  dsimp only
  rw [LogExec.bind_ok e1]
  dsimp only
  rw [slice_eq (by omega) (by simpa using e3), pure_bind, e2, e4, phMsg, slh_verify, ← prehash_flatten]
  obtain ⟨L, h2, h3⟩ := deserialize_verify_makes ps.sizes ps.wf (ps.hashersErase (b := b) P)
    (ps.hashersMsg P) (mp := [[1], [UInt8.ofNat ctx.length], ctx, Spec.oid ph.spec,
      Spec.preHash P msg ph.spec]) (by simp) pk.key (ps.hashersAt P _) hs
  rw [h3]
  exact ⟨_, rfl, h2⟩

/-! ## Keys -/

/-- What key generation logs. -/
theorem try_keygen_run {rng : Rng (LogExec b) σ} (hq : UnloggedRng rng) (s : σ) :
    let x := try_keygen_with_rng ps.params (recording P) rng s
    (∀ s' pk sk, x.result = .ok (s', .ok (pk, sk)) →
      EachOnce (ps.callAt pk.key.pk_seed.toList) (keygenPlaces ps.sp) x.log) ∧
    ((∀ s' kp, x.result ≠ .ok (s', .ok kp)) → x.log = []) := by
  unfold try_keygen_with_rng slh_keygen_with_rng
  simp only [bind_assoc]
  have h1 := hq s (zeroBytes ps.params.N)
  generalize rng.tryFill s (zeroBytes ps.params.N) = d at *
  obtain ⟨l, d⟩ := d
  cases (show l = [] from h1)
  cases d with
  | error e => exact ⟨fun s' pk sk h => (nomatch h), fun _ => rfl⟩
  | ok d =>
  obtain ⟨s1, r⟩ := d
  rw [LogExec.bind_ok rfl]
  cases r with
  | error e => exact ⟨fun s' pk sk h => (nomatch h), fun _ => rfl⟩
  | ok sk_seed =>
  simp only [bind_assoc]
  have h2 := hq s1 (zeroBytes ps.params.N)
  generalize rng.tryFill s1 (zeroBytes ps.params.N) = d at *
  obtain ⟨l, d⟩ := d
  cases (show l = [] from h2)
  cases d with
  | error e => exact ⟨fun s' pk sk h => (nomatch h), fun _ => rfl⟩
  | ok d =>
  obtain ⟨s2, r⟩ := d
  rw [LogExec.bind_ok rfl]
  cases r with
  | error e => exact ⟨fun s' pk sk h => (nomatch h), fun _ => rfl⟩
  | ok sk_prf =>
  simp only [bind_assoc]
  have h3 := hq s2 (zeroBytes ps.params.N)
  generalize rng.tryFill s2 (zeroBytes ps.params.N) = d at *
  obtain ⟨l, d⟩ := d
  cases (show l = [] from h3)
  cases d with
  | error e => exact ⟨fun s' pk sk h => (nomatch h), fun _ => rfl⟩
  | ok d =>
  obtain ⟨s3, r⟩ := d
  rw [LogExec.bind_ok rfl]
  cases r with
  | error e => exact ⟨fun s' pk sk h => (nomatch h), fun _ => rfl⟩
  | ok pk_seed =>
  simp only [bind_assoc]
  obtain ⟨L, hL, v, hv, root, _, rfl⟩ := (slh_keygen_internal_visits ps.matches (ps.hashersErase (b := b) P)
    sk_seed sk_prf pk_seed (ps.hashersAt P _)).eachOnce
  rw [LogExec.bind_ok hv]
  refine ⟨fun s' pk sk h => ?_, fun h => absurd rfl (h _ _)⟩
  cases h
  rw [← List.append_nil L] at hL
  exact hL

theorem sk_try_from_bytes_run (v : Vector UInt8 ps.params.SK_LEN) :
    EachOnce (ps.callAt (Spec.slice v.toList (2 * ps.sp.n) (3 * ps.sp.n))) (keygenPlaces ps.sp)
      (PrivateKey.try_from_bytes (recording P) v : LogExec b (Except String (PrivateKey ps.params))).log := by
  suffices h : Visits (ps.callAt (Spec.slice v.toList (2 * ps.sp.n) (3 * ps.sp.n))) (keygenPlaces ps.sp)
      (fun _ => True)
      (PrivateKey.try_from_bytes (recording P) v : LogExec b (Except String (PrivateKey ps.params))) by
    obtain ⟨L, h1, r, h2, _⟩ := h.eachOnce
    rw [h2]
    exact h1
  have S := ps.sizes
  have h := S.sk
  have hN := S.m.N_le
  have e1 : ps.params.SK_LEN / 4 = ps.params.N := by omega
  have e2 : ps.params.SK_LEN / 2 = 2 * ps.params.N := by omega
  have e3 : 3 * ps.params.SK_LEN / 4 = 3 * ps.params.N := by omega
  have en : ps.sp.n = ps.params.N := S.m.n
  unfold PrivateKey.try_from_bytes
  refine Visits.ret (P := (· = ps.params.N)) (Returns.tail (Returns.divUsize (by omega) (Returns.pure e1))) ?_
  rintro _ rfl
  refine Visits.slice (by omega) (by simp; omega) ?_
  refine Visits.copyFromSlice (by simp; omega) fun a ha => ?_
  refine Visits.ret (P := (· = ps.params.N)) (Returns.tail (Returns.divUsize (by omega) (Returns.pure e1))) ?_
  rintro _ rfl
  refine Visits.ret (P := (· = 2 * ps.params.N)) (Returns.tail (Returns.divUsize (by omega) (Returns.pure e2))) ?_
  rintro _ rfl
  refine Visits.slice (by omega) (by simp; omega) ?_
  refine Visits.copyFromSlice (by simp; omega) fun c hc => ?_
  refine Visits.ret (P := (· = 2 * ps.params.N)) (Returns.tail (Returns.divUsize (by omega) (Returns.pure e2))) ?_
  rintro _ rfl
  refine Visits.ret (P := (· = 3 * ps.params.SK_LEN))
    (Returns.tail (Returns.mulUsize (by omega) (Returns.pure rfl))) ?_
  rintro _ rfl
  refine Visits.ret (P := (· = 3 * ps.params.N)) (Returns.tail (Returns.divUsize (by omega) (Returns.pure e3))) ?_
  rintro _ rfl
  refine Visits.slice (by omega) (by simp; omega) ?_
  refine Visits.copyFromSlice (by simp; omega) fun d hd => ?_
  refine Visits.ret (P := (· = 3 * ps.params.SK_LEN))
    (Returns.tail (Returns.mulUsize (by omega) (Returns.pure rfl))) ?_
  rintro _ rfl
  refine Visits.ret (P := (· = 3 * ps.params.N)) (Returns.tail (Returns.divUsize (by omega) (Returns.pure e3))) ?_
  rintro _ rfl
  refine Visits.slice (by omega) (by simp) ?_
  refine Visits.copyFromSlice (by simp; omega) fun e he => ?_
  have hd' : d.toList = Spec.slice v.toList (2 * ps.sp.n) (3 * ps.sp.n) := by rw [hd, en]; rfl
  rw [← hd']
  refine Visits.last (slh_keygen_internal_visits ps.matches (ps.hashersErase (b := b) P) a c d
    (ps.hashersAt P _)) ?_
  rintro ⟨sk, pk⟩ _
  dsimp only
  refine Returns.leak ?_
  split <;> exact Returns.pure trivial

/-- A run that logs nothing, whether it returns or panics. -/
theorem LogExec.bind_quiet {α β : Type} {x : LogExec b α} {f : α → LogExec b β} (h : x.log = [])
    (hf : ∀ v, (f v).log = []) : (x >>= f).log = [] := by
  obtain ⟨L, r⟩ := x
  cases (show L = [] from h)
  cases r with
  | error e => rfl
  | ok v => exact hf v

theorem dummyRng_unlogged (n : Nat) : UnloggedRng (dummyRng n : Rng (LogExec b) _) := by
  intro s k v
  refine LogExec.bind_quiet (LogExec.bind_quiet rfl fun _ => ?_) fun _ =>
    LogExec.bind_quiet ?_ fun _ => LogExec.bind_quiet ?_ fun _ => rfl
  · split <;> rfl
  · unfold copyFromSlice
    split <;> rfl
  · unfold addUsize ovf
    split <;> rfl

theorem keygen_with_seeds_run {n : Nat} (x y z : Vector UInt8 n) :
    let r : LogExec b _ := keygen_with_seeds ps.params (recording P) x y z
    (∀ pk sk, r.result = .ok (pk, sk) →
      EachOnce (ps.callAt pk.key.pk_seed.toList) (keygenPlaces ps.sp) r.log) ∧
    ((∀ kp, r.result ≠ .ok kp) → r.log = []) := by
  have h := try_keygen_run (b := b) (ps := ps) (P := P) (dummyRng_unlogged n) ⟨#v[x, y, z], 0⟩
  unfold keygen_with_seeds
  generalize try_keygen_with_rng ps.params (recording P) (dummyRng n : Rng (LogExec b) _)
    ⟨#v[x, y, z], 0⟩ = t at *
  obtain ⟨L, t⟩ := t
  obtain ⟨h1, h2⟩ := h
  rw [← List.append_nil L] at h1 h2
  cases t with
  | error e =>
    rw [List.append_nil] at h2
    exact ⟨fun pk sk h => (nomatch h), fun _ => h2 fun s' kp h => nomatch h⟩
  | ok t =>
    obtain ⟨s, r⟩ := t
    rw [LogExec.bind_ok rfl]
    cases r with
    | error e => exact ⟨fun pk sk h => (nomatch h), fun _ => h2 fun s' kp h => nomatch h⟩
    | ok kp =>
      obtain ⟨pk, sk⟩ := kp
      refine ⟨fun pk' sk' h => ?_, fun h => absurd rfl (h (pk, sk))⟩
      cases h
      exact h1 s pk sk rfl

end Fips205.Model
