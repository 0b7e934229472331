import Verif.Props.CForgery
import Verif.Props.Damage

/-!
# For C programs verification is as good as asking the signer (C97)

The environment of `Verif.Props.Ideal`, now a C program that uses the functions of `ffi/src/lib.rs` with byte buffers and
return codes.
-/

namespace Fips205.Props
open Fips205 Fips205.Model

variable {L B w : Nat} {b : Build}

/-- A signature in a C buffer. -/
abbrev CSig := Vector UInt8 slh_dsa_sha2_128f.SIG_LEN

/-- A C program that asks for `q` signatures, `T` verdicts and `Q` values of the hash functions.  What it asks for may
depend on all answers so far. -/
inductive CEnv (L B w : Nat) : Nat → Nat → Nat → Type
  | stop {q T Q : Nat} : CEnv L B w q T Q
  /-- call the signing function, with `out` in the output buffer; `rnd` is what the generator of the operating system
  does; the program gets the return code and the buffer -/
  | sign {q T Q : Nat} (x : CMessage L) (out : CSig) (rnd : Except Unit (Vector UInt8 slh_dsa_sha2_128f.N))
      (next : UInt8 → Option CSig → CEnv L B w q T Q) : CEnv L B w (q + 1) T Q
  /-- call the verification function; the program gets the return code -/
  | check {q T Q : Nat} (x : CMessage L) (sig : CSig) (next : UInt8 → CEnv L B w q T Q) : CEnv L B w q (T + 1) Q
  /-- evaluate a hash function -/
  | call {q T Q : Nat} (y : Query B) (next : Fin (256 ^ w) → CEnv L B w q T Q) : CEnv L B w q T (Q + 1)

/-- What the program sees. -/
inductive CEvent (w : Nat)
  | signed (code : UInt8) (out : Option CSig)
  | verdict (code : UInt8)
  | value (v : Fin (256 ^ w))

section
variable {m : Type → Type} [Rust m] (C : Crypto m)

/-- The run of a program.  `judge` stands for the verification function; it may look into the register of all messages
and signatures for which the signing function returned `SLH_DSA_OK`.  No outcome if the behaviour is undefined. -/
def CEnv.run (ask : Query B → m (Fin (256 ^ w))) (sk : Vector UInt8 slh_dsa_sha2_128f.SK_LEN)
    (judge : List (List UInt8 × CSig) → CMessage L → CSig → m (Ffi UInt8)) :
    {q T Q : Nat} → CEnv L B w q T Q → List (List UInt8 × CSig) → m (Option (List (CEvent w)))
  | _, _, _, .stop, _ => pure (some [])
  | _, _, _, .sign x out rnd next, register => do
    match ← slh_dsa_sha2_128f_sign C (fixedRng rnd) () (.to x.buf) x.len (some sk) (some out) with
    | .ub => pure none
    | .ret (_, code, out) => do
      let es ← (next code out).run ask sk judge (match out with
        | some sig => if code = SLH_DSA_OK then (x.bytes, sig) :: register else register
        | none => register)
      pure (es.map (.signed code out :: ·))
  | _, _, _, .check x sig next, register => do
    match ← judge register x sig with
    | .ub => pure none
    | .ret code => do
      let es ← (next code).run ask sk judge register
      pure (es.map (.verdict code :: ·))
  | _, _, _, .call y next, register => do
    let v ← ask y
    let es ← (next v).run ask sk judge register
    pure (es.map (.value v :: ·))

/-- The real world: `slh_dsa_sha2_128f_verify`. -/
def cJudge (pk : Vector UInt8 slh_dsa_sha2_128f.PK_LEN) (_ : List (List UInt8 × CSig)) (x : CMessage L) (sig : CSig) :
    m (Ffi UInt8) :=
  slh_dsa_sha2_128f_verify C (.to x.buf) x.len (some pk) (some sig)

/-- The ideal world: the code tells whether this was signed. -/
def cRegister (register : List (List UInt8 × CSig)) (x : CMessage L) (sig : CSig) : m (Ffi UInt8) :=
  pure (.ret (if (x.bytes, sig) ∈ register then SLH_DSA_OK else SLH_DSA_VERIFY_ERROR))

/-- Key generation into two buffers, then the run. -/
def cWorld {q T Q : Nat} (ask : Query B → m (Fin (256 ^ w))) (pk0 : Vector UInt8 slh_dsa_sha2_128f.PK_LEN)
    (sk0 : Vector UInt8 slh_dsa_sha2_128f.SK_LEN)
    (judge : Vector UInt8 slh_dsa_sha2_128f.PK_LEN → List (List UInt8 × CSig) → CMessage L → CSig → m (Ffi UInt8))
    (E : Vector UInt8 slh_dsa_sha2_128f.PK_LEN → CEnv L B w q T Q)
    (coins : Fin (256 ^ 16) × Fin (256 ^ 16) × Fin (256 ^ 16)) : m (Option (List (CEvent w))) := do
  let (_, code, pk, sk) ← slh_dsa_sha2_128f_keygen C tapeRng
    [Spec.toByte coins.1 16, Spec.toByte coins.2.1 16, Spec.toByte coins.2.2 16] (some pk0) (some sk0)
  match pk, sk with
  | some pk, some sk => if code = SLH_DSA_OK then (E pk).run C ask sk (judge pk) [] else pure none
  | _, _ => pure none

end

/-- The world of the library when the hash functions are `P0` with the first `w` bytes given by `O`, in the build `b`. -/
def cLibWorld {q T Q : Nat} (b : Build) (P0 : Spec.Prims) (pk0 : Vector UInt8 slh_dsa_sha2_128f.PK_LEN)
    (sk0 : Vector UInt8 slh_dsa_sha2_128f.SK_LEN) (E : Vector UInt8 slh_dsa_sha2_128f.PK_LEN → CEnv L B w q T Q)
    (coins : Fin (256 ^ 16) × Fin (256 ^ 16) × Fin (256 ^ 16)) (O : Query B → Fin (256 ^ w)) :
    Exec b (Option (List (CEvent w))) :=
  cWorld (crypto (withHash P0 O)) (fun y => pure (O y)) pk0 sk0 (cJudge (crypto (withHash P0 O))) E coins

/-- The ideal world with the same hash functions and keys. -/
def cIdealWorld {q T Q : Nat} (b : Build) (P0 : Spec.Prims) (pk0 : Vector UInt8 slh_dsa_sha2_128f.PK_LEN)
    (sk0 : Vector UInt8 slh_dsa_sha2_128f.SK_LEN) (E : Vector UInt8 slh_dsa_sha2_128f.PK_LEN → CEnv L B w q T Q)
    (coins : Fin (256 ^ 16) × Fin (256 ^ 16) × Fin (256 ^ 16)) (O : Query B → Fin (256 ^ w)) :
    Exec b (Option (List (CEvent w))) :=
  cWorld (crypto (withHash P0 O)) (fun y => pure (O y)) pk0 sk0 (fun _ => cRegister) E coins

/-! ## What is seen -/

/-- The return code of signing. -/
def cCode (r : Except String CSig) : UInt8 :=
  match r with
  | .ok _ => SLH_DSA_OK
  | .error _ => SLH_DSA_SIGN_ERROR

/-- The buffer after signing. -/
def cOut (out : CSig) (r : Except String CSig) : CSig :=
  match r with
  | .ok sig => sig
  | .error _ => out

/-- The answer of the signer. -/
def CMessage.answer (P : Spec.Prims) (sk : PrivateKey ffiSet.params) (x : CMessage L)
    (rnd : Except Unit (Vector UInt8 slh_dsa_sha2_128f.N)) : Except String CSig :=
  x.request.answer P sk true rnd

/-- The run, if the verdicts are given by `judge`. -/
def CEnv.seen (P : Spec.Prims) (O : Query B → Fin (256 ^ w)) (sk : PrivateKey ffiSet.params)
    (judge : List (SigRequest L × CSig) → CMessage L → CSig → Bool) :
    {q T Q : Nat} → CEnv L B w q T Q → List (SigRequest L × CSig) → List (CEvent w)
  | _, _, _, .stop, _ => []
  | _, _, _, .sign x out rnd next, asked =>
    .signed (cCode (x.answer P sk rnd)) (some (cOut out (x.answer P sk rnd))) ::
      (next (cCode (x.answer P sk rnd)) (some (cOut out (x.answer P sk rnd)))).seen P O sk judge
        (handed (ps := ffiSet) x.request (x.answer P sk rnd) asked)
  | _, _, _, .check x sig next, asked =>
    .verdict (if judge asked x sig then SLH_DSA_OK else SLH_DSA_VERIFY_ERROR) ::
      (next (if judge asked x sig then SLH_DSA_OK else SLH_DSA_VERIFY_ERROR)).seen P O sk judge asked
  | _, _, _, .call y next, asked => .value (O y) :: (next (O y)).seen P O sk judge asked

theorem c_sign_eq (hb : 31 ≤ b.usizeBits) {P : Spec.Prims} {sk : PrivateKey ffiSet.params}
    {skb : Vector UInt8 slh_dsa_sha2_128f.SK_LEN}
    (hsk : (PrivateKey.try_from_bytes (p := ffiSet.params) (crypto P) skb : Exec b _) = pure (.ok sk)) (x : CMessage L)
    (out : CSig) (rnd : Except Unit (Vector UInt8 slh_dsa_sha2_128f.N)) :
    slh_dsa_sha2_128f_sign (crypto P) (fixedRng rnd) () (.to x.buf) x.len (some skb) (some out) =
      (pure (.ret ((), cCode (x.answer P sk rnd), some (cOut out (x.answer P sk rnd)))) : Exec b _) := by
  have hl : x.len < 2 ^ b.usizeBits := x.cint.trans_le (by exact_mod_cast Nat.pow_le_pow_right (by decide) hb)
  rw [ffi_sign_eq (fixedRng rnd) () x.buf x.len x.pos x.readable hl skb out, hsk, pure_bind]
  have h : sk.try_sign_with_rng (crypto P) (fixedRng rnd) () (x.buf.take x.len.toNat) [] true =
      (pure ((), x.answer P sk rnd) : Exec b _) := exec_request_sign P sk x.request true rnd
  refine (congrArg (fun y : Exec b _ => y >>= _) h).trans ((pure_bind _ _).trans ?_)
  dsimp only
  cases x.answer P sk rnd <;> rfl

theorem c_verify_eq (hb : 31 ≤ b.usizeBits) {P : Spec.Prims} {pk : PublicKey ffiSet.params}
    {pkb : Vector UInt8 slh_dsa_sha2_128f.PK_LEN}
    (hpk : (PublicKey.try_from_bytes (p := ffiSet.params) pkb : Exec b _) = pure (.ok pk)) (x : CMessage L) (sig : CSig) :
    slh_dsa_sha2_128f_verify (crypto P) (.to x.buf) x.len (some pkb) (some sig) =
      (pure (.ret (if x.request.check P pk sig then SLH_DSA_OK else SLH_DSA_VERIFY_ERROR)) : Exec b _) := by
  have hl : x.len < 2 ^ b.usizeBits := x.cint.trans_le (by exact_mod_cast Nat.pow_le_pow_right (by decide) hb)
  rw [ffi_verify_eq x.buf x.len x.pos x.readable hl pkb sig pk hpk]
  have h : pk.verify (crypto P) (x.buf.take x.len.toNat) sig [] = (pure (x.request.check P pk sig) : Exec b _) :=
    exec_request_verify P pk x.request sig
  refine (congrArg (fun y : Exec b _ => y >>= _) h).trans ((pure_bind _ _).trans ?_)
  split <;> rfl

theorem cAsked_handed (x : CMessage L) (r : Except String CSig) (out : CSig) (asked : List (SigRequest L × CSig)) :
    (if cCode r = SLH_DSA_OK then (x.bytes, cOut out r) :: cAsked asked else cAsked asked) =
      cAsked (handed (ps := ffiSet) x.request r asked) := by
  cases r with
  | ok sig => rfl
  | error e => exact if_neg (show ¬ SLH_DSA_SIGN_ERROR = SLH_DSA_OK by decide)

theorem c_run_eq (hb : 31 ≤ b.usizeBits) (P : Spec.Prims) (O : Query B → Fin (256 ^ w)) {sk : PrivateKey ffiSet.params}
    {skb : Vector UInt8 slh_dsa_sha2_128f.SK_LEN}
    (hsk : (PrivateKey.try_from_bytes (p := ffiSet.params) (crypto P) skb : Exec b _) = pure (.ok sk))
    (judge : List (List UInt8 × CSig) → CMessage L → CSig → Exec b (Ffi UInt8))
    (judge' : List (SigRequest L × CSig) → CMessage L → CSig → Bool)
    (hj : ∀ l x sig, judge (cAsked l) x sig = pure (.ret (if judge' l x sig then SLH_DSA_OK else SLH_DSA_VERIFY_ERROR)))
    {q T Q : Nat} (E : CEnv L B w q T Q) : ∀ asked, E.run (crypto P) (fun y => pure (O y)) skb judge (cAsked asked) =
      (pure (some (E.seen P O sk judge' asked)) : Exec b _) := by
  induction E with
  | stop => intro asked; rfl
  | sign x out rnd next ih =>
    intro asked
    rw [CEnv.run, c_sign_eq hb hsk, pure_bind]
    dsimp only
    exact (congrArg (fun y : Exec b (Option (List (CEvent w))) => y >>= _)
      ((congrArg _ (cAsked_handed x (x.answer P sk rnd) out asked)).trans (ih _ _ _))).trans (pure_bind _ _)
  | check x sig next ih =>
    intro asked
    rw [CEnv.run, hj, pure_bind]
    dsimp only
    exact (congrArg (fun y : Exec b (Option (List (CEvent w))) => y >>= _) (ih _ _)).trans (pure_bind _ _)
  | call y next ih =>
    intro asked
    rw [CEnv.run, pure_bind, ih, pure_bind]
    rfl

/-- The verdicts of the library. -/
def cVerdict (P : Spec.Prims) (pk : PublicKey ffiSet.params) (_ : List (SigRequest L × CSig)) (x : CMessage L) (sig : CSig) :
    Bool :=
  x.request.check P pk sig

/-- The ideal verdicts. -/
def cIdealVerdict (asked : List (SigRequest L × CSig)) (x : CMessage L) (sig : CSig) : Bool :=
  decide ((x.bytes, sig) ∈ cAsked asked)

/-- The keys, and what the three functions do with them. -/
theorem c_keys (hb : 31 ≤ b.usizeBits) (P0 : Spec.Prims) (pk0 : Vector UInt8 slh_dsa_sha2_128f.PK_LEN)
    (sk0 : Vector UInt8 slh_dsa_sha2_128f.SK_LEN) (coins : Fin (256 ^ 16) × Fin (256 ^ 16) × Fin (256 ^ 16))
    (O : Query B → Fin (256 ^ w)) : ∃ (pk : PublicKey ffiSet.params) (sk : PrivateKey ffiSet.params)
      (pkb : Vector UInt8 slh_dsa_sha2_128f.PK_LEN),
    Consistent (withHash P0 O) ffiSet sk ∧ sk.get_public_key = pk ∧
    (∀ {q T Q : Nat} (E : Vector UInt8 slh_dsa_sha2_128f.PK_LEN → CEnv L B w q T Q),
      cLibWorld b P0 pk0 sk0 E coins O =
        pure (some ((E pkb).seen (withHash P0 O) O sk (cVerdict (withHash P0 O) pk) [])) ∧
      cIdealWorld b P0 pk0 sk0 E coins O = pure (some ((E pkb).seen (withHash P0 O) O sk cIdealVerdict []))) ∧
    ∀ {q Q : Nat} (A : Vector UInt8 slh_dsa_sha2_128f.PK_LEN → CForger L B w q Q),
      romCGame b P0 pk0 sk0 A coins O = pure (some ((A pkb).api.outcome (withHash P0 O) O pk sk []).c) := by
  obtain ⟨s', kp, hk⟩ : ∃ s' kp, try_keygen_with_rng ffiSet.params (crypto (withHash P0 O)) (tapeRng : Rng (Exec b) _)
      [Spec.toByte coins.1 16, Spec.toByte coins.2.1 16, Spec.toByte coins.2.2 16] = pure (s', .ok kp) := by
    rw [exec_try_keygen_with_rng]
    exact ⟨_, _, rfl⟩
  have hG := Generated.rng (P := withHash P0 O) tapeRng _ s' hk
  obtain ⟨pkb, skb, h1, h2, h3⟩ := (C34_keygen_present (P := withHash P0 O) tapeRng _ pk0 sk0).2 s' kp.1 kp.2 hk
  obtain ⟨v, hv, hv'⟩ := C11_public_key_encode_decode kp.1
  obtain ⟨u, hu⟩ := C12_generated_key_roundtrip hG
  have e1 : v = pkb := Exec.pure_inj ((hv' b).1.symm.trans h1)
  have e2 : u = skb := Exec.pure_inj ((hu b).1.symm.trans h2)
  subst e1 e2
  refine ⟨kp.1, kp.2, v, hG.consistent.1, hG.consistent.2, fun E => ⟨?_, ?_⟩, fun A => ?_⟩
  · rw [cLibWorld, cWorld, h3]
    exact c_run_eq hb _ O (hu b).2 _ _ (fun l x sig => c_verify_eq hb (hv' b).2 x sig) (E v) []
  · rw [cIdealWorld, cWorld, h3]
    exact c_run_eq hb _ O (hu b).2 _ _ (fun l x sig => by simp only [cRegister, cIdealVerdict, decide_eq_true_eq]) (E v) []
  · rw [romCGame, cGame, h3]
    refine (c_attack hb _ (hv' b).2 (hu b).2 (A v) []).trans ?_
    rw [api_attack_eq, pure_bind]

/-! ## A program that notices a difference is a forger -/

/-- Run the program in the ideal world up to the verdict with the number `i`, and present what is to be judged. -/
def CEnv.forger : {q T Q : Nat} → CEnv L B w q T Q → Nat → List (List UInt8 × CSig) → CForger L B w q Q
  | _, _, _, .stop, _, _ => .forge ⟨[], 0, le_rfl, le_rfl, by decide, Nat.zero_le _⟩ (zeroBytes _)
  | _, _, _, .sign x out rnd next, i, register => .sign x out rnd fun code out =>
    (next code out).forger i (match out with
      | some sig => if code = SLH_DSA_OK then (x.bytes, sig) :: register else register
      | none => register)
  | _, _, _, .check x sig _, 0, _ => .forge x sig
  | _, _, _, .check x sig next, i + 1, register =>
    (next (if (x.bytes, sig) ∈ register then SLH_DSA_OK else SLH_DSA_VERIFY_ERROR)).forger i register
  | _, _, _, .call y next, i, register => .call y fun v => (next v).forger i register

theorem c_seen_forger (P : Spec.Prims) (O : Query B → Fin (256 ^ w)) {pk : PublicKey ffiSet.params}
    {sk : PrivateKey ffiSet.params} (hk : Consistent P ffiSet sk) (hpk : sk.get_public_key = pk) {q T Q : Nat}
    (E : CEnv L B w q T Q) : ∀ asked, (∀ e ∈ asked, ∃ x : CMessage L, x.request = e.1 ∧ e.1.check P pk e.2 = true) →
    E.seen P O sk (cVerdict P pk) asked ≠ E.seen P O sk cIdealVerdict asked →
    ∃ i < T, ((E.forger i (cAsked asked)).api.outcome P O pk sk asked).c.Forged := by
  induction E with
  | stop => intro asked _ h; exact absurd rfl h
  | sign x out rnd next ih =>
    intro asked hr h
    have hr' : ∀ e ∈ handed (ps := ffiSet) x.request (x.answer P sk rnd) asked,
        ∃ x : CMessage L, x.request = e.1 ∧ e.1.check P pk e.2 = true := by
      intro e he
      cases ha : x.answer P sk rnd with
      | error _ => exact hr e (by rwa [ha] at he)
      | ok sig =>
        rw [ha] at he
        rcases List.mem_cons.mp he with rfl | he
        · exact ⟨x, rfl, hpk ▸ answer_ok hk ha⟩
        · exact hr e he
    obtain ⟨i, hi, hf⟩ := ih _ _ _ hr' fun e => h (by rw [CEnv.seen, CEnv.seen, e])
    refine ⟨i, hi, ?_⟩
    rw [CEnv.forger, CForger.api]
    refine (congrArg (fun o : ApiOutcome ffiSet L => o.c.Forged) (ApiForger.outcome.eq_2 ..)).mpr ?_
    cases ha : x.request.answer P sk true rnd with
    | error e =>
      rw [show x.answer P sk rnd = .error e from ha] at hf
      exact hf
    | ok sig =>
      rw [show x.answer P sk rnd = .ok sig from ha] at hf
      exact hf
  | call y next ih =>
    intro asked hr h
    exact ih _ _ hr fun e => h (by rw [CEnv.seen, CEnv.seen, e])
  | check x sig next ih =>
    intro asked hr h
    by_cases hv : cVerdict P pk asked x sig = cIdealVerdict asked x sig
    · obtain ⟨i, hi, hf⟩ := ih (if cIdealVerdict asked x sig then SLH_DSA_OK else SLH_DSA_VERIFY_ERROR) asked hr
        fun e => h (by rw [CEnv.seen, CEnv.seen, hv, e])
      refine ⟨i + 1, Nat.succ_lt_succ hi, ?_⟩
      simp only [cIdealVerdict, decide_eq_true_eq] at hf
      exact hf
    · refine ⟨0, Nat.succ_pos _, ?_⟩
      have hm : (x.bytes, sig) ∉ cAsked asked := by
        intro hm
        obtain ⟨e, he, e1⟩ := List.mem_map.mp hm
        obtain ⟨x', hx', hc⟩ := hr e he
        refine hv ?_
        rw [show cIdealVerdict asked x sig = true from decide_eq_true hm]
        have e2 : x.request = e.1 := by
          rw [← hx']
          have : x'.bytes = x.bytes := (congrArg SigRequest.msg hx').trans (congrArg Prod.fst e1)
          simp only [CMessage.request, this]
        have e3 : sig = e.2 := (congrArg Prod.snd e1).symm
        rw [cVerdict, e2, e3]
        exact hc
      rw [show cIdealVerdict asked x sig = false from decide_eq_false hm, Bool.not_eq_false] at hv
      refine ⟨?_, hm⟩
      exact if_pos hv

/-- **C97** Both worlds run to their end: no behaviour is undefined, nothing aborts, and key generation succeeds. -/
theorem C97_runs (hb : 31 ≤ b.usizeBits) (P0 : Spec.Prims) (pk0 : Vector UInt8 slh_dsa_sha2_128f.PK_LEN)
    (sk0 : Vector UInt8 slh_dsa_sha2_128f.SK_LEN) {q T Q : Nat}
    (E : Vector UInt8 slh_dsa_sha2_128f.PK_LEN → CEnv L B w q T Q)
    (coins : Fin (256 ^ 16) × Fin (256 ^ 16) × Fin (256 ^ 16)) (O : Query B → Fin (256 ^ w)) :
    (∃ es, cLibWorld b P0 pk0 sk0 E coins O = pure (some es)) ∧
    ∃ es, cIdealWorld b P0 pk0 sk0 E coins O = pure (some es) := by
  obtain ⟨pk, sk, pkb, -, -, h, -⟩ := c_keys hb P0 pk0 sk0 coins O
  exact ⟨⟨_, (h E).1⟩, _, (h E).2⟩

/-- **C97** Take the hash function to be a random function and what the operating system provides for key generation to
be random.  A C program with `q` signatures, `T` verdicts and `Q` evaluations of the hash function sees something else
with the library than in the ideal world with a chance of at most `T (2^(t+5-128) + 2^(2t+3-256) + 2^(-170))`. -/
theorem C97_worlds (hb : 31 ≤ b.usizeBits) (P0 : Spec.Prims) (hw : 64 ≤ w) (hL : 492 + L ≤ B)
    (hB : 160 + (35 + 33) * 16 ≤ B) (pk0 : Vector UInt8 slh_dsa_sha2_128f.PK_LEN)
    (sk0 : Vector UInt8 slh_dsa_sha2_128f.SK_LEN) {q T Q t : Nat} (ht : 22 ≤ t) (htn : t ≤ 128) (hq : q ≤ 2 ^ 63)
    (hqt : q * 2 ^ 22 ≤ 2 ^ t) (hQ : Q + q + 1 < 2 ^ t)
    (E : Vector UInt8 slh_dsa_sha2_128f.PK_LEN → CEnv L B w q T Q) :
    prob (fun ω : (Fin (256 ^ 16) × Fin (256 ^ 16) × Fin (256 ^ 16)) × (Query B → Fin (256 ^ w)) =>
      cLibWorld b P0 pk0 sk0 E ω.1 ω.2 ≠ cIdealWorld b P0 pk0 sk0 E ω.1 ω.2) ≤
    T * (2 ^ (t + 5) / 2 ^ 128 + 2 ^ (2 * t + 3) / 2 ^ 256 + 1 / 2 ^ 170) := by
  refine le_trans ?_ (le_trans (Finset.sum_le_sum fun i (_ : i ∈ Finset.range T) =>
    C75_bits hb P0 hw hL hB pk0 sk0 ht htn hq hqt hQ fun pk => (E pk).forger i []) (le_of_eq (by
      rw [Finset.sum_const, Finset.card_range, nsmul_eq_mul])))
  simp only [prob_eq]
  rw [← Oracle.avg_sum]
  refine Oracle.avg_mono fun ω => ?_
  obtain ⟨pk, sk, pkb, hk, hpk, hE, hA⟩ := c_keys (L := L) hb P0 pk0 sk0 ω.1 ω.2
  by_cases e : (E pkb).seen (withHash P0 ω.2) ω.2 sk (cVerdict (withHash P0 ω.2) pk) [] =
      (E pkb).seen (withHash P0 ω.2) ω.2 sk cIdealVerdict []
  · refine le_trans (le_of_eq ?_) (Finset.sum_nonneg fun i _ => Oracle.ind_nonneg _)
    refine (Oracle.ind_congr (iff_false_intro (not_not_intro ?_))).trans (by simp [Oracle.ind])
    rw [(hE E).1, (hE E).2, e]
  · obtain ⟨i, hi, hf⟩ := c_seen_forger (withHash P0 ω.2) ω.2 hk hpk (E pkb) [] nofun e
    refine (Oracle.ind_le_one _).trans (le_trans (le_of_eq ?_) (Finset.single_le_sum (fun i _ => Oracle.ind_nonneg _)
      (Finset.mem_range.mpr hi)))
    exact ((Oracle.ind_congr (iff_true_intro ⟨_, hA fun pk => (E pk).forger i [], hf⟩)).trans (by simp [Oracle.ind])).symm

/-! ## The hypotheses can be met, and the worlds can differ -/

/-- A thousand signatures, a million verdicts, a million evaluations. -/
example {b : Build} (hb : 31 ≤ b.usizeBits) (P0 : Spec.Prims) (pk0 : Vector UInt8 slh_dsa_sha2_128f.PK_LEN)
    (sk0 : Vector UInt8 slh_dsa_sha2_128f.SK_LEN)
    (E : Vector UInt8 slh_dsa_sha2_128f.PK_LEN → CEnv 1000 2000 64 1000 1000000 1000000) :
    prob (fun ω : (Fin (256 ^ 16) × Fin (256 ^ 16) × Fin (256 ^ 16)) × (Query 2000 → Fin (256 ^ 64)) =>
      cLibWorld b P0 pk0 sk0 E ω.1 ω.2 ≠ cIdealWorld b P0 pk0 sk0 E ω.1 ω.2) ≤ 1 / 2 ^ 70 := by
  refine (C97_worlds (t := 32) hb P0 (by decide) (by decide) (by decide) pk0 sk0 (by decide) (by decide) (by decide)
    (by decide) (by decide) E).trans ?_
  norm_num

/-- A program that has two bytes of a buffer signed and the signature verified for one byte. -/
def demoCEnv (rnd : Vector UInt8 slh_dsa_sha2_128f.N) : CEnv 10 4000 64 1 1 0 :=
  .sign ⟨[104, 105, 33], 2, by decide, by decide, by decide, by decide⟩ (zeroBytes _) (.ok rnd) fun _ out =>
    .check ⟨[104], 1, by decide, by decide, by decide, by decide⟩ (out.getD (zeroBytes _)) fun _ => .stop

/-- It sees a difference if the functions are constant. -/
example {b : Build} (hb : 31 ≤ b.usizeBits) (pk0 : Vector UInt8 slh_dsa_sha2_128f.PK_LEN)
    (sk0 : Vector UInt8 slh_dsa_sha2_128f.SK_LEN) (coins : Fin (256 ^ 16) × Fin (256 ^ 16) × Fin (256 ^ 16))
    (O : Query 4000 → Fin (256 ^ 64)) (x : Fin (256 ^ 64)) (hO : ∀ y, O y = x) :
    ∃ rnd, cLibWorld b demoPrims pk0 sk0 (fun _ => demoCEnv rnd) coins O ≠
      cIdealWorld b demoPrims pk0 sk0 (fun _ => demoCEnv rnd) coins O := by
  obtain ⟨pk, sk, pkb, hk, hpk, hE, -⟩ := c_keys (L := 10) hb demoPrims pk0 sk0 coins O
  have hv := const_sig2 (ps := ffiSet) rfl (by decide) hO hk
  refine ⟨sk.key.pk_seed, ?_⟩
  intro h
  have h := Option.some.inj (Exec.pure_inj (((hE _).1.symm.trans h).trans (hE _).2))
  subst hpk
  have ha : ∀ x : CMessage 10, x.answer (withHash demoPrims O) sk (.ok sk.key.pk_seed) =
      .ok (sigVec ffiSet (withHash demoPrims O) (x.request.str (withHash demoPrims O)) sk.key sk.key.pk_seed) := fun x => rfl
  have hc : ∀ (x : CMessage 10) M, x.request.check (withHash demoPrims O) sk.get_public_key
      (sigVec ffiSet (withHash demoPrims O) M sk.key sk.key.pk_seed) = true := fun x M => by
    rw [SigRequest.check, if_neg (show ¬ 255 < x.request.ctx.length from Nat.not_lt_zero _)]
    exact hv _ _
  simp only [demoCEnv, CEnv.seen, ha] at h
  have h := CEvent.verdict.inj (List.cons.inj (List.cons.inj h).2).1
  refine absurd (((if_pos ?_).symm.trans h).trans (if_neg ?_)) (show ¬ SLH_DSA_OK = SLH_DSA_VERIFY_ERROR by decide)
  · exact hc _ _
  · intro hm
    have hm := congrArg Prod.fst (List.mem_singleton.mp (of_decide_eq_true hm))
    exact absurd (show ([104] : List UInt8) = [104, 105] from hm) (by decide)

end Fips205.Props
