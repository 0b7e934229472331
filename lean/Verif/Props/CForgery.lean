import Verif.Props.GenForgery
import Verif.Props.Ffi

/-!
# Forging with the entry points for C (C75)

The game of `Verif.Props.GenGame`, played with the functions of `ffi/src/lib.rs` and byte buffers.
-/

namespace Fips205.Props
open Fips205 Fips205.Model

variable {L B w : Nat}

/-! ## The game -/

/-- A message as a C program passes it: a readable buffer and a length (a `c_int`) of at most `L` bytes. -/
structure CMessage (L : Nat) where
  buf : List UInt8
  len : Int
  pos : 0 ≤ len
  readable : len.toNat ≤ buf.length
  cint : len < 2 ^ 31
  short : len.toNat ≤ L

/-- The message it means. -/
def CMessage.bytes (x : CMessage L) : List UInt8 := x.buf.take x.len.toNat

/-- A forger who may ask for `q` signatures and for `Q` values, of `w` bytes, of the hash functions. -/
inductive CForger (L B w : Nat) : Nat → Nat → Type
  /-- stop with a forgery -/
  | forge {q Q : Nat} (x : CMessage L) (sig : Vector UInt8 slh_dsa_sha2_128f.SIG_LEN) : CForger L B w q Q
  /-- ask for a signature, written over `out`; `rnd` is what the generator of the operating system does; the forger gets
  the return code and the buffer -/
  | sign {q Q : Nat} (x : CMessage L) (out : Vector UInt8 slh_dsa_sha2_128f.SIG_LEN)
      (rnd : Except Unit (Vector UInt8 slh_dsa_sha2_128f.N))
      (next : UInt8 → Option (Vector UInt8 slh_dsa_sha2_128f.SIG_LEN) → CForger L B w q Q) : CForger L B w (q + 1) Q
  /-- evaluate a hash function -/
  | call {q Q : Nat} (y : Query B) (next : Fin (256 ^ w) → CForger L B w q Q) : CForger L B w q (Q + 1)

/-- How the game ended. -/
structure COutcome where
  /-- the forgery -/
  msg : List UInt8
  sig : Vector UInt8 slh_dsa_sha2_128f.SIG_LEN
  /-- what verification returned -/
  code : UInt8
  /-- the signatures handed out: those for which the code was `SLH_DSA_OK` -/
  asked : List (List UInt8 × Vector UInt8 slh_dsa_sha2_128f.SIG_LEN)

/-- The forgery is accepted and was not handed out. -/
def COutcome.Forged (o : COutcome) : Prop := o.code = SLH_DSA_OK ∧ (o.msg, o.sig) ∉ o.asked

section
variable {m : Type → Type} [Rust m] (C : Crypto m)

/-- The game with a key, in two buffers; no outcome if the behaviour is undefined. -/
def CForger.attack (ask : Query B → m (Fin (256 ^ w))) (pk : Vector UInt8 slh_dsa_sha2_128f.PK_LEN)
    (sk : Vector UInt8 slh_dsa_sha2_128f.SK_LEN) : {q Q : Nat} → CForger L B w q Q →
    List (List UInt8 × Vector UInt8 slh_dsa_sha2_128f.SIG_LEN) → m (Option COutcome)
  | _, _, .forge x sig, asked => do
    match ← slh_dsa_sha2_128f_verify C (.to x.buf) x.len (some pk) (some sig) with
    | .ub => pure none
    | .ret code => pure (some { msg := x.bytes, sig, code, asked })
  | _, _, .sign x out rnd next, asked => do
    match ← slh_dsa_sha2_128f_sign C (fixedRng rnd) () (.to x.buf) x.len (some sk) (some out) with
    | .ub => pure none
    | .ret (_, code, out) =>
      (next code out).attack ask pk sk (match out with
        | some sig => if code = SLH_DSA_OK then (x.bytes, sig) :: asked else asked
        | none => asked)
  | _, _, .call y next, asked => do
    let v ← ask y
    (next v).attack ask pk sk asked

/-- The game: key generation into two buffers, with a generator of the operating system that provides `coins`, then the
game with this key. There is no outcome if key generation fails. -/
def cGame {q Q : Nat} (ask : Query B → m (Fin (256 ^ w))) (pk0 : Vector UInt8 slh_dsa_sha2_128f.PK_LEN)
    (sk0 : Vector UInt8 slh_dsa_sha2_128f.SK_LEN)
    (A : Vector UInt8 slh_dsa_sha2_128f.PK_LEN → CForger L B w q Q)
    (coins : Fin (256 ^ 16) × Fin (256 ^ 16) × Fin (256 ^ 16)) : m (Option COutcome) := do
  let (_, code, pk, sk) ← slh_dsa_sha2_128f_keygen C tapeRng
    [Spec.toByte coins.1 16, Spec.toByte coins.2.1 16, Spec.toByte coins.2.2 16] (some pk0) (some sk0)
  match pk, sk with
  | some pk, some sk => if code = SLH_DSA_OK then (A pk).attack C ask pk sk [] else pure none
  | _, _ => pure none

end

/-- The game when the hash functions are `P0` with the first `w` bytes given by `O`, in the build `b`. -/
def romCGame {q Q : Nat} (b : Build) (P0 : Spec.Prims) (pk0 : Vector UInt8 slh_dsa_sha2_128f.PK_LEN)
    (sk0 : Vector UInt8 slh_dsa_sha2_128f.SK_LEN) (A : Vector UInt8 slh_dsa_sha2_128f.PK_LEN → CForger L B w q Q)
    (coins : Fin (256 ^ 16) × Fin (256 ^ 16) × Fin (256 ^ 16)) (O : Query B → Fin (256 ^ w)) : Exec b (Option COutcome) :=
  cGame (crypto (withHash P0 O)) (fun y => pure (O y)) pk0 sk0 A coins

/-! ## The same forger as a user of the API -/

/-- The signature request behind the call. -/
def CMessage.request (x : CMessage L) : SigRequest L :=
  ⟨none, [], x.bytes, (List.length_take_le _ _).trans x.short⟩

/-- The forger, using the API. -/
def CForger.api : {q Q : Nat} → CForger L B w q Q → ApiForger ffiSet L B w q Q
  | _, _, .forge x sig => .forge x.request sig
  | _, _, .sign x out rnd next => .sign x.request true rnd fun r =>
    match r with
    | .ok sig => (next SLH_DSA_OK (some sig)).api
    | .error _ => (next SLH_DSA_SIGN_ERROR (some out)).api
  | _, _, .call y next => .call y fun v => (next v).api

/-- The signatures handed out, as bytes. -/
def cAsked (asked : List (SigRequest L × Vector UInt8 ffiSet.params.SIG_LEN)) :
    List (List UInt8 × Vector UInt8 slh_dsa_sha2_128f.SIG_LEN) :=
  asked.map fun e => (e.1.msg, e.2)

/-- The outcome, seen by the C program. -/
def ApiOutcome.c (o : ApiOutcome ffiSet L) : COutcome where
  msg := o.x.msg
  sig := o.sig
  code := if o.accepted then SLH_DSA_OK else SLH_DSA_VERIFY_ERROR
  asked := cAsked o.asked

theorem c_forged {o : ApiOutcome ffiSet L} (h : o.c.Forged) : o.Forged := by
  obtain ⟨h1, h2⟩ := h
  refine ⟨?_, fun hm => h2 ?_⟩
  · by_contra hc
    have hc : o.accepted = false := by simpa using hc
    simp only [ApiOutcome.c, hc] at h1
    exact absurd h1 (by decide)
  · exact List.mem_map.mpr ⟨_, hm, rfl⟩

/-- The bytes of a public key. -/
def pkBytes (pk : PublicKey ffiSet.params) : Vector UInt8 slh_dsa_sha2_128f.PK_LEN :=
  toVec _ (Spec.encodePK pk.key.pk_seed.toList pk.key.pk_root.toList)

theorem c_attack {b : Build} (hb : 31 ≤ b.usizeBits) {P : Spec.Prims} (ask : Query B → Exec b (Fin (256 ^ w)))
    {pk : PublicKey ffiSet.params} {sk : PrivateKey ffiSet.params}
    {pkb : Vector UInt8 slh_dsa_sha2_128f.PK_LEN} {skb : Vector UInt8 slh_dsa_sha2_128f.SK_LEN}
    (hpk : (PublicKey.try_from_bytes (p := ffiSet.params) pkb : Exec b _) = pure (.ok pk))
    (hsk : (PrivateKey.try_from_bytes (p := ffiSet.params) (crypto P) skb : Exec b _) = pure (.ok sk)) {q Q : Nat}
    (A : CForger L B w q Q) (asked : List (SigRequest L × Vector UInt8 ffiSet.params.SIG_LEN)) :
    A.attack (crypto P) ask pkb skb (cAsked asked) =
      (A.api.attack (crypto P) ask pk sk asked >>= fun o => pure (some o.c)) := by
  have hlen : ∀ x : CMessage L, x.len < 2 ^ b.usizeBits := fun x =>
    x.cint.trans_le (by exact_mod_cast Nat.pow_le_pow_right (by decide) hb)
  induction A generalizing asked with
  | @forge q Q x sig =>
    have e : (CForger.forge x sig : CForger L B w q Q).api.attack (crypto P) ask pk sk asked =
        (pk.verify (crypto P) x.bytes sig [] >>= fun ok => pure ⟨x.request, sig, ok, asked⟩) := by
      rw [CForger.api]
      exact ApiForger.attack.eq_1 ..
    rw [CForger.attack, e, ffi_verify_eq x.buf x.len x.pos x.readable (hlen x) pkb sig pk hpk]
    simp only [bind_assoc, pure_bind]
    congr 1
    funext r
    cases r <;> rfl
  | @sign q Q x out rnd next ih =>
    have e : (CForger.sign x out rnd next : CForger L B w (q + 1) Q).api.attack (crypto P) ask pk sk asked =
        (sk.try_sign_with_rng (crypto P) (fixedRng rnd) () x.bytes [] true >>= fun r =>
          (match r.2 with
            | .ok sig => (next SLH_DSA_OK (some sig)).api
            | .error _ => (next SLH_DSA_SIGN_ERROR (some out)).api).attack (crypto P) ask pk sk
            (match r.2 with
              | .ok sig => (x.request, sig) :: asked
              | .error _ => asked)) := by
      rw [CForger.api]
      refine (ApiForger.attack.eq_2 (m := Exec b) ..).trans ?_
      refine congrArg (fun f => _ >>= f) (funext fun r => ?_)
      obtain ⟨u, r⟩ := r
      cases r <;> rfl
    rw [CForger.attack, e, ffi_sign_eq (fixedRng rnd) () x.buf x.len x.pos x.readable (hlen x) skb out, hsk]
    simp only [bind_assoc, pure_bind]
    congr 1
    funext ⟨u, r⟩
    cases r with
    | error e => exact ih _ _ asked
    | ok sig => exact ih _ _ ((x.request, sig) :: asked)
  | call y next ih =>
    rw [CForger.attack, CForger.api, ApiForger.attack, bind_assoc]
    congr 1
    funext v
    exact ih v asked

theorem romCGame_eq {b : Build} (hb : 31 ≤ b.usizeBits) (P0 : Spec.Prims)
    (pk0 : Vector UInt8 slh_dsa_sha2_128f.PK_LEN) (sk0 : Vector UInt8 slh_dsa_sha2_128f.SK_LEN) {q Q : Nat}
    (A : Vector UInt8 slh_dsa_sha2_128f.PK_LEN → CForger L B w q Q)
    (coins : Fin (256 ^ 16) × Fin (256 ^ 16) × Fin (256 ^ 16)) (O : Query B → Fin (256 ^ w)) :
    romCGame b P0 pk0 sk0 A coins O =
      (romGenGame (ps := ffiSet) b P0 (fun pk => (A (pkBytes pk)).api) coins O >>= fun o => pure (o.map ApiOutcome.c)) := by
  obtain ⟨s', kp, hk⟩ : ∃ s' kp, try_keygen_with_rng ffiSet.params (crypto (withHash P0 O)) (tapeRng : Rng (Exec b) _)
      [Spec.toByte coins.1 16, Spec.toByte coins.2.1 16, Spec.toByte coins.2.2 16] = pure (s', .ok kp) := by
    rw [exec_try_keygen_with_rng]
    exact ⟨_, _, rfl⟩
  obtain ⟨pkb, skb, h1, h2, h3⟩ := (C34_keygen_present (P := withHash P0 O) tapeRng _ pk0 sk0).2 s' kp.1 kp.2 hk
  obtain ⟨v, hv, hv'⟩ := C11_public_key_encode_decode kp.1
  obtain ⟨u, hu⟩ := C12_generated_key_roundtrip (Generated.rng (P := withHash P0 O) tapeRng _ s' hk)
  have e1 : v = pkb := Exec.pure_inj ((hv' b).1.symm.trans h1)
  have e2 : u = skb := Exec.pure_inj ((hu b).1.symm.trans h2)
  subst e1 e2
  have e3 : v = pkBytes kp.1 := eq_toVec hv
  have hg : (romGenGame (ps := ffiSet) b P0 (fun pk => (A (pkBytes pk)).api) coins O) =
      ((A v).api.attack (crypto (withHash P0 O)) (fun y => pure (O y)) kp.1 kp.2 [] >>= fun o => pure (some o)) := by
    unfold romGenGame genGame
    refine (congrArg (fun x : Exec b _ => x >>= _) hk).trans ?_
    rw [e3]
    rfl
  rw [hg, romCGame, cGame, h3]
  simp only [pure_bind, bind_assoc]
  exact c_attack hb _ (hv' b).2 (hu b).2 (A v) []

/-! ## The theorems -/

/-- **C75** The game runs to its end: with readable messages no behaviour is undefined, nothing aborts, and key generation
succeeds, whatever the functions, the random bytes, the forger and the build are (`usize` has at least 31 bits). -/
theorem C75_runs {b : Build} (hb : 31 ≤ b.usizeBits) (P0 : Spec.Prims)
    (pk0 : Vector UInt8 slh_dsa_sha2_128f.PK_LEN) (sk0 : Vector UInt8 slh_dsa_sha2_128f.SK_LEN) {q Q : Nat}
    (A : Vector UInt8 slh_dsa_sha2_128f.PK_LEN → CForger L B w q Q)
    (coins : Fin (256 ^ 16) × Fin (256 ^ 16) × Fin (256 ^ 16)) (O : Query B → Fin (256 ^ w)) :
    ∃ o, romCGame b P0 pk0 sk0 A coins O = pure (some o) := by
  obtain ⟨o, ho⟩ := C71_runs (ps := ffiSet) b P0 (fun pk => (A (pkBytes pk)).api) coins O
  exact ⟨o.c, by rw [romCGame_eq hb, ho, pure_bind]; rfl⟩

theorem prob_mono {Ω : Type} [Fintype Ω] {E F : Ω → Prop} (h : ∀ ω, E ω → F ω) : prob E ≤ prob F := by
  rw [prob_eq, prob_eq]
  exact Oracle.avg_mono fun ω => Oracle.ind_mono (h ω)

theorem c_le {b : Build} (hb : 31 ≤ b.usizeBits) (P0 : Spec.Prims)
    (pk0 : Vector UInt8 slh_dsa_sha2_128f.PK_LEN) (sk0 : Vector UInt8 slh_dsa_sha2_128f.SK_LEN) {q Q : Nat}
    (A : Vector UInt8 slh_dsa_sha2_128f.PK_LEN → CForger L B w q Q) :
    prob (fun ω : (Fin (256 ^ 16) × Fin (256 ^ 16) × Fin (256 ^ 16)) × (Query B → Fin (256 ^ w)) =>
      ∃ o, romCGame b P0 pk0 sk0 A ω.1 ω.2 = pure (some o) ∧ o.Forged) ≤
    prob (fun ω : (Fin (256 ^ ffiSet.sp.n) × Fin (256 ^ ffiSet.sp.n) × Fin (256 ^ ffiSet.sp.n)) ×
        (Query B → Fin (256 ^ w)) =>
      ∃ o, romGenGame (ps := ffiSet) b P0 (fun pk => (A (pkBytes pk)).api) ω.1 ω.2 = pure (some o) ∧ o.Forged) := by
  refine prob_mono fun ω h => ?_
  obtain ⟨o, ho, hf⟩ := h
  obtain ⟨o', ho'⟩ := C71_runs (ps := ffiSet) b P0 (fun pk => (A (pkBytes pk)).api) ω.1 ω.2
  rw [romCGame_eq hb, ho', pure_bind] at ho
  have e : o'.c = o := Option.some.inj (Exec.pure_inj ho)
  exact ⟨o', ho', c_forged (e ▸ hf)⟩

/-- **C75** Take SHA-256 to be a random function, with outputs of `w ≥ 64` bytes of which the code uses the first 32, and
what the operating system provides for key generation to be random.  Then every C program that lets the library generate
a key, has `q` messages signed and evaluates the function `Q` times forges with probability at most that of `C71`. -/
theorem C75_bound {b : Build} (hb : 31 ≤ b.usizeBits) (P0 : Spec.Prims) (hw : 64 ≤ w) (hL : 492 + L ≤ B)
    (hB : 160 + (35 + 33) * 16 ≤ B) (pk0 : Vector UInt8 slh_dsa_sha2_128f.PK_LEN)
    (sk0 : Vector UInt8 slh_dsa_sha2_128f.SK_LEN) {q Q : Nat}
    (hq : q * (256 ^ 16 + (Q + q + 1)) ≤ 2 ^ 64 * 256 ^ 16)
    (A : Vector UInt8 slh_dsa_sha2_128f.PK_LEN → CForger L B w q Q) :
    prob (fun ω : (Fin (256 ^ 16) × Fin (256 ^ 16) × Fin (256 ^ 16)) × (Query B → Fin (256 ^ w)) =>
      ∃ o, romCGame b P0 pk0 sk0 A ω.1 ω.2 = pure (some o) ∧ o.Forged) ≤
    ((Q + q + 1) + 1) / 2 ^ coverLevel ffiSet +
      (2 * ((Q + q + 1) + ffiSet.sp.verifyCost) + (2 * (Q + q + 1) + ((Q + q + 1) + 2 * q + 2)) + 3) / 256 ^ 16 +
      (q ^ 2 + ((Q + q + 1) + 2 * q + 2) ^ 2) / 256 ^ hlen ffiSet +
      gameCalls ffiSet q Q ^ 2 / (2 * 256 ^ 32) :=
  (c_le hb P0 pk0 sk0 A).trans (C71_sha2 (ps := ffiSet) rfl P0 b hw hL hB hq _)

/-- **C75** In bits: with up to `2^63` signatures, and `2^t` evaluations by the forger and by the signer (`2^22` for a
signature), the chance is at most `2^(t + 5 - 128) + 2^(2 t + 3 - 256) + 2^(-170)`. -/
theorem C75_bits {b : Build} (hb : 31 ≤ b.usizeBits) (P0 : Spec.Prims) (hw : 64 ≤ w) (hL : 492 + L ≤ B)
    (hB : 160 + (35 + 33) * 16 ≤ B) (pk0 : Vector UInt8 slh_dsa_sha2_128f.PK_LEN)
    (sk0 : Vector UInt8 slh_dsa_sha2_128f.SK_LEN) {q Q t : Nat} (ht : 22 ≤ t) (htn : t ≤ 128) (hq : q ≤ 2 ^ 63)
    (hqt : q * 2 ^ 22 ≤ 2 ^ t) (hQ : Q + q + 1 < 2 ^ t)
    (A : Vector UInt8 slh_dsa_sha2_128f.PK_LEN → CForger L B w q Q) :
    prob (fun ω : (Fin (256 ^ 16) × Fin (256 ^ 16) × Fin (256 ^ 16)) × (Query B → Fin (256 ^ w)) =>
      ∃ o, romCGame b P0 pk0 sk0 A ω.1 ω.2 = pure (some o) ∧ o.Forged) ≤
    2 ^ (t + 5) / 2 ^ 128 + 2 ^ (2 * t + 3) / 2 ^ 256 + 1 / 2 ^ 170 :=
  (c_le hb P0 pk0 sk0 A).trans (C71_bits (ps := ffiSet) P0 b hw hL hB ht htn hq hqt hQ _)

/-- With `2^30` signatures and `2^64` evaluations the chance is below `2^(-58)`. -/
example {b : Build} (hb : 31 ≤ b.usizeBits) (P0 : Spec.Prims) (pk0 : Vector UInt8 slh_dsa_sha2_128f.PK_LEN)
    (sk0 : Vector UInt8 slh_dsa_sha2_128f.SK_LEN)
    (A : Vector UInt8 slh_dsa_sha2_128f.PK_LEN → CForger 1000 2000 64 (2 ^ 30) (2 ^ 63)) :
    prob (fun ω : (Fin (256 ^ 16) × Fin (256 ^ 16) × Fin (256 ^ 16)) × (Query 2000 → Fin (256 ^ 64)) =>
      ∃ o, romCGame b P0 pk0 sk0 A ω.1 ω.2 = pure (some o) ∧ o.Forged) ≤ 1 / 2 ^ 58 := by
  refine (C75_bits (t := 64) hb P0 (by decide) (by decide) (by decide) pk0 sk0 (by decide) (by decide) (by decide)
    (by decide) (by decide) A).trans ?_
  norm_num

/-- A C program that asks for a signature on two bytes of a longer buffer, and returns the signature it got. -/
def demoCForger : CForger 1000 2000 64 1 0 :=
  .sign ⟨[104, 105, 33], 2, by decide, by decide, by decide, by decide⟩ (zeroBytes _) (.ok (zeroBytes _)) fun _ out =>
    .forge ⟨[104, 105], 2, by decide, by decide, by decide, by decide⟩ (out.getD (zeroBytes _))

/-- It is accepted, and is no forgery. -/
example {b : Build} (hb : 31 ≤ b.usizeBits) (P0 : Spec.Prims) (pk0 : Vector UInt8 slh_dsa_sha2_128f.PK_LEN)
    (sk0 : Vector UInt8 slh_dsa_sha2_128f.SK_LEN) (coins : Fin (256 ^ 16) × Fin (256 ^ 16) × Fin (256 ^ 16))
    (O : Query 2000 → Fin (256 ^ 64)) : ∃ o, romCGame b P0 pk0 sk0 (fun _ => demoCForger) coins O = pure (some o) ∧
      o.code = SLH_DSA_OK ∧ o.asked.length = 1 ∧ ¬ o.Forged := by
  obtain ⟨s', kp, hk⟩ : ∃ s' kp, try_keygen_with_rng ffiSet.params (crypto (withHash P0 O)) (tapeRng : Rng (Exec b) _)
      [Spec.toByte coins.1 16, Spec.toByte coins.2.1 16, Spec.toByte coins.2.2 16] = pure (s', .ok kp) := by
    rw [exec_try_keygen_with_rng]
    exact ⟨_, _, rfl⟩
  have hG := Generated.rng (P := withHash P0 O) tapeRng _ s' hk
  obtain ⟨pkb, skb, h1, h2, h3⟩ := (C34_keygen_present (P := withHash P0 O) tapeRng _ pk0 sk0).2 s' kp.1 kp.2 hk
  obtain ⟨v, hv, hv'⟩ := C11_public_key_encode_decode kp.1
  obtain ⟨u, hu⟩ := C12_generated_key_roundtrip hG
  have e1 : v = pkb := Exec.pure_inj ((hv' b).1.symm.trans h1)
  have e2 : u = skb := Exec.pure_inj ((hu b).1.symm.trans h2)
  subst e1 e2
  have hw : (2 : Int) < 2 ^ b.usizeBits :=
    lt_of_lt_of_le (by decide : (2 : Int) < 2 ^ 31) (by exact_mod_cast Nat.pow_le_pow_right (by decide) hb)
  let rng : Rng (Exec b) Unit := fixedRng (N := slh_dsa_sha2_128f.N) (.ok (zeroBytes _))
  obtain ⟨sig, hs⟩ : ∃ sig, kp.2.try_sign_with_rng (crypto (withHash P0 O)) rng () [104, 105] [] true =
      pure ((), .ok sig) := by
    rw [exec_try_sign_with_rng]
    exact ⟨_, rfl⟩
  have hver := (hG.consistent.1.signsFor b b Unit rng () () [104, 105] [] true sig).1 hs
  rw [hG.consistent.2] at hver
  have h4 : slh_dsa_sha2_128f_sign (crypto (withHash P0 O)) rng () (.to [104, 105, 33]) 2 (some u)
      (some (zeroBytes _)) = (pure (.ret ((), SLH_DSA_OK, some sig)) : Exec b _) := by
    refine (ffi_sign_eq rng () [104, 105, 33] 2 (by decide) (by decide) hw u (zeroBytes _)).trans ?_
    rw [(hu b).2, pure_bind]
    exact (congrArg (fun x : Exec b _ => x >>= _) hs).trans rfl
  have h5 : slh_dsa_sha2_128f_verify (crypto (withHash P0 O)) (.to [104, 105]) 2 (some v) (some sig) =
      (pure (.ret SLH_DSA_OK) : Exec b _) := by
    rw [ffi_verify_eq [104, 105] 2 (by decide) (by decide) hw v sig kp.1 (hv' b).2]
    exact (congrArg (fun x : Exec b _ => x >>= _) hver).trans rfl
  refine ⟨⟨[104, 105], sig, SLH_DSA_OK, [([104, 105], sig)]⟩, ?_, rfl, rfl, fun h => h.2 (by simp)⟩
  refine (congrArg (fun x : Exec b _ => x >>= _) h3).trans ?_
  change demoCForger.attack (crypto (withHash P0 O)) (fun y => (pure (O y) : Exec b _)) v u [] = _
  refine (CForger.attack.eq_2 (m := Exec b) (q := 0) ..).trans ?_
  refine (congrArg (fun x : Exec b _ => x >>= _) h4).trans ?_
  change (CForger.forge _ sig : CForger 1000 2000 64 0 0).attack (crypto (withHash P0 O))
    (fun y => (pure (O y) : Exec b _)) v u [([104, 105], sig)] = _
  refine (CForger.attack.eq_1 (m := Exec b) ..).trans ?_
  exact (congrArg (fun x : Exec b _ => x >>= _) h5).trans rfl

end Fips205.Props
