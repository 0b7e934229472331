import Verif.Props.CIdeal
import Verif.Props.Python

/-!
# For Python programs verification is as good as asking the signer (C99)

The environment of `Verif.Props.CIdeal`, now a Python program that uses the classes of `ffi/fips205.py` with `bytes` objects
and exceptions.
-/

namespace Fips205.Props
open Fips205 Fips205.Model

variable {L B w : Nat} {b : Build}

/-- A Python program that asks for `q` signatures, `T` verdicts and `Q` values of the hash functions.  What it asks for may
depend on all answers so far.  An answer is a value or an exception. -/
inductive PyEnv (L B w : Nat) : Nat → Nat → Nat → Type
  | stop {q T Q : Nat} : PyEnv L B w q T Q
  /-- call `sign`; `rnd` is what the generator of the operating system does -/
  | sign {q T Q : Nat} (msg : List UInt8) (short : msg.length ≤ L) (rnd : Except Unit (Vector UInt8 slh_dsa_sha2_128f.N))
      (next : Except String (List UInt8) → PyEnv L B w q T Q) : PyEnv L B w (q + 1) T Q
  /-- call `verify`, with a signature of any length -/
  | check {q T Q : Nat} (msg : List UInt8) (short : msg.length ≤ L) (sig : List UInt8)
      (next : Except String Bool → PyEnv L B w q T Q) : PyEnv L B w q (T + 1) Q
  /-- evaluate a hash function -/
  | call {q T Q : Nat} (y : Query B) (next : Fin (256 ^ w) → PyEnv L B w q T Q) : PyEnv L B w q T (Q + 1)

/-- What the program sees. -/
inductive PyEvent (w : Nat)
  | signed (r : Except String (List UInt8))
  | verdict (r : Except String Bool)
  | value (v : Fin (256 ^ w))

section
variable {m : Type → Type} [Rust m] (C : Crypto m)

/-- The run of a program.  `judge` stands for `verify`; it may look into the register of all messages and signatures that
`sign` returned.  No outcome if the behaviour is undefined. -/
def PyEnv.run (ask : Query B → m (Fin (256 ^ w))) (sk : PyPrivateKey)
    (judge : List (List UInt8 × List UInt8) → List UInt8 → List UInt8 → m (Py Bool)) :
    {q T Q : Nat} → PyEnv L B w q T Q → List (List UInt8 × List UInt8) → m (Option (List (PyEvent w)))
  | _, _, _, .stop, _ => pure (some [])
  | _, _, _, .sign msg _ rnd next, register => do
    match ← sk.sign C (fixedRng rnd) () msg with
    | .ub => pure none
    | .raise e => do
      let es ← (next (.error e)).run ask sk judge register
      pure (es.map (.signed (.error e) :: ·))
    | .ret (_, sig) => do
      let es ← (next (.ok sig)).run ask sk judge ((msg, sig) :: register)
      pure (es.map (.signed (.ok sig) :: ·))
  | _, _, _, .check msg _ sig next, register => do
    match ← judge register msg sig with
    | .ub => pure none
    | .raise e => do
      let es ← (next (.error e)).run ask sk judge register
      pure (es.map (.verdict (.error e) :: ·))
    | .ret v => do
      let es ← (next (.ok v)).run ask sk judge register
      pure (es.map (.verdict (.ok v) :: ·))
  | _, _, _, .call y next, register => do
    let v ← ask y
    let es ← (next v).run ask sk judge register
    pure (es.map (.value v :: ·))

/-- The real world: `verify` of the class `PublicKey`. -/
def pyJudge (pk : PyPublicKey) (_ : List (List UInt8 × List UInt8)) (msg sig : List UInt8) : m (Py Bool) :=
  pk.verify C msg sig

/-- The ideal world: was this signed?  Byte strings that are too long or too short are not looked up. -/
def pyRegister (register : List (List UInt8 × List UInt8)) (msg sig : List UInt8) : m (Py Bool) :=
  pure (if sig.length = 17088 then .ret (decide ((msg, sig) ∈ register)) else .raise "Inconsistent signature source/length")

/-- Key generation, then the run. -/
def pyWorld {q T Q : Nat} (ask : Query B → m (Fin (256 ^ w)))
    (judge : PyPublicKey → List (List UInt8 × List UInt8) → List UInt8 → List UInt8 → m (Py Bool))
    (E : PyPublicKey → PyEnv L B w q T Q) (coins : Fin (256 ^ 16) × Fin (256 ^ 16) × Fin (256 ^ 16)) :
    m (Option (List (PyEvent w))) := do
  match ← py_keygen C tapeRng [Spec.toByte coins.1 16, Spec.toByte coins.2.1 16, Spec.toByte coins.2.2 16] with
  | .ret (_, pk, sk) => (E pk).run C ask sk (judge pk) []
  | _ => pure none

end

/-- The world of the library when the hash functions are `P0` with the first `w` bytes given by `O`, in the build `b`. -/
def pyLibWorld {q T Q : Nat} (b : Build) (P0 : Spec.Prims) (E : PyPublicKey → PyEnv L B w q T Q)
    (coins : Fin (256 ^ 16) × Fin (256 ^ 16) × Fin (256 ^ 16)) (O : Query B → Fin (256 ^ w)) :
    Exec b (Option (List (PyEvent w))) :=
  pyWorld (crypto (withHash P0 O)) (fun y => pure (O y)) (pyJudge (crypto (withHash P0 O))) E coins

/-- The ideal world with the same hash functions and keys. -/
def pyIdealWorld {q T Q : Nat} (b : Build) (P0 : Spec.Prims) (E : PyPublicKey → PyEnv L B w q T Q)
    (coins : Fin (256 ^ 16) × Fin (256 ^ 16) × Fin (256 ^ 16)) (O : Query B → Fin (256 ^ w)) :
    Exec b (Option (List (PyEvent w))) :=
  pyWorld (crypto (withHash P0 O)) (fun y => pure (O y)) (fun _ => pyRegister) E coins

/-! ## A Python program is a C program -/

/-- The message, as the wrapper passes it. -/
def pyMessage (hL : L < 2 ^ 31) (msg : List UInt8) (short : msg.length ≤ L) : CMessage L where
  buf := msg
  len := ctypesInt msg.length
  pos := by rw [ctypesInt_nonneg (by omega)]; omega
  readable := by rw [ctypesInt_nonneg (by omega)]; omega
  cint := by rw [ctypesInt_nonneg (by omega)]; omega
  short := by rw [ctypesInt_nonneg (by omega)]; omega

theorem pyMessage_bytes (hL : L < 2 ^ 31) (msg : List UInt8) (short : msg.length ≤ L) :
    (pyMessage hL msg short).bytes = msg := by
  have h : (ctypesInt msg.length).toNat = msg.length := by rw [ctypesInt_nonneg (by omega)]; omega
  change msg.take (ctypesInt msg.length).toNat = msg
  rw [h, List.take_length]

/-- The buffer for the signature. -/
def pyBuf : CSig := Vector.replicate PY_SIG_LEN 0

/-- What `sign` makes of the return code and the buffer. -/
def pyAnswer (code : UInt8) (out : Option CSig) : Except String (List UInt8) :=
  if code ≠ pyErr.ok then .error s!"slh_dsa_sha2_128f_sign() returned {code}" else .ok (out.getD pyBuf).toList

/-- The signature as a buffer. -/
def pySig (sig : List UInt8) : CSig := if h : sig.length = 17088 then ⟨sig.toArray, h⟩ else pyBuf

/-- What `verify` makes of the return code. -/
def pyVerdict (sig : List UInt8) (code : UInt8) : Except String Bool :=
  if sig.length = 17088 then
    if code ≠ pyErr.ok ∧ code ≠ pyErr.verify then .error s!"slh_dsa_sha2_128f_verify() returned {code}"
    else .ok (code == pyErr.ok)
  else .error "Inconsistent signature source/length"

/-- The C program. -/
def PyEnv.c (hL : L < 2 ^ 31) : {q T Q : Nat} → PyEnv L B w q T Q → CEnv L B w q T Q
  | _, _, _, .stop => .stop
  | _, _, _, .sign msg short rnd next => .sign (pyMessage hL msg short) pyBuf rnd fun code out => (next (pyAnswer code out)).c hL
  | _, _, _, .check msg short sig next => .check (pyMessage hL msg short) (pySig sig) fun code => (next (pyVerdict sig code)).c hL
  | _, _, _, .call y next => .call y fun v => (next v).c hL

/-- What the Python program sees when this is what the C program sees. -/
def PyEnv.read : {q T Q : Nat} → PyEnv L B w q T Q → List (CEvent w) → List (PyEvent w)
  | _, _, _, .sign _ _ _ next, .signed code out :: es => .signed (pyAnswer code out) :: (next (pyAnswer code out)).read es
  | _, _, _, .check _ _ sig next, .verdict code :: es => .verdict (pyVerdict sig code) :: (next (pyVerdict sig code)).read es
  | _, _, _, .call _ next, .value v :: es => .value v :: (next v).read es
  | _, _, _, _, _ => []

/-- The register of the Python program. -/
def pyAsked (l : List (List UInt8 × CSig)) : List (List UInt8 × List UInt8) := l.map fun e => (e.1, e.2.toList)

/-- The answer as an outcome of a call. -/
def pyOut {α : Type} : Except String α → Py α
  | .ok a => .ret a
  | .error e => .raise e

theorem py_code (code : UInt8) :
    (if code ≠ pyErr.ok ∧ code ≠ pyErr.verify then pure (.raise s!"slh_dsa_sha2_128f_verify() returned {code}")
      else pure (.ret (code == pyErr.ok)) : Exec b (Py Bool)) =
    pure (pyOut (if code ≠ pyErr.ok ∧ code ≠ pyErr.verify then .error s!"slh_dsa_sha2_128f_verify() returned {code}"
      else .ok (code == pyErr.ok))) := by
  split <;> rfl

theorem py_sign_c (hb : 31 ≤ b.usizeBits) (hL : L < 2 ^ 31) {P : Spec.Prims} {sk : PrivateKey ffiSet.params}
    {skb : Vector UInt8 slh_dsa_sha2_128f.SK_LEN}
    (hsk : (PrivateKey.try_from_bytes (p := ffiSet.params) (crypto P) skb : Exec b _) = pure (.ok sk)) (msg : List UInt8)
    (short : msg.length ≤ L) (rnd : Except Unit (Vector UInt8 slh_dsa_sha2_128f.N)) :
    (⟨skb⟩ : PyPrivateKey).sign (crypto P) (fixedRng rnd) () msg =
      (pure (match (pyMessage hL msg short).answer P sk rnd with
        | .error _ => .raise s!"slh_dsa_sha2_128f_sign() returned {SLH_DSA_SIGN_ERROR}"
        | .ok sig => .ret ((), sig.toList)) : Exec b _) := by
  have hs := c_sign_eq hb hsk (pyMessage hL msg short) pyBuf rnd
  have hs : slh_dsa_sha2_128f_sign (crypto P) (fixedRng rnd) () (.to msg) (ctypesInt msg.length) (some skb)
      (some (Vector.replicate PY_SIG_LEN 0)) = _ := hs
  rw [PyPrivateKey.sign, hs, pure_bind]
  cases (pyMessage hL msg short).answer P sk rnd <;> rfl

theorem py_run_eq (hb : 31 ≤ b.usizeBits) (hL : L < 2 ^ 31) (P : Spec.Prims) (O : Query B → Fin (256 ^ w))
    {sk : PrivateKey ffiSet.params} {skb : Vector UInt8 slh_dsa_sha2_128f.SK_LEN}
    (hsk : (PrivateKey.try_from_bytes (p := ffiSet.params) (crypto P) skb : Exec b _) = pure (.ok sk))
    (judge : List (List UInt8 × CSig) → CMessage L → CSig → Exec b (Ffi UInt8))
    (judge' : List (List UInt8 × List UInt8) → List UInt8 → List UInt8 → Exec b (Py Bool))
    (hj : ∀ l msg short sig, ∃ code, judge l (pyMessage hL msg short) (pySig sig) = pure (.ret code) ∧
      judge' (pyAsked l) msg sig = pure (pyOut (pyVerdict sig code)))
    {q T Q : Nat} (E : PyEnv L B w q T Q) : ∀ l, ∃ es,
      (E.c hL).run (crypto P) (fun y => pure (O y)) skb judge l = (pure (some es) : Exec b _) ∧
      E.run (crypto P) (fun y => pure (O y)) ⟨skb⟩ judge' (pyAsked l) = (pure (some (E.read es)) : Exec b _) := by
  induction E with
  | stop => exact fun l => ⟨[], rfl, rfl⟩
  | sign msg short rnd next ih =>
    intro l
    have hs := c_sign_eq hb hsk (pyMessage hL msg short) pyBuf rnd
    rw [PyEnv.c, CEnv.run, hs, PyEnv.run, py_sign_c hb hL hsk msg short rnd, pure_bind, pure_bind]
    cases (pyMessage hL msg short).answer P sk rnd with
    | error e =>
      obtain ⟨es, h1, h2⟩ := ih (pyAnswer SLH_DSA_SIGN_ERROR (some pyBuf)) l
      refine ⟨.signed SLH_DSA_SIGN_ERROR (some pyBuf) :: es, ?_, ?_⟩
      · exact (congrArg (fun y : Exec b (Option (List (CEvent w))) => y >>= _) h1).trans (pure_bind _ _)
      · exact (congrArg (fun y : Exec b (Option (List (PyEvent w))) => y >>= _) h2).trans (pure_bind _ _)
    | ok sig =>
      obtain ⟨es, h1, h2⟩ := ih (pyAnswer SLH_DSA_OK (some sig)) ((msg, sig) :: l)
      refine ⟨.signed SLH_DSA_OK (some sig) :: es, ?_, ?_⟩
      · rw [← pyMessage_bytes hL msg short] at h1
        exact (congrArg (fun y : Exec b (Option (List (CEvent w))) => y >>= _) h1).trans (pure_bind _ _)
      · exact (congrArg (fun y : Exec b (Option (List (PyEvent w))) => y >>= _) h2).trans (pure_bind _ _)
  | check msg short sig next ih =>
    intro l
    obtain ⟨code, g1, g2⟩ := hj l msg short sig
    obtain ⟨es, h1, h2⟩ := ih (pyVerdict sig code) l
    refine ⟨.verdict code :: es, ?_, ?_⟩
    · rw [PyEnv.c, CEnv.run, g1, pure_bind]
      exact (congrArg (fun y : Exec b (Option (List (CEvent w))) => y >>= _) h1).trans (pure_bind _ _)
    · rw [PyEnv.run, g2, pure_bind]
      change _ = (pure (some (PyEvent.verdict (pyVerdict sig code) :: (next (pyVerdict sig code)).read es)) : Exec b _)
      cases hv : pyVerdict sig code with
      | error e =>
        rw [hv] at h2
        exact (congrArg (fun y : Exec b (Option (List (PyEvent w))) => y >>= _) h2).trans (pure_bind _ _)
      | ok v =>
        rw [hv] at h2
        exact (congrArg (fun y : Exec b (Option (List (PyEvent w))) => y >>= _) h2).trans (pure_bind _ _)
  | call y next ih =>
    intro l
    obtain ⟨es, h1, h2⟩ := ih (O y) l
    refine ⟨.value (O y) :: es, ?_, ?_⟩
    · rw [PyEnv.c, CEnv.run, pure_bind, h1, pure_bind]
      rfl
    · rw [PyEnv.run, pure_bind, h2, pure_bind]
      rfl

/-- The buffers for the keys. -/
def pyPk0 : Vector UInt8 slh_dsa_sha2_128f.PK_LEN := Vector.replicate PY_PK_LEN 0
@[inherit_doc pyPk0]
def pySk0 : Vector UInt8 slh_dsa_sha2_128f.SK_LEN := Vector.replicate PY_SK_LEN 0

theorem py_verify_c (hb : 31 ≤ b.usizeBits) (hL : L < 2 ^ 31) {P : Spec.Prims} {pk : PublicKey ffiSet.params}
    {pkb : Vector UInt8 slh_dsa_sha2_128f.PK_LEN}
    (hpk : (PublicKey.try_from_bytes (p := ffiSet.params) pkb : Exec b _) = pure (.ok pk)) (msg : List UInt8)
    (short : msg.length ≤ L) (sig : List UInt8) : (⟨pkb⟩ : PyPublicKey).verify (crypto P) msg sig =
      (pure (pyOut (pyVerdict sig (if (pyMessage hL msg short).request.check P pk (pySig sig) then SLH_DSA_OK
        else SLH_DSA_VERIFY_ERROR))) : Exec b _) := by
  have hc := c_verify_eq (P := P) hb hpk (pyMessage hL msg short) (pySig sig)
  rw [pyVerdict, PyPublicKey.verify]
  by_cases h : sig.length = 17088
  · rw [dif_pos (show sig.length = PY_SIG_LEN from h), if_pos h]
    rw [pySig, dif_pos h] at hc ⊢
    refine (congrArg (fun y : Exec b (Ffi UInt8) => y >>= _) hc).trans ((pure_bind _ _).trans ?_)
    exact py_code _
  · rw [dif_neg (show ¬ sig.length = PY_SIG_LEN from h), if_neg h]
    rfl

/-- The keys. -/
theorem py_keys (b : Build) (P : Spec.Prims) (coins : Fin (256 ^ 16) × Fin (256 ^ 16) × Fin (256 ^ 16)) :
    ∃ s' pkb skb, ∃ (pk : PublicKey ffiSet.params) (sk : PrivateKey ffiSet.params), Generated P pk sk ∧
    (PublicKey.try_from_bytes (p := ffiSet.params) pkb : Exec b _) = pure (.ok pk) ∧
    (PrivateKey.try_from_bytes (p := ffiSet.params) (crypto P) skb : Exec b _) = pure (.ok sk) ∧
    slh_dsa_sha2_128f_keygen (crypto P) (tapeRng : Rng (Exec b) _)
      [Spec.toByte coins.1 16, Spec.toByte coins.2.1 16, Spec.toByte coins.2.2 16] (some pyPk0) (some pySk0) =
      pure (s', SLH_DSA_OK, some pkb, some skb) ∧
    py_keygen (crypto P) (tapeRng : Rng (Exec b) _)
      [Spec.toByte coins.1 16, Spec.toByte coins.2.1 16, Spec.toByte coins.2.2 16] = pure (.ret (s', ⟨pkb⟩, ⟨skb⟩)) := by
  obtain ⟨s', kp, hk⟩ : ∃ s' kp, try_keygen_with_rng ffiSet.params (crypto P) (tapeRng : Rng (Exec b) _)
      [Spec.toByte coins.1 16, Spec.toByte coins.2.1 16, Spec.toByte coins.2.2 16] = pure (s', .ok kp) := by
    rw [exec_try_keygen_with_rng]
    exact ⟨_, _, rfl⟩
  have hG := Generated.rng (P := P) tapeRng _ s' hk
  obtain ⟨(pkb : Vector UInt8 slh_dsa_sha2_128f.PK_LEN), (skb : Vector UInt8 slh_dsa_sha2_128f.SK_LEN), h1, h2, h3⟩ :=
    (C34_keygen_present (P := P) tapeRng _ pyPk0 pySk0).2 s' kp.1 kp.2 hk
  obtain ⟨v, hv, hv'⟩ := C11_public_key_encode_decode kp.1
  obtain ⟨u, hu⟩ := C12_generated_key_roundtrip hG
  have e1 : pkb = v := Exec.pure_inj (h1.symm.trans (hv' b).1)
  have e2 : skb = u := Exec.pure_inj (h2.symm.trans (hu b).1)
  subst e1 e2
  have h3 : slh_dsa_sha2_128f_keygen (crypto P) (tapeRng : Rng (Exec b) _)
      [Spec.toByte coins.1 16, Spec.toByte coins.2.1 16, Spec.toByte coins.2.2 16] (some pyPk0) (some pySk0) = pure (s', SLH_DSA_OK, some pkb, some skb) := h3
  have hpy : py_keygen (crypto P) (tapeRng : Rng (Exec b) _)
      [Spec.toByte coins.1 16, Spec.toByte coins.2.1 16, Spec.toByte coins.2.2 16] = pure (.ret (s', ⟨pkb⟩, ⟨skb⟩)) := by
    have h3 : slh_dsa_sha2_128f_keygen (crypto P) (tapeRng : Rng (Exec b) _)
      [Spec.toByte coins.1 16, Spec.toByte coins.2.1 16, Spec.toByte coins.2.2 16] (some (Vector.replicate PY_PK_LEN 0))
      (some (Vector.replicate PY_SK_LEN 0)) = pure (s', SLH_DSA_OK, some pkb, some skb) := h3
    have hp : PyPublicKey.init ((some pkb).getD (Vector.replicate PY_PK_LEN 0)).toList = .ret ⟨pkb⟩ :=
      dif_pos (show pkb.toList.length = PY_PK_LEN from Vector.length_toList)
    have hs : PyPrivateKey.init ((some skb).getD (Vector.replicate PY_SK_LEN 0)).toList = .ret ⟨skb⟩ :=
      dif_pos (show skb.toList.length = PY_SK_LEN from Vector.length_toList)
    rw [py_keygen, h3]
    simp only [pure_bind, ne_eq, show SLH_DSA_OK = pyErr.ok from rfl, not_true, if_false]
    rw [hp, hs]
  exact ⟨s', pkb, skb, kp.1, kp.2, hG, (hv' b).2, (hu b).2, h3, hpy⟩

/-- Both worlds, seen through the C program. -/
theorem py_worlds (hb : 31 ≤ b.usizeBits) (hL : L < 2 ^ 31) (P0 : Spec.Prims) {q T Q : Nat}
    (E : PyPublicKey → PyEnv L B w q T Q) (coins : Fin (256 ^ 16) × Fin (256 ^ 16) × Fin (256 ^ 16))
    (O : Query B → Fin (256 ^ w)) : ∃ k es es',
    cLibWorld b P0 pyPk0 pySk0 (fun pk => (E ⟨pk⟩).c hL) coins O =
      pure (some es) ∧
    cIdealWorld b P0 pyPk0 pySk0 (fun pk => (E ⟨pk⟩).c hL) coins O =
      pure (some es') ∧
    pyLibWorld b P0 E coins O = pure (some ((E k).read es)) ∧
    pyIdealWorld b P0 E coins O = pure (some ((E k).read es')) := by
  obtain ⟨s', pkb, skb, pk, sk, -, hpk, hsk, h3, hpy⟩ := py_keys b (withHash P0 O) coins
  obtain ⟨es, g1, g2⟩ := py_run_eq hb hL (withHash P0 O) O hsk (cJudge (crypto (withHash P0 O)) pkb)
    (pyJudge (crypto (withHash P0 O)) ⟨pkb⟩) (fun l msg short sig =>
      ⟨_, c_verify_eq (P := withHash P0 O) hb hpk (pyMessage hL msg short) (pySig sig), py_verify_c hb hL hpk msg short sig⟩)
    (E ⟨pkb⟩) []
  obtain ⟨es', g1', g2'⟩ := py_run_eq hb hL (withHash P0 O) O hsk cRegister pyRegister (fun l msg short sig => by
      refine ⟨_, rfl, ?_⟩
      rw [pyRegister, pyVerdict]
      by_cases h : sig.length = 17088
      · rw [if_pos h, if_pos h, pySig, dif_pos h, pyMessage_bytes]
        have hm : (msg, sig) ∈ pyAsked l ↔ (msg, (⟨sig.toArray, h⟩ : CSig)) ∈ l := by
          rw [pyAsked, List.mem_map]
          constructor
          · rintro ⟨x, hmem, e⟩
            obtain rfl : x = (msg, (⟨sig.toArray, h⟩ : CSig)) :=
              Prod.ext (Prod.mk.inj e).1 (Vector.toList_inj.mp (Prod.mk.inj e).2)
            exact hmem
          · exact fun hmem => ⟨_, hmem, rfl⟩
        by_cases hmem : (msg, (⟨sig.toArray, h⟩ : CSig)) ∈ l
        · rw [if_pos hmem, decide_eq_true (hm.mpr hmem)]
          rfl
        · rw [if_neg hmem, decide_eq_false fun x => hmem (hm.mp x)]
          rfl
      · rw [if_neg h, if_neg h]
        rfl) (E ⟨pkb⟩) []
  refine ⟨⟨pkb⟩, es, es', ?_, ?_, ?_, ?_⟩
  · rw [cLibWorld, cWorld, h3]
    exact g1
  · rw [cIdealWorld, cWorld, h3]
    exact g1'
  · rw [pyLibWorld, pyWorld, hpy]
    exact g2
  · rw [pyIdealWorld, pyWorld, hpy]
    exact g2'

/-- **C99** Both worlds run to their end: no behaviour is undefined, nothing aborts, and key generation succeeds. -/
theorem C99_runs (hb : 31 ≤ b.usizeBits) (hL : L < 2 ^ 31) (P0 : Spec.Prims) {q T Q : Nat}
    (E : PyPublicKey → PyEnv L B w q T Q) (coins : Fin (256 ^ 16) × Fin (256 ^ 16) × Fin (256 ^ 16))
    (O : Query B → Fin (256 ^ w)) :
    (∃ es, pyLibWorld b P0 E coins O = pure (some es)) ∧ ∃ es, pyIdealWorld b P0 E coins O = pure (some es) := by
  obtain ⟨k, es, es', -, -, h, h'⟩ := py_worlds hb hL P0 E coins O
  exact ⟨⟨_, h⟩, _, h'⟩

/-- **C99** Take the hash function to be a random function and what the operating system provides for key generation to be
random.  A Python program with `q` signatures, `T` verdicts and `Q` evaluations of the hash function, for messages of less than
`2^31` bytes, sees something else with the library than in the ideal world with a chance of at most
`T (2^(t+5-128) + 2^(2t+3-256) + 2^(-170))`. -/
theorem C99_worlds (hb : 31 ≤ b.usizeBits) (hL : L < 2 ^ 31) (P0 : Spec.Prims) (hw : 64 ≤ w) (hLB : 492 + L ≤ B)
    (hB : 160 + (35 + 33) * 16 ≤ B) {q T Q t : Nat} (ht : 22 ≤ t) (htn : t ≤ 128) (hq : q ≤ 2 ^ 63)
    (hqt : q * 2 ^ 22 ≤ 2 ^ t) (hQ : Q + q + 1 < 2 ^ t) (E : PyPublicKey → PyEnv L B w q T Q) :
    prob (fun ω : (Fin (256 ^ 16) × Fin (256 ^ 16) × Fin (256 ^ 16)) × (Query B → Fin (256 ^ w)) =>
      pyLibWorld b P0 E ω.1 ω.2 ≠ pyIdealWorld b P0 E ω.1 ω.2) ≤
    T * (2 ^ (t + 5) / 2 ^ 128 + 2 ^ (2 * t + 3) / 2 ^ 256 + 1 / 2 ^ 170) := by
  refine le_trans ?_ (C97_worlds hb P0 hw hLB hB pyPk0 pySk0 ht htn hq hqt hQ
    fun pk => (E ⟨pk⟩).c hL)
  rw [prob_eq, prob_eq]
  refine Oracle.avg_mono fun ω => Oracle.ind_mono fun h e => h ?_
  obtain ⟨k, es, es', h1, h2, h3, h4⟩ := py_worlds hb hL P0 E ω.1 ω.2
  rw [h1, h2] at e
  rw [h3, h4, Option.some.inj (Exec.pure_inj e)]

theorem pySig_toList (S : CSig) : pySig S.toList = S := by
  have h : S.toList.length = 17088 := Vector.length_toList
  rw [pySig, dif_pos h]
  exact Vector.toList_inj.mp (by simp [Vector.toList])

/-- A program that has a message signed and the signature verified for the message with more bytes after it. -/
def longPyEnv (msg pad : List UInt8) (h : (msg ++ pad).length ≤ L) (rnd : Vector UInt8 slh_dsa_sha2_128f.N) :
    PyEnv L B w 1 1 0 :=
  .sign msg (by rw [List.length_append] at h; omega) (.ok rnd) fun r =>
    .check (msg ++ pad) h (match r with | .ok sig => sig | .error _ => []) fun _ => .stop

/-- **C99 (limit)** With longer messages there are programs that always notice: a signature of a message is accepted for the
message with any `2^32`, `2 * 2^32`, ... bytes after it, as the wrapper passes the length as a C `int`. -/
theorem C99_limit (hb : 31 ≤ b.usizeBits) (P0 : Spec.Prims) (msg pad : List UInt8) {j : Nat} (hj : 0 < j)
    (hp : pad.length = 2 ^ 32 * j) (hm : msg.length < 2 ^ 31) (h : (msg ++ pad).length ≤ L)
    (rnd : Vector UInt8 slh_dsa_sha2_128f.N) (coins : Fin (256 ^ 16) × Fin (256 ^ 16) × Fin (256 ^ 16))
    (O : Query B → Fin (256 ^ w)) :
    pyLibWorld b P0 (fun _ => longPyEnv msg pad h rnd) coins O ≠ pyIdealWorld b P0 (fun _ => longPyEnv msg pad h rnd) coins O := by
  obtain ⟨s', pkb, skb, pk, sk, hG, hpk, hsk, -, hpy⟩ := py_keys b (withHash P0 O) coins
  have hmw : msg.length < 2 ^ b.usizeBits := hm.trans_le (Nat.pow_le_pow_right (by decide) hb)
  have hs := py_sign_c hb hm hsk msg le_rfl (.ok rnd)
  obtain ⟨S, hS⟩ : ∃ S, (pyMessage hm msg le_rfl).answer (withHash P0 O) sk (.ok rnd) = .ok S := ⟨_, rfl⟩
  rw [hS] at hs
  have hv := py_verify_c (P := withHash P0 O) hb hm hpk msg le_rfl S.toList
  rw [pySig_toList, ← hG.consistent.2, if_pos (answer_ok hG.consistent.1 hS)] at hv
  have hl : S.toList.length = 17088 := Vector.length_toList
  rw [pyVerdict, if_pos hl] at hv
  have hv : (⟨pkb⟩ : PyPublicKey).verify (crypto (withHash P0 O)) (msg ++ pad) S.toList = (pure (.ret true) : Exec b _) :=
    ((C52_py_long_messages (P := withHash P0 O) (fixedRng (.ok rnd) : Rng (Exec b) Unit) () ⟨skb⟩ ⟨pkb⟩ msg pad S.toList j
      hp hm hmw).2).trans hv
  have hi : (msg ++ pad, S.toList) ∉ [(msg, S.toList)] := by
    intro hmem
    have : (msg ++ pad).length = msg.length := congrArg List.length (congrArg Prod.fst (List.mem_singleton.mp hmem))
    rw [List.length_append, hp] at this
    omega
  have h1 : pyLibWorld b P0 (fun _ => longPyEnv msg pad h rnd) coins O =
      pure (some [.signed (.ok S.toList), .verdict (.ok true)]) := by
    rw [pyLibWorld, pyWorld, hpy, pure_bind, longPyEnv]
    dsimp only
    rw [PyEnv.run, hs, pure_bind]
    dsimp only
    rw [PyEnv.run, pyJudge, hv, pure_bind]
    rfl
  have h2 : pyIdealWorld b P0 (fun _ => longPyEnv msg pad h rnd) coins O =
      pure (some [.signed (.ok S.toList), .verdict (.ok false)]) := by
    rw [pyIdealWorld, pyWorld, hpy, pure_bind, longPyEnv]
    dsimp only
    rw [PyEnv.run, hs, pure_bind]
    dsimp only
    rw [PyEnv.run, pyRegister, if_pos hl, decide_eq_false hi, pure_bind]
    rfl
  rw [h1, h2]
  intro e
  have e := (List.cons.inj (List.cons.inj (Option.some.inj (Exec.pure_inj e))).2).1
  exact absurd (Except.ok.inj (PyEvent.verdict.inj e)) (by decide)

/-! ## The hypotheses can be met, and the worlds can differ -/

/-- There are such messages. -/
example : ∃ pad : List UInt8, pad.length = 2 ^ 32 * 1 ∧ ([104] ++ pad).length ≤ 2 ^ 33 :=
  ⟨List.replicate (2 ^ 32) 0, by rw [List.length_replicate, Nat.mul_one], by rw [List.length_append, List.length_replicate]; decide⟩

/-- A thousand signatures, a million verdicts, a million evaluations. -/
example {b : Build} (hb : 31 ≤ b.usizeBits) (P0 : Spec.Prims)
    (E : PyPublicKey → PyEnv 1000 2000 64 1000 1000000 1000000) :
    prob (fun ω : (Fin (256 ^ 16) × Fin (256 ^ 16) × Fin (256 ^ 16)) × (Query 2000 → Fin (256 ^ 64)) =>
      pyLibWorld b P0 E ω.1 ω.2 ≠ pyIdealWorld b P0 E ω.1 ω.2) ≤ 1 / 2 ^ 70 := by
  refine (C99_worlds (t := 32) hb (by decide) P0 (by decide) (by decide) (by decide) (by decide) (by decide) (by decide)
    (by decide) (by decide) E).trans ?_
  norm_num

/-- A program that has two bytes signed and the signature verified for one byte. -/
def demoPyEnv (rnd : Vector UInt8 slh_dsa_sha2_128f.N) : PyEnv 10 4000 64 1 1 0 :=
  .sign [104, 105] (by decide) (.ok rnd) fun r =>
    .check [104] (by decide) (match r with | .ok sig => sig | .error _ => []) fun _ => .stop

/-- It sees a difference if the functions are constant. -/
example {b : Build} (hb : 31 ≤ b.usizeBits) (coins : Fin (256 ^ 16) × Fin (256 ^ 16) × Fin (256 ^ 16))
    (O : Query 4000 → Fin (256 ^ 64)) (x : Fin (256 ^ 64)) (hO : ∀ y, O y = x) :
    ∃ rnd, pyLibWorld b demoPrims (fun _ => demoPyEnv rnd) coins O ≠
      pyIdealWorld b demoPrims (fun _ => demoPyEnv rnd) coins O := by
  obtain ⟨pk, sk, pkb, hk, hpk, hE, -⟩ := c_keys (L := 10) hb demoPrims pyPk0 pySk0 coins O
  have hv := const_sig2 (ps := ffiSet) rfl (by decide) hO hk
  refine ⟨sk.key.pk_seed, ?_⟩
  intro h
  subst hpk
  obtain ⟨k, es, es', h1, h2, h3, h4⟩ := py_worlds hb (by decide) demoPrims
    (fun _ => demoPyEnv sk.key.pk_seed) coins O
  obtain rfl := Option.some.inj (Exec.pure_inj (h1.symm.trans (hE _).1))
  obtain rfl := Option.some.inj (Exec.pure_inj (h2.symm.trans (hE _).2))
  have h := Option.some.inj (Exec.pure_inj ((h3.symm.trans h).trans h4))
  let S : CSig := sigVec ffiSet (withHash demoPrims O) ((pyMessage (L := 10) (by decide) [104, 105] (by decide)).request.str
    (withHash demoPrims O)) sk.key sk.key.pk_seed
  have hS : pySig S.toList = S := pySig_toList S
  have hc : (pyMessage (L := 10) (by decide) [104] (by decide)).request.check (withHash demoPrims O) sk.get_public_key
      (pySig S.toList) = true := by
    rw [hS, SigRequest.check, if_neg (show ¬ 255 < (pyMessage (L := 10) (by decide) [104]
      (by decide)).request.ctx.length from Nat.not_lt_zero _)]
    exact hv _ _
  have hn : cIdealVerdict (handed (ps := ffiSet) (pyMessage (L := 10) (by decide) [104, 105] (by decide)).request (.ok S) [])
      (pyMessage (L := 10) (by decide) [104] (by decide)) (pySig S.toList) = false := by
    refine decide_eq_false fun hm => ?_
    have hm := congrArg Prod.fst (List.mem_singleton.mp hm)
    exact absurd (show ([104] : List UInt8) = [104, 105] from hm) (by decide)
  have h : PyEvent.verdict (pyVerdict S.toList (if (pyMessage (L := 10) (by decide) [104] (by decide)).request.check
        (withHash demoPrims O) sk.get_public_key (pySig S.toList) then SLH_DSA_OK else SLH_DSA_VERIFY_ERROR)) =
      PyEvent.verdict (w := 64) (pyVerdict S.toList (if cIdealVerdict (handed (ps := ffiSet) (pyMessage (L := 10) (by decide)
        [104, 105] (by decide)).request (.ok S) []) (pyMessage (L := 10) (by decide) [104] (by decide)) (pySig S.toList)
        then SLH_DSA_OK else SLH_DSA_VERIFY_ERROR)) := (List.cons.inj (List.cons.inj h).2).1
  rw [hc, hn, if_pos rfl, if_neg (by decide)] at h
  have h := PyEvent.verdict.inj h
  have hl : S.toList.length = 17088 := Vector.length_toList
  rw [pyVerdict, pyVerdict, if_pos hl, if_pos hl] at h
  exact absurd (show Except.ok (ε := String) true = Except.ok false from h) (by simp)

end Fips205.Props
