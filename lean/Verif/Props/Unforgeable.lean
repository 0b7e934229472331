import Verif.Props.Forgery
import Verif.Props.Histories
import Mathlib.Data.List.Forall2

/-! # What a forgery needs after any number of signatures: C48, C49, C50 -/

namespace Fips205.Props
open Fips205 Fips205.Model

variable {P : Spec.Prims} {ps : ParamSet} {σ : Type}

/-! ## The secrets a signature opens -/

/-- The digest that selects the FORS leaves of a signature. -/
def digestOf (P : Spec.Prims) (pk : PublicKey ps.params) (sig : Vector UInt8 ps.params.SIG_LEN)
    (M : List UInt8) : List UInt8 :=
  (ps.hf P).Hmsg (sig.toList.take ps.sp.n) pk.key.pk_seed.toList pk.key.pk_root.toList M

/-- The place of the secret value that `sig` on `M` has to contain for FORS tree `i`. -/
def opened (P : Spec.Prims) (pk : PublicKey ps.params) (sig : Vector UInt8 ps.params.SIG_LEN)
    (M : List UInt8) (i : Nat) : Place :=
  let digest := digestOf P pk sig M
  .forsPrf (Spec.digestTree ps.sp digest) (Spec.digestLeaf ps.sp digest)
    (i * 2 ^ ps.sp.a + (Spec.base2b (Spec.digestMd ps.sp digest) ps.sp.a ps.sp.k).getD i 0)

/-- The bytes of a signature where the secret value for FORS tree `i` belongs. -/
def disclosed (sig : Vector UInt8 ps.params.SIG_LEN) (i : Nat) : List UInt8 :=
  (sig.toList.drop (ps.sp.n + i * ((ps.sp.a + 1) * ps.sp.n))).take ps.sp.n

/-- The secret value of a place of a key. -/
def secretAt (P : Spec.Prims) (sk : PrivateKey ps.params) (x : Place) : List UInt8 :=
  prfHash P ps (prfInput ps sk.key.pk_seed.toList sk.key.sk_seed.toList x)

theorem opened_exists (P : Spec.Prims) (pk : PublicKey ps.params) (sig : Vector UInt8 ps.params.SIG_LEN)
    (M : List UInt8) {i : Nat} (hi : i < ps.sp.k) : (opened P pk sig M i).Exists ps.sp := by
  have W := ps.wf
  refine ⟨?_, ?_, ?_⟩
  · have := Spec.digestTree_lt (p := ps.sp) (digestOf P pk sig M)
    rwa [show ps.sp.h - ps.sp.h / ps.sp.d = ps.sp.hp * (ps.sp.d - 1) by cases ps <;> rfl] at this
  · have := Spec.digestLeaf_lt (p := ps.sp) (digestOf P pk sig M)
    rwa [W.hd] at this
  · have h1 : (Spec.base2b (Spec.digestMd ps.sp (digestOf P pk sig M)) ps.sp.a ps.sp.k).getD i 0 <
        2 ^ ps.sp.a := base2b_getD_lt
    have h2 : (i + 1) * 2 ^ ps.sp.a ≤ ps.sp.k * 2 ^ ps.sp.a := Nat.mul_le_mul_right _ hi
    rw [Nat.add_mul, Nat.one_mul] at h2
    omega

theorem take_length (sig : Vector UInt8 ps.params.SIG_LEN) : (sig.toList.take ps.sp.n).length = ps.sp.n := by
  have : ps.sp.n ≤ ps.params.SIG_LEN := by cases ps <;> decide
  rw [List.length_take, Vector.length_toList]
  omega

/-- The owner's signature contains the secret values of the places it opens. -/
theorem honest_discloses {sk : PrivateKey ps.params} {sig : Vector UInt8 ps.params.SIG_LEN}
    {M : List UInt8} (h : sig.toList = honest P sk sig M) {i : Nat} (hi : i < ps.sp.k) :
    disclosed sig i = secretAt P sk (opened P sk.get_public_key sig M i) := by
  have V := ps.valid P
  generalize hc : against P sk sig M = c
  have hcp : c.p = ps.sp := by rw [← hc]; rfl
  have hch : c.hf = ps.hf P := by rw [← hc]; rfl
  have hS : c.SIGfors = Spec.forsSign c.p c.hf c.md c.SKseed c.PKseed c.fAdrs := by
    refine Spec.attempt_signWithR_fors V (take_length sig) (M := M) (SKseed := sk.key.sk_seed.toList)
      (PKseed := sk.key.pk_seed.toList) (PKroot := sk.key.pk_root.toList) ?_
    change Spec.attempt _ _ _ (honest P sk sig M) _ _ _ = c
    rw [← h, ← hc]
    rfl
  have hv := (Spec.fors_sign_values c (hcp ▸ ps.wf) (by rw [hcp, hch]; exact V) hS (by rw [hcp]; exact hi)).1
  have e1 : (1 + ps.sp.k * (1 + ps.sp.a)) * ps.sp.n =
    ps.sp.n + ps.sp.k * ((ps.sp.a + 1) * ps.sp.n) := by ring
  have hslice : c.vSecret i = disclosed sig i := by
    have hin : (i * (ps.sp.a + 1) + 1) * ps.sp.n ≤ ps.sp.k * ((ps.sp.a + 1) * ps.sp.n) := by
      have : (i + 1) * ((ps.sp.a + 1) * ps.sp.n) ≤ ps.sp.k * ((ps.sp.a + 1) * ps.sp.n) :=
        Nat.mul_le_mul_right _ hi
      refine le_trans ?_ this
      rw [← Nat.mul_assoc]
      refine Nat.mul_le_mul_right _ ?_
      rw [Nat.add_mul]
      omega
    have : c.vSecret i = Spec.slice (Spec.slice sig.toList ps.sp.n
        (ps.sp.n + ps.sp.k * ((ps.sp.a + 1) * ps.sp.n))) (i * (ps.sp.a + 1) * ps.sp.n)
        ((i * (ps.sp.a + 1) + 1) * ps.sp.n) := by
      rw [← hc, ← e1]; rfl
    rw [this, Spec.slice_slice _ (by omega), Spec.slice, disclosed, ← Nat.mul_assoc]
    congr 1
    rw [Nat.add_mul, Nat.one_mul]
    omega
  rw [← hslice, hv, Spec.Attempt.hSecret, hch, secretAt, ← prf_eq]
  have hl : c.l < 2 ^ 32 := by
    have h1 : c.l = Spec.digestLeaf ps.sp (digestOf P sk.get_public_key sig M) := by
      rw [← hc, against, Spec.attempt]
      rfl
    have := Spec.digestLeaf_lt (p := ps.sp) (digestOf P sk.get_public_key sig M)
    rw [ps.wf.hd] at this
    have h2 : 2 ^ ps.sp.hp ≤ 2 ^ 32 := by cases ps <;> decide
    omega
  refine ((C43_fors_addresses ps.sp (ps.hf P) hl _ 0 _ _).1).trans ?_
  rw [← hc]
  rfl

/-- **C48** A signature made through the API contains, for every FORS tree, the secret value its digest
selects. -/
theorem C48_signature_opens {sk : PrivateKey ps.params} {sig : Vector UInt8 ps.params.SIG_LEN}
    {M : List UInt8} (h : SignedBy P sk sig M) {i : Nat} (hi : i < ps.sp.k) :
    disclosed sig i = secretAt P sk (opened P sk.get_public_key sig M i) ∧
    (opened P sk.get_public_key sig M i).Exists ps.sp :=
  ⟨honest_discloses h.withR hi, opened_exists _ _ _ _ hi⟩

example (ps : ParamSet) : ∃ sig, SignedBy demoPrims (demoKeys ps).2 sig (Spec.pureMsg [9] [104, 105]) ∧
    0 < ps.sp.k := by
  obtain ⟨s', sig, h⟩ := demo_sign ps demoBuild true
  exact ⟨sig, .pure demoBuild _ _ _ _ _ _ h, by cases ps <;> decide⟩

/-- **C25** The FORS secrets contained in any two signatures of a key, selected at different places by
their digests, are PRF values of different inputs. -/
theorem C25_signed_secrets {sk : PrivateKey ps.params} {sig sig' : Vector UInt8 ps.params.SIG_LEN}
    {M M' : List UInt8} (h : SignedBy P sk sig M) (h' : SignedBy P sk sig' M') {i i' : Nat}
    (hi : i < ps.sp.k) (hi' : i' < ps.sp.k)
    (hne : opened P sk.get_public_key sig M i ≠ opened P sk.get_public_key sig' M' i') :
    let X := prfInput ps sk.key.pk_seed.toList sk.key.sk_seed.toList (opened P sk.get_public_key sig M i)
    let X' := prfInput ps sk.key.pk_seed.toList sk.key.sk_seed.toList
      (opened P sk.get_public_key sig' M' i')
    disclosed sig i = prfHash P ps X ∧ disclosed sig' i' = prfHash P ps X' ∧ X ≠ X' := by
  obtain ⟨a, b⟩ := C48_signature_opens h hi
  obtain ⟨a', b'⟩ := C48_signature_opens h' hi'
  exact ⟨a, a', C25_prf_inputs_distinct _ _ b b' trivial trivial hne⟩

/-- Two secrets of one signature. -/
example (ps : ParamSet) : ∃ sig M, SignedBy demoPrims (demoKeys ps).2 sig M ∧ 0 < ps.sp.k ∧ 1 < ps.sp.k ∧
    opened demoPrims (demoKeys ps).2.get_public_key sig M 0 ≠
      opened demoPrims (demoKeys ps).2.get_public_key sig M 1 := by
  obtain ⟨s', sig, h⟩ := demo_sign ps demoBuild true
  refine ⟨sig, _, .pure demoBuild _ _ _ _ _ _ h, by cases ps <;> decide, by cases ps <;> decide,
    fun e => ?_⟩
  simp only [opened, Place.forsPrf.injEq] at e
  have h1 : ∀ {md : List UInt8} {i : Nat}, (Spec.base2b md ps.sp.a ps.sp.k).getD i 0 < 2 ^ ps.sp.a :=
    base2b_getD_lt
  have := h1 (md := Spec.digestMd ps.sp (digestOf demoPrims (demoKeys ps).2.get_public_key sig
    (Spec.pureMsg [9] [104, 105]))) (i := 0)
  omega

/-- **C48** Whatever signatures `Q` of a generated key are known: if the key accepts another pair of
signature and formatted message, then
* the signature shows a break of `F`, `H`, `T` or an unpublished chain value, or
* it contains a FORS secret of the key that none of the known signatures opens, or
* it evaluates `H_msg` at a randomizer and message that no known signature uses, and the result selects,
  in every FORS tree, a leaf that some known signature opens. -/
theorem C48_new_signature_needs {pk : PublicKey ps.params} {sk : PrivateKey ps.params}
    (hk : Generated P pk sk) {Q : Vector UInt8 ps.params.SIG_LEN → List UInt8 → Prop}
    (hQ : ∀ s M, Q s M → SignedBy P sk s M) {sig : Vector UInt8 ps.params.SIG_LEN} {M : List UInt8}
    (h : Accepted P pk sig M) (hnew : ¬ Q sig M) :
    (against P sk sig M).Break ∨
    (∃ i < ps.sp.k, disclosed sig i = secretAt P sk (opened P pk sig M i) ∧
      ∀ s N, Q s N → ∀ j < ps.sp.k, opened P pk s N j ≠ opened P pk sig M i) ∨
    ((∀ s, Q s M → s.toList.take ps.sp.n ≠ sig.toList.take ps.sp.n) ∧
      ∀ i < ps.sp.k, ∃ s N, Q s N ∧ ∃ j < ps.sp.k, opened P pk s N j = opened P pk sig M i) := by
  obtain ⟨_, rfl⟩ := hk.consistent
  rcases C26_honest_or_break hk h with ⟨e, _⟩ | ⟨_, hb⟩
  · right
    by_cases ho : ∀ i < ps.sp.k, ∃ s N, Q s N ∧ ∃ j < ps.sp.k,
        opened P sk.get_public_key s N j = opened P sk.get_public_key sig M i
    · refine .inr ⟨fun s hs hR => hnew ?_, ho⟩
      have : s.toList = sig.toList := by
        rw [e, (hQ s M hs).withR, honest, hR]
      rwa [← Vector.toList_inj.mp this]
    · left
      push Not at ho
      obtain ⟨i, hi, ho⟩ := ho
      exact ⟨i, hi, honest_discloses e hi, ho⟩
  · exact .inl hb

/-- A known signature and another accepted one. -/
example (ps : ParamSet) : ∃ sig sig' : Vector UInt8 ps.params.SIG_LEN, ∃ M M' : List UInt8,
    SignedBy demoPrims (demoKeys ps).2 sig M ∧ Accepted demoPrims (demoKeys ps).1 sig' M' ∧
    ¬ (sig' = sig ∧ M' = M) := by
  obtain ⟨s', sig, h⟩ := demo_sign ps demoBuild true
  obtain ⟨s'', sig', h'⟩ := demo_hash_sign ps demoBuild .SHA256 true
  refine ⟨sig, sig', _, _, .pure demoBuild _ _ _ _ _ _ h,
    (SignedBy.hash demoBuild _ _ _ _ _ _ _ h').accepted (demo_generated ps), fun e => ?_⟩
  have := congrArg (fun l : List UInt8 => l.head?) e.2
  simp [Spec.pureMsg, Spec.prehashMsg, Spec.toByte] at this

/-! ## The same for requests to the API -/

/-- The string a request asks to sign. -/
def Request.format (P : Spec.Prims) (q : Request) : List UInt8 :=
  match q.ph with
  | none => pureString q.ctx q.msg
  | some ph => prehashString P q.ctx q.msg ph

/-- `pk` accepts `sig` for the message, context and pre-hash function of `q`. -/
def Accepts (b : Build) (P : Spec.Prims) (pk : PublicKey ps.params) (q : Request)
    (sig : Vector UInt8 ps.params.SIG_LEN) : Prop :=
  match q.ph with
  | none => pk.verify (crypto P) q.msg sig q.ctx = (pure true : Exec b Bool)
  | some ph => pk.hash_verify (crypto P) q.msg sig q.ctx ph = (pure true : Exec b Bool)

theorem serve_signedBy {b : Build} {sk : PrivateKey ps.params} {rng : Rng (Exec b) σ} {s s' : σ}
    {q : Request} {sig : Vector UInt8 ps.params.SIG_LEN} (h : serve P sk rng s q = pure (s', .ok sig)) :
    SignedBy P sk sig (q.format P) ∧ q.ctx.length ≤ 255 := by
  obtain ⟨msg, ctx, ph, hedged⟩ := q
  cases ph with
  | none =>
    have h : sk.try_sign_with_rng (crypto P) rng s msg ctx hedged = pure (s', .ok sig) := h
    refine ⟨?_, (try_sign_ok h).1⟩
    have := SignedBy.pure b rng s s' msg ctx hedged h
    rwa [pureMsg_eq] at this
  | some ph =>
    have h : sk.try_hash_sign_with_rng (crypto P) rng s msg ctx ph hedged = pure (s', .ok sig) := h
    refine ⟨?_, (try_hash_sign_ok h).1⟩
    have := SignedBy.hash b rng s s' msg ctx ph hedged h
    rwa [← phMsg, phMsg_eq] at this

theorem Accepts.accepted {b : Build} {pk : PublicKey ps.params} {q : Request}
    {sig : Vector UInt8 ps.params.SIG_LEN} (h : Accepts b P pk q sig) :
    Accepted P pk sig (q.format P) ∧ q.ctx.length ≤ 255 := by
  obtain ⟨msg, ctx, ph, hedged⟩ := q
  cases ph with
  | none =>
    have h : pk.verify (crypto P) msg sig ctx = (pure true : Exec b Bool) := h
    refine ⟨?_, ?_⟩
    · have := Accepted.pure b msg ctx h
      rwa [pureMsg_eq] at this
    · by_contra hc
      rw [exec_verify, Spec.verify, if_pos (by simpa using hc)] at h
      exact absurd (Exec.pure_inj h) (by decide)
  | some ph =>
    have h : pk.hash_verify (crypto P) msg sig ctx ph = (pure true : Exec b Bool) := h
    refine ⟨?_, ?_⟩
    · have := Accepted.hash b msg ctx ph h
      rwa [← phMsg, phMsg_eq] at this
    · by_contra hc
      rw [exec_hash_verify, Spec.hashVerify, if_pos (by simpa using hc)] at h
      exact absurd (Exec.pure_inj h) (by decide)

/-- Requests that sign the same string agree, up to a collision of the pre-hash function. -/
theorem format_inj {q q' : Request} (hc : q.ctx.length ≤ 255) (hc' : q'.ctx.length ≤ 255)
    (h : q.format P = q'.format P) : q.ctx = q'.ctx ∧ q.ph = q'.ph ∧ (q.msg = q'.msg ∨
      ∃ ph, q.ph = some ph ∧ q.msg ≠ q'.msg ∧
        Spec.preHash P q.msg ph.spec = Spec.preHash P q'.msg ph.spec) := by
  obtain ⟨msg, ctx, ph, hedged⟩ := q
  obtain ⟨msg', ctx', ph', hedged'⟩ := q'
  dsimp only at hc hc' ⊢
  cases ph with
  | none =>
    cases ph' with
    | none =>
      obtain ⟨e1, e2⟩ := C16_pure_injective hc hc' h
      exact ⟨e1, rfl, .inl e2⟩
    | some ph' => exact absurd h (C16_pure_prehash_disjoint P _ _ _ _ _)
  | some ph =>
    cases ph' with
    | none => exact absurd h.symm (C16_pure_prehash_disjoint P _ _ _ _ _)
    | some ph' =>
      obtain ⟨e1, rfl, e3⟩ := C17_prehash_injective hc hc' h
      refine ⟨e1, rfl, ?_⟩
      by_cases e : msg = msg'
      · exact .inl e
      · exact .inr ⟨ph, rfl, e, e3⟩

/-- **C48** Let a generated key serve any sequence of signing requests (pure or pre-hash, hedged or not,
with any RNG and anything happening to the RNG in between).  If its public key accepts a signature for a
request that this signature was not given for, then
* the pre-hash function collides on the message and one that was signed, or
* the signature shows a break of `F`, `H`, `T` or an unpublished chain value, or
* it contains a FORS secret that no signature given opens, or
* it evaluates `H_msg` at a new randomizer and message, with a result that selects only leaves that
  signatures given have opened. -/
theorem C48_unforgeable {b b' : Build} {pk : PublicKey ps.params} {sk : PrivateKey ps.params}
    (hk : Generated P pk sk) {rng : Rng (Exec b) σ} {s s' : σ} {qs : List ((σ → σ) × Request)}
    {rs : List (Except String (Vector UInt8 ps.params.SIG_LEN))}
    (h : serveAll P sk rng s qs = pure (s', rs)) {q : Request} {sig : Vector UInt8 ps.params.SIG_LEN}
    (hv : Accepts b' P pk q sig)
    (hnew : ∀ x ∈ qs.zip rs, ¬ (x.1.2.msg = q.msg ∧ x.1.2.ctx = q.ctx ∧ x.1.2.ph = q.ph ∧ x.2 = .ok sig)) :
    let given s N := ∃ x ∈ qs.zip rs, x.2 = .ok s ∧ x.1.2.format P = N
    let M := q.format P
    (∃ x ∈ qs.zip rs, x.1.2.ph = q.ph ∧ ∃ ph, q.ph = some ph ∧ x.1.2.msg ≠ q.msg ∧
      Spec.preHash P x.1.2.msg ph.spec = Spec.preHash P q.msg ph.spec) ∨
    (against P sk sig M).Break ∨
    (∃ i < ps.sp.k, disclosed sig i = secretAt P sk (opened P pk sig M i) ∧
      ∀ s N, given s N → ∀ j < ps.sp.k, opened P pk s N j ≠ opened P pk sig M i) ∨
    ((∀ s, given s M → s.toList.take ps.sp.n ≠ sig.toList.take ps.sp.n) ∧
      ∀ i < ps.sp.k, ∃ s N, given s N ∧ ∃ j < ps.sp.k, opened P pk s N j = opened P pk sig M i) := by
  intro given M
  have hall := C40_stateless sk rng qs h
  have hQ : ∀ x ∈ qs.zip rs, ∀ u, x.2 = .ok u →
      SignedBy P sk u (x.1.2.format P) ∧ x.1.2.ctx.length ≤ 255 := by
    intro x hx u hu
    obtain ⟨s0, s1, h1, _⟩ := List.forall₂_zip hall hx
    rw [hu] at h1
    exact serve_signedBy h1
  obtain ⟨ha, hc⟩ := hv.accepted
  by_cases hg : given sig M
  · left
    obtain ⟨x, hx, hs, hM⟩ := hg
    obtain ⟨e1, e2, e3 | ⟨ph, e3, e4⟩⟩ := format_inj (hQ x hx sig hs).2 hc hM
    · exact absurd ⟨e3, e1, e2, hs⟩ (hnew x hx)
    · exact ⟨x, hx, e2, ph, e2 ▸ e3, e4⟩
  · right
    refine C48_new_signature_needs hk ?_ ha hg
    rintro u N ⟨x, hx, hs, rfl⟩
    exact (hQ x hx u hs).1

/-- A key that served a request, and an accepted signature for another one. -/
example (ps : ParamSet) : ∃ s' rs, ∃ sig : Vector UInt8 ps.params.SIG_LEN,
    serveAll demoPrims (demoKeys ps).2 (demoRng.lift : Rng (Exec demoBuild) Nat) 3
      [(id, ⟨[104, 105], [9], none, true⟩)] = pure (s', rs) ∧ rs.length = 1 ∧
    Accepts demoBuild demoPrims (demoKeys ps).1 ⟨[104, 105], [9], some .SHA256, true⟩ sig := by
  obtain ⟨s', sig, h⟩ := demo_sign ps demoBuild true
  obtain ⟨s'', sig', h'⟩ := demo_hash_sign ps demoBuild .SHA256 true
  refine ⟨s', [.ok sig], sig', ?_, rfl, ?_⟩
  · simp only [serveAll, serve, id, h, pure_bind]
  · obtain ⟨hc, e⟩ := (demo_generated ps).consistent
    have := (hc.signsFor demoBuild demoBuild _ _ _ _ _ _ _ _).2 _ h'
    rw [e] at this
    exact this

/-! ## One signature for two messages -/

/-- **C49** If a generated key accepts one signature for two formatted messages, then one of the two
acceptances shows a break, or two different secret components of the key are equal (a collision of the
PRF), or `H_msg` selects the same tree, leaf and FORS leaves for both messages. -/
theorem C49_one_signature_two_messages {pk : PublicKey ps.params} {sk : PrivateKey ps.params}
    (hk : Generated P pk sk) {sig : Vector UInt8 ps.params.SIG_LEN} {M M' : List UInt8}
    (h : Accepted P pk sig M) (h' : Accepted P pk sig M') :
    (against P sk sig M).Break ∨ (against P sk sig M').Break ∨
    (∃ i < ps.sp.k, let x := opened P pk sig M i; let y := opened P pk sig M' i
      x ≠ y ∧ prfInput ps pk.key.pk_seed.toList sk.key.sk_seed.toList x ≠
        prfInput ps pk.key.pk_seed.toList sk.key.sk_seed.toList y ∧ secretAt P sk x = secretAt P sk y) ∨
    ∀ i < ps.sp.k, opened P pk sig M i = opened P pk sig M' i := by
  obtain ⟨_, rfl⟩ := hk.consistent
  rcases C26_honest_or_break hk h with ⟨e, _⟩ | ⟨_, hb⟩
  · rcases C26_honest_or_break hk h' with ⟨e', _⟩ | ⟨_, hb⟩
    · right; right
      by_cases ho : ∀ i < ps.sp.k,
          opened P sk.get_public_key sig M i = opened P sk.get_public_key sig M' i
      · exact .inr ho
      · push Not at ho
        obtain ⟨i, hi, ho⟩ := ho
        refine .inl ⟨i, hi, ho, ?_, ?_⟩
        · exact C25_prf_inputs_distinct _ _ (opened_exists _ _ _ _ hi) (opened_exists _ _ _ _ hi) trivial
            trivial ho
        · rw [← honest_discloses e hi, ← honest_discloses e' hi]
    · exact .inr (.inl hb)
  · exact .inl hb

/-- The hypotheses can be met with different messages, for hash functions that are no hash functions. -/
example (ps : ParamSet) : ∃ pk sk, ∃ sig : Vector UInt8 ps.params.SIG_LEN, ∃ M M' : List UInt8,
    Generated zeroPrims pk sk ∧ Accepted zeroPrims pk sig M ∧ Accepted zeroPrims pk sig M' ∧ M ≠ M' := by
  let sd : Vector UInt8 ps.params.N := Vector.replicate _ 0
  let ks := keyPair ps zeroPrims sd sd sd
  have hg : Generated zeroPrims ks.1 ks.2 := .seeds (b := demoBuild) sd sd sd (exec_keygen_with_seeds _ _ _)
  have hacc : ∀ (sig : Vector UInt8 ps.params.SIG_LEN) msg,
      Accepted zeroPrims ks.1 sig (Spec.pureMsg [] msg) := by
    intro sig msg
    refine .pure demoBuild msg [] ?_
    rw [exec_verify, Spec.verify, if_neg (by simp)]
    refine congrArg _ ?_
    rw [show ks.1.key.pk_root.toList = _ from rootVec_toList _ _]
    refine zero_accepts ps _ _ _ _ ?_
    rw [Vector.length_toList]
    cases ps <;> rfl
  refine ⟨_, _, Vector.replicate _ 0, _, _, hg, hacc _ [0], hacc _ [1], ?_⟩
  simp [Spec.pureMsg]

/-- **C49** If the key made the signature for one of the two messages, there is no break on that side: the
other acceptance shows one, or two secrets are equal, or `H_msg` selects the same secrets. -/
theorem C49_signed_for_another {pk : PublicKey ps.params} {sk : PrivateKey ps.params}
    (hk : Generated P pk sk) {sig : Vector UInt8 ps.params.SIG_LEN} {M M' : List UInt8}
    (h : SignedBy P sk sig M) (h' : Accepted P pk sig M') :
    (against P sk sig M').Break ∨
    (∃ i < ps.sp.k, let x := opened P pk sig M i; let y := opened P pk sig M' i
      x ≠ y ∧ prfInput ps pk.key.pk_seed.toList sk.key.sk_seed.toList x ≠
        prfInput ps pk.key.pk_seed.toList sk.key.sk_seed.toList y ∧ secretAt P sk x = secretAt P sk y) ∨
    ∀ i < ps.sp.k, opened P pk sig M i = opened P pk sig M' i := by
  have ha := h.accepted hk
  rcases C49_one_signature_two_messages hk ha h' with hb | h
  · rcases C26_honest_or_break hk ha with ⟨_, hn⟩ | ⟨hn, _⟩
    · exact absurd hb hn
    · exact absurd h.withR hn
  · exact h

/-- The hypotheses can be met with different messages, for hash functions that are no hash functions. -/
example (ps : ParamSet) : ∃ pk sk, ∃ sig : Vector UInt8 ps.params.SIG_LEN, ∃ M M' : List UInt8,
    Generated zeroPrims pk sk ∧ SignedBy zeroPrims sk sig M ∧ Accepted zeroPrims pk sig M' ∧ M ≠ M' := by
  let sd : Vector UInt8 ps.params.N := Vector.replicate _ 0
  let ks := keyPair ps zeroPrims sd sd sd
  have hg : Generated zeroPrims ks.1 ks.2 := .seeds (b := demoBuild) sd sd sd (exec_keygen_with_seeds _ _ _)
  obtain ⟨⟨sig, h, _⟩, _⟩ := C04_short_context_accepted hg (demoRng.lift : Rng (Exec demoBuild) Nat) 0 [0] []
    .SHA256 (by simp)
  refine ⟨_, _, sig, _, _, hg, .pure demoBuild _ _ _ _ _ _ h, .pure demoBuild [1] [] ?_, ?_⟩
  · rw [exec_verify, Spec.verify, if_neg (by simp)]
    refine congrArg _ ?_
    rw [show ks.1.key.pk_root.toList = _ from rootVec_toList _ _]
    refine zero_accepts ps _ _ _ _ ?_
    rw [Vector.length_toList]
    cases ps <;> rfl
  · simp [Spec.pureMsg]

/-! ## One public key, two private keys -/

/-- A place, other than a secret one, of tree `t` of layer `j`. -/
def _root_.Fips205.Place.InTree (j t : Nat) : Place → Prop
  | .wotsHash j' t' .. | .wotsPk j' t' .. | .tree j' t' .. => j' = j ∧ t' = t
  | _ => False

/-- Two different inputs with the same hash, at such a place. -/
def TreeCollision (p : Spec.Params) (hf : Spec.HashFns) (PKseed : List UInt8) (j t : Nat) : Prop :=
  ∃ x : Place, x.Exists p ∧ x.InTree j t ∧ ∃ u v, u ≠ v ∧ hashAt hf PKseed x u = hashAt hf PKseed x v

section
variable {p : Spec.Params} {hf : Spec.HashFns} {m : Nat}

theorem wotsPKgen_binding (V : Spec.Valid hf p.n m) {S S' PKseed : List UInt8} {j t l : Nat}
    (hl : l < 2 ^ 32) (hx : (Place.wotsPk j t l).Exists p)
    (h : Spec.wotsPKgen p hf S PKseed
        (Spec.setKeyPairAddress (Spec.setTypeAndClear (Spec.htAdrs j t) Spec.WOTS_HASH) l) =
      Spec.wotsPKgen p hf S' PKseed
        (Spec.setKeyPairAddress (Spec.setTypeAndClear (Spec.htAdrs j t) Spec.WOTS_HASH) l)) :
    TreeCollision p hf PKseed j t ∨ ∀ c < p.len,
      hf.PRF PKseed S (Place.wotsPrf j t l c).adrs = hf.PRF PKseed S' (Place.wotsPrf j t l c).adrs := by
  have h1 := (C43_wots_addresses p hf (j := j) (t := t) hl [] S PKseed 0 0 0).2.1
  have h2 := (C43_wots_addresses p hf (j := j) (t := t) hl [] S' PKseed 0 0 0).2.1
  rw [h1, h2] at h
  generalize hA : Spec.setKeyPairAddress (Spec.setTypeAndClear (Spec.htAdrs j t) Spec.WOTS_HASH) l = A at h
  by_cases e : (Spec.concat p.len fun i =>
        Spec.chain hf (hf.PRF PKseed S (Place.wotsPrf j t l i).adrs) 0 15 PKseed
          (Spec.setChainAddress A i)) = Spec.concat p.len fun i =>
        Spec.chain hf (hf.PRF PKseed S' (Place.wotsPrf j t l i).adrs) 0 15 PKseed
          (Spec.setChainAddress A i)
  · by_cases hb : TreeCollision p hf PKseed j t
    · exact .inl hb
    right
    intro c hc
    have hlen : ∀ S, ∀ i < p.len, (Spec.chain hf (hf.PRF PKseed S (Place.wotsPrf j t l i).adrs) 0 15 PKseed
          (Spec.setChainAddress A i)).length = p.n := fun S i _ => Spec.chain_length V (V.PRF _ _ _) _ _ _ _
    have hch := Spec.concat_inj (hlen S) (hlen S') e c hc
    rcases Spec.chain_extract hch with h | ⟨u, hu, h3, h4⟩
    · exact h
    · refine absurd ⟨.wotsHash j t l c u, ?_, ⟨rfl, rfl⟩, _, _, h3, ?_⟩ hb
      · exact ⟨hx.1, hx.2.1, hx.2.2, hc, hu⟩
      · have hF : ∀ X, hf.F PKseed (Spec.setHashAddress (Spec.setChainAddress A c) (0 + u)) X =
            hf.F PKseed (Place.wotsHash j t l c u).adrs X := by
          intro X
          have := (C43_wots_addresses p hf (j := j) (t := t) hl X S PKseed u c 0).1
          rw [hA] at this
          rw [Nat.zero_add]
          exact this
        rw [hF, hF] at h4
        exact h4
  · exact .inl ⟨.wotsPk j t l, hx, ⟨rfl, rfl⟩, _, _, e, h⟩

theorem xmssNode_binding (V : Spec.Valid hf p.n m) (hp : 2 ^ p.hp ≤ 2 ^ 32) {S S' PKseed : List UInt8}
    {j t : Nat} (hj : j < p.d) (ht : t < 2 ^ (p.hp * (p.d - 1 - j))) : ∀ {z i : Nat}, z ≤ p.hp →
    i < 2 ^ (p.hp - z) → Spec.xmssNode p hf S i z PKseed (Spec.htAdrs j t) =
      Spec.xmssNode p hf S' i z PKseed (Spec.htAdrs j t) →
    TreeCollision p hf PKseed j t ∨ ∀ l, i * 2 ^ z ≤ l → l < (i + 1) * 2 ^ z → ∀ c < p.len,
      hf.PRF PKseed S (Place.wotsPrf j t l c).adrs = hf.PRF PKseed S' (Place.wotsPrf j t l c).adrs := by
  intro z
  induction z with
  | zero =>
    intro i _ hi h
    rcases wotsPKgen_binding (l := i) V (by simp at hi; omega) ⟨hj, ht, hi⟩ h with h | h
    · exact .inl h
    · refine .inr fun l h1 h2 => ?_
      have : l = i := by omega
      subst this
      exact h
  | succ z ih =>
    intro i hz hi h
    by_cases hb : TreeCollision p hf PKseed j t
    · exact .inl hb
    have e2 : 2 ^ (p.hp - z) = 2 * 2 ^ (p.hp - (z + 1)) := by
      rw [show p.hp - z = p.hp - (z + 1) + 1 by omega, Nat.pow_succ]; omega
    rw [C43_xmss_addresses, C43_xmss_addresses] at h
    by_cases e : Spec.xmssNode p hf S (2 * i) z PKseed (Spec.htAdrs j t) ++
          Spec.xmssNode p hf S (2 * i + 1) z PKseed (Spec.htAdrs j t) =
        Spec.xmssNode p hf S' (2 * i) z PKseed (Spec.htAdrs j t) ++
          Spec.xmssNode p hf S' (2 * i + 1) z PKseed (Spec.htAdrs j t)
    · have hl := List.append_inj e (by rw [Spec.xmssNode_length V, Spec.xmssNode_length V])
      have h1 := (ih (i := 2 * i) (by omega) (by omega) hl.1).resolve_left hb
      have h2 := (ih (i := 2 * i + 1) (by omega) (by omega) hl.2).resolve_left hb
      right
      intro l hl1 hl2
      have e3 : 2 * i * 2 ^ z = i * 2 ^ (z + 1) := by rw [Nat.pow_succ]; ring
      have e4 : (2 * i + 1 + 1) * 2 ^ z = (i + 1) * 2 ^ (z + 1) := by rw [Nat.pow_succ]; ring
      by_cases hm : l < (2 * i + 1) * 2 ^ z
      · exact h1 l (by omega) hm
      · exact h2 l (by omega) (by omega)
    · exact absurd ⟨.tree j t (z + 1) i, ⟨hj, ht, by omega, hz, hi⟩, ⟨rfl, rfl⟩, _, _, e, h⟩ hb

end

/-- **C50** A public key fixes the private key: if two byte strings decode to private keys with the same
public key, then they have the same `SK.seed`, or the hash functions collide at a place of the top XMSS
tree, or the PRF maps the two different seeds to the same value at every one of the secret places of
that tree. -/
theorem C50_public_key_binds_seed {b b' : Build} {v v' : Vector UInt8 ps.params.SK_LEN}
    {sk sk' : PrivateKey ps.params}
    (h : (PrivateKey.try_from_bytes (crypto P) v : Exec b _) = pure (.ok sk))
    (h' : (PrivateKey.try_from_bytes (crypto P) v' : Exec b' _) = pure (.ok sk'))
    (hpk : sk.get_public_key = sk'.get_public_key) :
    sk.key.sk_seed = sk'.key.sk_seed ∨ TreeCollision ps.sp (ps.hf P) sk.key.pk_seed.toList (ps.sp.d - 1) 0 ∨
    ∀ l < 2 ^ ps.sp.hp, ∀ i < ps.sp.len, let x := Place.wotsPrf (ps.sp.d - 1) 0 l i
      prfInput ps sk.key.pk_seed.toList sk.key.sk_seed.toList x ≠
        prfInput ps sk'.key.pk_seed.toList sk'.key.sk_seed.toList x ∧
      secretAt P sk x = secretAt P sk' x := by
  have hc := (try_from_bytes_ok h).1
  have hc' := (try_from_bytes_ok h').1
  have e1 : sk.key.pk_seed = sk'.key.pk_seed := congrArg (fun k => k.key.pk_seed) hpk
  have e2 : sk.key.pk_root = sk'.key.pk_root := congrArg (fun k => k.key.pk_root) hpk
  by_cases hs : sk.key.sk_seed = sk'.key.sk_seed
  · exact .inl hs
  right
  have hroot : Spec.pkRoot ps.sp (ps.hf P) sk.key.sk_seed.toList sk.key.pk_seed.toList =
      Spec.pkRoot ps.sp (ps.hf P) sk'.key.sk_seed.toList sk.key.pk_seed.toList := by
    rw [← rootVec_toList, ← rootVec_toList, ← hc, e1, ← hc', e2]
  have hA : Spec.setLayerAddress Spec.zeroAdrs (ps.sp.d - 1) = Spec.htAdrs (ps.sp.d - 1) 0 := by
    cases ps <;> decide
  rw [Spec.pkRoot, Spec.pkRoot, hA] at hroot
  have hd : 0 < ps.sp.d := by cases ps <;> decide
  rcases xmssNode_binding (ps.valid P) (by cases ps <;> decide) (by omega) (Nat.two_pow_pos _) le_rfl
    (Nat.two_pow_pos _) hroot with h | h
  · exact .inl h
  · refine .inr fun l hl i hi => ⟨?_, ?_⟩
    · intro e
      rw [prfInput, prfInput, ← e1] at e
      refine hs (Vector.toList_inj.mp ?_)
      split at e <;> exact List.append_cancel_left e
    · rw [secretAt, secretAt, ← prf_eq, ← prf_eq, ← e1]
      exact h l (by omega) (by omega) i hi

/-- Different private keys with the same public key, for hash functions that are no hash functions. -/
example (ps : ParamSet) : ∃ v v' : Vector UInt8 ps.params.SK_LEN, ∃ sk sk' : PrivateKey ps.params,
    (PrivateKey.try_from_bytes (crypto zeroPrims) v : Exec demoBuild _) = pure (.ok sk) ∧
    (PrivateKey.try_from_bytes (crypto zeroPrims) v' : Exec demoBuild _) = pure (.ok sk') ∧
    sk.get_public_key = sk'.get_public_key ∧ sk.key.sk_seed ≠ sk'.key.sk_seed := by
  let sd (x : UInt8) : Vector UInt8 ps.params.N := Vector.replicate _ x
  have hg : ∀ x, Generated zeroPrims (keyPair ps zeroPrims (sd x) (sd 0) (sd 0)).1
      (keyPair ps zeroPrims (sd x) (sd 0) (sd 0)).2 := fun x =>
    .seeds (b := demoBuild) (sd x) (sd 0) (sd 0) (exec_keygen_with_seeds _ _ _)
  obtain ⟨v, h⟩ := C12_generated_key_roundtrip (hg 0)
  obtain ⟨v', h'⟩ := C12_generated_key_roundtrip (hg 1)
  refine ⟨v, v', _, _, (h demoBuild).2, (h' demoBuild).2, ?_, ?_⟩
  · have hroot : ∀ x, rootVec ps zeroPrims (sd x) (sd 0) = Vector.replicate _ 0 := by
      intro x
      refine Vector.toList_inj.mp ?_
      have hn : (Vector.replicate ps.params.N (0 : UInt8)).toList = List.replicate ps.sp.n 0 := by
        rw [Vector.toList_replicate, ps.matches.n]
      rw [rootVec_toList, hn]
      have hp : ps.sp.hp = ps.sp.hp - 1 + 1 := by cases ps <;> rfl
      rw [Spec.pkRoot, hp]
      exact zero_H ps _ _ _
    change PublicKey.mk (SlhPublicKey.mk (sd 0) (rootVec ps zeroPrims (sd 0) (sd 0))) =
      PublicKey.mk (SlhPublicKey.mk (sd 0) (rootVec ps zeroPrims (sd 1) (sd 0)))
    rw [hroot, hroot]
  · intro e
    have h0 : 0 < ps.params.N := by cases ps <;> decide
    have := congrArg (fun x : Vector UInt8 ps.params.N => x[0]) e
    simp [keyPair, sd] at this

end Fips205.Props
