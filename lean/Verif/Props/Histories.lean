import Verif.Props.Encoding

/-! # Builds and histories of API calls: C28, C32, C40 -/

namespace Fips205.Props
open Fips205 Fips205.Model

variable {P : Spec.Prims} {σ : Type} {ps : ParamSet}

/-! ## Independence of the build -/

/-- The outcome of a run: the value, or the panic. -/
def outcome {b : Build} {α : Type} (x : Exec b α) : Except Panic α := x

/-- An RNG that may fail or panic, but does not look at the build. -/
structure AnyRng (σ : Type) where
  fill : σ → {n : Nat} → Vector UInt8 n → Except Panic (σ × Except Unit (Vector UInt8 n))

/-- Such an RNG in a given build. -/
def AnyRng.at {σ : Type} (r : AnyRng σ) (b : Build) : Rng (Exec b) σ where
  tryFill s {_n} buf := r.fill s buf

/-- **C28** Key generation does not depend on the build, whatever the RNG and the seed lengths. -/
theorem C28_keygen (b b' : Build) (rng : AnyRng σ) (s : σ) {n : Nat} (x y z : Vector UInt8 n) :
    outcome (try_keygen_with_rng ps.params (crypto P) (rng.at b) s) =
      outcome (try_keygen_with_rng ps.params (crypto P) (rng.at b') s) ∧
    outcome (keygen_with_seeds ps.params (crypto P) x y z : Exec b _) =
      outcome (keygen_with_seeds ps.params (crypto P) x y z : Exec b' _) := by
  constructor
  · rw [exec_try_keygen_with_rng, exec_try_keygen_with_rng]
    rfl
  · by_cases hn : n = ps.params.N
    · subst hn
      rw [exec_keygen_with_seeds, exec_keygen_with_seeds]
      rfl
    · rw [exec_keygen_with_seeds_panics hn, exec_keygen_with_seeds_panics hn]
      rfl

/-- **C28** Signing does not depend on the build. -/
theorem C28_sign (b b' : Build) (rng : AnyRng σ) (s : σ) (sk : PrivateKey ps.params)
    (msg ctx : List UInt8) (ph : Ph) (hedged : Bool) :
    outcome (sk.try_sign_with_rng (crypto P) (rng.at b) s msg ctx hedged) =
      outcome (sk.try_sign_with_rng (crypto P) (rng.at b') s msg ctx hedged) ∧
    outcome (sk.try_hash_sign_with_rng (crypto P) (rng.at b) s msg ctx ph hedged) =
      outcome (sk.try_hash_sign_with_rng (crypto P) (rng.at b') s msg ctx ph hedged) := by
  constructor
  · rw [exec_try_sign_with_rng, exec_try_sign_with_rng]
    rfl
  · rw [exec_try_hash_sign_with_rng, exec_try_hash_sign_with_rng]
    rfl

/-- **C28** Verification does not depend on the build. -/
theorem C28_verify (b b' : Build) (pk : PublicKey ps.params) (msg ctx : List UInt8) (ph : Ph)
    (sig : Vector UInt8 ps.params.SIG_LEN) :
    outcome (pk.verify (crypto P) msg sig ctx : Exec b _) =
      outcome (pk.verify (crypto P) msg sig ctx : Exec b' _) ∧
    outcome (pk.hash_verify (crypto P) msg sig ctx ph : Exec b _) =
      outcome (pk.hash_verify (crypto P) msg sig ctx ph : Exec b' _) := by
  constructor
  · rw [exec_verify, exec_verify]
    rfl
  · rw [exec_hash_verify, exec_hash_verify]
    rfl

/-- **C28** (De)serialisation does not depend on the build. -/
theorem C28_serdes (b b' : Build) (pk : PublicKey ps.params) (sk : PrivateKey ps.params)
    (pkv : Vector UInt8 ps.params.PK_LEN) (skv : Vector UInt8 ps.params.SK_LEN) :
    outcome (pk.into_bytes : Exec b _) = outcome (pk.into_bytes : Exec b' _) ∧
    outcome (sk.into_bytes : Exec b _) = outcome (sk.into_bytes : Exec b' _) ∧
    outcome (PublicKey.try_from_bytes pkv : Exec b (Except _ (PublicKey ps.params))) =
      outcome (PublicKey.try_from_bytes pkv : Exec b' _) ∧
    outcome (PrivateKey.try_from_bytes (crypto P) skv : Exec b (Except _ (PrivateKey ps.params))) =
      outcome (PrivateKey.try_from_bytes (crypto P) skv : Exec b' _) := by
  refine ⟨?_, ?_, ?_, ?_⟩
  · obtain ⟨v, _, h⟩ := C11_public_key_encode_decode pk
    rw [(h b).1, (h b').1]
    rfl
  · obtain ⟨v, _, h, _⟩ := C15_public_key_bytes sk
    rw [(h b).1, (h b').1]
    rfl
  · obtain ⟨v, h⟩ := C11_public_key_decode_encode pkv
    rw [(h b).1, (h b').1]
    rfl
  · obtain ⟨h1, h2⟩ := C12_private_key_decode P skv
    by_cases hc : skField skv 3 = Spec.pkRoot ps.sp (ps.hf P) (skField skv 0) (skField skv 2)
    · obtain ⟨sk', _, _, _, _, h⟩ := h1 hc
      rw [(h b).1, (h b').1]
      rfl
    · rw [h2 hc b, h2 hc b']
      rfl

/-! ## Histories -/

/-- API calls.  Keys are referred to by their index in the pool. -/
inductive Op (ps : ParamSet)
  | keygen
  | keygenSeeds {n : Nat} (sk_seed sk_prf pk_seed : Vector UInt8 n)
  /-- decode arbitrary bytes as a private key -/
  | decode (v : Vector UInt8 ps.params.SK_LEN)
  /-- encode a key of the pool and decode the bytes again -/
  | reencode (i : Nat)
  | clone (i : Nat)
  | sign (i : Nat) (msg ctx : List UInt8) (hedged : Bool)
  | hashSign (i : Nat) (msg ctx : List UInt8) (ph : Ph) (hedged : Bool)

/-- A signature made in a history; `ph = none` for the pure interface. -/
structure Made (ps : ParamSet) where
  signer : Nat
  msg : List UInt8
  ctx : List UInt8
  ph : Option Ph
  sig : Vector UInt8 ps.params.SIG_LEN

/-- The state of a program that uses the library. -/
structure World (ps : ParamSet) where
  /-- the private keys in circulation -/
  privs : List (PrivateKey ps.params)
  /-- the pairs key generation returned -/
  pairs : List (PublicKey ps.params × PrivateKey ps.params)
  /-- the signatures made -/
  made : List (Made ps)

def World.add (w : World ps) (sk : PrivateKey ps.params) : World ps :=
  { w with privs := w.privs ++ [sk] }

/-- One API call, with the RNG threaded through. -/
def step {m : Type → Type} [Rust m] (P : Spec.Prims) (rng : Rng m σ) (s : σ) (w : World ps) :
    Op ps → m (σ × World ps)
  | .keygen => do
    let (s, r) ← try_keygen_with_rng ps.params (crypto P) rng s
    match r with
    | .error _ => pure (s, w)
    | .ok (pk, sk) => pure (s, { w.add sk with pairs := w.pairs ++ [(pk, sk)] })
  | .keygenSeeds x y z => do
    let (pk, sk) ← keygen_with_seeds ps.params (crypto P) x y z
    pure (s, { w.add sk with pairs := w.pairs ++ [(pk, sk)] })
  | .decode v => do
    match ← PrivateKey.try_from_bytes (crypto P) v with
    | .error _ => pure (s, w)
    | .ok sk => pure (s, w.add sk)
  | .reencode i =>
    match w.privs[i]? with
    | none => pure (s, w)
    | some sk => do
      let v ← sk.into_bytes
      match ← PrivateKey.try_from_bytes (crypto P) v with
      | .error _ => pure (s, w)
      | .ok sk => pure (s, w.add sk)
  | .clone i =>
    match w.privs[i]? with
    | none => pure (s, w)
    | some sk => pure (s, w.add sk)
  | .sign i msg ctx hedged =>
    match w.privs[i]? with
    | none => pure (s, w)
    | some sk => do
      let (s, r) ← sk.try_sign_with_rng (crypto P) rng s msg ctx hedged
      match r with
      | .error _ => pure (s, w)
      | .ok sig => pure (s, { w with made := w.made ++ [⟨i, msg, ctx, none, sig⟩] })
  | .hashSign i msg ctx ph hedged =>
    match w.privs[i]? with
    | none => pure (s, w)
    | some sk => do
      let (s, r) ← sk.try_hash_sign_with_rng (crypto P) rng s msg ctx ph hedged
      match r with
      | .error _ => pure (s, w)
      | .ok sig => pure (s, { w with made := w.made ++ [⟨i, msg, ctx, some ph, sig⟩] })

/-- A history. -/
def history {m : Type → Type} [Rust m] (P : Spec.Prims) (rng : Rng m σ) (s : σ) (w : World ps) :
    List (Op ps) → m (σ × World ps)
  | [] => pure (s, w)
  | op :: ops => do
    let (s, w) ← step P rng s w op
    history P rng s w ops

/-- The signature is accepted by `pk`, in every build. -/
def Made.AcceptedBy (P : Spec.Prims) (e : Made ps) (pk : PublicKey ps.params) : Prop :=
  ∀ b : Build, match e.ph with
    | none => pk.verify (crypto P) e.msg e.sig e.ctx = (pure true : Exec b Bool)
    | some ph => pk.hash_verify (crypto P) e.msg e.sig e.ctx ph = (pure true : Exec b Bool)

/-- What holds in every world. -/
structure World.Good (P : Spec.Prims) (w : World ps) : Prop where
  privs : ∀ sk ∈ w.privs, Consistent P ps sk
  pairs : ∀ pr ∈ w.pairs, Consistent P ps pr.2 ∧ pr.2.get_public_key = pr.1
  made : ∀ e ∈ w.made, ∃ sk, w.privs[e.signer]? = some sk ∧ e.AcceptedBy P sk.get_public_key

theorem World.Good.add {w : World ps} (h : w.Good P) {sk : PrivateKey ps.params}
    (hs : Consistent P ps sk) : (w.add sk).Good P where
  privs := by
    intro k hk
    rw [World.add, List.mem_append, List.mem_singleton] at hk
    rcases hk with hk | rfl
    · exact h.privs k hk
    · exact hs
  pairs := h.pairs
  made := by
    intro e he
    obtain ⟨k, h1, h2⟩ := h.made e he
    exact ⟨k, by rw [World.add, List.getElem?_append_left (List.getElem?_eq_some_iff.mp h1).1, h1], h2⟩

theorem World.Good.addPair {w : World ps} (h : w.Good P) {pk : PublicKey ps.params}
    {sk : PrivateKey ps.params} (hs : Consistent P ps sk) (hp : sk.get_public_key = pk) :
    ({ w.add sk with pairs := w.pairs ++ [(pk, sk)] } : World ps).Good P where
  privs := (h.add hs).privs
  pairs := by
    intro k hk
    rw [List.mem_append, List.mem_singleton] at hk
    rcases hk with hk | rfl
    · exact h.pairs k hk
    · exact ⟨hs, hp⟩
  made := (h.add hs).made

theorem World.Good.addMade {w : World ps} (h : w.Good P) {e : Made ps}
    (he : ∃ sk, w.privs[e.signer]? = some sk ∧ e.AcceptedBy P sk.get_public_key) :
    ({ w with made := w.made ++ [e] } : World ps).Good P where
  privs := h.privs
  pairs := h.pairs
  made := by
    intro k hk
    rw [List.mem_append, List.mem_singleton] at hk
    rcases hk with hk | rfl
    · exact h.made k hk
    · exact he

theorem step_good {b : Build} {rng : Rng (Exec b) σ} {s s' : σ} {w w' : World ps} (h : w.Good P)
    (op : Op ps) (hs : step P rng s w op = pure (s', w')) :
    w'.Good P ∧ w.privs <+: w'.privs ∧ w.pairs <+: w'.pairs ∧ w.made <+: w'.made := by
  have hsame : ∀ {s1 : σ}, (pure (s1, w) : Exec b _) = pure (s', w') →
      w'.Good P ∧ w.privs <+: w'.privs ∧ w.pairs <+: w'.pairs ∧ w.made <+: w'.made := by
    intro s1 h1
    have := Exec.pure_inj h1
    rw [Prod.mk.injEq] at this
    rw [← this.2]
    exact ⟨h, List.prefix_rfl, List.prefix_rfl, List.prefix_rfl⟩
  have hadd : ∀ {s1 : σ} {sk}, Consistent P ps sk → (pure (s1, w.add sk) : Exec b _) = pure (s', w') →
      w'.Good P ∧ w.privs <+: w'.privs ∧ w.pairs <+: w'.pairs ∧ w.made <+: w'.made := by
    intro s1 sk hc h1
    have := Exec.pure_inj h1
    rw [Prod.mk.injEq] at this
    rw [← this.2]
    exact ⟨h.add hc, List.prefix_append _ _, List.prefix_rfl, List.prefix_rfl⟩
  cases op with
  | keygen =>
    obtain ⟨⟨s1, r⟩, h1, h2⟩ := Exec.bind_eq_pure hs
    cases r with
    | error e => exact hsame h2
    | ok kp =>
      have := Exec.pure_inj h2
      rw [Prod.mk.injEq] at this
      rw [← this.2]
      have hc := (Generated.rng rng s s1 h1).consistent
      exact ⟨h.addPair hc.1 hc.2, List.prefix_append _ _, List.prefix_append _ _, List.prefix_rfl⟩
  | keygenSeeds x y z =>
    obtain ⟨kp, h1, h2⟩ := Exec.bind_eq_pure hs
    have := Exec.pure_inj h2
    rw [Prod.mk.injEq] at this
    rw [← this.2]
    have hc := (Generated.seeds x y z h1).consistent
    exact ⟨h.addPair hc.1 hc.2, List.prefix_append _ _, List.prefix_append _ _, List.prefix_rfl⟩
  | decode v =>
    obtain ⟨r, h1, h2⟩ := Exec.bind_eq_pure hs
    cases r with
    | error e => exact hsame h2
    | ok sk => exact hadd (try_from_bytes_ok h1).1 h2
  | reencode i =>
    simp only [step] at hs
    cases hi : w.privs[i]? with
    | none => rw [hi] at hs; exact hsame hs
    | some sk =>
      rw [hi] at hs
      obtain ⟨v, _, h0⟩ := Exec.bind_eq_pure hs
      obtain ⟨r, h1, h2⟩ := Exec.bind_eq_pure h0
      cases r with
      | error e => exact hsame h2
      | ok sk => exact hadd (try_from_bytes_ok h1).1 h2
  | clone i =>
    simp only [step] at hs
    cases hi : w.privs[i]? with
    | none => rw [hi] at hs; exact hsame hs
    | some sk =>
      rw [hi] at hs
      exact hadd (h.privs sk (List.mem_of_getElem? hi)) hs
  | sign i msg ctx hedged =>
    simp only [step] at hs
    cases hi : w.privs[i]? with
    | none => rw [hi] at hs; exact hsame hs
    | some sk =>
      rw [hi] at hs
      obtain ⟨⟨s1, r⟩, h1, h2⟩ := Exec.bind_eq_pure hs
      cases r with
      | error e => exact hsame h2
      | ok sig =>
        have := Exec.pure_inj h2
        rw [Prod.mk.injEq] at this
        rw [← this.2]
        have hc := (h.privs sk (List.mem_of_getElem? hi)).signsFor
        exact ⟨h.addMade ⟨sk, hi, fun b' => (hc b b' σ rng s s1 msg ctx hedged sig).1 h1⟩,
          List.prefix_rfl, List.prefix_rfl, List.prefix_append _ _⟩
  | hashSign i msg ctx ph hedged =>
    simp only [step] at hs
    cases hi : w.privs[i]? with
    | none => rw [hi] at hs; exact hsame hs
    | some sk =>
      rw [hi] at hs
      obtain ⟨⟨s1, r⟩, h1, h2⟩ := Exec.bind_eq_pure hs
      cases r with
      | error e => exact hsame h2
      | ok sig =>
        have := Exec.pure_inj h2
        rw [Prod.mk.injEq] at this
        rw [← this.2]
        have hc := (h.privs sk (List.mem_of_getElem? hi)).signsFor
        exact ⟨h.addMade ⟨sk, hi, fun b' => (hc b b' σ rng s s1 msg ctx hedged sig).2 ph h1⟩,
          List.prefix_rfl, List.prefix_rfl, List.prefix_append _ _⟩

theorem history_good {b : Build} {rng : Rng (Exec b) σ} (ops : List (Op ps)) {s s' : σ}
    {w w' : World ps} (h : w.Good P) (hs : history P rng s w ops = pure (s', w')) :
    w'.Good P ∧ w.privs <+: w'.privs ∧ w.pairs <+: w'.pairs ∧ w.made <+: w'.made := by
  induction ops generalizing s w with
  | nil =>
    have := Exec.pure_inj hs
    rw [Prod.mk.injEq] at this
    rw [← this.2]
    exact ⟨h, List.prefix_rfl, List.prefix_rfl, List.prefix_rfl⟩
  | cons op ops ih =>
    obtain ⟨⟨s1, w1⟩, h1, h2⟩ := Exec.bind_eq_pure hs
    obtain ⟨g1, p1, q1, r1⟩ := step_good h op h1
    obtain ⟨g2, p2, q2, r2⟩ := ih g1 h2
    exact ⟨g2, p1.trans p2, q1.trans q2, r1.trans r2⟩

/-- **C32** After any history, starting from nothing, every private key in circulation signs verifiably
for the public key it reports, every pair key generation returned belongs together, and every signature
ever made is (still) accepted by the public key of the key that made it. -/
theorem C32_histories {b : Build} {rng : Rng (Exec b) σ} {ops : List (Op ps)} {s s' : σ} {w : World ps}
    (hs : history P rng s ⟨[], [], []⟩ ops = pure (s', w)) :
    (∀ sk ∈ w.privs, SignsFor P sk sk.get_public_key) ∧
    (∀ pr ∈ w.pairs, pr.2.get_public_key = pr.1 ∧ SignsFor P pr.2 pr.1) ∧
    (∀ e ∈ w.made, ∃ sk, w.privs[e.signer]? = some sk ∧ e.AcceptedBy P sk.get_public_key) := by
  have h0 : (⟨[], [], []⟩ : World ps).Good P := ⟨by simp, by simp, by simp⟩
  obtain ⟨g, _⟩ := history_good ops h0 hs
  refine ⟨fun sk h => (g.privs sk h).signsFor, fun pr h => ?_, g.made⟩
  obtain ⟨h1, h2⟩ := g.pairs pr h
  exact ⟨h2, h2 ▸ h1.signsFor⟩

/-- **C32** No call changes or removes a key, a pair or a signature made earlier. -/
theorem C32_keys_never_change {b : Build} {rng : Rng (Exec b) σ} {ops ops' : List (Op ps)}
    {s s1 s2 : σ} {w1 w2 : World ps} (h1 : history P rng s ⟨[], [], []⟩ ops = pure (s1, w1))
    (h2 : history P rng s1 w1 ops' = pure (s2, w2)) :
    w1.privs <+: w2.privs ∧ w1.pairs <+: w2.pairs ∧ w1.made <+: w2.made := by
  have h0 : (⟨[], [], []⟩ : World ps).Good P := ⟨by simp, by simp, by simp⟩
  exact (history_good ops' (history_good ops h0 h1).1 h2).2

/-- A history in which a pair is generated, and the key is cloned and signs. -/
example (ps : ParamSet) : ∃ s' w, history demoPrims (demoRng.lift : Rng (Exec demoBuild) Nat) 0
    (⟨[], [], []⟩ : World ps) [.keygen, .clone 0, .sign 1 [104, 105] [9] true] = pure (s', w) ∧
      w.privs.length = 2 ∧ w.made.length = 1 := by
  obtain ⟨s', sig, h⟩ := demo_sign ps demoBuild true
  refine ⟨s', ⟨[(demoKeys ps).2, (demoKeys ps).2], [demoKeys ps], [⟨1, [104, 105], [9], none, sig⟩]⟩, ?_,
    rfl, rfl⟩
  simp only [history, step, demo_keygen, pure_bind, World.add, List.nil_append,
    List.getElem?_cons_zero, List.cons_append, List.getElem?_cons_succ, h]

/-- **C32** A history never panics when the RNG does not and seeds have the right length. -/
theorem C32_no_panic (b : Build) (rng : PureRng σ) (ops : List (Op ps))
    (hops : ∀ op ∈ ops, ∀ n (x y z : Vector UInt8 n), op = .keygenSeeds x y z → n = ps.params.N)
    (s : σ) (w : World ps) :
    ∃ r, history P (rng.lift : Rng (Exec b) σ) s w ops = pure r := by
  induction ops generalizing s w with
  | nil => exact ⟨_, rfl⟩
  | cons op ops ih =>
    have ih := ih (fun o ho => hops o (List.mem_cons_of_mem _ ho))
    have hstep : ∃ r, step P (rng.lift : Rng (Exec b) σ) s w op = pure r := by
      cases op with
      | keygen =>
        simp only [step, exec_try_keygen_with_rng, PureRng.lift, pure_bind]
        repeat' first | exact ⟨_, rfl⟩ | split
      | @keygenSeeds n x y z =>
        have hn := hops _ (List.mem_cons_self) n x y z rfl
        subst hn
        simp only [step, exec_keygen_with_seeds, pure_bind]
        exact ⟨_, rfl⟩
      | decode v =>
        obtain ⟨sk, _, h⟩ := exec_sk_try_from_bytes (b := b) (P := P) v
        simp only [step, h, pure_bind]
        split <;> exact ⟨_, rfl⟩
      | reencode i =>
        simp only [step]
        split
        · exact ⟨_, rfl⟩
        · rename_i sk _
          obtain ⟨v, hv, _⟩ := exec_sk_into_bytes (b := b) sk
          obtain ⟨sk, _, h⟩ := exec_sk_try_from_bytes (b := b) (P := P) v
          simp only [hv, h, pure_bind]
          split <;> exact ⟨_, rfl⟩
      | clone i =>
        simp only [step]
        split <;> exact ⟨_, rfl⟩
      | sign i msg ctx hedged =>
        simp only [step, exec_try_sign_with_rng, PureRng.lift, pure_bind]
        repeat' first | exact ⟨_, rfl⟩ | split | (simp only [pure_bind])
      | hashSign i msg ctx ph hedged =>
        simp only [step, exec_try_hash_sign_with_rng, PureRng.lift, pure_bind]
        repeat' first | exact ⟨_, rfl⟩ | split | (simp only [pure_bind])
    obtain ⟨⟨s1, w1⟩, h1⟩ := hstep
    obtain ⟨r, h2⟩ := ih s1 w1
    exact ⟨r, by rw [history, h1, pure_bind]; exact h2⟩

/-! ## Statelessness -/

/-- A signing request; `ph = none` for the pure interface. -/
structure Request where
  msg : List UInt8
  ctx : List UInt8
  ph : Option Ph
  hedged : Bool

/-- Serve one request. -/
def serve {m : Type → Type} [Rust m] (P : Spec.Prims) (sk : PrivateKey ps.params) (rng : Rng m σ) (s : σ)
    (q : Request) : m (σ × Except String (Vector UInt8 ps.params.SIG_LEN)) :=
  match q.ph with
  | none => sk.try_sign_with_rng (crypto P) rng s q.msg q.ctx q.hedged
  | some ph => sk.try_hash_sign_with_rng (crypto P) rng s q.msg q.ctx ph q.hedged

/-- Serve requests in order; before each one the rest of the program may do anything to the RNG. -/
def serveAll {m : Type → Type} [Rust m] (P : Spec.Prims) (sk : PrivateKey ps.params) (rng : Rng m σ) :
    σ → List ((σ → σ) × Request) → m (σ × List (Except String (Vector UInt8 ps.params.SIG_LEN)))
  | s, [] => pure (s, [])
  | s, (other, q) :: qs => do
    let (s, r) ← serve P sk rng (other s) q
    let (s, rs) ← serveAll P sk rng s qs
    pure (s, r :: rs)

/-- `r` is the result of serving `q` alone, in any build, with any RNG that draws what `rng` draws in
state `s` (for a request that draws nothing: with any RNG whatsoever). -/
def Alone {b : Build} (P : Spec.Prims) (sk : PrivateKey ps.params) (rng : Rng (Exec b) σ) (s : σ)
    (q : Request) (r : Except String (Vector UInt8 ps.params.SIG_LEN)) : Prop :=
  ∀ (b' : Build) (τ : Type) (rng' : Rng (Exec b') τ) (t t' : τ) (s' : σ) (d : Except Unit _),
    (q.hedged = true → rng.tryFill s sk.key.pk_seed = pure (s', d) ∧
      rng'.tryFill t sk.key.pk_seed = pure (t', d)) →
    ∃ t'', serve P sk rng' t q = pure (t'', r)

theorem serve_alone {b : Build} {sk : PrivateKey ps.params} {rng : Rng (Exec b) σ} {s s' : σ}
    {q : Request} {r : Except String (Vector UInt8 ps.params.SIG_LEN)}
    (h : serve P sk rng s q = pure (s', r)) : Alone P sk rng s q r := by
  intro b' τ rng' t t' s1 d hd
  obtain ⟨msg, ctx, ph, hedged⟩ := q
  have key : ∀ M, (if 255 < ctx.length then pure (s, .error "ctx must be less than 256 bytes")
      else if hedged then do
        let d ← rng.tryFill s sk.key.pk_seed
        pure (d.1, signOutcome ps P M sk.key d.2)
      else pure (s, .ok (sigVec ps P M sk.key sk.key.pk_seed)) : Exec b _) = pure (s', r) →
      ∃ t'', (if 255 < ctx.length then pure (t, .error "ctx must be less than 256 bytes")
      else if hedged then do
        let d ← rng'.tryFill t sk.key.pk_seed
        pure (d.1, signOutcome ps P M sk.key d.2)
      else pure (t, .ok (sigVec ps P M sk.key sk.key.pk_seed)) : Exec b' _) = pure (t'', r) := by
    intro M h
    by_cases hc : 255 < ctx.length
    · rw [if_pos hc] at h ⊢
      have := Exec.pure_inj h
      rw [Prod.mk.injEq] at this
      exact ⟨t, by rw [this.2]⟩
    · rw [if_neg hc] at h ⊢
      cases hedged
      · have := Exec.pure_inj h
        rw [Prod.mk.injEq] at this
        exact ⟨t, by rw [← this.2]; rfl⟩
      · obtain ⟨h1, h2⟩ := hd rfl
        rw [if_pos rfl, h1, pure_bind] at h
        rw [if_pos rfl, h2, pure_bind]
        have := Exec.pure_inj h
        rw [Prod.mk.injEq] at this
        exact ⟨t', by rw [← this.2]⟩
  cases ph with
  | none =>
    simp only [serve, exec_try_sign_with_rng] at h ⊢
    exact key _ h
  | some ph =>
    simp only [serve, exec_try_hash_sign_with_rng] at h ⊢
    exact key _ h

/-- **C40** Every request of a sequence gets the result it would get alone with the same randomness. -/
theorem C40_stateless {b : Build} (sk : PrivateKey ps.params) (rng : Rng (Exec b) σ)
    (qs : List ((σ → σ) × Request)) {s s' : σ}
    {rs : List (Except String (Vector UInt8 ps.params.SIG_LEN))}
    (h : serveAll P sk rng s qs = pure (s', rs)) :
    List.Forall₂ (fun q r => ∃ s0 s1, serve P sk rng s0 q.2 = pure (s1, r) ∧ Alone P sk rng s0 q.2 r)
      qs rs := by
  induction qs generalizing s s' rs with
  | nil =>
    have := Exec.pure_inj h
    rw [Prod.mk.injEq] at this
    rw [← this.2]
    exact .nil
  | cons q qs ih =>
    obtain ⟨⟨s1, r⟩, h1, h2⟩ := Exec.bind_eq_pure h
    obtain ⟨⟨s2, rs'⟩, h3, h4⟩ := Exec.bind_eq_pure h2
    have := Exec.pure_inj h4
    rw [Prod.mk.injEq] at this
    rw [← this.2]
    exact .cons ⟨_, _, h1, serve_alone h1⟩ (ih (s' := s2) h3)

/-- **C40** In particular the results of deterministic requests do not depend on their order, on each
other, or on what happens in between: they are a function of key and request. -/
theorem C40_deterministic (sk : PrivateKey ps.params) : ∃ f : Request → Except String _,
    ∀ (b : Build) (σ : Type) (rng : Rng (Exec b) σ) (qs : List ((σ → σ) × Request)) (s : σ),
      (∀ q ∈ qs, q.2.hedged = false) →
      ∃ s', serveAll P sk rng s qs = pure (s', qs.map fun q => f q.2) := by
  refine ⟨fun q => if 255 < q.ctx.length then .error "ctx must be less than 256 bytes" else
    match q.ph with
    | none => .ok (sigVec ps P (Spec.pureMsg q.ctx q.msg) sk.key sk.key.pk_seed)
    | some ph => .ok (sigVec ps P (phMsg P q.ctx q.msg ph) sk.key sk.key.pk_seed), ?_⟩
  intro b σ rng qs
  induction qs with
  | nil => intro s _; exact ⟨s, rfl⟩
  | cons q qs ih =>
    intro s hq
    obtain ⟨other, ⟨msg, ctx, ph, hedged⟩⟩ := q
    have h1 : hedged = false := hq _ List.mem_cons_self
    subst h1
    obtain ⟨s', h2⟩ := ih (other s) (fun q h => hq q (List.mem_cons_of_mem _ h))
    refine ⟨s', ?_⟩
    cases ph <;> by_cases hc : 255 < ctx.length <;>
      simp [serveAll, serve, exec_try_sign_with_rng, exec_try_hash_sign_with_rng, hc, h2]

/-- Three requests served with a working RNG. -/
example (ps : ParamSet) (b : Build) : ∃ r, serveAll demoPrims (demoKeys ps).2
    (demoRng.lift : Rng (Exec b) Nat) 0
    [(id, ⟨[1], [], none, true⟩), ((· + 5), ⟨[2], [3], some .SHA256, true⟩), (id, ⟨[1], [], none, false⟩)] =
      pure r := by
  simp only [serveAll, serve, exec_try_sign_with_rng, exec_try_hash_sign_with_rng]
  exact ⟨_, rfl⟩

end Fips205.Props
