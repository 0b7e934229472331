import Verif.Props.Traces
import Verif.Proofs.VisitApi

/-!
# Which hashes are computed (C47)

`Model.LogExec` runs the code with every call of SHA-256, SHA-512 and SHAKE recorded, with its input.  The
calls made by the three operations of a key are those of `PRF_msg` and `H_msg`, and one call at each of the
places of `Spec.Work`.
-/

namespace Fips205.Props
open Fips205 Fips205.Model

variable {ps : ParamSet} {P : Spec.Prims} {b : Build} {σ : Type}

/-! ## Recording does not change the run -/

/-- The RNG without what it logs. -/
abbrev plainRng (rng : Rng (LogExec b) σ) : Rng (Exec b) σ := LogExec.erase.rng rng

/-- **C47** Runs with recording end like runs without. -/
theorem C47_same_results (rng : Rng (LogExec b) σ) (s : σ) (sk : PrivateKey ps.params)
    (pk : PublicKey ps.params) (msg ctx : List UInt8) (ph : Ph) (hedged : Bool)
    (sig : Vector UInt8 ps.params.SIG_LEN) (v : Vector UInt8 ps.params.SK_LEN) :
    (try_keygen_with_rng ps.params (recording P) rng s).result =
      try_keygen_with_rng ps.params (crypto P) (plainRng rng) s ∧
    (sk.try_sign_with_rng (recording P) rng s msg ctx hedged).result =
      sk.try_sign_with_rng (crypto P) (plainRng rng) s msg ctx hedged ∧
    (sk.try_hash_sign_with_rng (recording P) rng s msg ctx ph hedged).result =
      sk.try_hash_sign_with_rng (crypto P) (plainRng rng) s msg ctx ph hedged ∧
    (sk._test_only_raw_sign (recording P) rng s msg hedged).result =
      sk._test_only_raw_sign (crypto P) (plainRng rng) s msg hedged ∧
    (pk.verify (recording P) msg sig ctx : LogExec b _).result =
      (pk.verify (crypto P) msg sig ctx : Exec b _) ∧
    (pk.hash_verify (recording P) msg sig ctx ph : LogExec b _).result =
      (pk.hash_verify (crypto P) msg sig ctx ph : Exec b _) ∧
    (pk._test_only_raw_verify (recording P) msg sig : LogExec b _).result =
      (pk._test_only_raw_verify (crypto P) msg sig : Exec b _) ∧
    (PrivateKey.try_from_bytes (recording P) v : LogExec b (Except String (PrivateKey ps.params))).result =
      (PrivateKey.try_from_bytes (crypto P) v : Exec b _) :=
  ⟨LogExec.erase.map_try_keygen_with_rng .., LogExec.erase.map_try_sign_with_rng ..,
    LogExec.erase.map_try_hash_sign_with_rng .., LogExec.erase.map_raw_sign ..,
    LogExec.erase.map_verify .., LogExec.erase.map_hash_verify .., LogExec.erase.map_raw_verify ..,
    LogExec.erase.map_sk_try_from_bytes ..⟩

/-- **C47** The same for seeded key generation. -/
theorem C47_same_seeded {n : Nat} (x y z : Vector UInt8 n) :
    (keygen_with_seeds ps.params (recording P) x y z : LogExec b _).result =
      (keygen_with_seeds ps.params (crypto P) x y z : Exec b _) :=
  LogExec.erase.map_keygen_with_seeds ..

/-! ## Key generation and private keys from bytes -/

/-- **C47** Key generation hashes once at every place of the tree at the top, and nowhere else; a run that
fails hashes nothing. -/
theorem C47_try_keygen_with_rng {rng : Rng (LogExec b) σ} (hq : UnloggedRng rng) (s : σ) :
    let x := try_keygen_with_rng ps.params (recording P) rng s
    (∀ s' pk sk, x.result = .ok (s', .ok (pk, sk)) →
      EachOnce (CallAt ps.family ps.row pk.key.pk_seed.toList) (keygenPlaces ps.sp) x.log) ∧
    ((∀ s' kp, x.result ≠ .ok (s', .ok kp)) → x.log = []) :=
  try_keygen_run hq s

theorem C47_keygen_with_seeds {n : Nat} (sk_seed sk_prf pk_seed : Vector UInt8 n) :
    let x : LogExec b _ := keygen_with_seeds ps.params (recording P) sk_seed sk_prf pk_seed
    (∀ pk sk, x.result = .ok (pk, sk) →
      EachOnce (CallAt ps.family ps.row pk.key.pk_seed.toList) (keygenPlaces ps.sp) x.log) ∧
    ((∀ kp, x.result ≠ .ok kp) → x.log = []) :=
  keygen_with_seeds_run sk_seed sk_prf pk_seed

/-- **C47** Decoding a private key does the same with the seeds it finds, whether or not it accepts. -/
theorem C47_sk_try_from_bytes (v : Vector UInt8 ps.params.SK_LEN) :
    EachOnce (CallAt ps.family ps.row (Spec.slice v.toList (2 * ps.sp.n) (3 * ps.sp.n))) (keygenPlaces ps.sp)
      (PrivateKey.try_from_bytes (recording P) v : LogExec b (Except String (PrivateKey ps.params))).log :=
  sk_try_from_bytes_run v

/-- `demoRng` calls no hash function, and key generation with it returns. -/
example (ps : ParamSet) : UnloggedRng (demoRng.lift : Rng (LogExec demoBuild) Nat) ∧
    ∃ s' pk sk, (try_keygen_with_rng ps.params (recording demoPrims)
      (demoRng.lift : Rng (LogExec demoBuild) Nat) 0).result = .ok (s', .ok (pk, sk)) := by
  refine ⟨fun _ _ _ => rfl, 3, (demoKeys ps).1, (demoKeys ps).2, ?_⟩
  have h := LogExec.erase.map_try_keygen_with_rng (p := ps.params) (recording demoPrims)
    (demoRng.lift : Rng (LogExec demoBuild) Nat) 0
  exact h.trans (demo_keygen ps demoBuild)

/-! ## Signing -/

/-- The calls of a run that signs the representative `M` with additional randomness `opt`, giving the
signature `sig`. -/
def SignCalls (P : Spec.Prims) (sk : PrivateKey ps.params) (M opt : List UInt8)
    (sig : Vector UInt8 ps.params.SIG_LEN) (L : List Call) : Prop :=
  ∃ L', EachOnce (CallAt ps.family ps.row sk.key.pk_seed.toList)
      (signPlaces (Spec.attempt ps.sp (ps.hf P) M sig.toList sk.key.sk_seed.toList sk.key.pk_seed.toList
        sk.key.pk_root.toList)) L' ∧
    L = prfMsgLog P ps.family ps.row sk.key.sk_prf.toList opt M ++
      (hMsgLog P ps.family ps.row (Spec.slice sig.toList 0 ps.sp.n) sk.key.pk_seed.toList
        sk.key.pk_root.toList M ++ L')

/-- `opt` is the additional randomness of a run from state `s` to state `s'` of the RNG. -/
def Drawn (sk : PrivateKey ps.params) (rng : Rng (LogExec b) σ) (s s' : σ) (hedged : Bool)
    (opt : Vector UInt8 ps.params.N) : Prop :=
  if hedged then (rng.tryFill s sk.key.pk_seed).result = .ok (s', .ok opt)
  else opt = sk.key.pk_seed ∧ s' = s

/-- **C47** A run that signs makes the calls of `PRF_msg` and `H_msg`, then one call at each place of the
FORS key and of the trees on its path, except those the verifier visits in the tree at the top.  A run that
fails makes none. -/
theorem C47_try_sign_with_rng {rng : Rng (LogExec b) σ} (hq : UnloggedRng rng) (s : σ)
    (sk : PrivateKey ps.params) (msg ctx : List UInt8) (hedged : Bool) :
    let x := sk.try_sign_with_rng (recording P) rng s msg ctx hedged
    (∀ s' sig, x.result = .ok (s', .ok sig) → ∃ opt, Drawn sk rng s s' hedged opt ∧
      SignCalls P sk (Spec.pureMsg ctx msg) opt.toList sig x.log) ∧
    ((∀ s' sig, x.result ≠ .ok (s', .ok sig)) → x.log = []) := by
  by_cases hc : ctx.length ≤ 255
  · exact try_sign_run sk hq s msg ctx hc hedged
  · unfold PrivateKey.try_sign_with_rng
    rw [if_pos (by omega)]
    exact ⟨fun s' sig h => (nomatch h), fun _ => rfl⟩

theorem C47_raw_sign {rng : Rng (LogExec b) σ} (hq : UnloggedRng rng) (s : σ) (sk : PrivateKey ps.params)
    (msg : List UInt8) (hedged : Bool) :
    let x := sk._test_only_raw_sign (recording P) rng s msg hedged
    (∀ s' sig, x.result = .ok (s', .ok sig) → ∃ opt, Drawn sk rng s s' hedged opt ∧
      SignCalls P sk msg opt.toList sig x.log) ∧
    ((∀ s' sig, x.result ≠ .ok (s', .ok sig)) → x.log = []) :=
  raw_sign_run sk hq s msg hedged

/-- **C47** Pre-hash signing hashes the message first; with a context that is too long not even that. -/
theorem C47_try_hash_sign_with_rng {rng : Rng (LogExec b) σ} (hq : UnloggedRng rng) (s : σ)
    (sk : PrivateKey ps.params) (msg ctx : List UInt8) (ph : Ph) (hedged : Bool) :
    let x := sk.try_hash_sign_with_rng (recording P) rng s msg ctx ph hedged
    (∀ s' sig, x.result = .ok (s', .ok sig) → ∃ opt L, Drawn sk rng s s' hedged opt ∧
      SignCalls P sk (phMsg P ctx msg ph) opt.toList sig L ∧ x.log = ⟨ph.spec, msg⟩ :: L) ∧
    ((∀ s' sig, x.result ≠ .ok (s', .ok sig)) →
      x.log = if ctx.length ≤ 255 then [⟨ph.spec, msg⟩] else []) := by
  by_cases hc : ctx.length ≤ 255
  · obtain ⟨L, h1, h2, h3⟩ := try_hash_sign_run (P := P) sk hq s msg ctx hc ph hedged
    refine ⟨fun s' sig h => ?_, fun h => ?_⟩
    · obtain ⟨opt, h4, h5⟩ := h2 s' sig h
      exact ⟨opt, L, h4, h5, h1⟩
    · rw [if_pos hc, h1, h3 h]
  · unfold PrivateKey.try_hash_sign_with_rng
    rw [if_pos (by omega), if_neg hc]
    exact ⟨fun s' sig h => (nomatch h), fun _ => rfl⟩

/-- The hypotheses of the three theorems are met. -/
example (ps : ParamSet) (ph : Ph) (hedged : Bool) :
    (∃ s' sig, ((demoKeys ps).2.try_sign_with_rng (recording demoPrims)
      (demoRng.lift : Rng (LogExec demoBuild) Nat) 3 [104, 105] [9] hedged).result = .ok (s', .ok sig)) ∧
    (∃ s' sig, ((demoKeys ps).2.try_hash_sign_with_rng (recording demoPrims)
      (demoRng.lift : Rng (LogExec demoBuild) Nat) 3 [104, 105] [9] ph hedged).result =
        .ok (s', .ok sig)) := by
  obtain ⟨s1, sig1, h1⟩ := demo_sign ps demoBuild hedged
  obtain ⟨s2, sig2, h2⟩ := demo_hash_sign ps demoBuild ph hedged
  exact ⟨⟨s1, sig1, (LogExec.erase.map_try_sign_with_rng (recording demoPrims) (demoKeys ps).2
    (demoRng.lift : Rng (LogExec demoBuild) Nat) 3 [104, 105] [9] hedged).trans h1⟩,
    ⟨s2, sig2, (LogExec.erase.map_try_hash_sign_with_rng (recording demoPrims) (demoKeys ps).2
    (demoRng.lift : Rng (LogExec demoBuild) Nat) 3 [104, 105] [9] ph hedged).trans h2⟩⟩

/-! ## Verification -/

/-- The calls of a run that verifies a signature of the representative `M`. -/
def VerifyCalls (P : Spec.Prims) (pk : PublicKey ps.params) (M : List UInt8)
    (sig : Vector UInt8 ps.params.SIG_LEN) (L : List Call) : Prop :=
  ∃ L', EachOnce (CallAt ps.family ps.row pk.key.pk_seed.toList)
      (verifyPlaces (Spec.attempt ps.sp (ps.hf P) M sig.toList [] pk.key.pk_seed.toList
        pk.key.pk_root.toList)) L' ∧
    L = hMsgLog P ps.family ps.row (Spec.slice sig.toList 0 ps.sp.n) pk.key.pk_seed.toList
      pk.key.pk_root.toList M ++ L'

/-- **C47** Verification, of whatever bytes, makes the calls of `H_msg`, then one call at each place between
the signature and the public key. -/
theorem C47_verify (pk : PublicKey ps.params) (msg ctx : List UInt8)
    (sig : Vector UInt8 ps.params.SIG_LEN) :
    let x : LogExec b Bool := pk.verify (recording P) msg sig ctx
    if ctx.length ≤ 255 then VerifyCalls P pk (Spec.pureMsg ctx msg) sig x.log else x.log = [] := by
  by_cases hc : ctx.length ≤ 255
  · rw [if_pos hc]
    exact verify_run pk msg ctx hc sig
  · rw [if_neg hc]
    unfold PublicKey.verify
    rw [if_pos (by omega)]
    rfl

theorem C47_raw_verify (pk : PublicKey ps.params) (msg : List UInt8)
    (sig : Vector UInt8 ps.params.SIG_LEN) :
    VerifyCalls P pk msg sig (pk._test_only_raw_verify (recording P) msg sig : LogExec b _).log :=
  raw_verify_run pk msg sig

theorem C47_hash_verify (pk : PublicKey ps.params) (msg ctx : List UInt8) (ph : Ph)
    (sig : Vector UInt8 ps.params.SIG_LEN) :
    let x : LogExec b Bool := pk.hash_verify (recording P) msg sig ctx ph
    if ctx.length ≤ 255 then ∃ L, VerifyCalls P pk (phMsg P ctx msg ph) sig L ∧
      x.log = ⟨ph.spec, msg⟩ :: L
    else x.log = [] := by
  by_cases hc : ctx.length ≤ 255
  · rw [if_pos hc]
    obtain ⟨L, h1, h2⟩ := hash_verify_run (b := b) (P := P) pk msg ctx hc ph sig
    exact ⟨L, h2, h1⟩
  · rw [if_neg hc]
    unfold PublicKey.hash_verify
    rw [if_pos (by omega)]
    rfl

/-! ## No work is done twice -/

theorem callAt_inj {pk_seed : List UInt8} {x y : Place} (hx : x.Exists ps.sp) (hy : y.Exists ps.sp)
    {c : Call} (h1 : CallAt ps.family ps.row pk_seed x c) (h2 : CallAt ps.family ps.row pk_seed y c) :
    x = y := by
  by_contra hne
  obtain ⟨ha, hc⟩ := C43_addresses_distinct hx hy hne
  have l32 : ∀ z : Place, z.adrs.length = 32 := fun z => by rw [Place.adrs_eq]; rfl
  have l22 : ∀ z : Place, (Spec.compress z.adrs).length = 22 := fun z => by rw [Place.adrs_eq]; rfl
  obtain ⟨d1, h1⟩ := h1
  obtain ⟨d2, h2⟩ := h2
  cases hf : ps.family with
  | shake =>
    simp only [hf] at h1 h2
    rw [h1, Call.mk.injEq, List.append_assoc, List.append_assoc, List.append_cancel_left_eq] at h2
    exact ha (List.append_inj_left h2.2 (by rw [l32, l32]))
  | sha2 =>
    simp only [hf] at h1 h2
    have key : ∀ {k : Nat}, pk_seed ++ Spec.toByte 0 k ++ Spec.compress x.adrs ++ d1 =
        pk_seed ++ Spec.toByte 0 k ++ Spec.compress y.adrs ++ d2 → False := by
      intro k h
      rw [List.append_assoc, List.append_assoc _ (Spec.compress y.adrs), List.append_cancel_left_eq] at h
      exact hc (List.append_inj_left h (by rw [l22, l22]))
    split at h1 <;> split at h2 <;> rw [h1, Call.mk.injEq] at h2
    · exact key h2.2
    · cases h2.1
    · cases h2.1
    · exact key h2.2

/-- **C47** Calls at distinct places of a key are distinct: no hash of the key's structure is computed
twice. -/
theorem C47_no_repeats {pk_seed : List UInt8} {S : Place → Prop} {L : List Call}
    (hS : ∀ x, S x → x.Exists ps.sp) (h : EachOnce (CallAt ps.family ps.row pk_seed) S L) : L.Nodup := by
  obtain ⟨xs, h1, h2, h3⟩ := h
  have hex : ∀ x ∈ xs, x.Exists ps.sp := fun x hx => hS x ((h2 x).mp hx)
  clear h2
  induction h3 with
  | nil => exact List.nodup_nil
  | @cons x c xs L hc hr ih =>
    rw [List.nodup_cons] at h1 ⊢
    refine ⟨fun hm => h1.1 ?_, ih h1.2 fun y hy => hex y (List.mem_cons_of_mem _ hy)⟩
    obtain ⟨y, hy, hyc⟩ : ∃ y ∈ xs, CallAt ps.family ps.row pk_seed y c := by
      clear ih h1 hex
      induction hr with
      | nil => cases hm
      | @cons y d xs L hd hr ih =>
        rcases List.mem_cons.mp hm with rfl | hm
        · exact ⟨y, List.mem_cons_self, hd⟩
        · obtain ⟨z, hz, h⟩ := ih hm
          exact ⟨z, List.mem_cons_of_mem _ hz, h⟩
    rw [callAt_inj (hex x List.mem_cons_self) (hex y (List.mem_cons_of_mem _ hy)) hc hyc]
    exact hy

/-- A call at an existing place of the key is at one of the places the run visits. -/
theorem place_of_call {pk_seed : List UInt8} {S : Place → Prop} {L : List Call}
    (hS : ∀ x, S x → x.Exists ps.sp) (h : EachOnce (CallAt ps.family ps.row pk_seed) S L) {c : Call}
    (hc : c ∈ L) : ∃ x, S x ∧ ∀ y, y.Exists ps.sp → (CallAt ps.family ps.row pk_seed y c ↔ y = x) := by
  obtain ⟨xs, h1, h2, h3⟩ := h
  obtain ⟨x, hx, hxc⟩ : ∃ x ∈ xs, CallAt ps.family ps.row pk_seed x c := by
    clear h2 h1
    induction h3 with
    | nil => cases hc
    | @cons y d xs L hd hr ih =>
      rcases List.mem_cons.mp hc with rfl | hm
      · exact ⟨y, List.mem_cons_self, hd⟩
      · obtain ⟨z, hz, h⟩ := ih hm
        exact ⟨z, List.mem_cons_of_mem _ hz, h⟩
  have hSx := (h2 x).mp hx
  exact ⟨x, hSx, fun y hy => ⟨fun h => callAt_inj hy (hS x hSx) h hxc, fun h => h ▸ hxc⟩⟩

/-- The FORS key and the leaf on each layer that a place belongs to agree with the choice of the digest. -/
def ChosenBy (P : Spec.Prims) (pk_seed pk_root R M : List UInt8) (ps : ParamSet) (x : Place) : Prop :=
  let digest := (ps.hf P).Hmsg R pk_seed pk_root M
  let t := Spec.digestTree ps.sp digest
  let l := Spec.digestLeaf ps.sp digest
  match x with
  | .forsTree t' l' _ _ | .forsRoots t' l' | .forsPrf t' l' _ => t' = t ∧ l' = l
  | .wotsHash j t' _ _ _ | .wotsPk j t' _ | .tree j t' _ _ | .wotsPrf j t' _ _ =>
    t' = t / 2 ^ (ps.sp.hp * j)

/-- **C43** Every hash computed while signing, apart from those over the message, is the hash of exactly one
place of the key, and that place belongs to the FORS key and to the trees that the digest chooses. -/
theorem C43_sign_calls {rng : Rng (LogExec b) σ} (hq : UnloggedRng rng) (s : σ)
    (sk : PrivateKey ps.params) (msg ctx : List UInt8) (hedged : Bool) {s' : σ}
    {sig : Vector UInt8 ps.params.SIG_LEN}
    (h : (sk.try_sign_with_rng (recording P) rng s msg ctx hedged).result = .ok (s', .ok sig)) :
    ∃ opt L, (sk.try_sign_with_rng (recording P) rng s msg ctx hedged).log =
      prfMsgLog P ps.family ps.row sk.key.sk_prf.toList opt (Spec.pureMsg ctx msg) ++
      (hMsgLog P ps.family ps.row (sig.toList.take ps.sp.n) sk.key.pk_seed.toList
        sk.key.pk_root.toList (Spec.pureMsg ctx msg) ++ L) ∧
      ∀ c ∈ L, ∃ x : Place, x.Exists ps.sp ∧
        ChosenBy P sk.key.pk_seed.toList sk.key.pk_root.toList (sig.toList.take ps.sp.n)
          (Spec.pureMsg ctx msg) ps x ∧
        ∀ y, y.Exists ps.sp → (CallAt ps.family ps.row sk.key.pk_seed.toList y c ↔ y = x) := by
  obtain ⟨opt, _, L, h1, h2⟩ := (C47_try_sign_with_rng hq s sk msg ctx hedged).1 s' sig h
  refine ⟨opt.toList, L, h2, fun c hc => ?_⟩
  obtain ⟨x, hx, hu⟩ := place_of_call (ps := ps) (fun _ h => h.1) h1 hc
  refine ⟨x, hx.1, ?_, hu⟩
  have hp := hx.2.1
  cases x <;> exact hp

/-- **C43** The same for verification. -/
theorem C43_verify_calls (pk : PublicKey ps.params) (msg ctx : List UInt8) (hctx : ctx.length ≤ 255)
    (sig : Vector UInt8 ps.params.SIG_LEN) :
    ∃ L, (pk.verify (recording P) msg sig ctx : LogExec b Bool).log =
      hMsgLog P ps.family ps.row (sig.toList.take ps.sp.n) pk.key.pk_seed.toList
        pk.key.pk_root.toList (Spec.pureMsg ctx msg) ++ L ∧
      ∀ c ∈ L, ∃ x : Place, x.Exists ps.sp ∧
        ChosenBy P pk.key.pk_seed.toList pk.key.pk_root.toList (sig.toList.take ps.sp.n)
          (Spec.pureMsg ctx msg) ps x ∧
        ∀ y, y.Exists ps.sp → (CallAt ps.family ps.row pk.key.pk_seed.toList y c ↔ y = x) := by
  have h := C47_verify (b := b) (P := P) pk msg ctx sig
  rw [if_pos hctx] at h
  obtain ⟨L, h1, h2⟩ := h
  refine ⟨L, h2, fun c hc => ?_⟩
  obtain ⟨x, hx, hu⟩ := place_of_call (ps := ps) (fun _ h => h.1) h1 hc
  refine ⟨x, hx.1, ?_, hu⟩
  have hp := hx.2
  cases x with
  | wotsHash => exact hp.1
  | wotsPk => exact hp.1
  | tree => exact hp.1
  | forsTree => exact ⟨hp.1, hp.2.1⟩
  | forsRoots => exact hp
  | wotsPrf => exact hp.elim
  | forsPrf => exact hp.elim

/-- The hypotheses of the two theorems are met. -/
example (ps : ParamSet) (hedged : Bool) :
    UnloggedRng (demoRng.lift : Rng (LogExec demoBuild) Nat) ∧
    ∃ s' sig, ((demoKeys ps).2.try_sign_with_rng (recording demoPrims)
      (demoRng.lift : Rng (LogExec demoBuild) Nat) 3 [104, 105] [9] hedged).result = .ok (s', .ok sig) := by
  obtain ⟨s1, sig1, h1⟩ := demo_sign ps demoBuild hedged
  exact ⟨fun _ _ _ => rfl, s1, sig1, (LogExec.erase.map_try_sign_with_rng (recording demoPrims)
    (demoKeys ps).2 (demoRng.lift : Rng (LogExec demoBuild) Nat) 3 [104, 105] [9] hedged).trans h1⟩

/-- All three sets of places are covered. -/
example (c : Spec.Attempt) (hc : c.p = ps.sp) (x : Place) :
    (keygenPlaces ps.sp x → x.Exists ps.sp) ∧ (signPlaces c x → x.Exists ps.sp) ∧
    (verifyPlaces c x → x.Exists ps.sp) :=
  ⟨And.left, fun h => hc ▸ h.1, fun h => hc ▸ h.1⟩

/-- The sets are not empty, and not everything: key generation visits the root and all leaves of the tree
at the top, but no other tree; signing and verifying visit the FORS key of the signature. -/
example (c : Spec.Attempt) (hc : c.p = ps.sp) (ht : c.t < 2 ^ (c.p.hp * (c.p.d - 1)))
    (hl : c.l < 2 ^ c.p.hp) :
    keygenPlaces ps.sp (.tree (ps.sp.d - 1) 0 ps.sp.hp 0) ∧ ¬ keygenPlaces ps.sp (.tree 0 0 1 0) ∧
    signPlaces c (.forsRoots c.t c.l) ∧ verifyPlaces c (.forsRoots c.t c.l) ∧
    signPlaces c (.forsPrf c.t c.l 0) ∧ ¬ verifyPlaces c (.forsPrf c.t c.l 0) := by
  subst_vars
  have h1 : 2 ≤ c.p.d ∧ 1 ≤ c.p.hp ∧ 0 < c.p.k * 2 ^ c.p.a := by rw [hc]; cases ps <;> decide
  rw [← hc]
  refine ⟨⟨⟨by omega, Nat.two_pow_pos _, by omega, le_rfl, Nat.two_pow_pos _⟩, rfl⟩, fun h => ?_,
    ⟨⟨ht, hl⟩, ⟨rfl, rfl⟩, fun h => h.1⟩, ⟨⟨ht, hl⟩, rfl, rfl⟩,
    ⟨⟨ht, hl, h1.2.2⟩, ⟨rfl, rfl⟩, fun h => h.1⟩, fun h => h.2⟩
  have : 0 = c.p.d - 1 := h.2
  omega

end Fips205.Props
