import Verif.Props.OwnGame
import Verif.Proofs.OwnKey

/-!
# The game of the claimant as a program that evaluates a random function

Its outcome, and what is hashed: before the random bytes of the signer are used, by the signer, and afterwards.
-/

namespace Fips205.Props
open Fips205 Fips205.Model Fips205.Oracle

variable {ps : ParamSet} {L B w : Nat} {b : Build}

/-! ## The outcome -/

/-- The private key in these bytes. -/
def skOf (v : Vector UInt8 ps.params.SK_LEN) : PrivateKey ps.params :=
  ⟨⟨toVec _ (v.toList.take ps.params.N), toVec _ ((v.toList.drop ps.params.N).take ps.params.N),
    toVec _ (((v.toList.drop ps.params.N).drop ps.params.N).take ps.params.N),
    toVec _ (((v.toList.drop ps.params.N).drop ps.params.N).drop ps.params.N)⟩⟩

/-- What decoding these bytes gives. -/
def decodeOf (P : Spec.Prims) (v : Vector UInt8 ps.params.SK_LEN) : Except String (PrivateKey ps.params) :=
  if (skOf v).key.pk_root = rootVec ps P (skOf v).key.sk_seed (skOf v).key.pk_seed then .ok (skOf v)
  else .error "Corrupted key"

theorem exec_decodeOf (P : Spec.Prims) (v : Vector UInt8 ps.params.SK_LEN) :
    (PrivateKey.try_from_bytes (crypto P) v : Exec b _) = pure (decodeOf P v) := by
  obtain ⟨sk, e, h⟩ := exec_sk_try_from_bytes (b := b) (P := P) v
  have : sk = skOf v := by
    rw [skOf, ← e, Spec.encodeSK, List.append_assoc, List.append_assoc, List.take_left' (Vector.length_toList ..),
      List.drop_left' (Vector.length_toList ..), List.take_left' (Vector.length_toList ..),
      List.drop_left' (Vector.length_toList ..), List.take_left' (Vector.length_toList ..),
      List.drop_left' (Vector.length_toList ..)]
    simp only [toVec_toList_self]
  rw [h, this]
  rfl

/-- The signature that is made, if one is. -/
def ownSigned (P : Spec.Prims) (v : Vector UInt8 ps.params.N) (x : SigRequest L)
    (r : Except String (PrivateKey ps.params)) : Option (PrivateKey ps.params × Vector UInt8 ps.params.SIG_LEN) :=
  match r with
  | .error _ => none
  | .ok sk => match x.answer P sk true (.ok v) with
    | .error _ => none
    | .ok sig => some (sk, sig)

theorem exec_ownSign (P : Spec.Prims) (v : Vector UInt8 ps.params.N) (x : SigRequest L)
    (r : Except String (PrivateKey ps.params)) : (ownSign (crypto P) v x r : Exec b _) = pure (ownSigned P v x r) := by
  cases r with
  | error e => rfl
  | ok sk =>
    rw [ownSign, exec_request_sign, pure_bind, ownSigned]
    dsimp only
    cases x.answer P sk true (.ok v) <;> rfl

/-- The outcome after the signature was made. -/
def Claimant.outcome (P : Spec.Prims) (O : Query B → Fin (256 ^ w)) (pk : PublicKey ps.params) (x : SigRequest L)
    (sig : Vector UInt8 ps.params.SIG_LEN) : {Q : Nat} → Claimant ps L B w Q → OwnOutcome ps L
  | _, .claim v y => { pk, x, pk' := pkOf v, y, accepted := y.check P (pkOf v) sig }
  | _, .call y next => (next (O y)).outcome P O pk x sig

theorem claimant_eq (P : Spec.Prims) (O : Query B → Fin (256 ^ w)) (pk : PublicKey ps.params) (x : SigRequest L)
    (sig : Vector UInt8 ps.params.SIG_LEN) {Q : Nat} (A : Claimant ps L B w Q) :
    A.play (crypto P) (fun y => pure (O y)) pk x sig = (pure (some (A.outcome P O pk x sig)) : Exec b _) := by
  induction A with
  | claim v y =>
    rw [Claimant.play, exec_pkOf, pure_bind, ownVerdict, exec_request_verify, pure_bind]
    rfl
  | call y next ih =>
    rw [Claimant.play, pure_bind, ih]
    rfl

/-- The outcome of the game. -/
def Chooser.outcome (P : Spec.Prims) (O : Query B → Fin (256 ^ w)) (v : Vector UInt8 ps.params.N) :
    {Q : Nat} → Chooser ps L B w Q → Option (OwnOutcome ps L)
  | _, .sign sk x next => (ownSigned P v x (decodeOf P sk)).map fun r =>
    (next r.2).outcome P O r.1.get_public_key x r.2
  | _, .call y next => (next (O y)).outcome P O v

theorem chooser_eq (P : Spec.Prims) (O : Query B → Fin (256 ^ w)) (v : Vector UInt8 ps.params.N) {Q : Nat}
    (A : Chooser ps L B w Q) :
    A.play (crypto P) (fun y => pure (O y)) v = (pure (A.outcome P O v) : Exec b _) := by
  induction A with
  | sign sk x next =>
    rw [Chooser.play, exec_decodeOf, pure_bind, exec_ownSign, pure_bind, Chooser.outcome]
    cases ownSigned P v x (decodeOf P sk) with
    | none => rfl
    | some r => exact claimant_eq P O _ x _ _
  | call y next ih =>
    rw [Chooser.play, pure_bind, ih]
    rfl

/-! ## What the signer hashes -/

/-- The call for a pre-hash. -/
def SigRequest.pre (x : SigRequest L) : List Call :=
  match x.ph with
  | none => []
  | some ph => [⟨ph.spec, x.msg⟩]

theorem callAt_seed {pk_seed : List UInt8} {x : Place} {c : Call} (h : CallAt ps.family ps.row pk_seed x c) :
    ∃ a, c.input = pk_seed ++ a := by
  obtain ⟨data, h⟩ := h
  split at h
  · exact ⟨x.adrs ++ data, by rw [h, List.append_assoc]⟩
  · split at h <;> rw [h] <;> exact ⟨_, by simp only [List.append_assoc]; rfl⟩

theorem eachOnce_mem {At : Place → Call → Prop} {S : Place → Prop} {l : List Call} (h : EachOnce At S l) {c : Call}
    (hc : c ∈ l) : ∃ x, At x c := by
  obtain ⟨xs, -, -, h⟩ := h
  induction h with
  | nil => cases hc
  | cons h _ ih =>
    rcases List.mem_cons.mp hc with rfl | hc
    · exact ⟨_, h⟩
    · exact ih hc

/-- The calls of a hedged signature. -/
structure Signs (P : Spec.Prims) (sk : PrivateKey ps.params) (x : SigRequest L) (v : Vector UInt8 ps.params.N)
    (sig : Vector UInt8 ps.params.SIG_LEN) (l l' : List Call) : Prop where
  ctx : x.ctx.length ≤ 255
  eq : l = x.pre ++ (prfMsgLog P ps.family ps.row sk.key.sk_prf.toList v.toList (x.str P) ++
    (hMsgLog P ps.family ps.row (sig.toList.take ps.sp.n) sk.key.pk_seed.toList sk.key.pk_root.toList (x.str P) ++ l'))
  rest : ∀ c ∈ l', ∃ a, c.input = sk.key.pk_seed.toList ++ a
  prf : (ps.hf P).PRFmsg sk.key.sk_prf.toList v.toList (x.str P) = sig.toList.take ps.sp.n

theorem slice_take (l : List UInt8) (n : Nat) : Spec.slice l 0 n = l.take n := by
  rw [Spec.slice, List.drop_zero, Nat.sub_zero]

theorem log_signs (P : Spec.Prims) (sk : PrivateKey ps.params) (x : SigRequest L) (v : Vector UInt8 ps.params.N)
    {sig : Vector UInt8 ps.params.SIG_LEN} (ha : x.answer P sk true (.ok v) = .ok sig) :
    ∃ l', Signs P sk x v sig (x.sign (recording P) sk true (.ok v) : LogExec b _).log l' := by
  have he : (x.sign (recording P) sk true (.ok v) : LogExec b _).result = .ok ((), .ok sig) :=
    ((map_request_sign LogExec.erase (recording P) x sk true (.ok v)).trans (exec_request_sign P sk x true (.ok v))).trans
      (by rw [ha]; rfl)
  have hctx : x.ctx.length ≤ 255 := by
    by_contra hc
    rw [SigRequest.answer, if_pos (by omega)] at ha
    cases ha
  have hprf : (ps.hf P).PRFmsg sk.key.sk_prf.toList v.toList (x.str P) = sig.toList.take ps.sp.n := by
    rw [SigRequest.answer, if_neg (by omega)] at ha
    have ha : Except.ok (sigVec ps P (x.str P) sk.key v) = Except.ok sig := ha
    rw [← Except.ok.inj ha, sigVec_toList, ← slice_take]
    exact (attempt_signInternal (ps.valid P) _ _ _ _ _ _).symm
  have hq : UnloggedRng (fixedRng (.ok v) : Rng (LogExec b) Unit) := fun _ _ _ => rfl
  have hopt : ∀ opt, Drawn sk (fixedRng (.ok v) : Rng (LogExec b) Unit) () () true opt → opt = v := by
    intro opt h
    rw [Drawn, if_pos rfl] at h
    have h : Except.ok ((), Except.ok (toVec ps.params.N v.toList)) = (Except.ok ((), Except.ok opt) : Except Panic _) := h
    have h := Except.ok.inj (Prod.mk.inj (Except.ok.inj h)).2
    rw [← h, toVec_toList_self]
  obtain ⟨ph, ctx, msg, hs⟩ := x
  cases ph with
  | none =>
    simp only [SigRequest.sign] at he ⊢
    obtain ⟨opt, h1, l', h2, h3⟩ := (C47_try_sign_with_rng (P := P) hq () sk msg ctx true).1 () sig he
    rw [hopt opt h1] at h3
    refine ⟨l', hctx, ?_, fun c hc => ?_, hprf⟩
    · rw [← slice_take]
      exact h3
    · obtain ⟨x, hx⟩ := eachOnce_mem h2 hc
      exact callAt_seed hx
  | some ph =>
    simp only [SigRequest.sign] at he ⊢
    obtain ⟨opt, l, h1, ⟨l', h2, h3⟩, h4⟩ := (C47_try_hash_sign_with_rng (P := P) hq () sk msg ctx ph true).1 () sig he
    rw [hopt opt h1] at h3
    refine ⟨l', hctx, ?_, fun c hc => ?_, hprf⟩
    · rw [← slice_take, h4, h3]
      rfl
    · obtain ⟨x, hx⟩ := eachOnce_mem h2 hc
      exact callAt_seed hx

/-- What is hashed to sign; first, for the proof, the public seed. -/
def signP (b : Build) (P0 : Spec.Prims) (v : Vector UInt8 ps.params.N) (sk : Vector UInt8 ps.params.SK_LEN)
    (x : SigRequest L) : AskExec b w (Option (PrivateKey ps.params × Vector UInt8 ps.params.SIG_LEN)) := do
  let _ ← askFor ⟨.shake256, (skOf sk).key.pk_seed.toList⟩ id
  let r ← PrivateKey.try_from_bytes (askCrypto P0) sk
  ownSign (askCrypto P0) v x r

/-- The part that does not depend on the random bytes. -/
def signBefore (b : Build) (P : Spec.Prims) (sk : Vector UInt8 ps.params.SK_LEN) (x : SigRequest L) : List Call :=
  ⟨.shake256, (skOf sk).key.pk_seed.toList⟩ ::
    ((PrivateKey.try_from_bytes (recording P) sk : LogExec b (Except String (PrivateKey ps.params))).log ++ x.pre)

/-- The most hashes until the signature is made. -/
def signedMost (ps : ParamSet) : Nat := 1 + treeWork ps ps.sp.hp + (signMost ps + 1)

theorem signBefore_length (P : Spec.Prims) (sk : Vector UInt8 ps.params.SK_LEN) (x : SigRequest L) :
    (signBefore b P sk x).length ≤ signedMost ps := by
  have h : x.pre.length ≤ 1 := by
    rw [SigRequest.pre]
    split
    · exact Nat.zero_le _
    · exact Nat.le_refl _
  rw [signBefore, List.length_cons, List.length_append, C54_sk_try_from_bytes, signedMost]
  omega

section
variable (P0 : Spec.Prims) (O : Query B → Fin (256 ^ w))

theorem map_ownSign {m m' : Type → Type} [Rust m] [Rust m'] (φ : RustHom m m') (C : Crypto m)
    (v : Vector UInt8 ps.params.N) (x : SigRequest L) (r : Except String (PrivateKey ps.params)) :
    φ.app (ownSign C v x r) = ownSign (φ.crypto C) v x r := by
  cases r with
  | error e => exact RustHom.map_pure ..
  | ok sk =>
    rw [ownSign, RustHom.map_bind, map_request_sign, ownSign]
    congr 1
    funext ⟨_, r⟩
    cases r <;> exact RustHom.map_pure ..

theorem run_signP (v : Vector UInt8 ps.params.N) (sk : Vector UInt8 ps.params.SK_LEN) (x : SigRequest L) :
    ∃ l, (runWith (b := b) O).app (signP b P0 v sk x) =
        (l, .ok (ownSigned (withHash P0 O) v x (decodeOf (withHash P0 O) sk))) ∧ l.length ≤ signedMost ps ∧
      ∀ sk' sig, ownSigned (withHash P0 O) v x (decodeOf (withHash P0 O) sk) = some (sk', sig) →
        ∃ l1 l2 l', l = l1 ++ l2 ∧ l1 ++ x.pre = signBefore b (withHash P0 O) sk x ∧
          ⟨.shake256, sk'.key.pk_seed.toList⟩ ∈ l1 ∧ Signs (withHash P0 O) sk' x v sig l2 l' := by
  have h2 : (PrivateKey.try_from_bytes (recording (withHash P0 O)) sk : LogExec b (Except String (PrivateKey ps.params))) =
      ((PrivateKey.try_from_bytes (recording (withHash P0 O)) sk :
        LogExec b (Except String (PrivateKey ps.params))).log, .ok (decodeOf (withHash P0 O) sk)) :=
    Prod.ext rfl ((LogExec.erase.map_sk_try_from_bytes ..).trans (exec_decodeOf (b := b) _ _))
  have h2l := C54_sk_try_from_bytes (b := b) (P := withHash P0 O) sk
  obtain ⟨ld, hd⟩ : ∃ ld, ld = (PrivateKey.try_from_bytes (recording (withHash P0 O)) sk :
        LogExec b (Except String (PrivateKey ps.params))).log := ⟨_, rfl⟩
  rw [← hd] at h2 h2l
  have key : ∀ l3 r, (ownSign (recording (withHash P0 O)) v x (decodeOf (withHash P0 O) sk) : LogExec b _) = (l3, .ok r) →
      (runWith (b := b) O).app (signP b P0 v sk x) =
        ([⟨.shake256, (skOf sk).key.pk_seed.toList⟩] ++ (ld ++ l3), .ok r) := by
    intro l3 r h3
    rw [signP, RustHom.map_bind]
    refine log_bind (v := id (O (.of B ⟨.shake256, (skOf sk).key.pk_seed.toList⟩))) rfl ?_
    rw [RustHom.map_bind, RustHom.map_sk_try_from_bytes, runWith_crypto]
    refine log_bind h2 ?_
    rw [map_ownSign, runWith_crypto]
    exact h3
  cases hdec : decodeOf (withHash P0 O) sk with
  | error e =>
    rw [hdec] at key
    refine ⟨_, key [] none rfl, ?_, fun sk' sig h => ?_⟩
    · simp only [List.append_nil, List.length_append, List.length_singleton, h2l, signedMost]
      omega
    · cases h
  | ok k =>
    rw [hdec] at key
    have hk : k = skOf sk := by
      rw [decodeOf] at hdec
      split at hdec
      · exact (Except.ok.inj hdec).symm
      · cases hdec
    obtain ⟨l, h3, h4, -⟩ := log_sign (b := b) (withHash P0 O) k x true (.ok v)
    have h5 : (ownSign (recording (withHash P0 O)) v x (.ok k) : LogExec b _) =
        (l, .ok (ownSigned (withHash P0 O) v x (.ok k))) := by
      rw [ownSign]
      refine (log_bind (l' := []) (r := .ok (ownSigned (withHash P0 O) v x (.ok k))) h3 ?_).trans (by
        rw [List.append_nil])
      rw [ownSigned]
      dsimp only
      cases x.answer (withHash P0 O) k true (.ok v) <;> rfl
    refine ⟨_, key _ _ h5, ?_, fun sk' sig h => ?_⟩
    · simp only [List.length_append, List.length_singleton, h2l, signedMost]
      omega
    · rw [ownSigned] at h
      cases ha : x.answer (withHash P0 O) k true (.ok v) with
      | error e => rw [ha] at h; cases h
      | ok sig' =>
        rw [ha] at h
        obtain ⟨rfl, rfl⟩ := Prod.mk.inj (Option.some.inj h)
        obtain ⟨l', hs⟩ := log_signs (b := b) _ _ _ _ ha
        rw [h3] at hs
        refine ⟨_, l, l', (List.append_assoc ..).symm, ?_, ?_, hs⟩
        rotate_left
        · rw [hk]
          exact List.mem_append_left _ (List.mem_singleton_self _)
        rw [signBefore, ← hd]
        rfl

end

/-! ## The game -/

/-- What is hashed after the signature was made. -/
def Claimant.tree (b : Build) (P0 : Spec.Prims) (sig : Vector UInt8 ps.params.SIG_LEN) : {Q : Nat} →
    Claimant ps L B w Q → AskExec b w (List UInt8)
  | _, .claim v y => checkP P0 (pkOf v) sig y
  | _, .call y next => Tree.ask y.1 fun u => (next u).tree b P0 sig

/-- The game goes on, and the signature is known. -/
def ownAfter (b : Build) (P0 : Spec.Prims) {Q : Nat} (next : Vector UInt8 ps.params.SIG_LEN → Claimant ps L B w Q)
    (r : Option (PrivateKey ps.params × Vector UInt8 ps.params.SIG_LEN)) :
    Tree (Call × Option (Vector UInt8 ps.params.SIG_LEN)) (Fin (256 ^ w)) Panic (List UInt8) :=
  match r with
  | none => .done (.ok [])
  | some (_, sig) => Tree.rename (·, some sig) ((next sig).tree b P0 sig)

/-- What is hashed in the game. -/
def Chooser.tree (b : Build) (P0 : Spec.Prims) (v : Vector UInt8 ps.params.N) : {Q : Nat} → Chooser ps L B w Q →
    Tree (Call × Option (Vector UInt8 ps.params.SIG_LEN)) (Fin (256 ^ w)) Panic (List UInt8)
  | _, .sign sk x next => (Tree.rename (·, none) (signP b P0 v sk x)).bind (ownAfter b P0 next)
  | _, .call y next => Tree.ask (y.1, none) fun u => (next u).tree b P0 v

/-- What is hashed before the random bytes are used. -/
def Chooser.before (b : Build) (P0 : Spec.Prims) (O : Query B → Fin (256 ^ w)) : {Q : Nat} → Chooser ps L B w Q →
    List Call
  | _, .sign sk x _ => signBefore b (withHash P0 O) sk x
  | _, .call y next => y.1 :: (next (O y)).before b P0 O

theorem before_length (P0 : Spec.Prims) (O : Query B → Fin (256 ^ w)) {Q : Nat} (A : Chooser ps L B w Q) :
    (A.before b P0 O).length ≤ Q + signedMost ps := by
  induction A with
  | sign sk x next => exact (signBefore_length _ _ _).trans (Nat.le_add_left _ _)
  | call y next ih =>
    rw [Chooser.before, List.length_cons]
    have := ih (O y)
    omega

section
variable (hw : 64 ≤ w) (P0 : Spec.Prims) (O : Query B → Fin (256 ^ w))
include hw

theorem run_claimant (pk : PublicKey ps.params) (x : SigRequest L) (sig : Vector UInt8 ps.params.SIG_LEN) {Q : Nat}
    (A : Claimant ps L B w Q) : ∃ (l : List Call) (r : List UInt8),
      (runWith (b := b) O).app (A.tree b P0 sig) = (l, .ok r) ∧ l.length ≤ Q + (verifyWork ps + 1) ∧
      let o := A.outcome (withHash P0 O) O pk x sig
      o.pk = pk ∧ o.x = x ∧ o.accepted = o.y.check (withHash P0 O) o.pk' sig ∧ Covers (withHash P0 O) o.pk' sig o.y l := by
  induction A with
  | claim v y =>
    obtain ⟨l, r, h1, h2, h3⟩ := run_checkP (b := b) hw P0 O (pkOf v) sig y
    exact ⟨l, r, h1, h2.trans (Nat.le_add_left _ _), rfl, rfl, rfl, h3⟩
  | @call Q y next ih =>
    obtain ⟨l, r, h1, h2, h3, h4, h5, h6⟩ := ih (O y)
    refine ⟨y.1 :: l, r, ?_, ?_, h3, h4, h5, h6.mono fun c => List.mem_cons_of_mem _⟩
    · have e : (runWith (b := b) O).app (Claimant.tree b P0 sig (.call y next)) =
          (y.1 :: ((runWith (b := b) O).app ((next (O (.of B y.1))).tree b P0 sig)).1,
            ((runWith (b := b) O).app ((next (O (.of B y.1))).tree b P0 sig)).2) := rfl
      rw [e, Query.of_val, h1]
    · rw [List.length_cons]
      omega

/-- What was hashed in a game with an outcome: `la` before the signature was known, `lb` afterwards. -/
structure Played (P : Spec.Prims) (v : Vector UInt8 ps.params.N) (before : List Call) (o : OwnOutcome ps L)
    (S : Vector UInt8 ps.params.SIG_LEN) (la lb : List Call) : Prop where
  signed : ∃ (sk : PrivateKey ps.params) (l1 l2 l' : List Call), o.pk = sk.get_public_key ∧ la = l1 ++ l2 ∧
    l1 ++ o.x.pre = before ∧ ⟨.shake256, sk.key.pk_seed.toList⟩ ∈ l1 ∧ Signs P sk o.x v S l2 l'
  accepted : o.accepted = o.y.check P o.pk' S
  covers : Covers P o.pk' S o.y lb

theorem run_chooser (v : Vector UInt8 ps.params.N) {Q : Nat} (A : Chooser ps L B w Q) :
    ((A.tree b P0 v).log fun c => O (.of B c.1)).length ≤ Q + signedMost ps + (verifyWork ps + 1) ∧
    ∀ o, A.outcome (withHash P0 O) O v = some o → ∃ la lb S,
      ((A.tree b P0 v).log fun c => O (.of B c.1)) = la.map (·, none) ++ lb.map (·, some S) ∧
      Played (withHash P0 O) v (A.before b P0 O) o S la lb := by
  induction A with
  | @sign Q sk x next =>
    obtain ⟨l, h1, h2, h3⟩ := run_signP (b := b) P0 O v sk x
    have hlog : Tree.log (fun c => O (.of B c)) (signP b P0 v sk x) = l := congrArg Prod.fst h1
    have hres : Tree.result (fun c => O (.of B c)) (signP b P0 v sk x) = _ := congrArg Prod.snd h1
    have e1 : Tree.result (fun c : Call × Option (Vector UInt8 ps.params.SIG_LEN) => O (.of B c.1))
        (Tree.rename (·, none) (signP b P0 v sk x)) =
          .ok (ownSigned (withHash P0 O) v x (decodeOf (withHash P0 O) sk)) := (Tree.rename_result _ _ _).trans hres
    have e2 : Tree.log (fun c : Call × Option (Vector UInt8 ps.params.SIG_LEN) => O (.of B c.1))
        (Tree.rename (·, none) (signP b P0 v sk x)) = l.map (·, none) :=
      (Tree.rename_log _ _ _).trans (congrArg _ hlog)
    have e : ((Chooser.sign sk x next).tree b P0 v).log (fun c => O (.of B c.1)) =
        l.map (·, none) ++ (ownAfter b P0 next
          (ownSigned (withHash P0 O) v x (decodeOf (withHash P0 O) sk))).log fun c => O (.of B c.1) := by
      rw [Chooser.tree, Tree.log_bind, e1, e2]
    rw [e, Chooser.outcome]
    cases hr : ownSigned (withHash P0 O) v x (decodeOf (withHash P0 O) sk) with
    | none =>
      refine ⟨?_, fun o h => nomatch h⟩
      rw [ownAfter, Tree.log, List.append_nil, List.length_map]
      omega
    | some r =>
      obtain ⟨sk', sig⟩ := r
      obtain ⟨l1, l2, l', h4, h5, h6, h7⟩ := h3 sk' sig hr
      obtain ⟨lb, r, h8, h9, h10, h11, h12, h13⟩ := run_claimant (b := b) hw P0 O sk'.get_public_key x sig (next sig)
      have hlb : Tree.log (fun c => O (.of B c)) ((next sig).tree b P0 sig) = lb := congrArg Prod.fst h8
      have e3 : (ownAfter b P0 next (some (sk', sig))).log (fun c => O (.of B c.1)) = lb.map (·, some sig) :=
        (Tree.rename_log _ _ _).trans (congrArg _ hlb)
      rw [e3]
      refine ⟨?_, fun o ho => ?_⟩
      · rw [List.length_append, List.length_map, List.length_map]
        omega
      · rw [Option.map_some] at ho
        obtain rfl := Option.some.inj ho
        refine ⟨l, lb, sig, rfl, ⟨sk', l1, l2, l', h10, h4, ?_, ?_, ?_⟩, h12, h13⟩
        · rw [h11, h5]
          rfl
        · exact h6
        · rw [h11]
          exact h7
  | @call Q y next ih =>
    obtain ⟨h1, h2⟩ := ih (O y)
    have e : ((Chooser.call y next).tree b P0 v).log (fun c => O (.of B c.1)) =
        (y.1, none) :: ((next (O y)).tree b P0 v).log fun c => O (.of B c.1) := by
      have : ((Chooser.call y next).tree b P0 v).log (fun c => O (.of B c.1)) =
        (y.1, none) :: ((next (O (.of B y.1))).tree b P0 v).log fun c => O (.of B c.1) := rfl
      rw [this, Query.of_val]
    rw [e]
    refine ⟨?_, fun o ho => ?_⟩
    · rw [List.length_cons]
      omega
    · obtain ⟨la, lb, S, h3, ⟨sk, l1, l2, l', h4, h5, h6, h7, h8⟩, h9, h10⟩ := h2 o ho
      refine ⟨y.1 :: la, lb, S, ?_, ⟨sk, y.1 :: l1, l2, l', h4, ?_, ?_, List.mem_cons_of_mem _ h7, h8⟩, h9, h10⟩
      · rw [h3]
        rfl
      · rw [h5]
        rfl
      · rw [Chooser.before, ← h6]
        rfl

end

end Fips205.Props
