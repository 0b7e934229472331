import Verif.Props.BindGame
import Verif.Proofs.ApiTree
import Verif.Proofs.BindDigest
import Verif.Proofs.Late

/-!
# The game of the repudiator as a program that evaluates a random function

What the two verifications hash, after the player's own calls: if the signature is accepted for both requests, two of
these calls have values that begin alike, or a value was foretold.
-/

namespace Fips205.Props
open Fips205 Fips205.Model Fips205.Oracle

variable {ps : ParamSet} {L B w : Nat} {b : Build}

/-! ## The outcome -/

/-- The public key in these bytes. -/
def pkOf (v : Vector UInt8 ps.params.PK_LEN) : PublicKey ps.params :=
  ⟨⟨toVec _ (v.toList.take ps.params.N), toVec _ (v.toList.drop ps.params.N)⟩⟩

theorem exec_pkOf (v : Vector UInt8 ps.params.PK_LEN) :
    (PublicKey.try_from_bytes v : Exec b _) = pure (.ok (pkOf v)) := by
  obtain ⟨pk, h, e⟩ := exec_pk_try_from_bytes (b := b) v
  rw [h, pkOf, ← e, Spec.encodePK, List.take_left' (Vector.length_toList ..), List.drop_left' (Vector.length_toList ..),
    toVec_toList_self, toVec_toList_self]

/-- The outcome of the game. -/
def Repudiator.outcome (P : Spec.Prims) (O : Query B → Fin (256 ^ w)) : {Q : Nat} → Repudiator ps L B w Q →
    ClaimOutcome L
  | _, .claim v sig x y => { x, y, first := x.check P (pkOf v) sig, second := y.check P (pkOf v) sig }
  | _, .call y next => (next (O y)).outcome P O

theorem play_eq (P : Spec.Prims) (O : Query B → Fin (256 ^ w)) {Q : Nat} (A : Repudiator ps L B w Q) :
    A.play (crypto P) (fun y => pure (O y)) = (pure (A.outcome P O) : Exec b _) := by
  induction A with
  | claim v sig x y =>
    rw [Repudiator.play, exec_pkOf, pure_bind, judge, exec_request_verify, pure_bind, exec_request_verify, pure_bind]
    rfl
  | call y next ih =>
    rw [Repudiator.play, pure_bind, ih]
    rfl

/-! ## The calls -/

/-- The formatted message. -/
def SigRequest.strP (x : SigRequest L) : AskExec b w (List UInt8) :=
  match x.ph with
  | none => pure (Spec.pureMsg x.ctx x.msg)
  | some ph => askFor ⟨ph.spec, x.msg⟩ fun d =>
    Spec.prehashMsg x.ctx (Spec.oid ph.spec) ((Spec.toByte d w).take (phLen ph))

/-- The hashes at places. -/
def placesP {α : Type} (ps : ParamSet) (PKseed : List UInt8) : Ask α → AskExec b w α
  | .pure a => Tree.done (.ok a)
  | .ask x z k => Tree.ask (callOf ps PKseed x z) fun v =>
    placesP ps PKseed (k (Spec.toByte (headOf ps.sp.n v) ps.sp.n))

/-- A verification, as far as it depends on the digest. -/
def attemptBy (ps : ParamSet) (hf : Spec.HashFns) (digest SIG : List UInt8) : Spec.Attempt where
  p := ps.sp
  hf := hf
  SKseed := []
  PKseed := []
  md := Spec.digestMd ps.sp digest
  t := Spec.digestTree ps.sp digest
  l := Spec.digestLeaf ps.sp digest
  SIGfors := Spec.slice SIG ps.sp.n ((1 + ps.sp.k * (1 + ps.sp.a)) * ps.sp.n)
  SIGht := Spec.slice SIG ((1 + ps.sp.k * (1 + ps.sp.a)) * ps.sp.n)
    ((1 + ps.sp.k * (1 + ps.sp.a) + ps.sp.h + ps.sp.d * ps.sp.len) * ps.sp.n)

/-- What a verification hashes. -/
def checkP (P0 : Spec.Prims) (pk : PublicKey ps.params) (sig : Vector UInt8 ps.params.SIG_LEN) (x : SigRequest L) :
    AskExec b w (List UInt8) := do
  let M ← x.strP
  let digest ← (HASHERS ps.params (askCrypto P0)).h_msg (Spec.slice sig.toList 0 ps.sp.n) pk.key.pk_seed.toList
    pk.key.pk_root.toList [M]
  placesP ps pk.key.pk_seed.toList ((attemptBy ps (ps.hf P0) digest.toList sig.toList).layersP ps.sp.d)

/-- What is hashed in the game. -/
def Repudiator.tree (b : Build) (P0 : Spec.Prims) : {Q : Nat} → Repudiator ps L B w Q → AskExec b w (List UInt8)
  | _, .claim v sig x y => do
    let _ ← checkP P0 (pkOf v) sig x
    checkP P0 (pkOf v) sig y
  | _, .call y next => Tree.ask y.1 fun v => (next v).tree b P0

/-- The verification of a request. -/
abbrev attemptOn (P : Spec.Prims) (pk : PublicKey ps.params) (sig : Vector UInt8 ps.params.SIG_LEN)
    (M : List UInt8) : Spec.Attempt :=
  Spec.attempt ps.sp (ps.hf P) M sig.toList [] pk.key.pk_seed.toList pk.key.pk_root.toList

/-- The calls `l` contain what the verification of a request hashes. -/
structure Covers (P : Spec.Prims) (pk : PublicKey ps.params) (sig : Vector UInt8 ps.params.SIG_LEN) (x : SigRequest L)
    (l : List Call) : Prop where
  pre : ∀ ph, x.ph = some ph → ⟨ph.spec, x.msg⟩ ∈ l
  msg : ∀ c ∈ hMsgLog P ps.family ps.row (Spec.slice sig.toList 0 ps.sp.n) pk.key.pk_seed.toList pk.key.pk_root.toList
    (x.str P), c ∈ l
  places : ∀ u, verifyPlaces (attemptOn P pk sig (x.str P)) u →
    callOf ps pk.key.pk_seed.toList u ((attemptOn P pk sig (x.str P)).seen u) ∈ l
  asked : ∀ q ∈ ((attemptOn P pk sig (x.str P)).layersP ps.sp.d).asked (hashAt (ps.hf P) pk.key.pk_seed.toList),
    callOf ps pk.key.pk_seed.toList q.1 q.2 ∈ l

theorem Covers.mono {P : Spec.Prims} {pk : PublicKey ps.params} {sig : Vector UInt8 ps.params.SIG_LEN}
    {x : SigRequest L} {l l' : List Call} (h : Covers P pk sig x l) (hl : ∀ c ∈ l, c ∈ l') : Covers P pk sig x l' :=
  ⟨fun ph e => hl _ (h.pre ph e), fun c hc => hl _ (h.msg c hc), fun u hu => hl _ (h.places u hu),
    fun q hq => hl _ (h.asked q hq)⟩

section
variable (hw : 64 ≤ w) (P0 : Spec.Prims) (O : Query B → Fin (256 ^ w))
include hw

theorem run_strP (x : SigRequest L) : ∃ l : List Call,
    (runWith (b := b) O).app x.strP = (l, .ok (x.str (withHash P0 O))) ∧ l.length ≤ 1 ∧
      ∀ ph, x.ph = some ph → ⟨ph.spec, x.msg⟩ ∈ l := by
  obtain ⟨ph, ctx, msg, hs⟩ := x
  cases ph with
  | none => exact ⟨[], rfl, Nat.zero_le _, fun ph h => nomatch h⟩
  | some ph =>
    refine ⟨[⟨ph.spec, msg⟩], Prod.ext rfl ?_, Nat.le_refl _, fun ph' h => ?_⟩
    · change Except.ok (Spec.prehashMsg ctx (Spec.oid ph.spec)
        ((Spec.toByte (O (.of B ⟨ph.spec, msg⟩)) w).take (phLen ph))) = _
      rw [← wide_preHash hw P0]
      rfl
    · cases h
      exact List.mem_singleton_self _

theorem run_placesP {α : Type} (PKseed : List UInt8) (a : Ask α) :
    (runWith (b := b) O).app (placesP ps PKseed a) =
      ((a.asked (hashAt (ps.hf (withHash P0 O)) PKseed)).map fun q => callOf ps PKseed q.1 q.2,
        .ok (a.eval (hashAt (ps.hf (withHash P0 O)) PKseed))) := by
  have hn : ps.sp.n ≤ w := (n_le_32 ps).trans ((show 32 ≤ 64 by decide).trans hw)
  induction a with
  | pure a => rfl
  | ask x z k ih =>
    have ih := ih (Spec.toByte (headOf ps.sp.n (O (.of B (callOf ps PKseed x z)))) ps.sp.n)
    refine Prod.ext ?_ ?_
    · change callOf ps PKseed x z :: ((runWith (b := b) O).app (placesP ps PKseed (k _))).1 = _
      rw [ih, Ask.asked, hashAt_wide hn]
      rfl
    · change ((runWith (b := b) O).app (placesP ps PKseed (k _))).2 = _
      rw [ih, Ask.eval, hashAt_wide hn]

theorem run_checkP (pk : PublicKey ps.params) (sig : Vector UInt8 ps.params.SIG_LEN) (x : SigRequest L) :
    ∃ (l : List Call) (v : List UInt8), (runWith (b := b) O).app (checkP P0 pk sig x) = (l, .ok v) ∧
      l.length ≤ verifyWork ps + 1 ∧ Covers (withHash P0 O) pk sig x l := by
  obtain ⟨l1, h1, hl1, hp⟩ := run_strP (b := b) hw P0 O x
  obtain ⟨d, h2, hd⟩ := (ps.hashersRun (b := b) (P := withHash P0 O)).h_msg (Spec.slice sig.toList 0 ps.sp.n)
    pk.key.pk_seed.toList pk.key.pk_root.toList [x.str (withHash P0 O)] (by simp)
  rw [List.flatten_singleton, ← hMsgLog_eq] at h2
  have hd : d.toList = (ps.hf (withHash P0 O)).Hmsg (Spec.slice sig.toList 0 ps.sp.n) pk.key.pk_seed.toList
      pk.key.pk_root.toList (x.str (withHash P0 O)) := by
    rw [hd, List.flatten_singleton, ← ps.hr_vals]
    rfl
  have h2' : (runWith (b := b) O).app ((HASHERS ps.params (askCrypto P0)).h_msg (Spec.slice sig.toList 0 ps.sp.n)
      pk.key.pk_seed.toList pk.key.pk_root.toList [x.str (withHash P0 O)]) =
      (hMsgLog (withHash P0 O) ps.family ps.row (Spec.slice sig.toList 0 ps.sp.n) pk.key.pk_seed.toList
        pk.key.pk_root.toList (x.str (withHash P0 O)), .ok d) := by
    have := congrArg (fun hs => hs.h_msg (Spec.slice sig.toList 0 ps.sp.n) pk.key.pk_seed.toList
      pk.key.pk_root.toList [x.str (withHash P0 O)]) ((runWith (b := b) O).map_HASHERS (askCrypto P0) ps.params)
    exact this.trans h2
  have hlen : sig.toList.length = ps.sp.sigLen := by
    rw [Vector.length_toList]; cases ps <;> rfl
  have ok := (Spec.attempt_ok ps.wf (ps.valid (withHash P0 O)) (n_le ps) (M := x.str (withHash P0 O)) (SKseed := [])
    (PKseed := pk.key.pk_seed.toList) (PKroot := pk.key.pk_root.toList) hlen).1
  have e : (attemptBy ps (ps.hf P0) d.toList sig.toList).layersP ps.sp.d =
      (attemptOn (withHash P0 O) pk sig (x.str (withHash P0 O))).layersP ps.sp.d := by
    rw [hd]
    simp only [attemptOn, Spec.attempt]
    apply Spec.Attempt.layersP_congr <;> rfl
  have h3 := run_placesP (ps := ps) (b := b) hw P0 O pk.key.pk_seed.toList
    ((attemptBy ps (ps.hf P0) d.toList sig.toList).layersP ps.sp.d)
  rw [e] at h3
  have h4 := Spec.Attempt.length_layersP (c := attemptOn (withHash P0 O) pk sig (x.str (withHash P0 O)))
    (h := hashAt (ps.hf (withHash P0 O)) pk.key.pk_seed.toList) ps.sp.d
  have h5 := fun u hu => List.mem_map_of_mem (f := fun q => callOf ps pk.key.pk_seed.toList q.1 q.2)
    (Spec.Attempt.asked_seen (x := u) ok hu)
  obtain ⟨l3, v3, h3, hl3, hm3, ha3⟩ : ∃ (l3 : List Call) (v3 : List UInt8), (runWith (b := b) O).app (placesP ps
      pk.key.pk_seed.toList ((attemptBy ps (ps.hf P0) d.toList sig.toList).layersP ps.sp.d)) = (l3, .ok v3) ∧
      l3.length ≤ ps.sp.k * (1 + ps.sp.a) + 1 + ps.sp.d * (ps.sp.len * 15 + 1 + ps.sp.hp) ∧
      (∀ u, verifyPlaces (attemptOn (withHash P0 O) pk sig (x.str (withHash P0 O))) u →
        callOf ps pk.key.pk_seed.toList u ((attemptOn (withHash P0 O) pk sig (x.str (withHash P0 O))).seen u) ∈ l3) ∧
      ∀ q ∈ ((attemptOn (withHash P0 O) pk sig (x.str (withHash P0 O))).layersP ps.sp.d).asked
        (hashAt (ps.hf (withHash P0 O)) pk.key.pk_seed.toList), callOf ps pk.key.pk_seed.toList q.1 q.2 ∈ l3 := by
    rw [e]
    exact ⟨_, _, h3, by rw [List.length_map]; exact h4, h5, fun q hq => List.mem_map.mpr ⟨q, hq, rfl⟩⟩
  have h0 : (runWith (b := b) O).app (checkP P0 pk sig x) = (l1 ++ (hMsgLog (withHash P0 O) ps.family ps.row
      (Spec.slice sig.toList 0 ps.sp.n) pk.key.pk_seed.toList pk.key.pk_root.toList (x.str (withHash P0 O)) ++ l3),
      .ok v3) := by
    rw [checkP, RustHom.map_bind]
    refine log_bind h1 ?_
    rw [RustHom.map_bind]
    exact log_bind h2' h3
  refine ⟨_, v3, h0, ?_, ?_⟩
  · rw [List.length_append, List.length_append, hMsgLog_length]
    have h6 : verifyWork ps = hMsgWork ps + (ps.sp.k * (1 + ps.sp.a) + 1 + ps.sp.d * (ps.sp.len * 15 + 1 + ps.sp.hp)) := by
      rw [verifyWork, Nat.mul_comm 15, Nat.add_assoc]
    omega
  · refine ⟨fun ph hph => List.mem_append_left _ (hp ph hph), fun c hc => ?_, fun u hu => ?_, fun q hq => ?_⟩
    · exact List.mem_append_right _ (List.mem_append_left _ hc)
    · exact List.mem_append_right _ (List.mem_append_right _ (hm3 u hu))
    · exact List.mem_append_right _ (List.mem_append_right _ (ha3 q hq))

/-- What is hashed in the game contains what the two verifications hash. -/
theorem run_tree {Q : Nat} (A : Repudiator ps L B w Q) : ∃ (l : List Call) (v : List UInt8) (pk : PublicKey ps.params)
    (sig : Vector UInt8 ps.params.SIG_LEN), (runWith (b := b) O).app (A.tree b P0) = (l, .ok v) ∧
      l.length ≤ Q + 2 * (verifyWork ps + 1) ∧
      let o := A.outcome (withHash P0 O) O
      o.first = o.x.check (withHash P0 O) pk sig ∧ o.second = o.y.check (withHash P0 O) pk sig ∧
      Covers (withHash P0 O) pk sig o.x l ∧ Covers (withHash P0 O) pk sig o.y l := by
  induction A with
  | claim v sig x y =>
    obtain ⟨l1, v1, h1, hl1, c1⟩ := run_checkP (b := b) hw P0 O (pkOf v) sig x
    obtain ⟨l2, v2, h2, hl2, c2⟩ := run_checkP (b := b) hw P0 O (pkOf v) sig y
    refine ⟨l1 ++ l2, v2, pkOf v, sig, ?_, ?_, rfl, rfl, c1.mono fun c => List.mem_append_left _,
      c2.mono fun c => List.mem_append_right _⟩
    · rw [Repudiator.tree, RustHom.map_bind]
      exact log_bind h1 h2
    · rw [List.length_append]
      omega
  | @call Q y next ih =>
    obtain ⟨l, v, pk, sig, h1, hl, h2, h3, c1, c2⟩ := ih (O y)
    refine ⟨y.1 :: l, v, pk, sig, ?_, ?_, h2, h3, c1.mono fun c => List.mem_cons_of_mem _,
      c2.mono fun c => List.mem_cons_of_mem _⟩
    · have e : (runWith (b := b) O).app (Repudiator.tree b P0 (.call y next)) =
          (y.1 :: ((runWith (b := b) O).app ((next (O (.of B y.1))).tree b P0)).1,
            ((runWith (b := b) O).app ((next (O (.of B y.1))).tree b P0)).2) := rfl
      rw [e, Query.of_val, h1]
    · rw [List.length_cons]
      omega

end

end Fips205.Props
