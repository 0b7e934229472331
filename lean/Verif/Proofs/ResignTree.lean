import Verif.Props.ResignGame
import Verif.Proofs.ResignSign

/-!
# The game of the resigner as a program that evaluates a random function

First the player, then the points that depend on the message, the rest of the signer and the player again, and last the
verification.
-/

namespace Fips205.Props
open Fips205 Fips205.Model Fips205.Oracle

variable {ps : ParamSet} {L W B w Q Q' : Nat} {b : Build}

/-! ## The outcome -/

/-- What the player presents. -/
def Resigner.final (O : Query B → Fin (256 ^ w)) : {Q : Nat} → Resigner ps B w Q →
    Vector UInt8 ps.params.PK_LEN × SignMode × Vector UInt8 ps.params.SIG_LEN
  | _, .present v y sig => (v, y, sig)
  | _, .call y next => (next (O y)).final O

/-- The outcome with that. -/
def presented (P : Spec.Prims) (pk : PublicKey ps.params) (x : SignMode) (c : Choice L W) (i : Fin W)
    (r : Vector UInt8 ps.params.PK_LEN × SignMode × Vector UInt8 ps.params.SIG_LEN) : OwnOutcome ps L where
  pk := pk
  x := x.request c i
  pk' := pkOf r.1
  y := r.2.1.request c i
  accepted := (r.2.1.request c i).check P (pkOf r.1) r.2.2

theorem resigner_eq (P : Spec.Prims) (O : Query B → Fin (256 ^ w)) (pk : PublicKey ps.params) (x : SignMode)
    (c : Choice L W) (i : Fin W) {Q : Nat} (A : Resigner ps B w Q) :
    A.play (crypto P) (fun y => pure (O y)) pk x c i = (pure (some (presented P pk x c i (A.final O))) : Exec b _) := by
  induction A with
  | present v y sig =>
    rw [Resigner.play, exec_pkOf, pure_bind, ownVerdict, exec_request_verify, pure_bind]
    rfl
  | call y next ih =>
    rw [Resigner.play, pure_bind, ih]
    rfl

/-- What the player has signed. -/
def Drafter.draft (O : Query B → Fin (256 ^ w)) : {Q : Nat} → Drafter ps L W B w Q' Q → Draft ps L W B w Q'
  | _, .sign a => a
  | _, .call y next => (next (O y)).draft O

/-- The outcome with that. -/
def Draft.outcome (a : Draft ps L W B w Q') (P : Spec.Prims) (O : Query B → Fin (256 ^ w)) (i : Fin W)
    (v : Vector UInt8 ps.params.N) : Option (OwnOutcome ps L) :=
  (ownSigned P v (a.x.request a.c i) (decodeOf P a.sk)).map fun r =>
    presented P r.1.get_public_key a.x a.c i ((a.next r.2).final O)

theorem drafter_eq (P : Spec.Prims) (O : Query B → Fin (256 ^ w)) (i : Fin W) (v : Vector UInt8 ps.params.N) {Q : Nat}
    (A : Drafter ps L W B w Q' Q) :
    A.play (crypto P) (fun y => pure (O y)) i v = (pure ((A.draft O).outcome P O i v) : Exec b _) := by
  induction A with
  | sign a =>
    rw [Drafter.play, exec_decodeOf, pure_bind, exec_ownSign, pure_bind, Drafter.draft, Draft.outcome]
    cases ownSigned P v (a.x.request a.c i) (decodeOf P a.sk) with
    | none => rfl
    | some r => exact resigner_eq P O _ _ _ _ _
  | call y next ih =>
    rw [Drafter.play, pure_bind, ih]
    rfl

/-! ## The player -/

/-- What the player hashes before the signature is made. -/
def Drafter.tree (b : Build) : {Q : Nat} → Drafter ps L W B w Q' Q → AskExec b w (Draft ps L W B w Q')
  | _, .sign a => Tree.done (.ok a)
  | _, .call y next => Tree.ask y.1 fun u => (next u).tree b

theorem run_drafter (O : Query B → Fin (256 ^ w)) {Q : Nat} (A : Drafter ps L W B w Q' Q) :
    ∃ l : List Call, (runWith (b := b) O).app (A.tree b) = (l, .ok (A.draft O)) ∧ l.length ≤ Q := by
  induction A with
  | sign a => exact ⟨[], rfl, Nat.zero_le _⟩
  | call y next ih =>
    obtain ⟨l, h1, h2⟩ := ih (O y)
    refine ⟨y.1 :: l, ?_, by rw [List.length_cons]; omega⟩
    have e : (runWith (b := b) O).app (Drafter.tree b (.call y next)) =
        (y.1 :: ((runWith (b := b) O).app ((next (O (.of B y.1))).tree b)).1,
          ((runWith (b := b) O).app ((next (O (.of B y.1))).tree b)).2) := rfl
    rw [e, Query.of_val, h1]
    rfl

/-- What the player hashes afterwards; last, for the proof, the key and the first bytes of the signature. -/
def Resigner.tree (b : Build) : {Q : Nat} → Resigner ps B w Q →
    AskExec b w (Vector UInt8 ps.params.PK_LEN × SignMode × Vector UInt8 ps.params.SIG_LEN)
  | _, .present v y sig => Tree.ask ⟨.shake256, sig.toList.take ps.sp.n ++ v.toList⟩ fun _ => Tree.done (.ok (v, y, sig))
  | _, .call y next => Tree.ask y.1 fun u => (next u).tree b

theorem run_resigner (O : Query B → Fin (256 ^ w)) {Q : Nat} (A : Resigner ps B w Q) :
    ∃ l : List Call, (runWith (b := b) O).app (A.tree b) = (l, .ok (A.final O)) ∧ l.length ≤ Q + 1 ∧
      ⟨.shake256, (A.final O).2.2.toList.take ps.sp.n ++ (A.final O).1.toList⟩ ∈ l := by
  induction A with
  | present v y sig => exact ⟨[_], rfl, by rw [List.length_singleton]; omega, List.mem_singleton_self _⟩
  | call y next ih =>
    obtain ⟨l, h1, h2, h3⟩ := ih (O y)
    refine ⟨y.1 :: l, ?_, by rw [List.length_cons]; omega, List.mem_cons_of_mem _ h3⟩
    have e : (runWith (b := b) O).app (Resigner.tree b (.call y next)) =
        (y.1 :: ((runWith (b := b) O).app ((next (O (.of B y.1))).tree b)).1,
          ((runWith (b := b) O).app ((next (O (.of B y.1))).tree b)).2) := rfl
    rw [e, Query.of_val, h1]
    rfl

/-- The rest of the signer, and the player. -/
def Draft.rest (b : Build) (P0 : Spec.Prims) (a : Draft ps L W B w Q') (R δ : List UInt8) :
    AskExec b w (Vector UInt8 ps.params.PK_LEN × SignMode × Vector UInt8 ps.params.SIG_LEN) := do
  let sig ← restP b P0 (skOf a.sk).key R δ
  (a.next sig).tree b

theorem run_rest (P0 : Spec.Prims) (O : Query B → Fin (256 ^ w)) (a : Draft ps L W B w Q') {R δ : List UInt8}
    (hR : R.length = ps.sp.n) (hδ : δ.length = ps.sp.m) :
    let r := (a.next (givenSig ps (withHash P0 O) (skOf a.sk).key R δ)).final O
    ∃ l : List Call, (runWith (b := b) O).app (a.rest b P0 R δ) = (l, .ok r) ∧ l.length ≤ signMost ps + (Q' + 1) ∧
      ⟨.shake256, r.2.2.toList.take ps.sp.n ++ r.1.toList⟩ ∈ l := by
  obtain ⟨l1, h1, h2⟩ := run_restP (b := b) P0 O (skOf a.sk).key hR hδ
  obtain ⟨l2, h3, h4, h5⟩ := run_resigner (b := b) O (a.next (givenSig ps (withHash P0 O) (skOf a.sk).key R δ))
  refine ⟨l1 ++ l2, ?_, ?_, List.mem_append_right _ h5⟩
  · rw [Draft.rest, RustHom.map_bind]
    exact log_bind h1 h3
  · rw [List.length_append]
    omega

/-! ## The points that depend on the message -/

theorem hd_def (h : Nat) (us : List (Fin (256 ^ w))) (j : Nat) : hd h us j = Spec.toByte (headOf h (nth us j)) h := rfl

theorem steps_shake (h : ps.family = .shake) : steps ps = 3 := by rw [steps, h]

theorem steps_sha2 (h : ps.family = .sha2) : steps ps = 4 + blocks ps := by rw [steps, h]

theorem randOf_shake (h : ps.family = .shake) (us : List (Fin (256 ^ w))) : randOf ps us = hd ps.sp.n us 1 := by
  rw [randOf, coinNo, h]

theorem randOf_sha2 (h : ps.family = .sha2) (us : List (Fin (256 ^ w))) : randOf ps us = hd ps.sp.n us 2 := by
  rw [randOf, coinNo, h]

theorem resDig_length (us : List (Fin (256 ^ w))) : (resDig ps us).length = ps.sp.m := by
  rw [resDig]
  split
  · exact hd_length _ _ _
  · have h : ∀ k, (Spec.concat k fun j => hd (hlen ps) us (j + 4)).length = k * hlen ps := fun k => by
      rw [Spec.concat]
      induction k with
      | zero => simp
      | succ k ih =>
        rw [List.range_succ, List.flatMap_append, List.length_append, ih, List.flatMap_singleton, hd_length, Nat.succ_mul]
    rw [List.length_take, h]
    refine Nat.min_eq_left ?_
    cases ps <;> decide

theorem randOf_length (us : List (Fin (256 ^ w))) : (randOf ps us).length = ps.sp.n := hd_length _ _ _

section
variable {J : Job ps} {us : List (Fin (256 ^ w))} (hw : 64 ≤ w) (P0 : Spec.Prims) {O : Query B → Fin (256 ^ w)}
  (hO : ∀ j < steps ps, O (J.q B us j) = nth us j)
include hw hO

theorem job_str {x : SigRequest L} (h1 : x.ph = J.ph) (h2 : x.ctx = J.ctx) (h3 : x.msg = J.msg) :
    x.str (withHash P0 O) = J.str us := by
  rw [SigRequest.str, Job.str, h1]
  cases hph : J.ph with
  | none => rw [h2, h3]
  | some ph =>
    have h0 := hO 0 (by rw [steps]; split <;> omega)
    have e : J.q B us 0 = .of B ⟨ph.spec, J.msg⟩ := by
      unfold Job.q Job.point
      split <;> simp only [Job.pointShake, Job.pointSha2, Job.first, hph] <;> rfl
    rw [e] at h0
    dsimp only
    rw [phMsg, h2, h3, wide_preHash hw, h0, hd, toByte_headOf ((phLen_le ph).trans hw)]

theorem job_rand (hk : J.k.length = ps.sp.n) :
    (ps.hf (withHash P0 O)).PRFmsg J.k (Spec.toByte J.v ps.sp.n) (J.str us) = randOf ps us := by
  have hn : ps.sp.n ≤ w := (n_le_32 ps).trans ((show 32 ≤ 64 by decide).trans hw)
  cases hps : ps.family with
  | shake =>
    have h1 := hO 1 (by rw [steps_shake hps]; decide)
    unfold Job.q Job.point at h1
    simp only [hps, Job.pointShake] at h1
    rw [hf_shake hps, randOf_shake hps, hd, toByte_headOf hn, ← h1]
    exact wide_shake hn _
  | sha2 =>
    have h1 := hO 1 (by rw [steps_sha2 hps]; omega)
    have h2 := hO 2 (by rw [steps_sha2 hps]; omega)
    unfold Job.q Job.point at h1 h2
    simp only [hps, Job.pointSha2] at h1 h2
    have e1 : shaOf ps (withHash P0 O) (hmacPad (blen ps) J.k 0x36 ++ Spec.toByte J.v ps.sp.n ++ J.str us) =
        hd (hlen ps) us 1 := by
      rw [wide_sha hw, hd, ← h1]
      rfl
    rw [prfMsg_sha2 hps _ hk, e1, wide_sha hw, randOf_sha2 hps, hd_def ps.sp.n us 2, ← h2, toByte_headOf ((hlen_le ps).trans hw),
      toByte_headOf hn, List.take_take, Nat.min_eq_left (n_le_hlen ps)]
    rfl

theorem job_dig : (ps.hf (withHash P0 O)).Hmsg (randOf ps us) J.seed J.root (J.str us) = resDig ps us := by
  have hm : ps.sp.m ≤ w := (show ps.sp.m ≤ 64 by cases ps <;> decide).trans hw
  cases hps : ps.family with
  | shake =>
    have h2 := hO 2 (by rw [steps_shake hps]; decide)
    unfold Job.q Job.point at h2
    simp only [hps, Job.pointShake] at h2
    have e : resDig ps us = hd ps.sp.m us 2 := by rw [resDig, hps]
    rw [hf_shake hps, randOf_shake hps, e, hd_def _ us 2, toByte_headOf hm, ← h2]
    exact wide_shake hm _
  | sha2 =>
    have h3 := hO 3 (by rw [steps_sha2 hps]; omega)
    have h4 : ∀ j < blocks ps, _ := fun j hj => hO (j + 4) (by rw [steps_sha2 hps]; omega)
    unfold Job.q Job.point at h3 h4
    simp only [hps, Job.pointSha2] at h3 h4
    have e : randOf ps us = hd ps.sp.n us 2 := randOf_sha2 hps us
    have e3 : shaOf ps (withHash P0 O) (hd ps.sp.n us 2 ++ J.seed ++ J.root ++ J.str us) = hd (hlen ps) us 3 := by
      rw [wide_sha hw, hd_def _ us 3, ← h3]
      rfl
    rw [sha2_Hmsg hps, e, e3, resDig, hps, Spec.mgf1, Spec.trunc]
    dsimp only
    congr 1
    unfold Spec.concat
    refine List.flatMap_congr fun j hj => ?_
    rw [wide_sha hw, hd_def _ us (j + 4), ← h4 j (List.mem_range.mp hj)]
    rfl

end

/-- The points of the signer. -/
def Draft.job (a : Draft ps L W B w Q') (i : Fin W) (v : Fin (256 ^ ps.sp.n)) : Job ps where
  k := (skOf a.sk).key.sk_prf.toList
  seed := (skOf a.sk).key.pk_seed.toList
  root := (skOf a.sk).key.pk_root.toList
  v := v
  ph := a.x.ph
  ctx := a.x.ctx
  msg := a.c.msg i

theorem job_ok (hL : 492 + L ≤ B) (a : Draft ps L W B w Q') (i : Fin W) (v : Fin (256 ^ ps.sp.n))
    (hc : a.x.ctx.length ≤ 255) : (a.job i v).Ok B :=
  ⟨seed_length _, seed_length _, seed_length _, hc, (Nat.add_le_add_left (a.c.short i) _).trans hL⟩

/-- The signature that is made, if one is. -/
theorem signed_given (hw : 64 ≤ w) (P0 : Spec.Prims) {O : Query B → Fin (256 ^ w)} (a : Draft ps L W B w Q') (i : Fin W)
    (v : Fin (256 ^ ps.sp.n)) {us : List (Fin (256 ^ w))}
    (hO : ∀ j < steps ps, O ((a.job i v).q B us j) = nth us j) {sk : PrivateKey ps.params}
    {sig : Vector UInt8 ps.params.SIG_LEN}
    (h : ownSigned (withHash P0 O) (toVec _ (Spec.toByte v ps.sp.n)) (a.x.request a.c i) (decodeOf (withHash P0 O) a.sk) =
      some (sk, sig)) :
    sk = skOf a.sk ∧ sig = givenSig ps (withHash P0 O) (skOf a.sk).key (randOf ps us) (resDig ps us) := by
  unfold ownSigned at h
  split at h
  · cases h
  rename_i k hk
  have hk : k = skOf a.sk := by
    rw [decodeOf] at hk
    split at hk
    · exact (Except.ok.inj hk).symm
    · cases hk
  split at h
  · cases h
  rename_i s hs
  obtain ⟨rfl, rfl⟩ := Prod.mk.inj (Option.some.inj h)
  refine ⟨hk, ?_⟩
  rw [SigRequest.answer] at hs
  split at hs
  · cases hs
  have hs : Except.ok (sigVec ps (withHash P0 O) ((a.x.request a.c i).str (withHash P0 O)) k.key
    (toVec _ (Spec.toByte v ps.sp.n))) = Except.ok s := hs
  have e1 : (a.x.request a.c i).str (withHash P0 O) = (a.job i v).str us := job_str hw P0 hO rfl rfl rfl
  have ev : (toVec ps.params.N (Spec.toByte v ps.sp.n)).toList = Spec.toByte v ps.sp.n :=
    toVec_toList (by rw [Spec.toByte_length]; cases ps <;> rfl)
  have e2 := job_rand hw P0 hO (seed_length _)
  have e3 := job_dig hw P0 hO
  rw [← Except.ok.inj hs, sigVec_given, hk, ev, e1]
  rw [show (a.job i v).k = (skOf a.sk).key.sk_prf.toList from rfl, show (a.job i v).v = v from rfl] at e2
  rw [show (a.job i v).seed = (skOf a.sk).key.pk_seed.toList from rfl,
    show (a.job i v).root = (skOf a.sk).key.pk_root.toList from rfl] at e3
  rw [e2, e3]

end Fips205.Props
