import Verif.Props.Damage
import Verif.Proofs.Recover

/-!
# Verification is as good as asking the signer (C96)

Any number of users generate keys, and sign and verify for an environment: a program that uses all of it, with everything
of its choice, gets private keys, and evaluates the hash functions.  In a second world verification for the users whose
private keys it does not have is replaced by looking into a register of all that was signed.  The environment sees the
same in both worlds, but for a negligible chance.
-/

namespace Fips205.Props
open Fips205 Fips205.Model Fips205.Oracle

variable {U : Nat} {sets : Fin U → ParamSet} {L B w : Nat} {b : Build}

/-- An environment that asks for `q` signatures, `T` verdicts and `Q` values of the hash functions.  The user `u` has a
key for the parameter set `sets u`.  What it asks for may depend on all answers so far. -/
inductive Env (sets : Fin U → ParamSet) (L B w : Nat) : Nat → Nat → Nat → Type
  | stop {q T Q : Nat} : Env sets L B w q T Q
  /-- the user `u` signs, hedged or not; `rnd` is what the random number generator does -/
  | sign {q T Q : Nat} (u : Fin U) (x : SigRequest L) (hedged : Bool) (rnd : Except Unit (Vector UInt8 (sets u).params.N))
      (next : Except String (Vector UInt8 (sets u).params.SIG_LEN) → Env sets L B w q T Q) : Env sets L B w (q + 1) T Q
  /-- the environment gets the private key of `u` -/
  | expose {q T Q : Nat} (u : Fin U) (next : PrivateKey (sets u).params → Env sets L B w q T Q) : Env sets L B w q T Q
  /-- somebody verifies a signature with the public key of `u` -/
  | check {q T Q : Nat} (u : Fin U) (x : SigRequest L) (sig : Vector UInt8 (sets u).params.SIG_LEN)
      (next : Bool → Env sets L B w q T Q) : Env sets L B w q (T + 1) Q
  /-- the environment evaluates a hash function -/
  | call {q T Q : Nat} (y : Query B) (next : Fin (256 ^ w) → Env sets L B w q T Q) : Env sets L B w q T (Q + 1)

/-- What the environment sees. -/
inductive Event (sets : Fin U → ParamSet) (w : Nat)
  | signed (u : Fin U) (r : Except String (Vector UInt8 (sets u).params.SIG_LEN))
  | key (u : Fin U) (sk : PrivateKey (sets u).params)
  | verdict (ok : Bool)
  | value (v : Fin (256 ^ w))

section
variable {m : Type → Type} [Rust m] (C : Crypto m)

/-- The run of an environment.  `judge` gives the verdicts; it may look at the users whose private keys are
exposed and into the register of all that was signed. -/
def Env.run (ask : Query B → m (Fin (256 ^ w))) (keys : Keys sets)
    (judge : List (Fin U) → List (Handed sets L) → Handed sets L → m Bool) :
    {q T Q : Nat} → Env sets L B w q T Q → List (Fin U) → List (Handed sets L) → m (List (Event sets w))
  | _, _, _, .stop, _, _ => pure []
  | _, _, _, .sign u x hedged rnd next, exposed, register => do
    let (_, r) ← x.sign C (keys u).2 hedged rnd
    let register := match r with
      | .ok sig => ⟨u, x, sig⟩ :: register
      | .error _ => register
    let es ← (next r).run ask keys judge exposed register
    pure (.signed u r :: es)
  | _, _, _, .expose u next, exposed, register => do
    let es ← (next (keys u).2).run ask keys judge (u :: exposed) register
    pure (.key u (keys u).2 :: es)
  | _, _, _, .check u x sig next, exposed, register => do
    let ok ← judge exposed register ⟨u, x, sig⟩
    let es ← (next ok).run ask keys judge exposed register
    pure (.verdict ok :: es)
  | _, _, _, .call y next, exposed, register => do
    let v ← ask y
    let es ← (next v).run ask keys judge exposed register
    pure (.value v :: es)

/-- The world of the API: the verdict is that of `verify` or `hash_verify`. -/
def judgeApi (keys : Keys sets) (_ : List (Fin U)) (_ : List (Handed sets L)) (h : Handed sets L) : m Bool :=
  h.2.1.verify C (keys h.1).1 h.2.2

open Classical in
/-- The ideal world: the verdict is whether this was signed, as long as the private key of the user is not exposed. -/
noncomputable def judgeIdeal (keys : Keys sets) (exposed : List (Fin U)) (register : List (Handed sets L))
    (h : Handed sets L) : m Bool :=
  if h.1 ∈ exposed then h.2.1.verify C (keys h.1).1 h.2.2 else pure (decide (h ∈ register))

/-- Key generation (`src/lib.rs:186-203`) for all users, then the run with these keys. -/
def world {q T Q : Nat} (ask : Query B → m (Fin (256 ^ w)))
    (judge : Keys sets → List (Fin U) → List (Handed sets L) → Handed sets L → m Bool)
    (E : ((u : Fin U) → PublicKey (sets u).params) → Env sets L B w q T Q) (coins : Coins sets) :
    m (Option (List (Event sets w))) := do
  let r ← genKeys C sets coins.tape
  match r with
  | none => pure none
  | some keys => do
    let es ← (E fun u => (keys u).1).run C ask keys (judge keys) [] []
    pure (some es)

end

/-- The world of the API when the hash functions are `P0` with the first `w` bytes given by `O`, in the build `b`. -/
def apiWorld {q T Q : Nat} (b : Build) (P0 : Spec.Prims)
    (E : ((u : Fin U) → PublicKey (sets u).params) → Env sets L B w q T Q) (coins : Coins sets)
    (O : Query B → Fin (256 ^ w)) : Exec b (Option (List (Event sets w))) :=
  world (crypto (withHash P0 O)) (fun y => pure (O y)) (judgeApi (crypto (withHash P0 O))) E coins

/-- The ideal world with the same hash functions and keys. -/
noncomputable def idealWorld {q T Q : Nat} (b : Build) (P0 : Spec.Prims)
    (E : ((u : Fin U) → PublicKey (sets u).params) → Env sets L B w q T Q) (coins : Coins sets)
    (O : Query B → Fin (256 ^ w)) : Exec b (Option (List (Event sets w))) :=
  world (crypto (withHash P0 O)) (fun y => pure (O y)) (judgeIdeal (crypto (withHash P0 O))) E coins

/-! ## What is seen -/

/-- The run, if the verdicts are given by `judge`. -/
def Env.seen (P : Spec.Prims) (O : Query B → Fin (256 ^ w)) (keys : Keys sets)
    (judge : List (Fin U) → List (Handed sets L) → Handed sets L → Bool) :
    {q T Q : Nat} → Env sets L B w q T Q → List (Fin U) → List (Handed sets L) → List (Event sets w)
  | _, _, _, .stop, _, _ => []
  | _, _, _, .sign u x hedged rnd next, exposed, register =>
    .signed u (x.answer P (keys u).2 hedged rnd) :: (next (x.answer P (keys u).2 hedged rnd)).seen P O keys judge exposed
      (handedBy u x (x.answer P (keys u).2 hedged rnd) register)
  | _, _, _, .expose u next, exposed, register =>
    .key u (keys u).2 :: (next (keys u).2).seen P O keys judge (u :: exposed) register
  | _, _, _, .check u x sig next, exposed, register =>
    .verdict (judge exposed register ⟨u, x, sig⟩) ::
      (next (judge exposed register ⟨u, x, sig⟩)).seen P O keys judge exposed register
  | _, _, _, .call y next, exposed, register => .value (O y) :: (next (O y)).seen P O keys judge exposed register

theorem run_eq (P : Spec.Prims) (O : Query B → Fin (256 ^ w)) (keys : Keys sets)
    (judge : List (Fin U) → List (Handed sets L) → Handed sets L → Exec b Bool)
    (judge' : List (Fin U) → List (Handed sets L) → Handed sets L → Bool)
    (hj : ∀ e l h, judge e l h = pure (judge' e l h)) {q T Q : Nat} (E : Env sets L B w q T Q) :
    ∀ exposed register, E.run (crypto P) (fun y => pure (O y)) keys judge exposed register =
      (pure (E.seen P O keys judge' exposed register) : Exec b _) := by
  induction E with
  | stop => intro exposed register; rfl
  | sign u x hedged rnd next ih =>
    intro exposed register
    rw [Env.run, exec_request_sign, pure_bind]
    dsimp only
    rw [Env.seen]
    exact (congrArg (· >>= fun es => pure (Event.signed u _ :: es)) (ih _ _ _)).trans (pure_bind _ _)
  | expose u next ih =>
    intro exposed register
    rw [Env.run, ih, pure_bind, Env.seen]
  | check u x sig next ih =>
    intro exposed register
    rw [Env.run, hj, pure_bind, ih, pure_bind, Env.seen]
  | call y next ih =>
    intro exposed register
    rw [Env.run, pure_bind, ih, pure_bind, Env.seen]

/-- The verdicts of the API. -/
def apiVerdict (P : Spec.Prims) (keys : Keys sets) (_ : List (Fin U)) (_ : List (Handed sets L)) (h : Handed sets L) :
    Bool :=
  h.2.1.check P (keys h.1).1 h.2.2

open Classical in
/-- The ideal verdicts. -/
noncomputable def idealVerdict (P : Spec.Prims) (keys : Keys sets) (exposed : List (Fin U)) (register : List (Handed sets L))
    (h : Handed sets L) : Bool :=
  if h.1 ∈ exposed then h.2.1.check P (keys h.1).1 h.2.2 else decide (h ∈ register)

theorem idealVerdict_iff {P : Spec.Prims} {keys : Keys sets} {exposed : List (Fin U)} {register : List (Handed sets L)}
    {h : Handed sets L} (hu : h.1 ∉ exposed) : idealVerdict P keys exposed register h = true ↔ h ∈ register := by
  simp [idealVerdict, hu]

theorem idealVerdict_exposed {P : Spec.Prims} {keys : Keys sets} {exposed : List (Fin U)} {register : List (Handed sets L)}
    {h : Handed sets L} (hu : h.1 ∈ exposed) :
    idealVerdict P keys exposed register h = apiVerdict P keys exposed register h := by
  simp [idealVerdict, apiVerdict, hu]

theorem apiWorld_eq {q T Q : Nat} (b : Build) (P0 : Spec.Prims)
    (E : ((u : Fin U) → PublicKey (sets u).params) → Env sets L B w q T Q) (coins : Coins sets)
    (O : Query B → Fin (256 ^ w)) :
    apiWorld b P0 E coins O = pure (some ((E fun u => (coinKeys (withHash P0 O) coins u).1).seen (withHash P0 O) O
      (coinKeys (withHash P0 O) coins) (apiVerdict (withHash P0 O) (coinKeys (withHash P0 O) coins)) [] [])) := by
  rw [apiWorld, world, exec_genKeys, pure_bind]
  dsimp only
  exact (congrArg (· >>= fun es => pure (some es)) (run_eq _ _ _ _ (apiVerdict _ _)
    (fun e l h => exec_request_verify _ _ _ _) _ _ _)).trans (pure_bind _ _)

theorem idealWorld_eq {q T Q : Nat} (b : Build) (P0 : Spec.Prims)
    (E : ((u : Fin U) → PublicKey (sets u).params) → Env sets L B w q T Q) (coins : Coins sets)
    (O : Query B → Fin (256 ^ w)) :
    idealWorld b P0 E coins O = pure (some ((E fun u => (coinKeys (withHash P0 O) coins u).1).seen (withHash P0 O) O
      (coinKeys (withHash P0 O) coins) (idealVerdict (withHash P0 O) (coinKeys (withHash P0 O) coins)) [] [])) := by
  rw [idealWorld, world, exec_genKeys, pure_bind]
  dsimp only
  refine (congrArg (· >>= fun es => pure (some es)) (run_eq _ _ _ _ (idealVerdict _ _) (fun e l h => ?_) _ _ _)).trans
    (pure_bind _ _)
  rw [judgeIdeal, idealVerdict]
  split
  · exact exec_request_verify _ _ _ _
  · rfl

/-! ## An environment that notices a difference is a forger -/

/-- The most hashes that verification takes, for any parameter set. -/
def verifyCap : Nat := 2 ^ 15

theorem verifyWork_le (ps : ParamSet) : verifyWork ps + 1 ≤ verifyCap := by cases ps <;> decide

theorem tree_verify {ps : ParamSet} (P0 : Spec.Prims) (O : Query B → Fin (256 ^ w)) (pk : PublicKey ps.params)
    (x : SigRequest L) (sig : Vector UInt8 ps.params.SIG_LEN) :
    let t : Tree Call (Fin (256 ^ w)) Panic _ := (x.verify (askCrypto P0) pk sig : AskExec b w _)
    (t.log fun c => O (.of B c)).length ≤ verifyCap ∧
      (t.result fun c => O (.of B c)) = .ok (x.check (withHash P0 O) pk sig) := by
  have h := map_request_verify (runWith (b := b) O) (askCrypto P0) x pk sig
  rw [runWith_crypto] at h
  obtain ⟨l, h1, h2, -⟩ := log_verify (b := b) (withHash P0 O) pk x sig
  have h := h.trans h1
  exact ⟨(congrArg (fun x : LogExec b _ => x.log.length) h).trans_le (h2.trans (verifyWork_le ps)), congrArg Prod.snd h⟩

open Classical in
/-- Run the environment in the ideal world up to the verdict with the number `i`, and present what is to be judged.
Verdicts for exposed users are computed. -/
noncomputable def Env.forger (b : Build) (P0 : Spec.Prims) (pks : (u : Fin U) → PublicKey (sets u).params) (u0 : Fin U) :
    {q T Q : Nat} → Env sets L B w q T Q → Nat → List (Fin U) → List (Handed sets L) → (Q' : Nat) →
    Q + T * verifyCap ≤ Q' → MultiForger sets L B w q Q'
  | _, _, _, .stop, _, _, _, _, _ => giveUp u0
  | _, _, _, .sign u x hedged rnd next, i, exposed, register, Q', h =>
    .sign u x hedged rnd fun r => (next r).forger b P0 pks u0 i exposed (handedBy u x r register) Q' h
  | _, _, _, .expose u next, i, exposed, register, Q', h =>
    .expose u fun sk => (next sk).forger b P0 pks u0 i (u :: exposed) register Q' h
  | _, _, _, .check u x sig _, 0, _, _, _, _ => .forge u x sig
  | _, _, _, .check (T := T) (Q := Q) u x sig next, i + 1, exposed, register, Q', h =>
    if u ∈ exposed then
      simulateBy (Q := Q + T * verifyCap) (giveUp u) (x.verify (askCrypto P0) (pks u) sig : AskExec b w _) verifyCap Q'
        (by rw [Nat.succ_mul] at h; omega) fun Q'' h'' ok => (next ok).forger b P0 pks u0 i exposed register Q'' h''
    else (next (decide (⟨u, x, sig⟩ ∈ register))).forger b P0 pks u0 i exposed register Q'
      (le_trans (Nat.add_le_add_left (Nat.mul_le_mul_right _ (Nat.le_succ _)) _) h)
  | _, _, _, .call _ _, _, _, _, 0, h => absurd h (by omega)
  | _, _, _, .call y next, i, exposed, register, Q' + 1, h =>
    .call y fun v => (next v).forger b P0 pks u0 i exposed register Q' (by omega)

theorem mem_handedBy {u : Fin U} {x : SigRequest L} {r : Except String (Vector UInt8 (sets u).params.SIG_LEN)}
    {l : List (Handed sets L)} {h : Handed sets L} (hh : h ∈ handedBy u x r l) :
    (∃ sig, r = .ok sig ∧ h = ⟨u, x, sig⟩) ∨ h ∈ l := by
  cases r with
  | error e => exact .inr hh
  | ok sig =>
    rcases List.mem_cons.mp hh with h | h
    · exact .inl ⟨sig, rfl, h⟩
    · exact .inr h

theorem seen_forger (b : Build) (P0 : Spec.Prims) (O : Query B → Fin (256 ^ w)) (keys : Keys sets) (u0 : Fin U)
    (hk : ∀ u, Consistent (withHash P0 O) (sets u) (keys u).2 ∧ (keys u).2.get_public_key = (keys u).1) {q T Q : Nat}
    (E : Env sets L B w q T Q) : ∀ exposed register,
    (∀ h ∈ register, h.2.1.check (withHash P0 O) (keys h.1).1 h.2.2 = true) →
    E.seen (withHash P0 O) O keys (apiVerdict (withHash P0 O) keys) exposed register ≠
      E.seen (withHash P0 O) O keys (idealVerdict (withHash P0 O) keys) exposed register →
    ∃ i < T, ∀ Q' h, ((E.forger b P0 (fun u => (keys u).1) u0 i exposed register Q' h).outcome (withHash P0 O) O keys
      register exposed).Forged := by
  induction E with
  | stop => intro exposed register _ h; exact absurd rfl h
  | sign u x hedged rnd next ih =>
    intro exposed register hr h
    have hr' : ∀ h ∈ handedBy u x (x.answer (withHash P0 O) (keys u).2 hedged rnd) register,
        h.2.1.check (withHash P0 O) (keys h.1).1 h.2.2 = true := by
      intro h' hh
      rcases mem_handedBy hh with ⟨sig, h1, rfl⟩ | h1
      · exact (hk u).2 ▸ answer_ok (hk u).1 h1
      · exact hr _ h1
    obtain ⟨i, hi, hf⟩ := ih _ exposed _ hr' fun e => h (by rw [Env.seen, Env.seen, e])
    exact ⟨i, hi, fun Q' h' => hf Q' h'⟩
  | expose u next ih =>
    intro exposed register hr h
    obtain ⟨i, hi, hf⟩ := ih (keys u).2 (u :: exposed) register hr fun e => h (by rw [Env.seen, Env.seen, e])
    exact ⟨i, hi, fun Q' h' => hf Q' h'⟩
  | call y next ih =>
    intro exposed register hr h
    obtain ⟨i, hi, hf⟩ := ih (O y) exposed register hr fun e => h (by rw [Env.seen, Env.seen, e])
    refine ⟨i, hi, fun Q' h' => ?_⟩
    obtain ⟨Q', rfl⟩ : ∃ n, Q' = n + 1 := ⟨Q' - 1, by omega⟩
    exact hf Q' _
  | @check q T Q u x sig next ih =>
    intro exposed register hr h
    by_cases hv : apiVerdict (withHash P0 O) keys exposed register ⟨u, x, sig⟩ =
      idealVerdict (withHash P0 O) keys exposed register ⟨u, x, sig⟩
    · obtain ⟨i, hi, hf⟩ := ih (idealVerdict (withHash P0 O) keys exposed register ⟨u, x, sig⟩) exposed register hr
        fun e => h (by rw [Env.seen, Env.seen, hv, e])
      refine ⟨i + 1, Nat.succ_lt_succ hi, fun Q' h' => ?_⟩
      by_cases hu : u ∈ exposed
      · obtain ⟨h3, h4⟩ := tree_verify (b := b) P0 O (keys u).1 x sig
        obtain ⟨Q'', h'', e⟩ := simulateBy_outcome (Q := Q + T * verifyCap) (giveUp u) (withHash P0 O) O keys register exposed
          (fun Q'' h'' ok => (next ok).forger b P0 (fun u => (keys u).1) u0 i exposed register Q'' h'') _ verifyCap Q'
          (by rw [Nat.succ_mul] at h'; omega) h3 h4
        rw [Env.forger, if_pos hu, e]
        rw [← hv] at hf
        exact hf Q'' h''
      · rw [Env.forger, if_neg hu]
        rw [idealVerdict, if_neg hu] at hf
        exact hf Q' _
    · refine ⟨0, Nat.succ_pos _, fun Q' h' => ?_⟩
      have hu : u ∉ exposed := fun hu => hv (idealVerdict_exposed hu).symm
      have hm : (⟨u, x, sig⟩ : Handed sets L) ∉ register := fun hm => hv (by
        rw [(idealVerdict_iff hu).mpr hm]
        exact hr _ hm)
      rw [Bool.eq_false_iff.mpr fun e => hm ((idealVerdict_iff hu).mp e), Bool.not_eq_false] at hv
      exact ⟨hv, hm, hu⟩

/-- **C96** No function of the API panics in either world, and key generation succeeds. -/
theorem C96_runs {q T Q : Nat} (b : Build) (P0 : Spec.Prims)
    (E : ((u : Fin U) → PublicKey (sets u).params) → Env sets L B w q T Q) (coins : Coins sets)
    (O : Query B → Fin (256 ^ w)) :
    (∃ es, apiWorld b P0 E coins O = pure (some es)) ∧ ∃ es, idealWorld b P0 E coins O = pure (some es) :=
  ⟨⟨_, apiWorld_eq b P0 E coins O⟩, _, idealWorld_eq b P0 E coins O⟩

/-- **C96** Take the hash functions to be random functions and what key generation draws to be random.  An environment with
`U` users, any of whose private keys it may get, `q` signatures, `T` verdicts and `Q` evaluations of the hash functions
sees something else in the world of the
API than in the ideal world with a chance of at most `T U (2^(t+5-8n) + 2^(2t+3-256) + 2^(-170))`. -/
theorem C96_worlds (P0 : Spec.Prims) (b : Build) (hw : 64 ≤ w) (hL : 492 + L ≤ B)
    (hB : ∀ u, 160 + ((sets u).sp.len + (sets u).sp.k) * (sets u).sp.n ≤ B) {n q T Q t : Nat} (hU : 0 < U)
    (hn : ∀ u, n ≤ (sets u).sp.n) (htn : t ≤ 8 * n) (hq : q ≤ 2 ^ 63) (hQ : Q + T * 2 ^ 15 + (q + U) * 2 ^ 22 + q + 1 < 2 ^ t)
    (E : ((u : Fin U) → PublicKey (sets u).params) → Env sets L B w q T Q) :
    prob (fun ω : Coins sets × (Query B → Fin (256 ^ w)) => apiWorld b P0 E ω.1 ω.2 ≠ idealWorld b P0 E ω.1 ω.2) ≤
    T * (U * (2 ^ (t + 5) / 2 ^ (8 * n) + 2 ^ (2 * t + 3) / 2 ^ 256 + 1 / 2 ^ 170)) := by
  refine le_trans ?_ (le_trans (Finset.sum_le_sum fun i (_ : i ∈ Finset.range T) =>
    C73_users P0 b hw hL hB hn htn hq hQ fun pks => (E pks).forger b P0 pks ⟨0, hU⟩ i [] [] _ le_rfl) (le_of_eq (by
      rw [Finset.sum_const, Finset.card_range, nsmul_eq_mul])))
  simp only [prob_eq]
  rw [← Oracle.avg_sum]
  refine Oracle.avg_mono fun ω => ?_
  by_cases hE : apiWorld b P0 E ω.1 ω.2 = idealWorld b P0 E ω.1 ω.2
  · refine le_trans (le_of_eq ?_) (Finset.sum_nonneg fun i _ => Oracle.ind_nonneg _)
    exact (Oracle.ind_congr (iff_false_intro (not_not_intro hE))).trans (by simp [Oracle.ind])
  · obtain ⟨i, hi, hf⟩ := seen_forger b P0 ω.2 (coinKeys (withHash P0 ω.2) ω.1) ⟨0, hU⟩
      (fun u => ⟨keyPair_consistent _ _ _, keyPair_public _ _ _⟩)
      (E fun u => (coinKeys (withHash P0 ω.2) ω.1 u).1) [] [] nofun fun e => hE (by rw [apiWorld_eq, idealWorld_eq, e])
    refine (Oracle.ind_le_one _).trans (le_trans (le_of_eq ?_) (Finset.single_le_sum (fun i _ => Oracle.ind_nonneg _)
      (Finset.mem_range.mpr hi)))
    exact ((Oracle.ind_congr (iff_true_intro ⟨_, romMultiGame_eq b P0 _ ω.1 ω.2, hf _ _⟩)).trans (by simp [Oracle.ind])).symm

/-- **C96** So no test of what is seen tells the worlds apart: its chances differ by no more than this. -/
theorem C96_tests (P0 : Spec.Prims) (b : Build) (hw : 64 ≤ w) (hL : 492 + L ≤ B)
    (hB : ∀ u, 160 + ((sets u).sp.len + (sets u).sp.k) * (sets u).sp.n ≤ B) {n q T Q t : Nat} (hU : 0 < U)
    (hn : ∀ u, n ≤ (sets u).sp.n) (htn : t ≤ 8 * n) (hq : q ≤ 2 ^ 63) (hQ : Q + T * 2 ^ 15 + (q + U) * 2 ^ 22 + q + 1 < 2 ^ t)
    (E : ((u : Fin U) → PublicKey (sets u).params) → Env sets L B w q T Q) (test : List (Event sets w) → Prop) :
    |prob (fun ω : Coins sets × (Query B → Fin (256 ^ w)) => ∃ es, apiWorld b P0 E ω.1 ω.2 = pure (some es) ∧ test es) -
      prob (fun ω : Coins sets × (Query B → Fin (256 ^ w)) => ∃ es, idealWorld b P0 E ω.1 ω.2 = pure (some es) ∧ test es)| ≤
    T * (U * (2 ^ (t + 5) / 2 ^ (8 * n) + 2 ^ (2 * t + 3) / 2 ^ 256 + 1 / 2 ^ 170)) := by
  have h := C96_worlds P0 b hw hL hB hU hn htn hq hQ E
  have key : ∀ W W' : Coins sets × (Query B → Fin (256 ^ w)) → Exec b (Option (List (Event sets w))),
      prob (fun ω => ∃ es, W ω = pure (some es) ∧ test es) ≤
      prob (fun ω => ∃ es, W' ω = pure (some es) ∧ test es) + prob fun ω => W ω ≠ W' ω := by
    intro W W'
    rw [prob_eq, prob_eq, prob_eq, ← Oracle.avg_add]
    refine Oracle.avg_mono fun ω => (Oracle.ind_mono fun h => ?_).trans (Oracle.ind_or_le _ _)
    by_cases e : W ω = W' ω
    · exact .inl (e ▸ h)
    · exact .inr e
  have h1 := key (fun ω => apiWorld b P0 E ω.1 ω.2) fun ω => idealWorld b P0 E ω.1 ω.2
  have h2 := key (fun ω => idealWorld b P0 E ω.1 ω.2) fun ω => apiWorld b P0 E ω.1 ω.2
  simp only [ne_comm (a := idealWorld b P0 E _ _)] at h2
  rw [abs_le]
  constructor <;> linarith

/-! ## The hypotheses can be met, and the worlds can differ -/

/-- Twelve users with all parameter sets, a thousand signatures, a million verdicts, a million evaluations. -/
example (b : Build) (E : ((u : Fin 12) → PublicKey (twelve u).params) → Env twelve 10 4000 64 1000 1000000 1000000) :
    prob (fun ω : Coins twelve × (Query 4000 → Fin (256 ^ 64)) =>
      apiWorld b demoPrims E ω.1 ω.2 ≠ idealWorld b demoPrims E ω.1 ω.2) ≤ 1 / 2 ^ 63 :=
  (C96_worlds (n := 16) (t := 36) demoPrims b (by decide) (by decide) (fun u => by cases twelve u <;> decide) (by decide)
    (fun u => by cases twelve u <;> decide) (by decide) (by decide) (by decide) E).trans (by norm_num)

/-- An environment that gets the private key of one user, has a message signed by another one and the signature verified for another one. -/
def demoEnv (ps : ParamSet) : Env (fun _ : Fin 2 => ps) 10 4000 64 1 1 0 :=
  .expose 0 fun _ => .sign 1 ⟨none, [9], [1, 2], by decide⟩ false (.error ()) fun
    | .ok sig => .check 1 ⟨some .SHA256, [8], [1], by decide⟩ sig fun _ => .stop
    | .error _ => .stop

/-- It sees a difference if the functions are constant. -/
example {ps : ParamSet} (b : Build) (coins : Coins fun _ : Fin 2 => ps) (O : Query 4000 → Fin (256 ^ 64))
    (x : Fin (256 ^ 64)) (hO : ∀ y, O y = x) :
    apiWorld b demoPrims (fun _ => demoEnv ps) coins O ≠ idealWorld b demoPrims (fun _ => demoEnv ps) coins O := by
  obtain ⟨hcons, hpk⟩ := (widePair_generated demoPrims (toVec _ (Spec.toByte (coins 1).2.2 ps.sp.n)) (coins 1).1
    (coins 1).2.1 O).consistent
  have hk : coinKeys (withHash demoPrims O) coins 1 =
    widePair demoPrims (toVec _ (Spec.toByte (coins 1).2.2 ps.sp.n)) (coins 1).1 (coins 1).2.1 O := rfl
  rw [← hk] at hcons hpk
  have hv : ∀ M M', Spec.verifyInternal ps.sp (ps.hf (withHash demoPrims O)) M' (sigVec ps (withHash demoPrims O) M
      (coinKeys (withHash demoPrims O) coins 1).2.key (coinKeys (withHash demoPrims O) coins 1).2.key.pk_seed).toList
      (coinKeys (withHash demoPrims O) coins 1).2.key.pk_seed.toList
      (coinKeys (withHash demoPrims O) coins 1).2.key.pk_root.toList = true := by
    cases hps : ps.family with
    | sha2 => exact const_sig2 hps (by decide) hO hcons
    | shake => exact const_sig hps (by cases ps <;> decide) hO hcons
  rw [apiWorld_eq, idealWorld_eq]
  intro h
  have h := Option.some.inj (Exec.pure_inj h)
  simp only [demoEnv, Env.seen, SigRequest.answer, Props.coins, handedBy, apiVerdict, SigRequest.check,
    List.length_cons, List.length_nil, Nat.reduceLT, Nat.reduceAdd, Bool.false_eq_true, if_false, Option.getD_none, ← hpk] at h
  have h := Event.verdict.inj (List.cons.inj (List.cons.inj (List.cons.inj h).2).2).1
  have h := (idealVerdict_iff (by simp)).mp (h.symm.trans (hv _ _))
  have h : ([8] : List UInt8) = [9] := congrArg (fun e : Handed (fun _ : Fin 2 => ps) 10 => e.2.1.ctx)
    (List.mem_singleton.mp h)
  exact absurd h (by decide)

end Fips205.Props
