import Verif.Props.MultiForgery
import Verif.Props.RecoverGame
import Verif.Proofs.OwnTree

/-!
# Who finds a private key can forge

They sign something that was not signed before with it.
-/

namespace Fips205.Props
open Fips205 Fips205.Model Fips205.Oracle

variable {U : Nat} {sets : Fin U → ParamSet} {L B w : Nat} {b : Build}

/-! ## The outcome -/

/-- The outcome of the game with these keys. -/
def Recoverer.outcome (P : Spec.Prims) (O : Query B → Fin (256 ^ w)) (keys : Keys sets) :
    {q Q : Nat} → Recoverer sets L B w q Q → List (Fin U) → RecoverOutcome sets
  | _, _, .present u v, exposed => { u, pk := (keys u).1, found := decodeOf P v, exposed }
  | _, _, .sign u x hedged rnd next, exposed =>
    (next (x.answer P (keys u).2 hedged rnd)).outcome P O keys exposed
  | _, _, .expose u next, exposed => (next (keys u).2).outcome P O keys (u :: exposed)
  | _, _, .call y next, exposed => (next (O y)).outcome P O keys exposed

theorem recover_attack_eq (P : Spec.Prims) (O : Query B → Fin (256 ^ w)) (keys : Keys sets) {q Q : Nat}
    (A : Recoverer sets L B w q Q) : ∀ exposed,
    A.attack (crypto P) (fun y => pure (O y)) keys exposed = (pure (A.outcome P O keys exposed) : Exec b _) := by
  induction A with
  | present u v =>
    intro exposed
    rw [Recoverer.attack, exec_decodeOf, pure_bind, Recoverer.outcome]
  | sign u x hedged rnd next ih =>
    intro exposed
    rw [Recoverer.attack, exec_request_sign, pure_bind, Recoverer.outcome]
    exact ih _ _
  | expose u next ih =>
    intro exposed
    rw [Recoverer.attack, Recoverer.outcome]
    exact ih _ _
  | call y next ih =>
    intro exposed
    rw [Recoverer.attack, pure_bind, Recoverer.outcome]
    exact ih _ _

/-- The outcome of the game. -/
def recoverOutcome {q Q : Nat} (P0 : Spec.Prims)
    (A : ((u : Fin U) → PublicKey (sets u).params) → Recoverer sets L B w q Q) (coins : Coins sets)
    (O : Query B → Fin (256 ^ w)) : RecoverOutcome sets :=
  (A fun u => (coinKeys (withHash P0 O) coins u).1).outcome (withHash P0 O) O (coinKeys (withHash P0 O) coins) []

theorem romRecoverGame_eq {q Q : Nat} (b : Build) (P0 : Spec.Prims)
    (A : ((u : Fin U) → PublicKey (sets u).params) → Recoverer sets L B w q Q) (coins : Coins sets)
    (O : Query B → Fin (256 ^ w)) : romRecoverGame b P0 A coins O = pure (some (recoverOutcome P0 A coins O)) := by
  rw [romRecoverGame, recoverGame, exec_genKeys, pure_bind]
  dsimp only
  rw [recover_attack_eq, pure_bind]
  rfl

/-! ## Programs become calls of the forger -/

/-- Run a program, with at most `fuel` evaluations, and continue; `stop` if it does not end well. -/
def simulateBy {α : Type} {q Q : Nat} (stop : {Q : Nat} → MultiForger sets L B w q Q) :
    Tree Call (Fin (256 ^ w)) Panic α → (fuel Q' : Nat) → Q + fuel ≤ Q' →
    ((Q' : Nat) → Q ≤ Q' → α → MultiForger sets L B w q Q') → MultiForger sets L B w q Q'
  | .done (.ok v), _, Q', h, k => k Q' (by omega) v
  | .done (.error _), _, _, _, _ => stop
  | .ask _ _, 0, _, _, _ => stop
  | .ask _ _, _ + 1, 0, h, _ => absurd h (Nat.not_succ_le_zero _)
  | .ask c t, fuel + 1, Q' + 1, h, k => .call (.of B c) fun v => simulateBy stop (t v) fuel Q' (by omega) k

theorem simulateBy_outcome {α : Type} {q Q : Nat} (stop : {Q : Nat} → MultiForger sets L B w q Q) (P : Spec.Prims)
    (O : Query B → Fin (256 ^ w)) (keys : Keys sets) (asked exposed)
    (k : (Q' : Nat) → Q ≤ Q' → α → MultiForger sets L B w q Q') {v : α} (t : Tree Call (Fin (256 ^ w)) Panic α) :
    ∀ (fuel Q' : Nat) (h : Q + fuel ≤ Q'),
    (t.log fun c => O (.of B c)).length ≤ fuel → (t.result fun c => O (.of B c)) = .ok v →
    ∃ Q'' h'', (simulateBy stop t fuel Q' h k).outcome P O keys asked exposed =
      (k Q'' h'' v).outcome P O keys asked exposed := by
  induction t with
  | done r =>
    intro fuel Q' h _ hr
    obtain rfl : r = .ok v := hr
    exact ⟨Q', by omega, by rw [simulateBy]⟩
  | ask c t ih =>
    intro fuel Q' h hl hr
    rw [Tree.log, List.length_cons] at hl
    obtain ⟨fuel, rfl⟩ : ∃ n, fuel = n + 1 := ⟨fuel - 1, by omega⟩
    obtain ⟨Q', rfl⟩ : ∃ n, Q' = n + 1 := ⟨Q' - 1, by omega⟩
    rw [simulateBy, MultiForger.outcome]
    exact ih _ fuel Q' (by omega) (by omega) hr

/-! ## Something that was not signed -/

theorem exists_fresh (l : List (List UInt8)) (hl : l.length < 2 ^ 64) : ∃ i, Spec.toByte i 8 ∉ l := by
  by_contra hc
  push Not at hc
  have hn : ((List.range (2 ^ 64)).map fun i => Spec.toByte i 8).Nodup := by
    refine List.Nodup.map_on (fun i hi j hj e => ?_) List.nodup_range
    have h := congrArg Spec.toInt e
    rw [Spec.toInt_toByte, Spec.toInt_toByte] at h
    have hi := List.mem_range.mp hi
    have hj := List.mem_range.mp hj
    rwa [Nat.mod_eq_of_lt (by omega), Nat.mod_eq_of_lt (by omega)] at h
  have := (List.subperm_of_subset hn (l₂ := l) fun x hx => by
    obtain ⟨i, -, rfl⟩ := List.mem_map.mp hx
    exact hc i).length_le
  rw [List.length_map, List.length_range] at this
  omega

/-- A request that is not in the list. -/
noncomputable def freshRequest (L : Nat) (l : List (SigRequest L)) : SigRequest L where
  ph := none
  ctx := if h : l.length < 2 ^ 64 then
      Spec.toByte (exists_fresh (l.map SigRequest.ctx) (by rwa [List.length_map])).choose 8
    else []
  msg := []
  short := Nat.zero_le _

theorem freshRequest_ctx (l : List (SigRequest L)) : (freshRequest L l).ctx.length ≤ 255 := by
  simp only [freshRequest]
  split
  · rw [Spec.toByte_length]; decide
  · exact Nat.zero_le _

theorem freshRequest_not_mem {l : List (SigRequest L)} (hl : l.length < 2 ^ 64) : freshRequest L l ∉ l := by
  intro h
  have h1 := (exists_fresh (l.map SigRequest.ctx) (by rwa [List.length_map])).choose_spec
  refine h1 ?_
  have := List.mem_map_of_mem (f := SigRequest.ctx) h
  simp only [freshRequest, dif_pos hl] at this
  exact this

/-! ## The forger -/

/-- Give up. -/
def giveUp {q Q : Nat} (u : Fin U) : MultiForger sets L B w q Q := .forge u ⟨none, [], [], Nat.zero_le _⟩ (toVec _ [])

/-- The forger, who keeps a list of what was asked for. -/
noncomputable def Recoverer.forger (b : Build) (P0 : Spec.Prims) : {q Q : Nat} → Recoverer sets L B w q Q →
    List (SigRequest L) → (Q' : Nat) → Q + signCap ≤ Q' → MultiForger sets L B w q Q'
  | _, _, .present u v, l, Q', h =>
    simulateBy (giveUp u) ((freshRequest L l).sign (askCrypto P0) (skOf v) false (.error ()) : AskExec b w _) signCap Q' h
      fun _ _ r => match r.2 with
        | .ok sig => .forge u (freshRequest L l) sig
        | .error _ => giveUp u
  | _, _, .sign u x hedged rnd next, l, Q', h => .sign u x hedged rnd fun r => (next r).forger b P0 (x :: l) Q' h
  | _, _, .expose u next, l, Q', h => .expose u fun sk => (next sk).forger b P0 l Q' h
  | _, _, .call _ _, _, 0, h => absurd h (by omega)
  | _, _, .call y next, l, Q' + 1, h => .call y fun v => (next v).forger b P0 l Q' (by omega)

/-- A private key for the public key makes signatures that are accepted. -/
theorem answer_check {ps : ParamSet} {P : Spec.Prims} {sk : PrivateKey ps.params} {pk : PublicKey ps.params}
    (hk : Consistent P ps sk) (hpk : sk.get_public_key = pk) (x : SigRequest L) (hx : x.ctx.length ≤ 255) :
    ∃ sig, x.answer P sk false (.error ()) = .ok sig ∧ x.check P pk sig = true := by
  refine ⟨sigVec ps P (x.str P) sk.key sk.key.pk_seed, ?_, ?_⟩
  · rw [SigRequest.answer, if_neg (by omega)]
    rfl
  · rw [SigRequest.check, if_neg (by omega), ← hpk]
    exact verifyInternal_sigVec hk _ _

theorem forger_outcome (P0 : Spec.Prims) (O : Query B → Fin (256 ^ w)) (keys : Keys sets) {q Q : Nat}
    (A : Recoverer sets L B w q Q) : ∀ (l : List (SigRequest L)) (Q' : Nat) (h : Q + signCap ≤ Q')
    (asked : List (Handed sets L)) (exposed : List (Fin U)), (∀ e ∈ asked, e.2.1 ∈ l) → l.length + q < 2 ^ 64 →
    (A.outcome (withHash P0 O) O keys exposed).Won →
    ((A.forger b P0 l Q' h).outcome (withHash P0 O) O keys asked exposed).Forged := by
  induction A with
  | present u v =>
    rintro l Q' h asked exposed hl hlen ⟨⟨sk, hf, hpk⟩, hu⟩
    have hf : decodeOf (withHash P0 O) v = .ok sk := hf
    have hpk : sk.get_public_key = (keys u).1 := hpk
    have hu : u ∉ exposed := hu
    rw [decodeOf] at hf
    split at hf
    · rename_i hcons
      obtain rfl : skOf v = sk := Except.ok.inj hf
      obtain ⟨sig, ha, hc⟩ := answer_check hcons hpk (freshRequest L l) (freshRequest_ctx l)
      obtain ⟨h3, h4⟩ := tree_sign (b := b) P0 O (skOf v) (freshRequest L l) false (.error ())
      obtain ⟨Q'', h'', e⟩ := simulateBy_outcome (giveUp u) (withHash P0 O) O keys asked exposed
        (fun _ _ r => match r.2 with
          | .ok sig => .forge u (freshRequest L l) sig
          | .error _ => giveUp u) _ signCap Q' h h3 h4
      rw [Recoverer.forger, e]
      simp only [ha]
      refine ⟨hc, fun hm => ?_, hu⟩
      exact freshRequest_not_mem (by omega) (hl _ hm)
    · cases hf
  | @sign q Q u x hedged rnd next ih =>
    intro l Q' h asked exposed hl hlen hw
    rw [Recoverer.forger, MultiForger.outcome]
    refine ih _ (x :: l) Q' h _ exposed ?_ (by rw [List.length_cons]; omega) hw
    intro e he
    unfold handedBy at he
    split at he
    · rcases List.mem_cons.mp he with rfl | he
      · exact List.mem_cons_self
      · exact List.mem_cons_of_mem _ (hl e he)
    · exact List.mem_cons_of_mem _ (hl e he)
  | expose u next ih =>
    intro l Q' h asked exposed hl hlen hw
    rw [Recoverer.forger, MultiForger.outcome]
    exact ih _ l Q' h asked _ hl hlen hw
  | call y next ih =>
    intro l Q' h asked exposed hl hlen hw
    obtain ⟨Q', rfl⟩ : ∃ n, Q' = n + 1 := ⟨Q' - 1, by omega⟩
    rw [Recoverer.forger, MultiForger.outcome]
    exact ih _ l Q' _ asked _ hl hlen hw

/-- If no forger has more success than `c`, nobody finds a private key with more. -/
theorem recover_le {q Q : Nat} (b : Build) (P0 : Spec.Prims) (hq : q < 2 ^ 64) (c : ℚ)
    (hc : ∀ A : ((u : Fin U) → PublicKey (sets u).params) → MultiForger sets L B w q (Q + 2 ^ 22),
      prob (fun ω : Coins sets × (Query B → Fin (256 ^ w)) =>
        ∃ o, romMultiGame b P0 A ω.1 ω.2 = pure (some o) ∧ o.Forged) ≤ c)
    (A : ((u : Fin U) → PublicKey (sets u).params) → Recoverer sets L B w q Q) :
    prob (fun ω : Coins sets × (Query B → Fin (256 ^ w)) =>
      ∃ o, romRecoverGame b P0 A ω.1 ω.2 = pure (some o) ∧ o.Won) ≤ c := by
  refine le_trans ?_ (hc fun pks => (A pks).forger b P0 [] _ le_rfl)
  rw [prob_eq, prob_eq]
  refine avg_mono fun ω => ind_mono ?_
  rintro ⟨o, ho, h⟩
  rw [romRecoverGame_eq] at ho
  obtain rfl : recoverOutcome P0 A ω.1 ω.2 = o := Option.some.inj (Exec.pure_inj ho)
  refine ⟨_, romMultiGame_eq b P0 _ ω.1 ω.2, ?_⟩
  exact forger_outcome P0 ω.2 _ _ [] _ le_rfl [] [] (fun e he => nomatch he) (by simpa using hq) h

end Fips205.Props
