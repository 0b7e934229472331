import Verif.Props.GenForgery
import Verif.Props.MultiGame

/-!
# A forger against many keys gives a forger against one

who makes the other keys themself.
-/

namespace Fips205.Props
open Fips205 Fips205.Model Fips205.Oracle

variable {U : Nat} {sets : Fin U → ParamSet} {L B w : Nat} {b : Build}

/-! ## The outcome -/

/-- The signatures handed out, after an answer. -/
def handedBy (u : Fin U) (x : SigRequest L) (r : Except String (Vector UInt8 (sets u).params.SIG_LEN))
    (asked : List (Handed sets L)) : List (Handed sets L) :=
  match r with
  | .ok sig => ⟨u, x, sig⟩ :: asked
  | .error _ => asked

/-- The outcome of the game with these keys. -/
def MultiForger.outcome (P : Spec.Prims) (O : Query B → Fin (256 ^ w)) (keys : Keys sets) :
    {q Q : Nat} → MultiForger sets L B w q Q → List (Handed sets L) → List (Fin U) → MultiOutcome sets L
  | _, _, .forge u x sig, asked, exposed => { u, x, sig, accepted := x.check P (keys u).1 sig, asked, exposed }
  | _, _, .sign u x hedged rnd next, asked, exposed =>
    (next (x.answer P (keys u).2 hedged rnd)).outcome P O keys (handedBy u x (x.answer P (keys u).2 hedged rnd) asked)
      exposed
  | _, _, .expose u next, asked, exposed => (next (keys u).2).outcome P O keys asked (u :: exposed)
  | _, _, .call y next, asked, exposed => (next (O y)).outcome P O keys asked exposed

theorem multi_attack_eq (P : Spec.Prims) (O : Query B → Fin (256 ^ w)) (keys : Keys sets) {q Q : Nat}
    (A : MultiForger sets L B w q Q) : ∀ asked exposed,
    A.attack (crypto P) (fun y => pure (O y)) keys asked exposed =
      (pure (A.outcome P O keys asked exposed) : Exec b _) := by
  induction A with
  | forge u x sig =>
    intro asked exposed
    rw [MultiForger.attack, exec_request_verify, pure_bind, MultiForger.outcome]
  | sign u x hedged rnd next ih =>
    intro asked exposed
    rw [MultiForger.attack, exec_request_sign, pure_bind, MultiForger.outcome]
    exact ih _ _ _
  | expose u next ih =>
    intro asked exposed
    rw [MultiForger.attack, MultiForger.outcome]
    exact ih _ _ _
  | call y next ih =>
    intro asked exposed
    rw [MultiForger.attack, pure_bind, MultiForger.outcome]
    exact ih _ _ _

/-- The key pair from the strings drawn. -/
def coinPair {ps : ParamSet} (P : Spec.Prims) (c : D ps × D ps × D ps) :
    PublicKey ps.params × PrivateKey ps.params :=
  keyPair ps P (toVec _ (Spec.toByte c.1 ps.sp.n)) (toVec _ (Spec.toByte c.2.1 ps.sp.n))
    (toVec _ (Spec.toByte c.2.2 ps.sp.n))

theorem tape_succ {sets : Fin (U + 1) → ParamSet} (coins : Coins sets) :
    coins.tape = Spec.toByte (coins 0).1 (sets 0).sp.n :: Spec.toByte (coins 0).2.1 (sets 0).sp.n ::
      Spec.toByte (coins 0).2.2 (sets 0).sp.n :: Coins.tape (sets := fun u => sets u.succ) fun u => coins u.succ := by
  rw [Coins.tape, Coins.tape, List.finRange_succ, List.flatMap_cons, List.flatMap_map]
  rfl

theorem map_tapeRng {m m' : Type → Type} [Rust m] [Rust m'] (φ : RustHom m m') : φ.rng tapeRng = tapeRng := by
  simp [RustHom.rng, tapeRng]

theorem map_genKeys {m m' : Type → Type} [Rust m] [Rust m'] (φ : RustHom m m') (C : Crypto m) :
    ∀ {U : Nat} (sets : Fin U → ParamSet) (s : List (List UInt8)),
    φ.app (genKeys C sets s) = genKeys (φ.crypto C) sets s
  | 0, _, _ => φ.map_pure _
  | U + 1, sets, s => by
    rw [genKeys, genKeys, φ.map_bind, φ.map_try_keygen_with_rng, map_tapeRng]
    refine congrArg _ (funext fun x => ?_)
    obtain ⟨s, r⟩ := x
    cases r with
    | error e => exact φ.map_pure _
    | ok kp =>
      dsimp only
      rw [φ.map_bind, map_genKeys φ C]
      exact congrArg _ (funext fun x => φ.map_pure _)

theorem log_genKeys (P : Spec.Prims) : ∀ {U : Nat} {sets : Fin U → ParamSet} (coins : Coins sets),
    ∃ l : List Call, (genKeys (recording P) sets coins.tape : LogExec b _) =
      (l, .ok (some fun u => coinPair P (coins u))) ∧ l.length = ∑ u, treeWork (sets u) (sets u).sp.hp
  | 0, sets, coins => ⟨[], by
      refine Prod.ext rfl (congrArg (fun f => Except.ok (some f)) (funext fun u => u.elim0)), by simp⟩
  | U + 1, sets, coins => by
    obtain ⟨l, h, hl⟩ := log_genKeys P (sets := fun u => sets u.succ) fun u => coins u.succ
    have hr : (try_keygen_with_rng (sets 0).params (recording P) tapeRng coins.tape : LogExec b _).result =
        .ok (Coins.tape (sets := fun u => sets u.succ) fun u => coins u.succ, .ok (coinPair P (coins 0))) := by
      rw [tape_succ]
      refine (LogExec.erase.map_try_keygen_with_rng ..).trans ?_
      exact (exec_try_keygen_with_rng _ _).trans rfl
    have hq : UnloggedRng (tapeRng : Rng (LogExec b) _) := fun _ _ _ => rfl
    have hlen := C54_try_keygen_with_rng hq _ _ _ _ hr
    refine ⟨(try_keygen_with_rng (sets 0).params (recording P) tapeRng coins.tape : LogExec b _).log ++ (l ++ []), ?_, ?_⟩
    · rw [genKeys]
      have h' : (try_keygen_with_rng (sets 0).params (recording P) tapeRng coins.tape : LogExec b _) =
        ((try_keygen_with_rng (sets 0).params (recording P) tapeRng coins.tape : LogExec b _).log,
          .ok (_, .ok (coinPair P (coins 0)))) := Prod.ext rfl hr
      refine (log_bind h' (log_bind (l' := []) h (r := Except.ok (some (Fin.cons (coinPair P (coins 0)) fun u =>
        coinPair P (coins u.succ)))) rfl)).trans ?_
      refine Prod.ext rfl (congrArg (fun f => Except.ok (some f)) ?_)
      funext u
      refine Fin.cases ?_ (fun u => ?_) u <;> rfl
    · rw [List.length_append, List.length_append, hl, Fin.sum_univ_succ, List.length_nil]
      exact congrArg (· + _) hlen

/-- The keys of the game. -/
def coinKeys (P : Spec.Prims) (coins : Coins sets) : Keys sets := fun u => coinPair P (coins u)

theorem exec_genKeys (P : Spec.Prims) (coins : Coins sets) :
    (genKeys (crypto P) sets coins.tape : Exec b _) = pure (some (coinKeys P coins)) := by
  obtain ⟨l, h, -⟩ := log_genKeys (b := b) P coins
  exact (map_genKeys LogExec.erase (recording P) sets coins.tape).symm.trans (congrArg LogExec.result h)

/-- The outcome of the game. -/
def multiOutcome {q Q : Nat} (P0 : Spec.Prims)
    (A : ((u : Fin U) → PublicKey (sets u).params) → MultiForger sets L B w q Q) (coins : Coins sets)
    (O : Query B → Fin (256 ^ w)) : MultiOutcome sets L :=
  (A fun u => (coinKeys (withHash P0 O) coins u).1).outcome (withHash P0 O) O (coinKeys (withHash P0 O) coins) [] []

theorem romMultiGame_eq {q Q : Nat} (b : Build) (P0 : Spec.Prims)
    (A : ((u : Fin U) → PublicKey (sets u).params) → MultiForger sets L B w q Q) (coins : Coins sets)
    (O : Query B → Fin (256 ^ w)) : romMultiGame b P0 A coins O = pure (some (multiOutcome P0 A coins O)) := by
  rw [romMultiGame, multiGame, exec_genKeys, pure_bind]
  dsimp only
  rw [multi_attack_eq, pure_bind]
  rfl

/-! ## Programs become calls of the forger -/

section
variable {ps : ParamSet}

/-- Give up. -/
def noForge {q Q : Nat} : ApiForger ps L B w q Q := .forge ⟨none, [], [], Nat.zero_le _⟩ (toVec _ [])

/-- Run a program, with at most `fuel` evaluations, and continue. -/
def simulate {α : Type} {q Q : Nat} : Tree Call (Fin (256 ^ w)) Panic α → (fuel Q' : Nat) → Q + fuel ≤ Q' →
    ((Q' : Nat) → Q ≤ Q' → α → ApiForger ps L B w q Q') → ApiForger ps L B w q Q'
  | .done (.ok v), _, Q', h, k => k Q' (by omega) v
  | .done (.error _), _, _, _, _ => noForge
  | .ask _ _, 0, _, _, _ => noForge
  | .ask _ _, _ + 1, 0, h, _ => absurd h (Nat.not_succ_le_zero _)
  | .ask c t, fuel + 1, Q' + 1, h, k => .call (.of B c) fun v => simulate (t v) fuel Q' (by omega) k

theorem simulate_outcome {α : Type} {q Q : Nat} (P : Spec.Prims) (O : Query B → Fin (256 ^ w)) (pk : PublicKey ps.params)
    (sk : PrivateKey ps.params) (asked) (k : (Q' : Nat) → Q ≤ Q' → α → ApiForger ps L B w q Q') {v : α}
    (t : Tree Call (Fin (256 ^ w)) Panic α) : ∀ (fuel Q' : Nat) (h : Q + fuel ≤ Q'),
    (t.log fun c => O (.of B c)).length ≤ fuel → (t.result fun c => O (.of B c)) = .ok v →
    ∃ Q'' h'', (simulate t fuel Q' h k).outcome P O pk sk asked = (k Q'' h'' v).outcome P O pk sk asked := by
  induction t with
  | done r =>
    intro fuel Q' h _ hr
    obtain rfl : r = .ok v := hr
    exact ⟨Q', by omega, by rw [simulate]⟩
  | ask c t ih =>
    intro fuel Q' h hl hr
    rw [Tree.log, List.length_cons] at hl
    obtain ⟨fuel, rfl⟩ : ∃ n, fuel = n + 1 := ⟨fuel - 1, by omega⟩
    obtain ⟨Q', rfl⟩ : ∃ n, Q' = n + 1 := ⟨Q' - 1, by omega⟩
    rw [simulate, ApiForger.outcome]
    exact ih _ fuel Q' (by omega) (by omega) hr

end

/-! ## The forger against one key -/

/-- The most hashes that signing takes, for any parameter set. -/
def signCap : Nat := 2 ^ 22

theorem signMost_le (ps : ParamSet) : signMost ps + 1 ≤ signCap := by cases ps <;> decide

/-- The forger against the key `t`, who has the other private keys. -/
def MultiForger.single (b : Build) (P0 : Spec.Prims) (t : Fin U) (sk : (u : Fin U) → PrivateKey (sets u).params) :
    {q Q : Nat} → MultiForger sets L B w q Q → (q' Q' : Nat) → q ≤ q' → Q + q * signCap ≤ Q' →
    ApiForger (sets t) L B w q' Q'
  | _, _, .forge u x sig, _, _, _, _ => if h : u = t then .forge x (h ▸ sig) else noForge
  | _, _, .sign _ _ _ _ _, 0, _, h1, _ => absurd h1 (Nat.not_succ_le_zero _)
  | _, Q, .sign (q := q) u x hedged rnd next, q' + 1, Q', h1, h2 =>
    if h : u = t then
      .sign x hedged (h ▸ rnd) fun r => (next (h ▸ r)).single b P0 t sk q' Q' (by omega)
        (le_trans (Nat.add_le_add_left (Nat.mul_le_mul_right _ (Nat.le_succ _)) _) h2)
    else simulate (Q := Q + q * signCap) (x.sign (askCrypto P0) (sk u) hedged rnd : AskExec b w _) signCap Q'
      (by rw [Nat.succ_mul] at h2; omega) fun Q'' h'' r => (next r.2).single b P0 t sk (q' + 1) Q'' (by omega) h''
  | _, _, .expose u next, q', Q', h1, h2 =>
    if u = t then noForge else (next (sk u)).single b P0 t sk q' Q' h1 h2
  | _, _, .call _ _, _, 0, _, h2 => absurd h2 (by omega)
  | _, _, .call y next, q', Q' + 1, h1, h2 => .call y fun v => (next v).single b P0 t sk q' Q' h1 (by omega)

theorem tree_sign {ps : ParamSet} (P0 : Spec.Prims) (O : Query B → Fin (256 ^ w)) (sk : PrivateKey ps.params)
    (x : SigRequest L) (hedged : Bool) (rnd : Except Unit (Vector UInt8 ps.params.N)) :
    let t : Tree Call (Fin (256 ^ w)) Panic _ := (x.sign (askCrypto P0) sk hedged rnd : AskExec b w _)
    (t.log fun c => O (.of B c)).length ≤ signCap ∧
      (t.result fun c => O (.of B c)) = .ok ((), x.answer (withHash P0 O) sk hedged rnd) := by
  have h := map_request_sign (runWith (b := b) O) (askCrypto P0) x sk hedged rnd
  rw [runWith_crypto] at h
  obtain ⟨l, h1, h2, -⟩ := log_sign (b := b) (withHash P0 O) sk x hedged rnd
  have h := h.trans h1
  exact ⟨(congrArg (fun x : LogExec b _ => x.log.length) h).trans_le (h2.trans (signMost_le ps)), congrArg Prod.snd h⟩

theorem exposed_sub (P : Spec.Prims) (O : Query B → Fin (256 ^ w)) (keys : Keys sets) {q Q : Nat}
    (A : MultiForger sets L B w q Q) {u : Fin U} : ∀ asked exposed, u ∈ exposed →
    u ∈ (A.outcome P O keys asked exposed).exposed := by
  induction A with
  | forge u x sig => exact fun _ _ h => h
  | sign u x hedged rnd next ih => exact fun _ _ h => ih _ _ _ h
  | expose v next ih => exact fun _ _ h => ih _ _ _ (List.mem_cons_of_mem _ h)
  | call y next ih => exact fun _ _ h => ih _ _ _ h

/-- The two forgers do the same. -/
theorem single_outcome (P0 : Spec.Prims) (O : Query B → Fin (256 ^ w)) (t : Fin U) (keys : Keys sets)
    (sk : (u : Fin U) → PrivateKey (sets u).params) (hsk : ∀ u, u ≠ t → sk u = (keys u).2) {q Q : Nat}
    (A : MultiForger sets L B w q Q) : ∀ (q' Q' : Nat) (h1 : q ≤ q') (h2 : Q + q * signCap ≤ Q') asked exposed asked',
    (∀ e ∈ asked', ⟨t, e⟩ ∈ asked) →
    (A.outcome (withHash P0 O) O keys asked exposed).Forged →
    (A.outcome (withHash P0 O) O keys asked exposed).u = t →
    ((A.single b P0 t sk q' Q' h1 h2).outcome (withHash P0 O) O (keys t).1 (keys t).2 asked').Forged := by
  induction A with
  | forge u x sig =>
    intro q' Q' h1 h2 asked exposed asked' hs hf hu
    obtain rfl : u = t := hu
    rw [MultiForger.single, dif_pos rfl]
    exact ⟨hf.1, fun h => hf.2.1 (hs _ h)⟩
  | @sign q Q u x hedged rnd next ih =>
    intro q' Q' h1 h2 asked exposed asked' hs hf hu
    obtain ⟨q', rfl⟩ : ∃ n, q' = n + 1 := ⟨q' - 1, by omega⟩
    by_cases h : u = t
    · subst h
      rw [MultiForger.single, dif_pos rfl]
      refine ih _ q' Q' _ _ _ _ _ ?_ hf hu
      intro e he
      cases hr : x.answer (withHash P0 O) (keys u).2 hedged rnd with
      | error _ =>
        rw [hr] at he
        exact hs e he
      | ok sig =>
        rw [hr] at he
        rcases List.mem_cons.mp he with rfl | he
        · exact List.mem_cons_self
        · exact List.mem_cons_of_mem _ (hs e he)
    · rw [MultiForger.single, dif_neg h]
      obtain ⟨h3, h4⟩ := tree_sign (b := b) P0 O (sk u) x hedged rnd
      obtain ⟨Q'', h'', e⟩ := simulate_outcome (withHash P0 O) O (keys t).1 (keys t).2 asked' (Q := Q + q * signCap)
        (fun Q'' h'' r => (next r.2).single b P0 t sk (q' + 1) Q'' (by omega) h'') _ signCap Q'
        (by rw [Nat.succ_mul] at h2; omega) h3 h4
      rw [e, hsk u h]
      refine ih _ (q' + 1) Q'' _ _ _ _ _ ?_ hf hu
      intro e he
      have := hs e he
      cases hr : x.answer (withHash P0 O) (keys u).2 hedged rnd with
      | error _ => exact this
      | ok sig => exact List.mem_cons_of_mem _ this
  | expose u next ih =>
    intro q' Q' h1 h2 asked exposed asked' hs hf hu
    by_cases h : u = t
    · refine absurd ?_ hf.2.2
      rw [hu, ← h]
      exact exposed_sub _ _ _ (next _) _ (u :: exposed) List.mem_cons_self
    · rw [MultiForger.single, if_neg h, hsk u h]
      exact ih _ q' Q' _ _ _ _ _ hs hf hu
  | call y next ih =>
    intro q' Q' h1 h2 asked exposed asked' hs hf hu
    obtain ⟨Q', rfl⟩ : ∃ n, Q' = n + 1 := ⟨Q' - 1, by omega⟩
    rw [MultiForger.single, ApiForger.outcome]
    exact ih _ q' Q' _ _ _ _ _ hs hf hu

/-! ## All other keys are made by the forger -/

theorem tree_genKeys (P0 : Spec.Prims) (O : Query B → Fin (256 ^ w)) (coins : Coins sets) :
    let t : Tree Call (Fin (256 ^ w)) Panic _ := (genKeys (askCrypto P0) sets coins.tape : AskExec b w _)
    (t.log fun c => O (.of B c)).length ≤ U * signCap ∧
      (t.result fun c => O (.of B c)) = .ok (some (coinKeys (withHash P0 O) coins)) := by
  have h := map_genKeys (runWith (b := b) O) (askCrypto P0) sets coins.tape
  rw [runWith_crypto] at h
  obtain ⟨l, h1, h2⟩ := log_genKeys (b := b) (withHash P0 O) coins
  have h := h.trans h1
  refine ⟨(congrArg (fun x : LogExec b _ => x.log.length) h).trans_le (h2.le.trans ?_), congrArg Prod.snd h⟩
  refine (Finset.sum_le_card_nsmul _ _ signCap fun u _ => ?_).trans (by simp)
  cases sets u <;> decide

/-- The evaluations by the forger against one key. -/
def singleCalls (U q Q : Nat) : Nat := Q + q * signCap + U * signCap

/-- ... once the keys are made. -/
def withKeys {q Q : Nat} (b : Build) (P0 : Spec.Prims)
    (A : ((u : Fin U) → PublicKey (sets u).params) → MultiForger sets L B w q Q) (t : Fin U)
    (pk : PublicKey (sets t).params) (Q' : Nat) (h : Q + q * signCap ≤ Q') :
    Option (Keys sets) → ApiForger (sets t) L B w q Q'
  | none => noForge
  | some keys => (A (Function.update (fun u => (keys u).1) t pk)).single b P0 t (fun u => (keys u).2) q Q' le_rfl h

/-- The forger against the key `t`: the strings that `coins` has for this key do not matter. -/
def againstKey {q Q : Nat} (b : Build) (P0 : Spec.Prims)
    (A : ((u : Fin U) → PublicKey (sets u).params) → MultiForger sets L B w q Q) (t : Fin U) (coins : Coins sets)
    (pk : PublicKey (sets t).params) : ApiForger (sets t) L B w q (singleCalls U q Q) :=
  simulate (genKeys (askCrypto P0) sets coins.tape : AskExec b w _) (U * signCap) _ le_rfl (withKeys b P0 A t pk)

theorem againstKey_outcome {q Q : Nat} (P0 : Spec.Prims)
    (A : ((u : Fin U) → PublicKey (sets u).params) → MultiForger sets L B w q Q) (t : Fin U) (coins : Coins sets)
    (c : D (sets t) × D (sets t) × D (sets t)) (O : Query B → Fin (256 ^ w))
    (hf : (multiOutcome P0 A (Function.update coins t c) O).Forged)
    (hu : (multiOutcome P0 A (Function.update coins t c) O).u = t) :
    (apiOutcome P0 O (toVec _ (Spec.toByte c.2.2 (sets t).sp.n)) (againstKey b P0 A t coins) c.1 c.2.1).Forged := by
  have hk : coinKeys (withHash P0 O) (Function.update coins t c) t = widePair P0
      (toVec _ (Spec.toByte c.2.2 (sets t).sp.n)) c.1 c.2.1 O := by
    rw [coinKeys, Function.update_self]
    rfl
  have hk' : ∀ u, u ≠ t → coinKeys (withHash P0 O) coins u = coinKeys (withHash P0 O) (Function.update coins t c) u := by
    intro u hu
    rw [coinKeys, coinKeys, Function.update_of_ne hu]
  rw [apiOutcome, ← hk]
  obtain ⟨h3, h4⟩ := tree_genKeys (b := b) P0 O coins
  obtain ⟨Q'', h'', e⟩ := simulate_outcome (withHash P0 O) O (coinKeys (withHash P0 O) (Function.update coins t c) t).1
    (coinKeys (withHash P0 O) (Function.update coins t c) t).2 []
    (withKeys b P0 A t (coinKeys (withHash P0 O) (Function.update coins t c) t).1) _ (U * signCap) (singleCalls U q Q)
    le_rfl h3 h4
  rw [againstKey, e]
  have hpk : Function.update (fun u => (coinKeys (withHash P0 O) coins u).1) t
      (coinKeys (withHash P0 O) (Function.update coins t c) t).1 =
      fun u => (coinKeys (withHash P0 O) (Function.update coins t c) u).1 := by
    funext u
    by_cases h : u = t
    · subst h
      rw [Function.update_self]
    · rw [Function.update_of_ne h, hk' u h]
  rw [withKeys, hpk]
  exact single_outcome P0 O t _ _ (fun u h => by rw [hk' u h]) _ _ _ _ _ [] [] [] (fun e h => nomatch h) hf hu

/-- Drawing one value anew does not change the average. -/
theorem avg_redraw {ι : Type} [Fintype ι] [DecidableEq ι] {β : ι → Type} [∀ i, Fintype (β i)] [∀ i, Nonempty (β i)]
    (x : ι) (F : ((i : ι) → β i) → ℚ) : avg F = avg fun H => avg fun d => F (Function.update H x d) := by
  let e : β x × ((i : ι) → β i) ≃ β x × ((i : ι) → β i) :=
    { toFun := fun p => (p.2 x, Function.update p.2 x p.1)
      invFun := fun p => (p.2 x, Function.update p.2 x p.1)
      left_inv := fun p => by simp
      right_inv := fun p => by simp }
  have h1 : avg (fun p : β x × ((i : ι) → β i) => F p.2) = avg F := by
    rw [avg_prod]; exact avg_const (α := β x) (avg F)
  rw [← h1, avg_equiv e, avg_prod, avg_comm]
  rfl

theorem avg_redraw_le {ι Y : Type} [Fintype ι] [DecidableEq ι] {β : ι → Type} [∀ i, Fintype (β i)]
    [∀ i, Nonempty (β i)] [Fintype Y] (x : ι) (F : ((i : ι) → β i) × Y → ℚ) {c : ℚ}
    (h : ∀ H, (avg fun p : β x × Y => F (Function.update H x p.1, p.2)) ≤ c) : avg F ≤ c := by
  rw [avg_prod, avg_redraw x]
  refine (avg_mono (g := fun _ => c) fun H => ?_).trans (le_of_eq (avg_const _))
  have := h H
  rw [avg_prod] at this
  exact this

theorem avg_cases_le {Ω : Type} [Fintype Ω] (E : Ω → Prop) (f : Ω → Fin U) :
    (avg fun ω => ind (E ω)) ≤ ∑ t, avg fun ω => ind (E ω ∧ f ω = t) := by
  rw [← avg_sum]
  refine avg_mono fun ω => ?_
  by_cases h : E ω
  · refine le_trans (le_of_eq ?_) (Finset.single_le_sum (f := fun t => ind (E ω ∧ f ω = t)) (fun t _ => ind_nonneg _)
      (Finset.mem_univ (f ω)))
    exact ind_congr ⟨fun h => ⟨h, rfl⟩, fun h => h.1⟩
  · refine le_trans (le_of_eq ?_) (Finset.sum_nonneg fun t _ => ind_nonneg _)
    rw [ind, if_neg h]

/-- If no forger against one key has more success than `c` says, none against many has more than the sum. -/
theorem multi_le {q Q : Nat} (b : Build) (P0 : Spec.Prims) (c : Fin U → ℚ)
    (hc : ∀ t, ∀ A : PublicKey (sets t).params → ApiForger (sets t) L B w q (singleCalls U q Q),
      prob (fun ω : (D (sets t) × D (sets t) × D (sets t)) × (Query B → Fin (256 ^ w)) =>
        ∃ o, romGenGame b P0 A ω.1 ω.2 = pure (some o) ∧ o.Forged) ≤ c t)
    (A : ((u : Fin U) → PublicKey (sets u).params) → MultiForger sets L B w q Q) :
    prob (fun ω : Coins sets × (Query B → Fin (256 ^ w)) =>
      ∃ o, romMultiGame b P0 A ω.1 ω.2 = pure (some o) ∧ o.Forged) ≤ ∑ t, c t := by
  have : ∀ u, Nonempty (D (sets u) × D (sets u) × D (sets u)) := fun u => by
    have : Nonempty (D (sets u)) := ⟨⟨0, Nat.pow_pos (by decide)⟩⟩
    infer_instance
  rw [prob_eq]
  refine (avg_cases_le _ fun ω => (multiOutcome P0 A ω.1 ω.2).u).trans (Finset.sum_le_sum fun t _ => ?_)
  refine avg_redraw_le t _ fun coins => ?_
  refine le_trans ?_ (hc t (againstKey b P0 A t coins))
  rw [prob_eq]
  refine avg_mono fun d => ind_mono fun h => ?_
  obtain ⟨⟨o, ho, hf⟩, hu⟩ := h
  rw [romMultiGame_eq] at ho
  obtain rfl : multiOutcome P0 A (Function.update coins t d.1) d.2 = o := Option.some.inj (Exec.pure_inj ho)
  exact ⟨_, romGenGame_eq b P0 _ d.1.1 d.1.2.1 d.1.2.2 d.2, againstKey_outcome P0 A t coins d.1 d.2 hf hu⟩

end Fips205.Props
