import Verif.Proofs.ApiForge

/-!
# Collisions during the game

The game as a program that evaluates a random function: two calls with the same first 32 bytes are rare.
-/

namespace Fips205.Props
open Fips205 Fips205.Model Fips205.Oracle

variable {ps : ParamSet} {L B w : Nat} {b : Build}

/-- Programs that evaluate the hash functions. -/
def AskExec (_b : Build) (w : Nat) (α : Type) : Type := Tree Call (Fin (256 ^ w)) Panic α

instance : Monad (AskExec b w) where
  pure v := Tree.done (.ok v)
  bind x f := Tree.bind x f

instance : Rust (AskExec b w) where
  panic p := Tree.done (.error p)
  leak _ := Tree.done (.ok ())
  build := b

/-- One evaluation. -/
def askFor {α : Type} (c : Call) (k : Fin (256 ^ w) → α) : AskExec b w α := Tree.ask c fun v => Tree.done (.ok (k v))

/-- The run of a program when the hash functions are given. -/
def runWith (O : Query B → Fin (256 ^ w)) : RustHom (AskExec b w) (LogExec b) where
  app t := (Tree.log (fun c => O (.of B c)) t, Tree.result (fun c => O (.of B c)) t)
  map_pure _ := rfl
  map_bind x f := by
    refine Prod.ext ?_ ?_
    · refine (Tree.log_bind _ x f).trans ?_
      change _ = (match Tree.result (fun c => O (.of B c)) x with
        | .error e => (_, .error e)
        | .ok v => (_, _) : List Call × Except Panic _).1
      cases Tree.result (fun c => O (.of B c)) x <;> rfl
    · refine (Tree.result_bind _ x f).trans ?_
      change _ = (match Tree.result (fun c => O (.of B c)) x with
        | .error e => (_, .error e)
        | .ok v => (_, _) : List Call × Except Panic _).2
      cases Tree.result (fun c => O (.of B c)) x <;> rfl
  map_panic _ := rfl
  map_leak _ _ := rfl
  map_build := rfl

/-- The external hash crates, evaluated by asking. -/
def askCrypto (P0 : Spec.Prims) : Crypto (AskExec b w) where
  sha256 x := askFor ⟨.sha256, x.flatten⟩ fun v => toVec 32 (Spec.toByte v w ++ (P0.sha256 x.flatten).toList.drop w)
  sha512 x := askFor ⟨.sha512, x.flatten⟩ fun v => toVec 64 (Spec.toByte v w ++ (P0.sha512 x.flatten).toList.drop w)
  shake128 x n := askFor ⟨.shake128, x.flatten⟩ fun v =>
    toVec n (Spec.toByte v w ++ (P0.shake128 x.flatten n).toList.drop w)
  shake256 x n := askFor ⟨.shake256, x.flatten⟩ fun v =>
    toVec n (Spec.toByte v w ++ (P0.shake256 x.flatten n).toList.drop w)

theorem runWith_crypto (P0 : Spec.Prims) (O : Query B → Fin (256 ^ w)) :
    (runWith (b := b) O).crypto (askCrypto P0) = recording (withHash P0 O) := rfl

theorem Query.of_val (y : Query B) : Query.of B y.1 = y := by
  rw [Query.of, dif_pos y.2]

theorem runWith_ask (O : Query B → Fin (256 ^ w)) (y : Query B) :
    (runWith (b := b) O).app (askFor y.1 id) = logAsk O y := by
  refine Prod.ext rfl ?_
  change Except.ok (O (.of B y.1)) = .ok (O y)
  rw [Query.of_val]

/-- The first 32 bytes of a value are as random as the value. -/
theorem head_mem_le {n : Nat} (hn : n ≤ w) (l : List (Fin (256 ^ n))) :
    (avg fun v : Fin (256 ^ w) => ind (headOf n v ∈ l)) ≤ l.length / Fintype.card (Fin (256 ^ n)) := by
  have : Nonempty (Fin (256 ^ n)) := ⟨⟨0, Nat.pow_pos (by decide)⟩⟩
  have : Nonempty (Fin (256 ^ (w - n))) := ⟨⟨0, Nat.pow_pos (by decide)⟩⟩
  rw [avg_equiv (glue hn), avg_prod]
  simp only [headOf_glue, avg_const]
  exact avg_mem_le l

/-- Collisions during the game are rare. -/
theorem game_collide_le (hw : 32 ≤ w) {q Q : Nat} (P0 : Spec.Prims) (pk_seed : Vector UInt8 ps.params.N)
    (A : PublicKey ps.params → ApiForger ps L B w q Q) (s k : D ps) :
    (avg fun O : Query B → Fin (256 ^ w) => ind (∃ x y,
      x ∈ (apiGame (recording (withHash P0 O)) (logAsk O) pk_seed A s k : LogExec b _).log ∧
      y ∈ (apiGame (recording (withHash P0 O)) (logAsk O) pk_seed A s k : LogExec b _).log ∧
      Query.of B x ≠ Query.of B y ∧ headOf 32 (O (.of B x)) = headOf 32 (O (.of B y)))) ≤
    gameCalls ps q Q ^ 2 / (2 * 256 ^ 32) := by
  have : Nonempty (Fin (256 ^ w)) := ⟨⟨0, Nat.pow_pos (by decide)⟩⟩
  let t : Tree Call (Fin (256 ^ w)) Panic (ApiOutcome ps L) :=
    (apiGame (askCrypto P0) (fun y => askFor y.1 id) pk_seed A s k : AskExec b w _)
  have e : ∀ O : Query B → Fin (256 ^ w), t.log (fun c => O (.of B c)) =
      (apiGame (recording (withHash P0 O)) (logAsk O) pk_seed A s k : LogExec b _).log := by
    intro O
    have h := map_apiGame (runWith (b := b) O) (askCrypto P0) (fun y => askFor y.1 id) pk_seed A s k
    rw [runWith_crypto] at h
    simp only [runWith_ask] at h
    exact congrArg LogExec.log h
  have h := Tree.collide_le (pr := Query.of B) (h := headOf 32) (head_mem_le hw) t (gameCalls ps q Q) (fun O => by
    obtain ⟨l, h1, h2, -⟩ := log_apiGame (b := b) P0 O pk_seed A s k
    rw [e, h1]
    exact h2)
  simp only [e] at h
  refine h.trans (le_of_eq ?_)
  rw [Fintype.card_fin]
  push_cast
  rfl

end Fips205.Props
