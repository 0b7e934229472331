import Verif.Proofs.Opt
import Verif.Proofs.Override

/-!
# Randomizers computed in two steps

If the randomizer of a request is a random function of a random function of the request, as with HMAC, the game of
`Verif.Proofs.Opt` is not much easier: the forger only gains if two values of the inner function collide.
-/

namespace Fips205.Props
open Fips205 Fips205.Model Oracle

variable {ps : ParamSet} {S : Finset (List UInt8)} {B : Nat}

section
variable {Z : Type} [Fintype Z] [DecidableEq Z] [Nonempty Z]

/-- With values known: those of the inner function at `KI`, those of the outer one at `KZ`. -/
theorem two_step_with (P : Spec.Prims) (pk : PublicKey ps.params) (sk : PrivateKey ps.params)
    (O : Query B → Fin (256 ^ ps.sp.n)) (H : MsgHash ps S) {q T Q : Nat} (A : OptForger ps S B q T Q) :
    ∀ (a : Nat) (KI : Finset (D ps × S)) (i0 : D ps × S → Z) (KZ : Finset Z) (z0 : Z → D ps)
      (asked : List (Vector UInt8 ps.params.SIG_LEN × List UInt8)), (∀ i ∈ KI, i0 i ∈ KZ) → KZ.card ≤ a →
    (avg fun f : D ps × S → Z => avg fun g : Z → D ps => ind
      (A.outcome P pk sk O H (fun i => merge KZ z0 g (merge KI i0 f i)) asked).Forged) ≤
      (avg fun G : Randomizer ps S => ind (A.outcome P pk sk O H (merge KI (fun i => z0 (i0 i)) G) asked).Forged) +
        q * (a + q) / Fintype.card Z := by
  have hZ : (0 : ℚ) < Fintype.card Z := Nat.cast_pos.mpr Fintype.card_pos
  have : Nonempty (D ps) := ⟨⟨0, Nat.pow_pos (by decide)⟩⟩
  induction A with
  | forge sig mp =>
    intro a KI i0 KZ z0 asked _ _
    simp only [OptForger.outcome, avg_const]
    exact le_add_of_nonneg_right (by positivity)
  | hash R mp next ih =>
    intro a KI i0 KZ z0 asked h1 h2
    exact ih _ a KI i0 KZ z0 asked h1 h2
  | call y next ih =>
    intro a KI i0 KZ z0 asked h1 h2
    exact ih _ a KI i0 KZ z0 asked h1 h2
  | sign o mp next ih =>
    rename_i q T Q
    intro a KI i0 KZ z0 asked h1 h2
    simp only [OptForger.outcome]
    by_cases hi : (o, mp.msg) ∈ KI
    · have e1 : ∀ (f : D ps × S → Z) (g : Z → D ps), merge KZ z0 g (merge KI i0 f (o, mp.msg)) = z0 (i0 (o, mp.msg)) :=
        fun f g => by rw [merge, merge, if_pos hi, if_pos (h1 _ hi)]
      have e2 : ∀ G : Randomizer ps S, merge KI (fun i => z0 (i0 i)) G (o, mp.msg) = z0 (i0 (o, mp.msg)) :=
        fun G => if_pos hi
      simp only [e1, e2]
      refine (ih _ a KI i0 KZ z0 _ h1 h2).trans (add_le_add_right ?_ _)
      refine div_le_div_of_nonneg_right ?_ hZ.le
      push_cast
      nlinarith [(Nat.cast_nonneg q : (0 : ℚ) ≤ q), (Nat.cast_nonneg a : (0 : ℚ) ≤ a)]
    · rw [avg_update (o, mp.msg)]
      have e1 : ∀ (f : D ps × S → Z) d, merge (insert (o, mp.msg) KI) (Function.update i0 (o, mp.msg) d) f (o, mp.msg) = d :=
        fun f d => by simp [merge]
      simp only [← merge_insert KI i0 _ hi, e1]
      -- the values of the other game, drawn after `z`
      let ideal : Z → ℚ := fun z => avg fun d : D ps => avg fun G : Randomizer ps S => ind
        ((next (.ok (ownSig P sk H d mp.1.flatten))).outcome P pk sk O H
          (merge KI (fun i => z0 (i0 i)) (Function.update G (o, mp.msg) d))
          ((ownSig P sk H d mp.1.flatten, mp.1.flatten) :: asked)).Forged
      have hideal : (avg fun G : Randomizer ps S => ind
          ((next (.ok (ownSig P sk H (merge KI (fun i => z0 (i0 i)) G (o, mp.msg)) mp.1.flatten))).outcome P pk sk O H
            (merge KI (fun i => z0 (i0 i)) G)
            ((ownSig P sk H (merge KI (fun i => z0 (i0 i)) G (o, mp.msg)) mp.1.flatten, mp.1.flatten) :: asked)).Forged) =
          avg ideal := by
        simp only [ideal]
        rw [avg_const, avg_update (o, mp.msg)]
        have e : ∀ (G : Randomizer ps S) d, merge KI (fun i => z0 (i0 i)) (Function.update G (o, mp.msg) d) (o, mp.msg) = d :=
          fun G d => by rw [merge, if_neg hi, Function.update_self]
        simp only [e]
      rw [hideal]
      have hstep : ∀ z : Z, (avg fun f : D ps × S → Z => avg fun g : Z → D ps => ind
          ((next (.ok (ownSig P sk H (merge KZ z0 g z) mp.1.flatten))).outcome P pk sk O H
            (fun i => merge KZ z0 g (merge (insert (o, mp.msg) KI) (Function.update i0 (o, mp.msg) z) f i))
            ((ownSig P sk H (merge KZ z0 g z) mp.1.flatten, mp.1.flatten) :: asked)).Forged) ≤
          ideal z + (q * ((a + 1 : ℕ) + q) / Fintype.card Z + ind (z ∈ KZ.toList)) := by
        intro z
        by_cases hz : z ∈ KZ
        · have h0 : 0 ≤ ideal z := avg_nonneg fun _ => avg_nonneg fun _ => ind_nonneg _
          have h1 : ind (z ∈ KZ.toList) = 1 := by simp [ind, hz]
          refine le_trans (avg_mono fun f => avg_mono fun g => ind_le_one _) ?_
          rw [avg_const, avg_const, h1]
          have : (0 : ℚ) ≤ q * ((a + 1 : ℕ) + q) / Fintype.card Z := by positivity
          linarith
        · have e2 : ∀ (g : Z → D ps) d, merge (insert z KZ) (Function.update z0 z d) g z = d := fun g d => by simp [merge]
          have hl : (avg fun f : D ps × S → Z => avg fun g : Z → D ps => ind
              ((next (.ok (ownSig P sk H (merge KZ z0 g z) mp.1.flatten))).outcome P pk sk O H
                (fun i => merge KZ z0 g (merge (insert (o, mp.msg) KI) (Function.update i0 (o, mp.msg) z) f i))
                ((ownSig P sk H (merge KZ z0 g z) mp.1.flatten, mp.1.flatten) :: asked)).Forged) =
              avg fun d : D ps => avg fun f : D ps × S → Z => avg fun g : Z → D ps => ind
                ((next (.ok (ownSig P sk H d mp.1.flatten))).outcome P pk sk O H
                  (fun i => merge (insert z KZ) (Function.update z0 z d) g
                    (merge (insert (o, mp.msg) KI) (Function.update i0 (o, mp.msg) z) f i))
                  ((ownSig P sk H d mp.1.flatten, mp.1.flatten) :: asked)).Forged := by
            rw [avg_comm (α := D ps)]
            refine congrArg avg (funext fun f => ?_)
            rw [avg_update z]
            simp only [← merge_insert KZ z0 _ hz, e2]
          have hmerge : ∀ d (G : Randomizer ps S), merge (insert (o, mp.msg) KI)
              (fun i => Function.update z0 z d (Function.update i0 (o, mp.msg) z i)) G =
              merge KI (fun i => z0 (i0 i)) (Function.update G (o, mp.msg) d) := by
            intro d G
            funext i
            rw [merge, merge]
            by_cases hio : i = (o, mp.msg)
            · subst hio
              rw [if_pos (Finset.mem_insert_self _ _), if_neg hi, Function.update_self, Function.update_self,
                Function.update_self]
            · rw [Function.update_of_ne hio, Function.update_of_ne hio]
              simp only [Finset.mem_insert, hio, false_or]
              by_cases hiK : i ∈ KI
              · rw [if_pos hiK, if_pos hiK, Function.update_of_ne fun e => hz (by rw [← e]; exact h1 i hiK)]
              · rw [if_neg hiK, if_neg hiK]
          rw [hl]
          have h := fun d => ih (.ok (ownSig P sk H d mp.1.flatten)) (a + 1) (insert (o, mp.msg) KI)
            (Function.update i0 (o, mp.msg) z) (insert z KZ) (Function.update z0 z d)
            ((ownSig P sk H d mp.1.flatten, mp.1.flatten) :: asked) (fun i hi' => ?_)
            (by rw [Finset.card_insert_of_notMem hz]; omega)
          · refine (avg_mono h).trans ?_
            rw [avg_add, avg_const]
            simp only [hmerge]
            exact add_le_add_right (le_add_of_nonneg_right (ind_nonneg _)) _
          · rcases Finset.mem_insert.mp hi' with rfl | hi'
            · rw [Function.update_self]; exact Finset.mem_insert_self _ _
            · rw [Function.update_of_ne fun e => hi (by rw [← e]; exact hi')]
              exact Finset.mem_insert_of_mem (h1 i hi')
      refine (avg_mono hstep).trans ?_
      rw [avg_add]
      refine add_le_add_right ?_ _
      rw [avg_add, avg_const]
      have hmem : (avg fun z => ind (z ∈ KZ.toList)) ≤ a / Fintype.card Z :=
        (avg_mem_le _).trans (div_le_div_of_nonneg_right (by rw [Finset.length_toList]; exact_mod_cast h2) hZ.le)
      refine (add_le_add_right hmem _).trans ?_
      rw [← add_div]
      refine div_le_div_of_nonneg_right ?_ hZ.le
      push_cast
      nlinarith [(Nat.cast_nonneg q : (0 : ℚ) ≤ q), (Nat.cast_nonneg a : (0 : ℚ) ≤ a)]

/-- The game with randomizers in two steps. -/
theorem two_step (P : Spec.Prims) (pk : PublicKey ps.params) (sk : PrivateKey ps.params)
    (O : Query B → Fin (256 ^ ps.sp.n)) (H : MsgHash ps S) {q T Q : Nat} (A : OptForger ps S B q T Q) :
    (avg fun f : D ps × S → Z => avg fun g : Z → D ps => ind (A.outcome P pk sk O H (fun i => g (f i)) []).Forged) ≤
      (avg fun G : Randomizer ps S => ind (A.outcome P pk sk O H G []).Forged) + q * q / Fintype.card Z := by
  have : Nonempty (D ps) := ⟨⟨0, Nat.pow_pos (by decide)⟩⟩
  have h := two_step_with (Z := Z) P pk sk O H A 0 ∅ (fun _ => Classical.arbitrary Z) ∅ (fun _ => Classical.arbitrary _) []
    (by simp) (by simp)
  have e1 : ∀ (f0 f : D ps × S → Z), merge ∅ f0 f = f := fun f0 f => by funext x; simp [merge]
  have e2 : ∀ (g0 g : Z → D ps), merge ∅ g0 g = g := fun g0 g => by funext x; simp [merge]
  have e3 : ∀ (g0 g : Randomizer ps S), merge ∅ g0 g = g := fun g0 g => by funext x; simp [merge]
  simp only [e1, e2, e3, Nat.cast_zero, zero_add] at h
  exact h

end

end Fips205.Props
