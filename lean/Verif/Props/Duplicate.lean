import Verif.Proofs.Dup
import Verif.Props.ApiForgery

/-!
# Two private keys with one root (C82)

A private key of `4 n` bytes holds `SK.seed`, `SK.prf`, `PK.seed` and `PK.root`; `try_from_bytes` computes the root
anew and refuses other roots.  So, apart from `SK.prf`, the bytes cannot be exchanged for others that are accepted too:
whoever finds two such keys with one root, however they choose them, has found a collision of the hash functions.
-/

namespace Fips205.Props
open Fips205 Fips205.Model

variable {ps : ParamSet} {B w : Nat}

/-- **C82** The game runs to its end, whatever the functions, the player, the parameter set and the build are. -/
theorem C82_runs (P0 : Spec.Prims) (b : Build) {Q : Nat} (A : Duplicator ps B w Q) (O : Query B → Fin (256 ^ w)) :
    ∃ o, romDupGame b P0 O A = pure o :=
  ⟨_, dup_eq _ _ _⟩

/-- **C82** Take the hash functions to be random functions, with outputs of `w ≥ 64` bytes of which the code uses the
first ones.  Then a player who evaluates them `Q` times finds two private keys that `try_from_bytes` accepts, with the
same `PK.root` and another `SK.seed` or `PK.seed`, with probability at most `N² / (2 256^n)`, where `N` is the number of
evaluations in the game, those of the two decodings included. -/
theorem C82_bound (P0 : Spec.Prims) (b : Build) (hw : 64 ≤ w) (hB : 160 + ps.sp.len * ps.sp.n ≤ B) {Q N : Nat}
    (hN : N = Q + 2 * treeWork ps ps.sp.hp) (A : Duplicator ps B w Q) :
    prob (fun O : Query B → Fin (256 ^ w) => ∃ o, romDupGame b P0 O A = pure o ∧ o.Won) ≤
      N ^ 2 / (2 * 256 ^ ps.sp.n) := by
  subst hN
  have : Nonempty (Fin (256 ^ w)) := ⟨⟨0, Nat.pow_pos (by decide)⟩⟩
  rw [prob_eq]
  refine le_trans (Oracle.avg_mono fun O => Oracle.ind_mono ?_) (dup_le hw P0 hB A)
  rintro ⟨o, ho, h⟩
  rw [romDupGame, dup_eq] at ho
  obtain rfl : A.outcome (withHash P0 O) O = o := Except.ok.inj ho
  exact h

/-- **C82** In bits: with less than `2^t` evaluations, `t ≥ 20`, the chance is at most `2^(2 t + 1 - 8 n)`. -/
theorem C82_bits (P0 : Spec.Prims) (b : Build) (hw : 64 ≤ w) (hB : 160 + ps.sp.len * ps.sp.n ≤ B) {Q t : Nat}
    (ht : 20 ≤ t) (hQ : Q < 2 ^ t) (A : Duplicator ps B w Q) :
    prob (fun O : Query B → Fin (256 ^ w) => ∃ o, romDupGame b P0 O A = pure o ∧ o.Won) ≤
      2 ^ (2 * t + 1) / 2 ^ (8 * ps.sp.n) := by
  refine (C82_bound P0 b hw hB rfl A).trans ?_
  have h20 : 2 ^ 20 ≤ 2 ^ t := Nat.pow_le_pow_right (by decide) ht
  have h1 : 2 * treeWork ps ps.sp.hp ≤ 2 ^ 20 := by cases ps <;> decide
  have h2 : Q + 2 * treeWork ps ps.sp.hp ≤ 2 * 2 ^ t := by omega
  generalize Q + 2 * treeWork ps ps.sp.hp = N at h2 ⊢
  have hN : (N : ℚ) ≤ 2 * 2 ^ t := by exact_mod_cast h2
  have h0 : (0 : ℚ) ≤ N := Nat.cast_nonneg _
  rw [show (256 : ℚ) ^ ps.sp.n = 2 ^ (8 * ps.sp.n) by rw [pow_mul]; norm_num, ← div_div]
  refine div_le_div_of_nonneg_right ?_ (by positivity)
  rw [show (2 : ℚ) ^ (2 * t + 1) = (2 ^ t) ^ 2 * 2 by rw [pow_add, mul_comm 2 t, pow_mul]; norm_num]
  nlinarith [mul_le_mul hN hN h0 (by positivity)]

/-! ## The hypotheses can be met, and the event can happen -/

/-- A player who evaluates SHA-256 and presents private keys made of the value. -/
def demoDup (ps : ParamSet) : Duplicator ps 4000 64 1 :=
  .call ⟨⟨.sha256, [7]⟩, by decide⟩ fun d => .present (toVec _ (Spec.toByte d 128)) (toVec _ (1 :: Spec.toByte d 127))

/-- The bound for this player. -/
example (b : Build) :
    prob (fun O : Query 4000 → Fin (256 ^ 64) => ∃ o, romDupGame b demoPrims O (demoDup ps) = pure o ∧ o.Won) ≤
      2 ^ (2 * 20 + 1) / 2 ^ (8 * ps.sp.n) :=
  C82_bits demoPrims b (by decide) (by cases ps <;> decide) (Nat.le_refl _) (by decide) _

/-- With constant functions all private keys have the same root. -/
theorem const_root (O : Query B → Fin (256 ^ w)) (hw : 64 ≤ w) (x : Fin (256 ^ w)) (hO : ∀ y, O y = x)
    (S S' PKseed PKseed' : List UInt8) :
    Spec.pkRoot ps.sp (ps.hf (withHash demoPrims O)) S PKseed =
      Spec.pkRoot ps.sp (ps.hf (withHash demoPrims O)) S' PKseed' := by
  have hn : ps.sp.n ≤ w := (n_le_32 ps).trans ((show 32 ≤ 64 by decide).trans hw)
  obtain ⟨z, hz⟩ : ∃ z, ps.sp.hp = z + 1 := ⟨ps.sp.hp - 1, by cases ps <;> decide⟩
  rw [← eval_rootP, ← eval_rootP, rootP, rootP, hz, Ask.nodeP_eval, Ask.nodeP_eval, hashAt_wide hn, hashAt_wide hn, hO, hO]

/-- The event happens if the functions are constant: with `SK.seed` of zeros and of ones. -/
example (b : Build) (O : Query 4000 → Fin (256 ^ 64)) (x : Fin (256 ^ 64)) (hO : ∀ y, O y = x) :
    ∃ A : Duplicator ps 4000 64 0, ∃ o, romDupGame b demoPrims O A = pure o ∧ o.Won := by
  have key : ∀ s : UInt8, ∃ v : Vector UInt8 ps.params.SK_LEN, accepts (decodeOf (withHash demoPrims O) v) = true ∧
      v.toList.drop (3 * ps.sp.n) = Spec.pkRoot ps.sp (ps.hf (withHash demoPrims O)) [] [] ∧
      v.toList[0]? = some s := by
    intro s
    let a : Vector UInt8 ps.params.N := Vector.replicate _ s
    obtain ⟨v, -, e⟩ := exec_sk_into_bytes (b := demoBuild) (⟨⟨a, a, a, rootVec ps (withHash demoPrims O) a a⟩⟩ :
      PrivateKey ps.params)
    have hv : skOf v = ⟨⟨a, a, a, rootVec ps (withHash demoPrims O) a a⟩⟩ := by
      rw [skOf, e, Spec.encodeSK, List.append_assoc, List.append_assoc, List.take_left' (Vector.length_toList ..),
        List.drop_left' (Vector.length_toList ..), List.take_left' (Vector.length_toList ..),
        List.drop_left' (Vector.length_toList ..), List.take_left' (Vector.length_toList ..),
        List.drop_left' (Vector.length_toList ..)]
      simp only [toVec_toList_self]
    refine ⟨v, ?_, ?_, ?_⟩
    · rw [decodeOf, hv, if_pos rfl]
      rfl
    · rw [e, Spec.encodeSK, List.drop_left' (by
        simp only [List.length_append, Vector.length_toList]
        rw [N_eq]
        omega), rootVec_toList]
      exact const_root O (by decide) x hO _ _ _ _
    · rw [e, Spec.encodeSK, List.append_assoc, List.append_assoc, List.getElem?_append_left (by
        rw [Vector.length_toList, ← N_eq]; exact n_pos ps)]
      change (Vector.replicate ps.params.N s).toList[0]? = some s
      rw [Vector.toList_replicate, List.getElem?_replicate, if_pos (by rw [← N_eq]; exact n_pos ps)]
  obtain ⟨v, h1, h2, h3⟩ := key 0
  obtain ⟨v', h1', h2', h3'⟩ := key 1
  refine ⟨.present v v', _, dup_eq _ _ _, h1, h1', h2.trans h2'.symm, 0, .inl (n_pos ps), ?_⟩
  rw [Duplicator.outcome, h3, h3']
  decide

end Fips205.Props
