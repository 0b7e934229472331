import Verif.Proofs.Blind
import Verif.Proofs.Dup

/-!
# The roots of two pairs of seeds

The root of a pair of seeds is the value of a hash function at one call.  For another pair of seeds this is another call,
unless the two trees meet, and its value is random even when the first root is known.
-/

namespace Fips205.Oracle
variable {Y E : Type} [Fintype Y] [DecidableEq Y] [Fintype E] [Nonempty E]

/-- A value at a point that can be told from the values elsewhere is random, whatever else these values say. -/
theorem avg_star_with {K : Type} (star : (Y → E) → Y) (k : (Y → E) → K)
    (hst : ∀ O O' : Y → E, (∀ y, y ≠ star O → O' y = O y) → star O' = star O ∧ k O' = k O)
    (G : K → E → ℚ) : (avg fun O : Y → E => G (k O) (O (star O))) = avg fun O : Y → E => avg fun e => G (k O) e := by
  have hinj : ∀ (O : Y → E) (i j : Unit) (y : Y), some (star O) = some y → some (star O) = some y → i = j :=
    fun _ _ _ _ _ _ => rfl
  have hov : ∀ (O : Y → E) (H : Unit → E), star (over (fun _ => some (star O)) O H) = star O ∧
      k (over (fun _ => some (star O)) O H) = k O := fun O H =>
    hst _ _ fun y hy => over_off _ _ fun _ e => hy (Option.some.inj e).symm
  rw [avg_over (I := Unit) (fun O _ => some (star O)) hinj fun O H => funext fun _ => congrArg some (hov O H).1]
  have : ∀ (O : Y → E) (H : Unit → E), over (fun _ => some (star O)) O H
      (star (over (fun _ => some (star O)) O H)) = H () := fun O H => by
    rw [(hov O H).1]
    exact over_at (hinj O) O H rfl
  simp only [this, (hov _ _).2]
  refine congrArg avg (funext fun O => ?_)
  rw [avg_equiv (Equiv.funUnique Unit E)]
  rfl

end Fips205.Oracle

namespace Fips205.Props
open Fips205 Fips205.Model Fips205.Oracle

variable {ps : ParamSet} {B w : Nat} {P0 : Spec.Prims} {O O' : Query B → Fin (256 ^ w)}

/-- The root of a pair of seeds is computed in the same way if the functions change where the root of another pair is
computed. -/
theorem rootCall_off {S p p' : List UInt8} {y : Query B} (hw : ps.sp.n ≤ w) (hp : p.length = p'.length)
    (hy : TopCall ps p' y) (hO : ∀ q, q ≠ y → O' q = O q) : rootCall P0 O' p ps S = rootCall P0 O p ps S := by
  have hoff : ∀ x : Place, x.Exists ps.sp → x ≠ topPlace ps.sp → ∀ z, hashAt (ps.hf (withHash P0 O')) p x z =
      hashAt (ps.hf (withHash P0 O)) p x z := by
    intro x hx hne z
    by_cases e : p = p'
    · subst e
      exact (hashAt_off (top_is ps) hy hO hw ⟨hx, hne⟩ z).symm
    · rw [hashAt_wide hw, hashAt_wide hw, hO]
      refine of_ne_top hy fun z' h => e ?_
      obtain ⟨a, ha⟩ := callOf_input ps p x z
      obtain ⟨a', ha'⟩ := callOf_input ps p' (topPlace ps.sp) z'
      have h := congrArg Call.input h
      rw [ha, ha', List.append_assoc, List.append_assoc] at h
      exact (List.append_inj h hp).1
  refine congrArg (queryAt ps B p (topPlace ps.sp)) (argAt_congr (top_is ps) fun y hx hr => ?_)
  have : ∀ r (y : Place), y.Exists ps.sp → y.rank ps.sp = r → r < (topPlace ps.sp).rank ps.sp →
      valueAt ps.sp (ps.hf (withHash P0 O')) S p y = valueAt ps.sp (ps.hf (withHash P0 O)) S p y := by
    intro r
    induction r using Nat.strong_induction_on with
    | _ r ih =>
      intro y hx hr hlt
      have hne : y ≠ topPlace ps.sp := by rintro rfl; omega
      rw [valueAt_eq ps.wf hx, valueAt_eq ps.wf hx, hoff y hx hne]
      refine congrArg _ (argAt_congr hx fun z hz hlt' => ih _ (by omega) z hz rfl (by omega))
  exact this _ y hx rfl hr

section
variable {S S' p p' : List UInt8} (hw : ps.sp.n ≤ w) (hB : 160 + 2 * ps.sp.n ≤ B) (hn : p.length = ps.sp.n)
  (hn' : p'.length = ps.sp.n)
include hw hB hn hn'

/-- The root of the second pair of seeds, with the first root known. -/
theorem avg_two_roots (r r' : Fin (256 ^ ps.sp.n)) :
    (avg fun O : Query B → Fin (256 ^ w) => ind ((rootCall P0 O p ps S ≠ rootCall P0 O p' ps S' ∧
      headOf ps.sp.n (O (rootCall P0 O p ps S)) = r) ∧ headOf ps.sp.n (O (rootCall P0 O p' ps S')) = r')) =
      (avg fun O : Query B → Fin (256 ^ w) => ind (rootCall P0 O p ps S ≠ rootCall P0 O p' ps S' ∧
        headOf ps.sp.n (O (rootCall P0 O p ps S)) = r)) / 256 ^ ps.sp.n := by
  classical
  have : Nonempty (Fin (256 ^ w)) := ⟨⟨0, Nat.pow_pos (by decide)⟩⟩
  let k : (Query B → Fin (256 ^ w)) → Prop := fun O => rootCall P0 O p ps S ≠ rootCall P0 O p' ps S' ∧
    headOf ps.sp.n (O (rootCall P0 O p ps S)) = r
  let G : Prop → Fin (256 ^ w) → ℚ := fun x e => ind (x ∧ headOf ps.sp.n e = r')
  have h1 : ∀ x : Prop, (avg fun e => G x e) = ind x * (1 / 256 ^ ps.sp.n) := by
    intro x
    by_cases hx : x
    · simp only [G, hx, true_and]
      rw [avg_headOf hw]
      simp [ind]
    · simp [G, hx, ind, avg]
  refine (avg_star_with (fun O => rootCall P0 O p' ps S') k ?_ G).trans ?_
  · intro O O' h
    have hy := rootCall_top (P0 := P0) (O := O) (SKseed := S') hw hn' hB
    have e1 := rootCall_off (P0 := P0) (S := S) hw (hn.trans hn'.symm) hy h
    have e2 := rootCall_off (P0 := P0) (S := S') hw rfl hy h
    refine ⟨e2, ?_⟩
    simp only [k, e1, e2]
    refine propext (and_congr_right fun hne => ?_)
    rw [h _ hne]
  · simp only [h1]
    rw [avg, avg, ← Finset.sum_mul]
    ring

end

/-- With different `PK.seed` the calls are different. -/
theorem rootCall_ne {S S' p p' : List UInt8} (hw : ps.sp.n ≤ w) (hB : 160 + 2 * ps.sp.n ≤ B) (hn : p.length = ps.sp.n)
    (hn' : p'.length = ps.sp.n) (hne : p ≠ p') : rootCall P0 O p ps S ≠ rootCall P0 O p' ps S' := by
  intro e
  obtain ⟨z, hz⟩ := rootCall_top (P0 := P0) (O := O) (SKseed := S) hw hn hB
  obtain ⟨z', hz'⟩ := rootCall_top (P0 := P0) (O := O) (SKseed := S') hw hn' hB
  rw [e, hz'] at hz
  obtain ⟨a, ha⟩ := callOf_input ps p (topPlace ps.sp) z
  obtain ⟨a', ha'⟩ := callOf_input ps p' (topPlace ps.sp) z'
  have h := congrArg Call.input hz
  rw [ha, ha', List.append_assoc, List.append_assoc] at h
  exact hne (List.append_inj h (hn'.trans hn.symm)).1.symm

/-- Two pairs of seeds seldom have the same root, also if the second is chosen when the first root is known. -/
theorem same_root_le (hw : 64 ≤ w) (hB : 160 + ps.sp.len * ps.sp.n ≤ B) {sk : PrivateKey ps.params}
    {f : List UInt8 → PrivateKey ps.params} (hne : ∀ r, sk.key.sk_seed.toList ≠ (f r).key.sk_seed.toList ∨
      sk.key.pk_seed.toList ≠ (f r).key.pk_seed.toList) :
    (avg fun O : Query B → Fin (256 ^ w) => ind (∃ r,
      r = Spec.pkRoot ps.sp (ps.hf (withHash P0 O)) sk.key.sk_seed.toList sk.key.pk_seed.toList ∧
      r = Spec.pkRoot ps.sp (ps.hf (withHash P0 O)) (f r).key.sk_seed.toList (f r).key.pk_seed.toList)) ≤
      (2 * treeWork ps ps.sp.hp : ℕ) ^ 2 / (2 * 256 ^ ps.sp.n) := by
  have : Nonempty (Fin (256 ^ w)) := ⟨⟨0, Nat.pow_pos (by decide)⟩⟩
  have hn : ps.sp.n ≤ w := (n_le_32 ps).trans ((show 32 ≤ 64 by decide).trans hw)
  let t' : AskExec demoBuild w (List UInt8) := do
    let r ← placesP ps sk.key.pk_seed.toList (rootP ps sk.key.sk_seed.toList)
    placesP ps (f r).key.pk_seed.toList (rootP ps (f r).key.sk_seed.toList)
  let t : Tree Call (Fin (256 ^ w)) Panic (List UInt8) := t'
  have ht : ∀ O : Query B → Fin (256 ^ w), (t.log fun c => O (.of B c)) =
      rootCalls (withHash P0 O) sk ++ rootCalls (withHash P0 O) (f (Spec.pkRoot ps.sp (ps.hf (withHash P0 O))
        sk.key.sk_seed.toList sk.key.pk_seed.toList)) := by
    intro O
    rw [← eval_rootP]
    have h1 : ∃ x, (runWith (b := demoBuild) O).app t' = (rootCalls (withHash P0 O) sk ++ rootCalls (withHash P0 O)
        (f ((rootP ps sk.key.sk_seed.toList).eval (hashAt (ps.hf (withHash P0 O)) sk.key.pk_seed.toList))), x) := by
      rw [RustHom.map_bind]
      exact ⟨_, log_bind (run_placesP hw P0 O _ _) (run_placesP hw P0 O _ _)⟩
    obtain ⟨x, h1⟩ := h1
    exact congrArg Prod.fst h1
  have hc := Tree.collide_le (pr := Query.of B) (h := headOf ps.sp.n) (head_mem_le hn) t
    (2 * treeWork ps ps.sp.hp) fun O => by
      have h1 := rootCalls_length (withHash P0 O) sk
      have h2 := rootCalls_length (withHash P0 O) (f (Spec.pkRoot ps.sp (ps.hf (withHash P0 O))
        sk.key.sk_seed.toList sk.key.pk_seed.toList))
      rw [ht, List.length_append]
      omega
  rw [Fintype.card_fin] at hc
  push_cast at hc ⊢
  refine (avg_mono fun O => ind_mono fun h => ?_).trans hc
  obtain ⟨c, c', m1, m2, m3⟩ := root_collide hw P0 O hB h.2 (hne _)
  rw [ht]
  exact ⟨c, c', List.mem_append_left _ m1, List.mem_append_right _ m2, m3⟩

end Fips205.Props
