import Verif.Proofs.Sha2In

/-!
# The random function with its values at these inputs drawn separately
-/

namespace Fips205.Props
open Fips205 Fips205.Model

variable {ps : ParamSet} {S : Finset (List UInt8)} {B w : Nat}

/-! ## Blocks and digests -/

/-- The digest of these blocks: the first `m` bytes of what the first `h` bytes of each make. -/
def digest (m h : Nat) {nb : Nat} (X : Fin nb → Fin (256 ^ w)) : List UInt8 :=
  ((List.range nb).flatMap fun c => if hc : c < nb then Spec.toByte (headOf h (X ⟨c, hc⟩)) h else []).take m

/-- The number that the digest stands for. -/
def dig (m h : Nat) {nb : Nat} (X : Fin nb → Fin (256 ^ w)) : Fin (256 ^ m) := number m (digest m h X)

theorem split_one {m h nb : Nat} (hw : h ≤ w) (hm : m ≤ h) (hnb : nb = 1) :
    ∃ (τ : Type) (_ : Fintype τ) (_ : Nonempty τ) (e : Fin (256 ^ m) × τ ≃ (Fin nb → Fin (256 ^ w))),
      ∀ d t, digest m h (e (d, t)) = Spec.toByte d m := by
  subst hnb
  have hmw := hm.trans hw
  refine ⟨Fin (256 ^ (w - m)), inferInstance, ⟨⟨0, Nat.pow_pos (by decide)⟩⟩,
    (glue hmw).trans (Equiv.funUnique (Fin 1) _).symm, fun d t => ?_⟩
  change (List.flatMap _ (List.range 1)).take m = _
  have e : ∀ c : Fin 1, ((glue hmw).trans (Equiv.funUnique (Fin 1) (Fin (256 ^ w))).symm) (d, t) c = glue hmw (d, t) :=
    fun _ => rfl
  simp only [List.range_one, List.flatMap_cons, List.flatMap_nil, List.append_nil, Nat.zero_lt_one, dif_pos, e]
  rw [toByte_headOf hw, List.take_take, Nat.min_eq_left hm, ← toByte_headOf hmw, headOf_glue]

theorem split_two {m h nb : Nat} (hw : h ≤ w) (hm : h ≤ m) (hm2 : m - h ≤ h) (hnb : nb = 2) :
    ∃ (τ : Type) (_ : Fintype τ) (_ : Nonempty τ) (e : Fin (256 ^ m) × τ ≃ (Fin nb → Fin (256 ^ w))),
      ∀ d t, digest m h (e (d, t)) = Spec.toByte d m := by
  subst hnb
  have h2 : m - h ≤ w := hm2.trans hw
  let e0 : Fin (256 ^ m) × (Fin (256 ^ (w - h)) × Fin (256 ^ (w - (m - h)))) ≃ Fin (256 ^ w) × Fin (256 ^ w) :=
    { toFun := fun x => (glue hw (((glue hm).symm x.1).1, x.2.1), glue h2 (((glue hm).symm x.1).2, x.2.2))
      invFun := fun y => (glue hm (((glue hw).symm y.1).1, ((glue h2).symm y.2).1), ((glue hw).symm y.1).2,
        ((glue h2).symm y.2).2)
      left_inv := fun x => by simp only [Equiv.symm_apply_apply, Prod.mk.eta, Equiv.apply_symm_apply]
      right_inv := fun y => by simp only [Equiv.symm_apply_apply, Prod.mk.eta, Equiv.apply_symm_apply] }
  refine ⟨_, inferInstance, ⟨⟨⟨0, Nat.pow_pos (by decide)⟩, ⟨0, Nat.pow_pos (by decide)⟩⟩⟩,
    e0.trans (finTwoArrowEquiv _).symm, fun d t => ?_⟩
  have a0 : (e0.trans (finTwoArrowEquiv (Fin (256 ^ w))).symm) (d, t) 0 = glue hw (((glue hm).symm d).1, t.1) := rfl
  have a1 : (e0.trans (finTwoArrowEquiv (Fin (256 ^ w))).symm) (d, t) 1 = glue h2 (((glue hm).symm d).2, t.2) := rfl
  have r2 : List.range 2 = [0, 1] := rfl
  change (List.flatMap _ (List.range 2)).take m = _
  rw [r2]
  simp only [List.flatMap_cons, List.flatMap_nil, List.append_nil, dif_pos (show 0 < 2 by decide),
    dif_pos (show 1 < 2 by decide)]
  have f0 : (⟨0, by decide⟩ : Fin 2) = 0 := rfl
  have f1 : (⟨1, by decide⟩ : Fin 2) = 1 := rfl
  rw [f0, f1, a0, a1, headOf_glue, List.take_append, List.take_of_length_le (by rw [Spec.toByte_length]; exact hm),
    Spec.toByte_length, toByte_headOf hw, List.take_take, Nat.min_eq_left hm2, ← toByte_headOf h2, headOf_glue]
  have hd := congrArg (fun x : Fin (256 ^ m) => Spec.toByte x m) ((glue hm).apply_symm_apply d)
  rw [← hd]
  exact (toByte_number (by rw [List.length_append, Spec.toByte_length, Spec.toByte_length]; omega)).symm

/-- The blocks are the digest and something else. -/
theorem split_blocks (hw : 64 ≤ w) :
    ∃ (τ : Type) (_ : Fintype τ) (_ : Nonempty τ) (e : Fin (256 ^ ps.sp.m) × τ ≃ (Fin (blocks ps) → Fin (256 ^ w))),
      ∀ d t, digest ps.sp.m (hlen ps) (e (d, t)) = Spec.toByte d ps.sp.m := by
  have hw' := (hlen_le ps).trans hw
  by_cases h : ps.sp.m ≤ hlen ps
  · exact split_one hw' h (by revert h; cases ps <;> decide)
  · exact split_two hw' (by omega) (by revert h; cases ps <;> decide) (by revert h; cases ps <;> decide)

/-! ## The function -/

/-- All these inputs. -/
abbrev Pt (ps : ParamSet) (S : Finset (List UInt8)) : Type := MsgPt ps S ⊕ PrfPt ps S

instance : DecidableEq (Pt ps S) :=
  have : DecidableEq (MsgPt ps S) := inferInstance
  have : DecidableEq (PrfPt ps S) := inferInstance
  instDecidableEqSum

/-- The points. -/
noncomputable def ptAll (B : Nat) (PKseed root : List UInt8) (k : D ps) : Pt ps S → Option (Query B)
  | .inl j => ptM B PKseed root j
  | .inr j => ptK B k j

/-- The function with the other values. -/
noncomputable def star2 (P0 : Spec.Prims) (PKseed : List UInt8) (s k : D ps) (O : Query B → Fin (256 ^ w))
    (H : Pt ps S → Fin (256 ^ w)) : Query B → Fin (256 ^ w) :=
  Oracle.over (ptAll B PKseed (rootBy P0 PKseed s O) k) O H

section
variable (hps : ps.family = .sha2) (hw : ps.sp.n ≤ w) (P0 : Spec.Prims) (pk_seed : Vector UInt8 ps.params.N)
  (hS : ∀ M ∈ S, 160 + M.length ≤ B) (hB : 192 ≤ B)
  (hseed : ∀ c ∈ [0, 0x36, 0x5c], pk_seed.toList ≠ List.replicate ps.sp.n c)
include hS hB

include hseed in
theorem ptAll_inj {root : List UInt8} (hr : root.length = ps.sp.n) (k : D ps) (i j : Pt ps S) (y : Query B)
    (hi : ptAll B pk_seed.toList root k i = some y) (hj : ptAll B pk_seed.toList root k j = some y) : i = j := by
  have hl := seed_length pk_seed
  have hcross : ∀ (i : MsgPt ps S) (j : PrfPt ps S), ptM B pk_seed.toList root i = some y → ptK B k j = some y → False := by
    intro i j hi hj
    have h := (ptM_some hi).symm.trans (Option.some.inj hj).symm
    have h := congrArg (mid ps.sp.n) (shaQ_inj (msgPtIn_length hS hB hl hr i) (prfPtIn_length hS hB k j) h)
    rw [msgPtIn_mid hl] at h
    rcases prfPtIn_mid k j with e | e
    · exact hseed 0x36 (by simp) (h.trans e)
    · exact hseed 0x5c (by simp) (h.trans e)
  cases i with
  | inl i =>
    cases j with
    | inl j =>
      refine congrArg Sum.inl (msgPtIn_inj (PKseed := pk_seed.toList) hr ?_ ?_ (shaQ_inj (msgPtIn_length hS hB hl hr i)
        (msgPtIn_length hS hB hl hr j) ((ptM_some hi).symm.trans (ptM_some hj))))
      · rintro a rfl
        exact ptM_clash hi
      · rintro a rfl
        exact ptM_clash hj
    | inr j => exact (hcross i j hi hj).elim
  | inr i =>
    cases j with
    | inl j => exact (hcross j i hj hi).elim
    | inr j =>
      exact congrArg Sum.inr (prfPtIn_inj (shaQ_inj (prfPtIn_length hS hB k i) (prfPtIn_length hS hB k j)
        ((Option.some.inj hi).trans (Option.some.inj hj).symm)))

include hps hseed in
theorem ptAll_off {root : List UInt8} (hr : root.length = ps.sp.n) {k : D ps} {y : Query B}
    (hy : IsPlace ps pk_seed.toList y) (j : Pt ps S) : ptAll B pk_seed.toList root k j ≠ some y := by
  have hl := seed_length pk_seed
  have hnil : ∀ X : List UInt8, mid ps.sp.n X ≠ [] → X ≠ [] := by
    rintro X h rfl
    exact h (by rw [mid, List.drop_nil, List.take_nil])
  have hrep : ∀ c, List.replicate ps.sp.n (c : UInt8) ≠ [] := fun c => by
    rw [ne_eq, List.replicate_eq_nil_iff]; exact (n_pos ps).ne'
  intro h
  cases j with
  | inl j =>
    have hmid := msgPtIn_mid hl root j
    rw [ptM_some h] at hy
    have h0 := place_mid hps hl (msgPtIn_length hS hB hl hr j) (hnil _ (by
      rw [hmid, ne_eq, ← List.length_eq_zero_iff, hl]; exact (n_pos ps).ne')) hy
    rw [hmid] at h0
    exact hseed 0 (by simp) h0
  | inr j =>
    rw [← Option.some.inj h] at hy
    rcases prfPtIn_mid k j with hmid | hmid
    · have h0 := place_mid hps hl (prfPtIn_length hS hB k j) (hnil _ (by rw [hmid]; exact hrep _)) hy
      exact replicate_ne ps (by decide) (hmid.symm.trans h0)
    · have h0 := place_mid hps hl (prfPtIn_length hS hB k j) (hnil _ (by rw [hmid]; exact hrep _)) hy
      exact replicate_ne ps (by decide) (hmid.symm.trans h0)

include hps hw hseed in
theorem avg_star2 (s k : D ps) (f : (Query B → Fin (256 ^ w)) → ℚ) :
    Oracle.avg f = Oracle.avg fun O => Oracle.avg fun H : Pt ps S → Fin (256 ^ w) =>
      f (star2 P0 pk_seed.toList s k O H) := by
  classical
  have : Nonempty (Fin (256 ^ w)) := ⟨⟨0, Nat.pow_pos (by decide)⟩⟩
  rw [Oracle.avg_over (fun O => ptAll B pk_seed.toList (rootBy P0 pk_seed.toList s O) k)
    (fun O => ptAll_inj pk_seed hS hB hseed rootBy_length k) (fun O H => ?_)]
  · rfl
  · rw [root_congr hw fun y hy => Oracle.over_off _ _ (ptAll_off hps pk_seed hS hB hseed rootBy_length hy)]

variable {P0 pk_seed} {s k : D ps} {O : Query B → Fin (256 ^ w)} {H : Pt ps S → Fin (256 ^ w)}

include hps hseed in
theorem star2_place {y : Query B} (hy : IsPlace ps pk_seed.toList y) : star2 P0 pk_seed.toList s k O H y = O y := by
  rw [star2, Oracle.over_off _ _ (ptAll_off hps pk_seed hS hB hseed rootBy_length hy)]

include hseed in
theorem star2_at {j : Pt ps S} {y : Query B} (h : ptAll B pk_seed.toList (rootBy P0 pk_seed.toList s O) k j = some y) :
    star2 P0 pk_seed.toList s k O H y = H j := by
  rw [star2]
  exact Oracle.over_at (ptAll_inj pk_seed hS hB hseed rootBy_length k) _ _ h

theorem star2_else {y : Query B} (h1 : (y.1.input.take ps.sp.n).map (· ^^^ 0x36) ≠ Spec.toByte k ps.sp.n)
    (h2 : (y.1.input.take ps.sp.n).map (· ^^^ 0x5c) ≠ Spec.toByte k ps.sp.n)
    (h : ∀ j : MsgPt ps S, ptM B pk_seed.toList (rootBy P0 pk_seed.toList s O) j ≠ some y) :
    star2 P0 pk_seed.toList s k O H y = O y := by
  have hx : ∀ (c : UInt8) (l : List UInt8), (l.map (· ^^^ c)).map (· ^^^ c) = l := by
    intro c l
    rw [List.map_map]
    refine (List.map_congr_left fun a _ => ?_).trans (List.map_id l)
    rw [Function.comp_apply, UInt8.xor_assoc, UInt8.xor_self, UInt8.xor_zero]
    rfl
  rw [star2, Oracle.over_off]
  intro j hj
  cases j with
  | inl j => exact h j hj
  | inr j =>
    have e : y.1.input = prfPtIn k j := by
      rw [← Option.some.inj hj, shaQ_val (prfPtIn_length hS hB k j)]
    cases j with
    | inl i => exact h1 (by rw [e, prfPtIn, padOf_take, hx])
    | inr z => exact h2 (by rw [e, prfPtIn, padOf_take, hx])

end

end Fips205.Props
