import Verif.Proofs.Sha2In
import Verif.Proofs.RunHash
import Verif.Proofs.Bind

/-!
# One signature accepted for two messages: the digests

If the digests select the same secrets, they begin with the same `n` bytes, and two calls of the hash functions give
values that begin with the same `n` bytes.
-/

namespace Fips205.Props
open Fips205 Fips205.Model

variable {ps : ParamSet} {B w : Nat}

/-- The digits are more than `n` bytes of the digest. -/
theorem md_take {dg dg' : List UInt8} (hl : dg.length = ps.sp.m) (hl' : dg'.length = ps.sp.m)
    (h : ∀ i < ps.sp.k, (Spec.base2b (Spec.digestMd ps.sp dg) ps.sp.a ps.sp.k).getD i 0 =
      (Spec.base2b (Spec.digestMd ps.sp dg') ps.sp.a ps.sp.k).getD i 0) : dg.take ps.sp.n = dg'.take ps.sp.n := by
  obtain ⟨L, hL⟩ : ∃ L, L = (ps.sp.k * ps.sp.a + 7) / 8 := ⟨_, rfl⟩
  have h1 : L ≤ ps.sp.m := by rw [hL]; cases ps <;> decide
  have h2 : ps.sp.n ≤ L := by rw [hL]; cases ps <;> decide
  have h3 : 8 * ps.sp.n ≤ ps.sp.k * ps.sp.a := by cases ps <;> decide
  have h4 : ps.sp.k * ps.sp.a ≤ 8 * L := by omega
  have e : ∀ d : List UInt8, Spec.digestMd ps.sp d = d.take L := fun d => by
    rw [Spec.digestMd, Spec.slice, List.drop_zero, Nat.sub_zero, hL]
  have hX : (dg.take L).length = L := by rw [List.length_take]; omega
  have hY : (dg'.take L).length = L := by rw [List.length_take]; omega
  rw [e, e] at h
  have hd : Spec.base2b (dg.take L) ps.sp.a ps.sp.k = Spec.base2b (dg'.take L) ps.sp.a ps.sp.k := by
    apply List.ext_getElem
    · simp [Spec.base2b]
    · intro i h1 h2
      have hi : i < ps.sp.k := by simpa [Spec.base2b] using h1
      have := h i hi
      rwa [List.getD_eq_getElem _ _ h1, List.getD_eq_getElem _ _ h2] at this
  have key := Spec.toInt_of_digits (hX.trans hY.symm) ps.sp.k (by rw [hX]; exact h4) hd
  rw [hX] at key
  have e2 : ∀ d : List UInt8, d.take ps.sp.n = (d.take L).take ps.sp.n := fun d => by
    rw [List.take_take, Nat.min_eq_left h2]
  rw [e2 dg, e2 dg']
  refine Spec.toInt_inj (by rw [List.length_take (l := dg.take L), List.length_take (l := dg'.take L), hX, hY]) ?_
  rw [toInt_take (dg.take L), toInt_take (dg'.take L), hX, hY,
    show 8 * (L - ps.sp.n) = (8 * L - ps.sp.k * ps.sp.a) + (ps.sp.k * ps.sp.a - 8 * ps.sp.n) by omega, Nat.pow_add,
    ← Nat.div_div_eq_div_mul, ← Nat.div_div_eq_div_mul, key]

/-- Different inputs that are not long are different queries. -/
theorem of_ne {x y : Call} (hx : x.input.length ≤ B) (hy : y.input.length ≤ B) (h : x ≠ y) :
    Query.of B x ≠ Query.of B y := by
  intro e
  rw [Query.of, dif_pos hx, Query.of, dif_pos hy] at e
  exact h (congrArg Subtype.val e)

theorem head_of_take {n j : Nat} (hj : n ≤ j) {a b : Fin (256 ^ w)}
    (h : (Spec.toByte a w).take j = (Spec.toByte b w).take j) : headOf n a = headOf n b := by
  have := congrArg (List.take n) h
  rw [List.take_take, List.take_take, Nat.min_eq_left hj] at this
  rw [headOf, headOf, this]

theorem mgf1_take {hash : List UInt8 → List UInt8} {hLen n : Nat} (hh : ∀ x, (hash x).length = hLen) (hn : n ≤ hLen)
    {len : Nat} (h0 : 0 < hLen) (hlen : n ≤ len) (hpos : 0 < len) (seed : List UInt8) :
    (Spec.mgf1 hash hLen seed len).take n = (hash (seed ++ Spec.toByte 0 4)).take n := by
  obtain ⟨j, hj⟩ : ∃ j, (len + hLen - 1) / hLen = j + 1 := by
    refine ⟨(len + hLen - 1) / hLen - 1, ?_⟩
    have : 0 < (len + hLen - 1) / hLen := Nat.div_pos (by omega) h0
    omega
  rw [Spec.mgf1, Spec.trunc, hj, List.take_take, Nat.min_eq_left hlen, Spec.concat, List.range_succ_eq_map,
    List.flatMap_cons, List.take_append_of_le_length (by rw [hh]; exact hn)]

theorem shaOf_length (P : Spec.Prims) (X : List UInt8) : (shaOf ps P X).length = hlen ps := by
  simp only [shaOf, hlen]
  split
  · rw [Spec.sha256', Vector.length_toList]
  · rw [Spec.sha512', Vector.length_toList]

/-- Different messages whose digests begin with the same `n` bytes. -/
theorem hmsg_collide (hw : 64 ≤ w) {P0 : Spec.Prims} {O : Query B → Fin (256 ^ w)} {R PKseed root M M' : List UInt8}
    (h1 : R.length = ps.sp.n) (h2 : PKseed.length = ps.sp.n) (h3 : root.length = ps.sp.n)
    (hM : 160 + M.length ≤ B) (hM' : 160 + M'.length ≤ B) (hne : M ≠ M')
    (h : ((ps.hf (withHash P0 O)).Hmsg R PKseed root M).take ps.sp.n =
      ((ps.hf (withHash P0 O)).Hmsg R PKseed root M').take ps.sp.n) :
    ∃ x ∈ hMsgLog (withHash P0 O) ps.family ps.row R PKseed root M,
    ∃ y ∈ hMsgLog (withHash P0 O) ps.family ps.row R PKseed root M',
      Query.of B x ≠ Query.of B y ∧ headOf ps.sp.n (O (.of B x)) = headOf ps.sp.n (O (.of B y)) := by
  have hn := n_le_32 ps
  have hnm := n_le_m ps
  have hm0 : 0 < ps.sp.m := (n_pos ps).trans_le hnm
  have hin : R ++ PKseed ++ root ++ M ≠ R ++ PKseed ++ root ++ M' := fun e => hne (List.append_cancel_left e)
  have hinl : ∀ M : List UInt8, 160 + M.length ≤ B → (R ++ PKseed ++ root ++ M).length ≤ B := fun M hM => by
    simp only [List.length_append]; omega
  cases hps : ps.family with
  | shake =>
    refine ⟨_, List.mem_singleton_self _, _, List.mem_singleton_self _,
      of_ne (hinl M hM) (hinl M' hM') fun e => hin (Call.mk.inj e).2, ?_⟩
    have hmw : ps.sp.m ≤ w := (show ps.sp.m ≤ 64 by cases ps <;> decide).trans hw
    have e : ∀ M, (ps.hf (withHash P0 O)).Hmsg R PKseed root M =
        ((withHash P0 O).shake256 (R ++ PKseed ++ root ++ M) ps.sp.m).toList := fun M => by
      rw [ParamSet.hf, hps]; rfl
    rw [e, e, wide_shake hmw, wide_shake hmw, List.take_take, List.take_take, Nat.min_eq_left hnm] at h
    exact head_of_take (Nat.le_refl _) h
  | sha2 =>
    have hh0 : 0 < hlen ps := (n_pos ps).trans_le (n_le_hlen ps)
    rw [sha2_Hmsg hps, sha2_Hmsg hps, mgf1_take (shaOf_length _) (n_le_hlen ps) hh0 hnm hm0,
      mgf1_take (shaOf_length _) (n_le_hlen ps) hh0 hnm hm0] at h
    have hhl := hlen_le ps
    have halg : ∀ M : List UInt8, (⟨msgAlg ps, R ++ PKseed ++ root ++ M⟩ : Call) ∈
        hMsgLog (withHash P0 O) .sha2 ps.row R PKseed root M := fun M => by
      simp only [hMsgLog, msgAlg]
      split <;> exact List.mem_cons_self
    have hblk : ∀ M : List UInt8, (⟨msgAlg ps, R ++ PKseed ++ shaOf ps (withHash P0 O) (R ++ PKseed ++ root ++ M) ++
        Spec.toByte 0 4⟩ : Call) ∈ hMsgLog (withHash P0 O) .sha2 ps.row R PKseed root M := fun M => by
      have hr : ps.row.m = ps.sp.m := rfl
      simp only [hMsgLog, msgAlg, shaOf, hr]
      split
      · exact List.mem_cons_of_mem _ (List.mem_map.mpr ⟨0, List.mem_range.mpr (Nat.div_pos (by omega) (by decide)), rfl⟩)
      · exact List.mem_cons_of_mem _ (List.mem_map.mpr ⟨0, List.mem_range.mpr (Nat.div_pos (by omega) (by decide)), rfl⟩)
    by_cases hy : shaOf ps (withHash P0 O) (R ++ PKseed ++ root ++ M) =
        shaOf ps (withHash P0 O) (R ++ PKseed ++ root ++ M')
    · refine ⟨_, halg M, _, halg M', of_ne (hinl M hM) (hinl M' hM') fun e => hin (Call.mk.inj e).2, ?_⟩
      rw [wide_sha hw, wide_sha hw, toByte_headOf (hhl.trans hw), toByte_headOf (hhl.trans hw)] at hy
      exact head_of_take (n_le_hlen ps) hy
    · have hbl : ∀ X, (R ++ PKseed ++ shaOf ps (withHash P0 O) X ++ Spec.toByte 0 4).length ≤ B := fun X => by
        simp only [List.length_append, shaOf_length, Spec.toByte_length]
        omega
      refine ⟨_, hblk M, _, hblk M', of_ne (hbl _) (hbl _) fun e => hy ?_, ?_⟩
      · exact List.append_cancel_left (List.append_cancel_right (Call.mk.inj e).2)
      · rw [wide_sha hw, wide_sha hw (X := _ ++ _ ++ shaOf ps _ (_ ++ M') ++ _), toByte_headOf (hhl.trans hw),
          toByte_headOf (hhl.trans hw), List.take_take, List.take_take, Nat.min_eq_left (n_le_hlen ps)] at h
        exact head_of_take (Nat.le_refl _) h

end Fips205.Props
