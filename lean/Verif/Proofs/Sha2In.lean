import Verif.Proofs.Shake
import Verif.Proofs.Lazy
import Verif.Proofs.TwoStep

/-!
# The inputs that the SHA2 parameter sets compose

`PRF_msg` is HMAC, `H_msg` is MGF1 of a hash of the message.  The inputs that these compose are different from each
other and from those at places; only a block of MGF1 may be an input for a message, if the hash before it begins with
the root.
-/

namespace Fips205.Props
open Fips205 Fips205.Model

variable {ps : ParamSet} {S : Finset (List UInt8)} {B w : Nat}

/-! ## The functions -/

/-- The length of a hash of a message. -/
def hlen (ps : ParamSet) : Nat := if ps.row.category = 1 then 32 else 64

/-- The block size of HMAC. -/
def blen (ps : ParamSet) : Nat := if ps.row.category = 1 then 64 else 128

/-- The hash function for messages. -/
def msgAlg (ps : ParamSet) : Spec.PreHash := if ps.row.category = 1 then .sha256 else .sha512

/-- The hash of a message. -/
def shaOf (ps : ParamSet) (P : Spec.Prims) (X : List UInt8) : List UInt8 :=
  if ps.row.category = 1 then Spec.sha256' P X else Spec.sha512' P X

/-- The number of blocks of MGF1. -/
def blocks (ps : ParamSet) : Nat := (ps.sp.m + hlen ps - 1) / hlen ps

theorem hlen_le (ps : ParamSet) : hlen ps ≤ 64 := by rw [hlen]; split <;> decide
theorem n_le_hlen (ps : ParamSet) : ps.sp.n ≤ hlen ps := by cases ps <;> decide
theorem n_le_blen (ps : ParamSet) : ps.sp.n + ps.sp.n ≤ blen ps := by cases ps <;> decide
theorem blen_le (ps : ParamSet) : blen ps ≤ 128 := by rw [blen]; split <;> decide

theorem sha2_Hmsg (hps : ps.family = .sha2) (P : Spec.Prims) (R PKseed root M : List UInt8) :
    (ps.hf P).Hmsg R PKseed root M =
      Spec.mgf1 (shaOf ps P) (hlen ps) (R ++ PKseed ++ shaOf ps P (R ++ PKseed ++ root ++ M)) ps.sp.m := by
  rw [ParamSet.hf, hps, Spec.hashFns]
  by_cases hc : ps.row.category = 1
  · have e : shaOf ps P = Spec.sha256' P := funext fun X => if_pos hc
    simp only [e, hlen, hc, if_true]; rfl
  · have e : shaOf ps P = Spec.sha512' P := funext fun X => if_neg hc
    simp only [e, hlen, hc, if_false]; rfl

theorem sha2_PRFmsg (hps : ps.family = .sha2) (P : Spec.Prims) (k o M : List UInt8) :
    (ps.hf P).PRFmsg k o M = Spec.trunc ps.sp.n (Spec.hmac (shaOf ps P) (blen ps) k (o ++ M)) := by
  rw [ParamSet.hf, hps, Spec.hashFns]
  by_cases hc : ps.row.category = 1
  · have e : shaOf ps P = Spec.sha256' P := funext fun X => if_pos hc
    simp only [e, blen, hc, if_true]; rfl
  · have e : shaOf ps P = Spec.sha512' P := funext fun X => if_neg hc
    simp only [e, blen, hc, if_false]; rfl

/-- A call of the hash function for messages. -/
def shaQ (ps : ParamSet) (B : Nat) (X : List UInt8) : Query B := .of B ⟨msgAlg ps, X⟩

theorem shaQ_val {X : List UInt8} (h : X.length ≤ B) : (shaQ ps B X).1 = ⟨msgAlg ps, X⟩ := by
  rw [shaQ, Query.of, dif_pos h]

theorem shaQ_inj {X Y : List UInt8} (hX : X.length ≤ B) (hY : Y.length ≤ B) (h : shaQ ps B X = shaQ ps B Y) : X = Y := by
  have h := congrArg Subtype.val h
  rw [shaQ_val hX, shaQ_val hY] at h
  exact (Call.mk.inj h).2

theorem wide_sha (hw : 64 ≤ w) {P0 : Spec.Prims} {O : Query B → Fin (256 ^ w)} (X : List UInt8) :
    shaOf ps (withHash P0 O) X = Spec.toByte (headOf (hlen ps) (O (shaQ ps B X))) (hlen ps) := by
  rw [toByte_headOf ((hlen_le ps).trans hw)]
  by_cases hc : ps.row.category = 1
  · simp only [shaOf, hlen, msgAlg, shaQ, hc, if_true]
    rw [← wide_sha256 (P0 := P0) ((show 32 ≤ 64 by decide).trans hw) (Nat.le_refl 32) X, Spec.trunc,
      List.take_of_length_le]
    rw [Spec.sha256', Vector.length_toList]
  · simp only [shaOf, hlen, msgAlg, shaQ, hc, if_false]
    rw [← wide_sha512 (P0 := P0) hw (Nat.le_refl 64) X, Spec.trunc, List.take_of_length_le]
    rw [Spec.sha512', Vector.length_toList]

/-! ## The inputs -/

/-- The values of the hash of a message. -/
abbrev Yv (ps : ParamSet) : Type := Fin (256 ^ hlen ps)

/-- The inputs for `H_msg`: those of the message, and the blocks of MGF1. -/
abbrev MsgPt (ps : ParamSet) (S : Finset (List UInt8)) : Type := (D ps × S) ⊕ (D ps × Yv ps) × Fin (blocks ps)

/-- The inputs for `PRF_msg`: those of the inner hash, and of the outer one. -/
abbrev PrfPt (ps : ParamSet) (S : Finset (List UInt8)) : Type := (D ps × S) ⊕ Yv ps

/-- The inputs for `H_msg`. -/
def msgPtIn (PKseed root : List UInt8) : MsgPt ps S → List UInt8
  | .inl i => Spec.toByte i.1 ps.sp.n ++ (PKseed ++ (root ++ i.2.val))
  | .inr j => Spec.toByte j.1.1 ps.sp.n ++ (PKseed ++ (Spec.toByte j.1.2 (hlen ps) ++ Spec.toByte j.2 4))

/-- The key of HMAC, padded. -/
def padOf (k : D ps) (c : UInt8) : List UInt8 :=
  (Spec.toByte k ps.sp.n).map (· ^^^ c) ++ List.replicate (blen ps - ps.sp.n) c

/-- The inputs for `PRF_msg`. -/
def prfPtIn (k : D ps) : PrfPt ps S → List UInt8
  | .inl i => padOf k 0x36 ++ (Spec.toByte i.1 ps.sp.n ++ i.2.val)
  | .inr z => padOf k 0x5c ++ Spec.toByte z (hlen ps)

/-- The `n` bytes after the first `n`. -/
def mid (n : Nat) (X : List UInt8) : List UInt8 := (X.drop n).take n

theorem msgPtIn_mid {PKseed : List UInt8} (hl : PKseed.length = ps.sp.n) (root : List UInt8) (j : MsgPt ps S) :
    mid ps.sp.n (msgPtIn PKseed root j) = PKseed := by
  cases j <;> rw [msgPtIn, mid, List.drop_left' (Spec.toByte_length _ _), List.take_left' hl]

theorem padOf_length (k : D ps) (c : UInt8) : (padOf k c).length = blen ps := by
  have := n_le_blen ps
  rw [padOf, List.length_append, List.length_map, Spec.toByte_length, List.length_replicate]
  omega

theorem padOf_mid (k : D ps) (c : UInt8) (X : List UInt8) :
    mid ps.sp.n (padOf k c ++ X) = List.replicate ps.sp.n c := by
  have := n_le_blen ps
  rw [mid, padOf, List.append_assoc, List.drop_left' (by rw [List.length_map, Spec.toByte_length]),
    List.take_append_of_le_length (by rw [List.length_replicate]; omega), List.take_replicate]
  congr 1
  omega

theorem padOf_take (k : D ps) (c : UInt8) (X : List UInt8) :
    (padOf k c ++ X).take ps.sp.n = (Spec.toByte k ps.sp.n).map (· ^^^ c) := by
  rw [padOf, List.append_assoc, List.take_left' (by rw [List.length_map, Spec.toByte_length])]

/-- The block of MGF1 that may be an input for a message. -/
def Clash (root : List UInt8) (y : Yv ps) : Prop := (Spec.toByte y (hlen ps)).take ps.sp.n = root

/-- The inputs for `H_msg`, as far as they are different. -/
noncomputable def ptM (B : Nat) (PKseed root : List UInt8) : MsgPt ps S → Option (Query B)
  | .inl i => some (shaQ ps B (msgPtIn PKseed root (.inl i)))
  | .inr j => by
    classical
    exact if Clash root j.1.2 then none else some (shaQ ps B (msgPtIn (S := S) PKseed root (.inr j)))

/-- The inputs for `PRF_msg`. -/
def ptK (B : Nat) (k : D ps) (j : PrfPt ps S) : Option (Query B) := some (shaQ ps B (prfPtIn k j))

theorem ptM_some {PKseed root : List UInt8} {j : MsgPt ps S} {y : Query B} (h : ptM B PKseed root j = some y) :
    y = shaQ ps B (msgPtIn PKseed root j) := by
  cases j with
  | inl i => exact (Option.some.inj h).symm
  | inr j =>
    rw [ptM] at h
    split at h
    · cases h
    · exact (Option.some.inj h).symm

theorem ptM_clash {PKseed root : List UInt8} {j : (D ps × Yv ps) × Fin (blocks ps)} {y : Query B}
    (h : ptM (S := S) B PKseed root (.inr j) = some y) : ¬ Clash root j.1.2 := by
  rw [ptM] at h
  split at h
  · cases h
  · assumption

theorem ptM_inr {PKseed root : List UInt8} {j : (D ps × Yv ps) × Fin (blocks ps)} (h : ¬ Clash root j.1.2) :
    ptM (S := S) B PKseed root (.inr j) = some (shaQ ps B (msgPtIn (S := S) PKseed root (.inr j))) := by
  rw [ptM, if_neg h]

section
variable (hS : ∀ M ∈ S, 160 + M.length ≤ B) (hB : 192 ≤ B)
include hS hB

theorem msgPtIn_length {PKseed root : List UInt8} (hl : PKseed.length = ps.sp.n) (hr : root.length = ps.sp.n)
    (j : MsgPt ps S) : (msgPtIn PKseed root j).length ≤ B := by
  have h1 := n_le_32 ps
  have h2 := hlen_le ps
  cases j with
  | inl i =>
    have := hS _ i.2.2
    simp only [msgPtIn, List.length_append, Spec.toByte_length]
    omega
  | inr j =>
    simp only [msgPtIn, List.length_append, Spec.toByte_length]
    omega

theorem prfPtIn_length (k : D ps) (j : PrfPt ps S) : (prfPtIn k j).length ≤ B := by
  have h1 := n_le_32 ps
  have h2 := hlen_le ps
  have h3 := blen_le ps
  cases j with
  | inl i =>
    have := hS _ i.2.2
    simp only [prfPtIn, List.length_append, Spec.toByte_length, padOf_length]
    omega
  | inr j =>
    simp only [prfPtIn, List.length_append, Spec.toByte_length, padOf_length]
    omega

end

theorem toByte_fin_inj {n j : Nat} (hn : n ≤ 256 ^ j) {a b : Fin n} (h : Spec.toByte a j = Spec.toByte b j) : a = b := by
  have h1 := toByte_inj (n := j) (a := ⟨a, a.2.trans_le hn⟩) (b := ⟨b, b.2.trans_le hn⟩) h
  exact Fin.ext (Fin.mk.inj h1)

theorem blocks_le (ps : ParamSet) : blocks ps ≤ 256 ^ 4 := by cases ps <;> decide

section
variable {PKseed root : List UInt8} (hr : root.length = ps.sp.n)

include hr in
theorem msgPtIn_inj {i j : MsgPt ps S} (hi : ∀ a, i = .inr a → ¬ Clash root a.1.2)
    (hj : ∀ a, j = .inr a → ¬ Clash root a.1.2) (h : msgPtIn PKseed root i = msgPtIn PKseed root j) : i = j := by
  have hroot : ∀ (M : List UInt8) (y : Yv ps) (c : List UInt8), root ++ M = Spec.toByte y (hlen ps) ++ c → Clash root y := by
    intro M y c h
    have h := congrArg (List.take ps.sp.n) h
    rw [List.take_left' hr, List.take_append_of_le_length (by rw [Spec.toByte_length]; exact n_le_hlen ps)] at h
    exact h.symm
  cases i with
  | inl i =>
    cases j with
    | inl j =>
      obtain ⟨h1, h2⟩ := List.append_inj h (by rw [Spec.toByte_length, Spec.toByte_length])
      exact congrArg Sum.inl (Prod.ext (toByte_inj h1)
        (Subtype.ext (List.append_cancel_left (List.append_cancel_left h2))))
    | inr j =>
      have h2 := (List.append_inj h (by rw [Spec.toByte_length, Spec.toByte_length])).2
      exact absurd (hroot _ _ _ (List.append_cancel_left h2)) (hj j rfl)
  | inr i =>
    cases j with
    | inl j =>
      have h2 := (List.append_inj h (by rw [Spec.toByte_length, Spec.toByte_length])).2
      exact absurd (hroot _ _ _ (List.append_cancel_left h2).symm) (hi i rfl)
    | inr j =>
      obtain ⟨h1, h2⟩ := List.append_inj h (by rw [Spec.toByte_length, Spec.toByte_length])
      obtain ⟨h3, h4⟩ := List.append_inj (List.append_cancel_left h2) (by rw [Spec.toByte_length, Spec.toByte_length])
      exact congrArg Sum.inr (Prod.ext (Prod.ext (toByte_inj h1) (toByte_inj h3)) (toByte_fin_inj (blocks_le ps) h4))

end

theorem replicate_ne (ps : ParamSet) {a b : UInt8} (h : a ≠ b) :
    List.replicate ps.sp.n a ≠ List.replicate ps.sp.n b := by
  intro e
  have := congrArg List.head? e
  rw [List.head?_replicate, List.head?_replicate, if_neg (n_pos ps).ne', if_neg (n_pos ps).ne'] at this
  exact h (Option.some.inj this)

theorem prfPtIn_mid (k : D ps) (j : PrfPt ps S) :
    mid ps.sp.n (prfPtIn k j) = List.replicate ps.sp.n 0x36 ∨ mid ps.sp.n (prfPtIn k j) = List.replicate ps.sp.n 0x5c := by
  cases j with
  | inl i => exact .inl (padOf_mid k _ _)
  | inr z => exact .inr (padOf_mid k _ _)

theorem prfPtIn_inj {k : D ps} {i j : PrfPt ps S} (h : prfPtIn k i = prfPtIn k j) : i = j := by
  have h36 : (0x36 : UInt8) ≠ 0x5c := by decide
  cases i with
  | inl i =>
    cases j with
    | inl j =>
      obtain ⟨h1, h2⟩ := List.append_inj (List.append_cancel_left h) (by rw [Spec.toByte_length, Spec.toByte_length])
      exact congrArg Sum.inl (Prod.ext (toByte_inj h1) (Subtype.ext h2))
    | inr j =>
      have h := congrArg (mid ps.sp.n) h
      rw [prfPtIn, prfPtIn, padOf_mid, padOf_mid] at h
      exact absurd h (replicate_ne ps h36)
  | inr i =>
    cases j with
    | inl j =>
      have h := congrArg (mid ps.sp.n) h
      rw [prfPtIn, prfPtIn, padOf_mid, padOf_mid] at h
      exact absurd h.symm (replicate_ne ps h36)
    | inr j => exact congrArg Sum.inr (toByte_inj (List.append_cancel_left h))

theorem toByte_zero (n : Nat) : Spec.toByte 0 n = List.replicate n 0 := by
  rw [Spec.toByte]
  simp only [Nat.zero_div]
  rw [List.map_const', List.length_range]
  rfl

/-- At places there are zeros. -/
theorem place_mid (hps : ps.family = .sha2) {PKseed X : List UInt8} (hl : PKseed.length = ps.sp.n) (hX : X.length ≤ B)
    (h0 : X ≠ []) (h : IsPlace ps PKseed (shaQ ps B X)) : mid ps.sp.n X = List.replicate ps.sp.n 0 := by
  obtain ⟨x, -, z, h⟩ := h
  have h := congrArg (fun y : Query B => y.1.input) h
  rw [shaQ_val hX, callOf, hps, Query.of] at h
  dsimp only at h
  have hz : ∀ j Y, ps.sp.n ≤ j → mid ps.sp.n (PKseed ++ Spec.toByte 0 j ++ Y ++ z) = List.replicate ps.sp.n 0 := by
    intro j Y hj
    rw [List.append_assoc, List.append_assoc, mid, List.drop_left' hl, toByte_zero,
      List.take_append_of_le_length (by rw [List.length_replicate]; exact hj), List.take_replicate, Nat.min_eq_left hj]
  have hn : ps.row.n = ps.sp.n := rfl
  have h1 := n_le_32 ps
  split at h
  all_goals
    split at h
    · exact (congrArg (mid ps.sp.n) h).trans (hz _ _ (by omega))
    · exact absurd h h0

end Fips205.Props
