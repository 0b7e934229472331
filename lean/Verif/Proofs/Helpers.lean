import Verif.Proofs.Logic
import Verif.Proofs.Address

/-! # Refinement of `to_int`, `to_byte` and `base_2b` -/

namespace Fips205.Model
open Fips205

variable {m : Type → Type} [Rust m] [LawfulMonad m]

/-- `to_int` computes the big-endian value. -/
theorem to_int_returns {x : List UInt8} {n : UInt32} (hx : x.length = n.toNat) (hn : n.toNat ≤ 8) :
    Returns (to_int x n : m UInt64) (fun v => v.toNat = Spec.toInt x) := by
  unfold to_int
  refine Returns.debugAssert ?_ ?_
  · refine Returns.asUsize (by omega) ?_
    exact Returns.pure (by simpa using hx)
  refine Returns.debugAssert (Returns.pure (by simpa using hn)) ?_
  refine Returns.asUsize (by omega) ?_
  rw [List.take_of_length_le (by omega)]
  refine (Returns.forEach (fun i (t : UInt64) => t.toNat = Spec.toInt (x.take i))
    (by simp [Spec.toInt]) ?_).mono ?_
  · intro i t hi ht
    have hlt : t.toNat < 256 ^ i := by
      rw [ht]
      have := Spec.toInt_lt (x.take i)
      rwa [List.length_take, Nat.min_eq_left (by omega)] at this
    have hle : (256 : Nat) ^ i ≤ 256 ^ 7 := Nat.pow_le_pow_right (by decide) (by omega)
    have h8 : (t <<< (8 : UInt32).toUInt64).toNat = t.toNat * 256 := by
      rw [UInt64.toNat_shiftLeft]
      simp [Nat.shiftLeft_eq]
      omega
    have hb : (x[i].toUInt64).toNat = x[i].toNat := by simp
    have hb2 := x[i].toNat_lt
    refine Returns.shlU64 (by simp) ?_
    rw [addU64_ok (by rw [h8, hb]; omega)]
    refine Returns.pure ?_
    rw [UInt64.toNat_add, h8, hb, List.take_succ_eq_append_getElem hi, Spec.toInt_append_singleton,
      ← ht]
    omega
  · intro v hv
    simpa using hv

/-- `to_byte` computes the two low-order bytes. -/
theorem to_byte_returns (x : UInt32) {n : UInt32} (hn : n = 2) :
    Returns (to_byte x n : m (Vector UInt8 2)) (fun v => v.toList = Spec.toByte x.toNat 2) := by
  subst hn
  unfold to_byte
  refine Returns.debugAssert (Returns.pure (by simp)) ?_
  refine Returns.debugAssert (Returns.pure (by simp)) ?_
  refine Returns.bind (Returns.forU32 (fun i (s : Vector UInt8 2 × UInt32) =>
    s.2.toNat = x.toNat / 256 ^ i ∧ (1 ≤ i → s.1[1] = UInt8.ofNat x.toNat) ∧
    (2 ≤ i → s.1[0] = UInt8.ofNat (x.toNat / 256))) (by simp) ⟨by simp, by simp, by simp⟩ ?_) ?_
  · rintro i ⟨s, t⟩ - hi ⟨h1, h2, h3⟩
    simp only [UInt32.reduceToNat] at hi
    have e1 : ((2 : UInt32) - 1).toNat = 1 := rfl
    have e2 : ((2 : UInt32) - 1 - i).toNat = 1 - i.toNat := by
      rw [UInt32.toNat_sub_of_le _ _ (by rw [UInt32.le_iff_toNat_le, e1]; omega), e1]
    refine Returns.subU32 (by simp) ?_
    refine Returns.subU32 (by rw [e1]; omega) ?_
    refine Returns.asUsize (by omega) ?_
    rw [e2]
    refine Returns.vset (by omega) ?_
    refine Returns.shrU32 (by simp) ?_
    refine Returns.pure ?_
    have h4 : (t >>> 8).toNat = t.toNat / 256 := by
      rw [UInt32.toNat_shiftRight]; simp [Nat.shiftRight_eq_div_pow]
    have h5 : t.toUInt8 = UInt8.ofNat t.toNat := rfl
    refine ⟨?_, ?_, ?_⟩
    · show (t >>> 8).toNat = _
      rw [h4, h1, Nat.div_div_eq_div_mul, Nat.pow_succ]
    · intro _
      simp only at h1 h2 h3
      show (s.set (1 - i.toNat) t.toUInt8)[1] = _
      by_cases h0 : i.toNat = 0
      · rw [Vector.getElem_set]
        simp only [h0] at h1 ⊢
        simp [h5, h1]
      · rw [Vector.getElem_set_ne _ _ (by omega)]
        exact h2 (by omega)
    · intro h6
      have h0 : i.toNat = 1 := by omega
      simp only [h0] at h1 ⊢
      simp [h5, h1]
  · rintro ⟨s, t⟩ ⟨-, h2, h3⟩
    refine Returns.pure ?_
    have e : s.toList = [s[0], s[1]] := by
      apply List.ext_getElem
      · simp
      · intro i h1 h2
        simp at h1
        match i, h1 with
        | 0, _ => rfl
        | 1, _ => rfl
    simp only [UInt32.reduceToNat] at h2 h3
    rw [e, h2 (by omega), h3 (by omega)]
    simp [Spec.toByte, List.range_succ]

theorem mask_toNat {b : UInt32} (h1 : 1 ≤ b.toNat) (h2 : b.toNat < 16) :
    ((0xffffffff : UInt32) >>> (32 - b)).toNat = 2 ^ b.toNat - 1 := by
  have e : ((32 : UInt32) - b).toNat = 32 - b.toNat := by
    rw [UInt32.toNat_sub_of_le _ _ (by rw [UInt32.le_iff_toNat_le]; simp; omega)]
    simp
  rw [UInt32.toNat_shiftRight, e, Nat.mod_eq_of_lt (by omega)]
  simp only [UInt32.reduceToNat]
  generalize b.toNat = k at *
  have : ∀ k < 16, 1 ≤ k → 4294967295 >>> (32 - k) = 2 ^ k - 1 := by decide
  exact this k h2 h1

/-- Digit `i` of `base_2b`. -/
def digitAt (x : List UInt8) (b i : Nat) : Nat :=
  Spec.toInt x / 2 ^ (8 * x.length - (i + 1) * b) % 2 ^ b

theorem toInt_take (x : List UInt8) (k : Nat) :
    Spec.toInt (x.take k) = Spec.toInt x / 2 ^ (8 * (x.length - k)) := by
  conv_rhs => rw [← List.take_append_drop k x, Spec.toInt_append]
  have hlen : (x.drop k).length = x.length - k := by simp
  have hl : 256 ^ (x.length - k) = 2 ^ (8 * (x.length - k)) := by
    rw [Nat.pow_mul]
  have hlt := Spec.toInt_lt (x.drop k)
  rw [List.take_append_drop, hlen, hl] at *
  rw [Nat.mul_comm, Nat.mul_add_div (Nat.two_pow_pos _), Nat.div_eq_of_lt hlt, Nat.add_zero]

/-- The state of `base_2b` before digit `i`. -/
structure B2bInv (x : List UInt8) (b i : Nat) (st : Base2bState) : Prop where
  bits : 8 * st.inn = i * b + st.bits.toNat
  total : st.total.toNat = Spec.toInt (x.take st.inn) % 2 ^ 32
  inn : st.inn ≤ x.length

theorem base_2b_digit_returns {x : List UInt8} {b : UInt32} {i : Nat} {st : Base2bState}
    (hb1 : 1 ≤ b.toNat) (hb2 : b.toNat < 16) (hx : x.length < 2 ^ 16)
    (hi : (i + 1) * b.toNat ≤ 8 * x.length) (hst : B2bInv x b.toNat i st) (h8 : st.bits.toNat < 8) :
    Returns (base_2b_digit x b st : m (UInt32 × Base2bState))
      (fun r => r.1.toNat = digitAt x b.toNat i ∧ B2bInv x b.toNat (i + 1) r.2 ∧
        r.2.bits.toNat < 8) := by
  unfold base_2b_digit
  have hib : (i + 1) * b.toNat = i * b.toNat + b.toNat := Nat.succ_mul _ _
  refine Returns.bind (Returns.whileFuel
    (fun st => B2bInv x b.toNat i st ∧ st.bits.toNat < b.toNat + 8)
    (fun st => b.toNat - st.bits.toNat) ?_ _ _ ⟨hst, by omega⟩ (by omega)) ?_
  · rintro st ⟨⟨g1, g2, g3⟩, g4⟩ hc
    simp only [decide_eq_true_eq, UInt32.lt_iff_toNat_lt] at hc
    have hlt : st.inn < x.length := by omega
    have hs : (st.total <<< 8).toNat = st.total.toNat * 256 % 2 ^ 32 := by
      rw [UInt32.toNat_shiftLeft]; simp [Nat.shiftLeft_eq]
    have hb : (x[st.inn].toUInt32).toNat = x[st.inn].toNat := by simp
    have hb' := x[st.inn].toNat_lt
    refine Returns.shlU32 (by simp) ?_
    refine Returns.lget hlt ?_
    refine Returns.addU32 (by rw [hs, hb]; omega) ?_
    refine Returns.addUsize (by omega) ?_
    refine Returns.addU32 (by simp; omega) ?_
    refine Returns.pure ?_
    have hbits : (st.bits + 8).toNat = st.bits.toNat + 8 := by
      rw [UInt32.toNat_add]; simp; omega
    refine ⟨⟨⟨?_, ?_, hlt⟩, ?_⟩, ?_⟩
    · show 8 * (st.inn + 1) = _ + (st.bits + 8).toNat
      omega
    · show (st.total <<< 8 + x[st.inn].toUInt32).toNat = Spec.toInt (x.take (st.inn + 1)) % 2 ^ 32
      rw [UInt32.toNat_add, hs, hb, List.take_succ_eq_append_getElem hlt,
        Spec.toInt_append_singleton, g2]
      omega
    · show (st.bits + 8).toNat < _
      omega
    · show _ - (st.bits + 8).toNat < _
      omega
  · rintro st ⟨⟨⟨g1, g2, g3⟩, g4⟩, hc⟩
    simp only [decide_eq_false_iff_not, UInt32.lt_iff_toNat_lt, Nat.not_lt] at hc
    have hbits : (st.bits - b).toNat = st.bits.toNat - b.toNat := by
      rw [UInt32.toNat_sub_of_le _ _ (by rwa [UInt32.le_iff_toNat_le])]
    refine Returns.subU32 hc ?_
    refine Returns.shrU32 (by omega) ?_
    refine Returns.subU32 (by simp; omega) ?_
    refine Returns.shrU32 ?_ ?_
    · rw [UInt32.toNat_sub_of_le _ _ (by rw [UInt32.le_iff_toNat_le]; simp; omega)]
      simp; omega
    refine Returns.pure ⟨?_, ⟨?_, g2, g3⟩, ?_⟩
    · show (_ &&& _ : UInt32).toNat = _
      rw [UInt32.toNat_and, mask_toNat hb1 hb2, Nat.and_two_pow_sub_one_eq_mod,
        UInt32.toNat_shiftRight, hbits, Nat.mod_eq_of_lt (a := st.bits.toNat - b.toNat) (by omega),
        Nat.shiftRight_eq_div_pow, g2, toInt_take, digitAt]
      -- drop the reduction modulo 2^32
      have key : ∀ T k c : Nat, k + c ≤ 32 → T % 2 ^ 32 / 2 ^ k % 2 ^ c = T / 2 ^ k % 2 ^ c := by
        intro T k c hkc
        have h1 : 2 ^ 32 = 2 ^ k * 2 ^ (32 - k) := by rw [← Nat.pow_add]; congr 1; omega
        rw [h1, Nat.mod_mul_right_div_self]
        exact Nat.mod_mod_of_dvd _ (Nat.pow_dvd_pow 2 (by omega))
      rw [key _ _ _ (by omega), Nat.div_div_eq_div_mul, ← Nat.pow_add]
      congr 3
      omega
    · show 8 * st.inn = _ + (st.bits - b).toNat
      omega
    · show (st.bits - b).toNat < 8
      omega

theorem base_2b_loop_returns {x : List UInt8} {b : UInt32} (hb1 : 1 ≤ b.toNat) (hb2 : b.toNat < 16)
    (hx : x.length < 2 ^ 16) : ∀ (l : List UInt32) (i : Nat) (st : Base2bState),
    (i + l.length) * b.toNat ≤ 8 * x.length → B2bInv x b.toNat i st → st.bits.toNat < 8 →
    Returns (base_2b_loop x b l st : m (List UInt32))
      (fun ds => ds.map UInt32.toNat = (List.range' i l.length).map (digitAt x b.toNat))
  | [], i, st, _, _, _ => Returns.pure rfl
  | d :: l, i, st, hl, hst, h8 => by
    rw [base_2b_loop]
    have hle : (i + 1) * b.toNat ≤ (i + (d :: l).length) * b.toNat :=
      Nat.mul_le_mul_right _ (by simp)
    refine (base_2b_digit_returns hb1 hb2 hx (by omega) hst h8).bind ?_
    rintro ⟨v, st'⟩ ⟨h1, h2, h3⟩
    refine (base_2b_loop_returns hb1 hb2 hx l (i + 1) st' ?_ h2 h3).bind ?_
    · rw [List.length_cons] at hl
      rwa [Nat.add_right_comm, Nat.add_assoc]
    · intro ds hds
      refine Returns.pure ?_
      rw [List.map_cons, hds, List.length_cons, List.range'_succ, List.map_cons, h1]

/-- `base_2b` computes the digits of the standard. -/
theorem base_2b_returns {x : List UInt8} {b out_len : UInt32} {baseb : List UInt32}
    (hb1 : 1 ≤ b.toNat) (hb2 : b.toNat < 16) (hx : x.length < 2 ^ 16)
    (ho : out_len.toNat = baseb.length) (ho2 : baseb.length < 2 ^ 16)
    (hl : baseb.length * b.toNat ≤ 8 * x.length) :
    Returns (base_2b x b out_len baseb : m (List UInt32))
      (fun ds => ds.map UInt32.toNat = Spec.base2b x b.toNat out_len.toNat) := by
  unfold base_2b
  have h1 : (out_len * b).toNat = out_len.toNat * b.toNat := by
    rw [UInt32.toNat_mul, Nat.mod_eq_of_lt (by rw [ho]; omega)]
  have h2 : (out_len * b + 7).toNat = out_len.toNat * b.toNat + 7 := by
    rw [UInt32.toNat_add, h1, Nat.mod_eq_of_lt (by rw [ho]; simp; omega)]; simp
  have h3 : ((out_len * b + 7) / 8).toNat = (out_len.toNat * b.toNat + 7) / 8 := by
    rw [UInt32.toNat_div, h2]; simp
  refine Returns.debugAssert ?_ ?_
  · refine Returns.mulU32 (by rw [ho]; omega) ?_
    refine Returns.addU32 (by rw [h1, ho]; simp; omega) ?_
    refine Returns.divU32 (by decide) ?_
    refine Returns.asUsize (by rw [h3, ho]; omega) ?_
    refine Returns.pure ?_
    rw [h3, ho]
    simp
    omega
  refine Returns.debugAssert (Returns.pure ?_) ?_
  · simpa [UInt32.lt_iff_toNat_lt] using hb2
  refine Returns.debugAssert ?_ ?_
  · refine Returns.asUsize (by omega) ?_
    exact Returns.pure (by simpa using ho)
  refine Returns.leak ?_
  refine (base_2b_loop_returns hb1 hb2 hx baseb 0 _ (by simpa using hl) ⟨?_, ?_, ?_⟩ ?_).mono ?_
  · simp
  · simp [Spec.toInt]
  · simp
  · simp
  · intro ds hds
    rw [hds, Spec.base2b, ho, List.range_eq_range']
    rfl

theorem take_writeSlice {α : Type} {n : Nat} {v w : Vector α n} {lo hi : Nat} {s : List α}
    (h1 : lo ≤ hi) (h2 : hi ≤ n) (h3 : s.length = hi - lo)
    (hw : w.toList = v.toList.take lo ++ s ++ v.toList.drop hi) :
    w.toList.take hi = v.toList.take lo ++ s := by
  rw [hw, List.take_append_of_le_length (by simp [h3]; omega),
    List.take_of_length_le (by simp [h3]; omega)]


/-! ## Addresses as byte strings -/

theorem to_32_bytes_returns (a : Adrs) :
    Returns (a.to_32_bytes : m (Vector UInt8 32)) (fun v => v.toList = a.bytes32) := by
  unfold Adrs.to_32_bytes
  refine Returns.bind (Returns.forEach (fun i s => s.2 = 4 * i ∧ s.1.toList.take (4 * i) =
    (([a.f0, a.f1, a.f2, a.f3, a.f4, a.f5, a.f6, a.f7].take i).map Vector.toList).flatten)
    ⟨rfl, by simp⟩ ?_) ?_
  · rintro i ⟨v, st⟩ hi ⟨h1, h2⟩
    simp only at h1 h2
    subst h1
    have hi8 : i < 8 := hi
    unfold Adrs.putWord
    refine Returns.addUsize (by dsimp only; omega) ?_
    refine Returns.writeSlice (by dsimp only; omega) (by dsimp only; omega) (by simp) ?_
    intro w hw
    refine Returns.addUsize (by dsimp only; omega) (Returns.pure ⟨?_, ?_⟩)
    · dsimp only; omega
    · have e := take_writeSlice (by omega) (by omega) (by simp) hw
      rw [h2] at e
      rw [show 4 * (i + 1) = 4 * i + 4 by omega, e, List.take_succ_eq_append_getElem hi,
        List.map_append, List.flatten_append]
      congr 1
      exact (List.append_nil _).symm
  · rintro ⟨v, st⟩ ⟨_, h⟩
    refine Returns.pure ?_
    simp only at h
    rw [show 4 * [a.f0, a.f1, a.f2, a.f3, a.f4, a.f5, a.f6, a.f7].length = 32 from rfl,
      List.take_of_length_le (by simp), List.take_length] at h
    rw [h]
    simp [Adrs.bytes32]

theorem take_set {n i : Nat} {v : Vector UInt8 n} {x : UInt8} (h : i < n) :
    (v.set i x).toList.take (i + 1) = v.toList.take i ++ [x] := by
  have : i < v.toList.length := by simpa using h
  rw [Vector.toList_set, List.take_succ_eq_append_getElem (by simpa using h),
    List.take_set_of_le (Nat.le_refl _), List.getElem_set_self]

theorem to_22_bytes_returns (a : Adrs) :
    Returns (a.to_22_bytes : m (Vector UInt8 22)) (fun v => v.toList = a.bytes22) := by
  unfold Adrs.to_22_bytes
  refine Returns.vget (by omega) (Returns.vset (by omega) ?_)
  refine Returns.writeSlice (by omega) (by omega) (by simp) fun w1 h1 => ?_
  refine Returns.writeSlice (by omega) (by omega) (by simp) fun w2 h2 => ?_
  refine Returns.vget (by omega) (Returns.vset (by omega) ?_)
  refine Returns.writeSlice (by omega) (by omega) (by simp) fun w3 h3 => ?_
  refine Returns.writeSlice (by omega) (by omega) (by simp) fun w4 h4 => ?_
  refine Returns.tail (Returns.writeSlice (by omega) (by omega) (by simp) fun w5 h5 => Returns.pure ?_)
  have e1 := take_writeSlice (by omega) (by omega) (by simp) h1
  have e2 := take_writeSlice (by omega) (by omega) (by simp) h2
  have e3 := take_writeSlice (by omega) (by omega) (by simp) h3
  have e4 := take_writeSlice (by omega) (by omega) (by simp) h4
  have e5 := take_writeSlice (by omega) (by omega) (by simp) h5
  rw [take_set (by omega)] at e1 e3
  rw [e1] at e2
  rw [e2] at e3
  rw [e3] at e4
  rw [e4, List.take_of_length_le (by simp)] at e5
  rw [e5]
  simp [Adrs.bytes22]

end Fips205.Model
