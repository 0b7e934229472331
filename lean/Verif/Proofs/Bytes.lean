import Mathlib.Tactic.Ring
import Mathlib.Tactic.NormNum
import Mathlib.Data.List.Induction
import Verif.Spec.Fips205
import Verif.Model.Rust

/-! # Byte strings: conversions, slices and concatenations -/

namespace Fips205.Spec

theorem toByte_length (x n : Nat) : (toByte x n).length = n := by simp [toByte]

theorem toByte_succ (x n : Nat) : toByte x (n + 1) = toByte (x / 256) n ++ [UInt8.ofNat x] := by
  rw [toByte, List.range_succ, List.map_append]
  congr 1
  · rw [toByte]
    apply List.map_congr_left
    intro i hi
    rw [List.mem_range] at hi
    rw [Nat.div_div_eq_div_mul, ← Nat.pow_succ', show n + 1 - 1 - i = n - 1 - i + 1 by omega]
  · simp

theorem toInt_nil : toInt [] = 0 := rfl

theorem toInt_append_singleton (X : Bytes) (b : UInt8) : toInt (X ++ [b]) = 256 * toInt X + b.toNat := by
  simp [toInt, List.foldl_append]

theorem toInt_append (X Y : Bytes) : toInt (X ++ Y) = toInt X * 256 ^ Y.length + toInt Y := by
  induction Y using List.reverseRecOn with
  | nil => simp [toInt_nil]
  | append_singleton Y b ih =>
    rw [← List.append_assoc, toInt_append_singleton, ih, toInt_append_singleton, List.length_append,
      List.length_singleton, Nat.pow_succ]
    ring

theorem toInt_lt (X : Bytes) : toInt X < 256 ^ X.length := by
  induction X using List.reverseRecOn with
  | nil => simp [toInt_nil]
  | append_singleton X b ih =>
    rw [toInt_append_singleton, List.length_append, List.length_singleton, Nat.pow_succ]
    have := b.toNat_lt
    omega

theorem toInt_toByte (x n : Nat) : toInt (toByte x n) = x % 256 ^ n := by
  induction n generalizing x with
  | zero => simp [toByte, toInt_nil, Nat.mod_one]
  | succ n ih =>
    rw [toByte_succ, toInt_append_singleton, ih, Nat.pow_succ']
    rw [Nat.mod_mul, UInt8.toNat_ofNat']
    omega

theorem toByte_toInt (X : Bytes) : toByte (toInt X) X.length = X := by
  induction X using List.reverseRecOn with
  | nil => simp [toByte]
  | append_singleton X b ih =>
    rw [toInt_append_singleton, List.length_append, List.length_singleton, toByte_succ]
    have := b.toNat_lt
    rw [show (256 * toInt X + b.toNat) / 256 = toInt X by omega, ih]
    congr 2
    apply UInt8.toNat_inj.mp
    rw [UInt8.toNat_ofNat']
    omega

theorem toInt_inj {X Y : Bytes} (hl : X.length = Y.length) (h : toInt X = toInt Y) : X = Y := by
  rw [← toByte_toInt X, ← toByte_toInt Y, h, hl]

theorem toByte_inj {x y n : Nat} (hx : x < 256 ^ n) (hy : y < 256 ^ n) (h : toByte x n = toByte y n) :
    x = y := by
  have := congrArg toInt h
  rwa [toInt_toByte, toInt_toByte, Nat.mod_eq_of_lt hx, Nat.mod_eq_of_lt hy] at this

theorem toByte_mod (x n : Nat) : toByte (x % 256 ^ n) n = toByte x n := by
  have := toByte_toInt (toByte x n)
  rwa [toInt_toByte, toByte_length] at this

theorem toByte_zero (n : Nat) : toByte 0 n = List.replicate n 0 := by
  induction n with
  | zero => rfl
  | succ n ih => rw [toByte_succ, Nat.zero_div, ih, List.replicate_succ']; rfl

/-- The low-order bytes: `toByte x (a + b)` splits. -/
theorem toByte_add (x a b : Nat) : toByte x (a + b) = toByte (x / 256 ^ b) a ++ toByte x b := by
  induction b generalizing x with
  | zero => simp [toByte]
  | succ b ih =>
    rw [← Nat.add_assoc, toByte_succ, ih, toByte_succ x b, Nat.div_div_eq_div_mul, ← Nat.pow_succ',
      List.append_assoc]

/-! ## Slices and concatenations -/

theorem slice_length {X : Bytes} {a b : Nat} (h : b ≤ X.length) : (slice X a b).length = b - a := by
  rw [slice, List.length_take, List.length_drop]; omega

theorem slice_all (X : Bytes) : slice X 0 X.length = X := by simp [slice]

theorem slice_zero_append (X Y : Bytes) : slice (X ++ Y) 0 X.length = X := by simp [slice]

theorem slice_append_right (X Y : Bytes) (a b : Nat) :
    slice (X ++ Y) (X.length + a) (X.length + b) = slice Y a b := by
  rw [slice, slice, List.drop_append, List.drop_eq_nil_of_le (by omega), List.nil_append,
    Nat.add_sub_cancel_left, Nat.add_sub_add_left]

theorem slice_append_left {X : Bytes} (Y : Bytes) {a b : Nat} (h : b ≤ X.length) :
    slice (X ++ Y) a b = slice X a b := by
  by_cases hab : a ≤ b
  · rw [slice, slice, List.drop_append, show a - X.length = 0 by omega, List.drop_zero,
      List.take_append_of_le_length (by rw [List.length_drop]; omega)]
  · rw [slice, slice, show b - a = 0 by omega, List.take_zero, List.take_zero]

theorem slice_append_slice (X : Bytes) {a b c : Nat} (h1 : a ≤ b) (h2 : b ≤ c) :
    slice X a b ++ slice X b c = slice X a c := by
  have h : slice X b c = ((X.drop a).drop (b - a)).take (c - b) := by
    rw [slice, List.drop_drop, show a + (b - a) = b by omega]
  rw [h, slice, slice, show c - a = (b - a) + (c - b) by omega, List.take_add]

theorem slice_slice (X : Bytes) {a b c d : Nat} (hd : a + d ≤ b) :
    slice (slice X a b) c d = slice X (a + c) (a + d) := by
  rw [slice, slice, slice, List.drop_take, List.take_take, List.drop_drop]
  congr 1
  omega

theorem slice_self (X : Bytes) (a : Nat) : slice X a a = [] := by simp [slice]

theorem concat_zero (f : Nat → Bytes) : concat 0 f = [] := rfl

theorem concat_succ (k : Nat) (f : Nat → Bytes) : concat (k + 1) f = concat k f ++ f k := by
  simp [concat, List.range_succ]

theorem concat_congr {k : Nat} {f g : Nat → Bytes} (h : ∀ i < k, f i = g i) :
    concat k f = concat k g := by
  induction k with
  | zero => rfl
  | succ k ih => rw [concat_succ, concat_succ, ih fun i hi => h i (by omega), h k (by omega)]

theorem concat_length {k n : Nat} {f : Nat → Bytes} (h : ∀ i < k, (f i).length = n) :
    (concat k f).length = k * n := by
  induction k with
  | zero => simp [concat]
  | succ k ih =>
    rw [concat_succ, List.length_append, ih fun i hi => h i (by omega), h k (by omega),
      Nat.succ_mul]

theorem concat_add (a b : Nat) (f : Nat → Bytes) :
    concat (a + b) f = concat a f ++ concat b fun i => f (a + i) := by
  induction b with
  | zero => simp [concat_zero]
  | succ b ih => rw [← Nat.add_assoc, concat_succ, concat_succ, ih, List.append_assoc]

/-- Component `i` of a concatenation of strings of length `n`. -/
theorem slice_concat {k n : Nat} {f : Nat → Bytes} (h : ∀ i < k, (f i).length = n) {i : Nat}
    (hi : i < k) : slice (concat k f) (i * n) ((i + 1) * n) = f i := by
  obtain ⟨r, rfl⟩ := Nat.exists_eq_add_of_lt hi
  have h1 : (concat i f).length = i * n := concat_length fun j hj => h j (by omega)
  have h2 : (f i).length = n := h i hi
  rw [show i + r + 1 = i + 1 + r by omega, concat_add, concat_succ,
    slice_append_left _ (by rw [List.length_append, h1, h2, Nat.succ_mul])]
  have := slice_append_right (concat i f) (f i) 0 n
  rw [h1, ← h2, slice_all] at this
  rw [h2] at this
  rwa [Nat.add_zero, ← Nat.succ_mul] at this

/-- Every string is the concatenation of its chunks. -/
theorem concat_slice (X : Bytes) (k n : Nat) :
    (concat k fun i => slice X (i * n) ((i + 1) * n)) = slice X 0 (k * n) := by
  induction k with
  | zero => simp [concat_zero, slice_self]
  | succ k ih =>
    rw [concat_succ, ih, slice_append_slice _ (by omega) (by rw [Nat.succ_mul]; omega)]

theorem concat_inj {k n : Nat} {f g : Nat → Bytes} (hf : ∀ i < k, (f i).length = n)
    (hg : ∀ i < k, (g i).length = n) (h : concat k f = concat k g) : ∀ i < k, f i = g i := by
  intro i hi
  rw [← slice_concat hf hi, ← slice_concat hg hi, h]

end Fips205.Spec

namespace Fips205.Model
open Fips205

/-! ## Fixed-width big-endian conversions of the code -/

theorem u32ToBe_toList (x : UInt32) : (u32ToBe x).toList = Spec.toByte x.toNat 4 := by
  have e : Spec.toByte x.toNat 4 = [UInt8.ofNat (x.toNat / 256 ^ 3), UInt8.ofNat (x.toNat / 256 ^ 2),
    UInt8.ofNat (x.toNat / 256 ^ 1), UInt8.ofNat (x.toNat / 256 ^ 0)] := rfl
  rw [e]
  show [_, _, _, _] = _
  congr 1
  · apply UInt8.toNat_inj.mp
    simp [Nat.shiftRight_eq_div_pow]
  congr 1
  · apply UInt8.toNat_inj.mp
    simp [Nat.shiftRight_eq_div_pow]
  congr 1
  · apply UInt8.toNat_inj.mp
    simp [Nat.shiftRight_eq_div_pow]
  congr 1
  apply UInt8.toNat_inj.mp
  simp

theorem u64ToBe_toList (x : UInt64) : (u64ToBe x).toList = Spec.toByte x.toNat 8 := by
  have e : Spec.toByte x.toNat 8 = [UInt8.ofNat (x.toNat / 256 ^ 7), UInt8.ofNat (x.toNat / 256 ^ 6),
    UInt8.ofNat (x.toNat / 256 ^ 5), UInt8.ofNat (x.toNat / 256 ^ 4),
    UInt8.ofNat (x.toNat / 256 ^ 3), UInt8.ofNat (x.toNat / 256 ^ 2),
    UInt8.ofNat (x.toNat / 256 ^ 1), UInt8.ofNat (x.toNat / 256 ^ 0)] := rfl
  rw [e]
  show [_, _, _, _, _, _, _, _] = _
  congr 1
  · apply UInt8.toNat_inj.mp; simp [Nat.shiftRight_eq_div_pow]
  congr 1
  · apply UInt8.toNat_inj.mp; simp [Nat.shiftRight_eq_div_pow]
  congr 1
  · apply UInt8.toNat_inj.mp; simp [Nat.shiftRight_eq_div_pow]
  congr 1
  · apply UInt8.toNat_inj.mp; simp [Nat.shiftRight_eq_div_pow]
  congr 1
  · apply UInt8.toNat_inj.mp; simp [Nat.shiftRight_eq_div_pow]
  congr 1
  · apply UInt8.toNat_inj.mp; simp [Nat.shiftRight_eq_div_pow]
  congr 1
  · apply UInt8.toNat_inj.mp; simp [Nat.shiftRight_eq_div_pow]
  congr 1
  apply UInt8.toNat_inj.mp
  simp

theorem or_eq_add {a b k : Nat} (ha : a % 2 ^ k = 0) (hb : b < 2 ^ k) : a ||| b = a + b := by
  have h : a = 2 ^ k * (a / 2 ^ k) := by have := Nat.div_add_mod a (2 ^ k); omega
  rw [h, ← Nat.two_pow_add_eq_or_of_lt hb]

theorem u32FromBe_toNat (v : Vector UInt8 4) : (u32FromBe v).toNat = Spec.toInt v.toList := by
  have e : v.toList = [v[0], v[1], v[2], v[3]] := by
    apply List.ext_getElem
    · simp
    · intro i h1 h2
      simp at h1
      match i, h1 with
      | 0, _ => rfl
      | 1, _ => rfl
      | 2, _ => rfl
      | 3, _ => rfl
  rw [e]
  have h0 := v[0].toNat_lt
  have h1 := v[1].toNat_lt
  have h2 := v[2].toNat_lt
  have h3 := v[3].toNat_lt
  simp only [u32FromBe, UInt32.toNat_or, UInt32.toNat_shiftLeft, UInt8.toNat_toUInt32,
    UInt32.reduceToNat, Nat.reduceMod, Spec.toInt, List.foldl_cons, List.foldl_nil,
    Nat.shiftLeft_eq]
  norm_num at *
  rw [Nat.mod_eq_of_lt (show v[0].toNat * 16777216 < 4294967296 by omega),
    Nat.mod_eq_of_lt (show v[1].toNat * 65536 < 4294967296 by omega),
    Nat.mod_eq_of_lt (show v[2].toNat * 256 < 4294967296 by omega)]
  rw [or_eq_add (k := 24) (a := v[0].toNat * 16777216) (by omega) (by omega),
    or_eq_add (k := 16) (a := v[0].toNat * 16777216 + _) (by omega) (by omega),
    or_eq_add (k := 8) (by omega) (by omega)]
  omega

end Fips205.Model
