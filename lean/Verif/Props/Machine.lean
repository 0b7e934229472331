import Verif.Props.Conform
import Verif.Proofs.Trace

/-! # The machine operations of the model are those of Rust (C77)

The operations of `Model/Rust.lean` are compared with what the Rust reference says about unsigned integers, casts, shifts,
indexing, slicing and loops, in terms of integers and lists. -/

namespace Fips205.Props
open Fips205 Fips205.Model

variable {b : Build} {α σ : Type}

/-- An unsigned operation on `w` bits with the exact result `z`: if it does not fit, it panics in builds with overflow
checks and otherwise wraps around. -/
def wrapping (b : Build) (w : Nat) (z : ℤ) : Except Panic ℤ :=
  if 0 ≤ z ∧ z < 2 ^ w then .ok z else if b.overflowChecks then .error .overflow else .ok (z % 2 ^ w)

/-- A shift of `w` bits by `s`, with results `z`: if `s` is too large, it panics in builds with overflow checks and
otherwise shifts by the remainder. -/
def shifting (b : Build) (w s : Nat) (z : Nat → ℤ) : Except Panic ℤ :=
  if s < w then .ok (z s) else if b.overflowChecks then .error .overflow else .ok (z (s % w))

/-- An operation shows nothing and gives an integer. -/
def Gives (x : TraceExec b α) (val : α → ℤ) (r : Except Panic ℤ) : Prop := x.trace = [] ∧ x.result.map val = r

def u32 (x : UInt32) : ℤ := x.toNat
def u64 (x : UInt64) : ℤ := x.toNat
def usize (x : Nat) : ℤ := x

theorem gives_ovf {c : Bool} {v : α} {val : α → ℤ} {w : Nat} {z : ℤ} (hc : c = true ↔ ¬ (0 ≤ z ∧ z < 2 ^ w))
    (hv : val v = z % 2 ^ w) : Gives (ovf c v : TraceExec b α) val (wrapping b w z) := by
  unfold ovf wrapping
  by_cases h : 0 ≤ z ∧ z < 2 ^ w
  · have : c = false := by
      cases c
      · rfl
      · exact absurd h (hc.1 rfl)
    subst this
    rw [if_pos h]
    refine ⟨rfl, ?_⟩
    rw [Int.emod_eq_of_lt h.1 h.2] at hv
    exact congrArg Except.ok hv
  · have : c = true := hc.2 h
    subst this
    rw [if_neg h]
    show Gives (if (true && b.overflowChecks) = true then _ else _) _ _
    rw [Bool.true_and]
    split
    · exact ⟨rfl, rfl⟩
    · exact ⟨rfl, congrArg Except.ok hv⟩

theorem gives_shift {c : Bool} {v : α} {val : α → ℤ} {w s : Nat} {z : Nat → ℤ} (hc : c = true ↔ ¬ s < w)
    (hv : val v = z (s % w)) : Gives (ovf c v : TraceExec b α) val (shifting b w s z) := by
  unfold ovf shifting
  by_cases h : s < w
  · have : c = false := by
      cases c
      · rfl
      · exact absurd h (hc.1 rfl)
    subst this
    rw [if_pos h]
    refine ⟨rfl, ?_⟩
    rw [Nat.mod_eq_of_lt h] at hv
    exact congrArg Except.ok hv
  · have : c = true := hc.2 h
    subst this
    rw [if_neg h]
    show Gives (if (true && b.overflowChecks) = true then _ else _) _ _
    rw [Bool.true_and]
    split
    · exact ⟨rfl, rfl⟩
    · exact ⟨rfl, congrArg Except.ok hv⟩

/-- **C77** `+`, `-`, `*` on `u32`. -/
theorem C77_u32 (x y : UInt32) :
    Gives (addU32 x y : TraceExec b _) u32 (wrapping b 32 (u32 x + u32 y)) ∧
    Gives (subU32 x y : TraceExec b _) u32 (wrapping b 32 (u32 x - u32 y)) ∧
    Gives (mulU32 x y : TraceExec b _) u32 (wrapping b 32 (u32 x * u32 y)) := by
  have hx := x.toNat_lt
  have hy := y.toNat_lt
  refine ⟨gives_ovf ?_ ?_, gives_ovf ?_ ?_, gives_ovf ?_ ?_⟩ <;> simp only [u32, decide_eq_true_eq]
  · omega
  · rw [UInt32.toNat_add]; omega
  · omega
  · rw [UInt32.toNat_sub]; omega
  · rw [← Int.natCast_mul, not_and_or]
    constructor
    · intro h; right; exact_mod_cast not_lt.mpr h
    · rintro (h | h)
      · exact absurd (Int.natCast_nonneg _) h
      · exact_mod_cast not_lt.mp h
  · rw [UInt32.toNat_mul]; push_cast; rfl

/-- **C77** `+`, `-` on `u64`. -/
theorem C77_u64 (x y : UInt64) :
    Gives (addU64 x y : TraceExec b _) u64 (wrapping b 64 (u64 x + u64 y)) ∧
    Gives (subU64 x y : TraceExec b _) u64 (wrapping b 64 (u64 x - u64 y)) := by
  have hx := x.toNat_lt
  have hy := y.toNat_lt
  refine ⟨gives_ovf ?_ ?_, gives_ovf ?_ ?_⟩ <;> simp only [u64, decide_eq_true_eq]
  · omega
  · rw [UInt64.toNat_add]; omega
  · omega
  · rw [UInt64.toNat_sub]; omega

/-- **C77** `+`, `-`, `*` on `usize`. -/
theorem C77_usize (x y : Nat) (hx : x < 2 ^ b.usizeBits) (hy : y < 2 ^ b.usizeBits) :
    Gives (addUsize x y : TraceExec b _) usize (wrapping b b.usizeBits (usize x + usize y)) ∧
    Gives (subUsize x y : TraceExec b _) usize (wrapping b b.usizeBits (usize x - usize y)) ∧
    Gives (mulUsize x y : TraceExec b _) usize (wrapping b b.usizeBits (usize x * usize y)) := by
  have hb : (Rust.build (TraceExec b)).usizeBits = b.usizeBits := rfl
  have hc : ((2 ^ b.usizeBits : Nat) : ℤ) = 2 ^ b.usizeBits := by push_cast; rfl
  refine ⟨gives_ovf ?_ ?_, gives_ovf ?_ ?_, gives_ovf ?_ ?_⟩ <;> simp only [usize, decide_eq_true_eq, hb, ← hc]
  · omega
  · push_cast; rfl
  · omega
  · rw [Int.natCast_mod, Nat.cast_sub (by omega), Nat.cast_add, add_sub_assoc, Int.add_emod_left]
  · rw [← Int.natCast_mul, not_and_or]
    constructor
    · intro h; right; exact_mod_cast not_lt.mpr h
    · rintro (h | h)
      · exact absurd (Int.natCast_nonneg _) h
      · exact_mod_cast not_lt.mp h
  · push_cast; rfl

/-- **C77** Division: by zero it panics in every build. -/
theorem C77_div (x y : UInt32) (i j : Nat) :
    Gives (divU32 x y : TraceExec b _) u32 (if u32 y = 0 then .error .divByZero else .ok (u32 x / u32 y)) ∧
    Gives (divUsize i j : TraceExec b _) usize (if usize j = 0 then .error .divByZero else .ok (usize i / usize j)) := by
  refine ⟨?_, ?_⟩
  · unfold divU32 u32
    by_cases h : y = 0
    · subst h
      exact ⟨rfl, rfl⟩
    · have : ¬ (y.toNat : ℤ) = 0 := fun h0 => h (UInt32.toNat_inj.mp (by exact_mod_cast h0))
      rw [if_neg h, if_neg this]
      refine ⟨rfl, congrArg Except.ok ?_⟩
      dsimp only
      rw [UInt32.toNat_div]
      push_cast; rfl
  · unfold divUsize usize
    by_cases h : j = 0
    · subst h
      exact ⟨rfl, rfl⟩
    · have : ¬ (j : ℤ) = 0 := by exact_mod_cast h
      rw [if_neg h, if_neg this]
      exact ⟨rfl, congrArg Except.ok (by push_cast; rfl)⟩

/-- **C77** Shifts: bits shifted out are lost in every build. -/
theorem C77_shift (x s : UInt32) (y : UInt64) :
    Gives (shlU32 x s : TraceExec b _) u32 (shifting b 32 s.toNat fun k => u32 x * 2 ^ k % 2 ^ 32) ∧
    Gives (shrU32 x s : TraceExec b _) u32 (shifting b 32 s.toNat fun k => u32 x / 2 ^ k) ∧
    Gives (shlU64 y s : TraceExec b _) u64 (shifting b 64 s.toNat fun k => u64 y * 2 ^ k % 2 ^ 64) ∧
    Gives (shrU64 y s : TraceExec b _) u64 (shifting b 64 s.toNat fun k => u64 y / 2 ^ k) := by
  refine ⟨gives_shift ?_ ?_, gives_shift ?_ ?_, gives_shift ?_ ?_, gives_shift ?_ ?_⟩ <;>
    simp only [u32, u64, decide_eq_true_eq, not_lt]
  · rw [UInt32.toNat_shiftLeft, Nat.shiftLeft_eq]; push_cast; rfl
  · rw [UInt32.toNat_shiftRight, Nat.shiftRight_eq_div_pow]; push_cast; rfl
  · rw [UInt64.toNat_shiftLeft, Nat.shiftLeft_eq, UInt32.toNat_toUInt64]; push_cast; rfl
  · rw [UInt64.toNat_shiftRight, Nat.shiftRight_eq_div_pow, UInt32.toNat_toUInt64]; push_cast; rfl

/-- **C77** `as` truncates, `try_from` gives the same number or an error. -/
theorem C77_convert (x : UInt32) (i : Nat) (y : UInt64) :
    Gives (asUsize x : TraceExec b _) usize (.ok (u32 x % 2 ^ b.usizeBits)) ∧
    u32 (usizeAsU32 i) = usize i % 2 ^ 32 ∧
    Gives (u32TryFromUnwrap i : TraceExec b _) u32 (if usize i < 2 ^ 32 then .ok (usize i) else .error .unwrap) ∧
    (u32TryFromU64 y).map u32 = if u64 y < 2 ^ 32 then .ok (u64 y) else .error () := by
  refine ⟨⟨rfl, congrArg Except.ok ?_⟩, ?_, ?_, ?_⟩
  · show ((x.toNat % 2 ^ b.usizeBits : Nat) : ℤ) = _
    push_cast; rfl
  · simp only [u32, usize, usizeAsU32]
    rw [UInt32.toNat_ofNat']
    push_cast; rfl
  · have e : usize i < 2 ^ 32 ↔ i < 2 ^ 32 := by unfold usize; exact_mod_cast Iff.rfl
    unfold u32TryFromUnwrap
    by_cases h : i < 2 ^ 32
    · rw [if_pos h, if_pos (e.2 h)]
      refine ⟨rfl, congrArg Except.ok ?_⟩
      unfold u32 usize
      rw [UInt32.toNat_ofNat', Nat.mod_eq_of_lt h]
    · rw [if_neg h, if_neg (fun h' => h (e.1 h'))]
      exact ⟨rfl, rfl⟩
  · have e : u64 y < 2 ^ 32 ↔ y.toNat < 2 ^ 32 := by unfold u64; exact_mod_cast Iff.rfl
    unfold u32TryFromU64
    by_cases h : y.toNat < 2 ^ 32
    · rw [if_pos h, if_pos (e.2 h)]
      refine congrArg Except.ok ?_
      unfold u32 u64
      rw [UInt64.toNat_toUInt32, Nat.mod_eq_of_lt h]
    · rw [if_neg h, if_neg (fun h' => h (e.1 h'))]
      rfl

/-- **C77** Big-endian bytes. -/
theorem C77_bytes (x : UInt32) (y : UInt64) (v : Vector UInt8 4) :
    beValue (u32ToBe x).toList = x.toNat ∧ beValue (u64ToBe y).toList = y.toNat ∧
    (u32FromBe v).toNat = beValue v.toList := by
  have hx := x.toNat_lt
  have hy := y.toNat_lt
  refine ⟨?_, ?_, ?_⟩
  · rw [← toInt_eq_beValue, u32ToBe_toList, Spec.toInt_toByte, Nat.mod_eq_of_lt (by omega)]
  · rw [← toInt_eq_beValue, u64ToBe_toList, Spec.toInt_toByte, Nat.mod_eq_of_lt (by omega)]
  · rw [← toInt_eq_beValue, u32FromBe_toNat]

/-- What an element access gives. -/
def element (xs : List α) (i : Nat) : Except Panic α :=
  match xs[i]? with
  | some x => .ok x
  | none => .error .index

/-- **C77** Indexing: the index is seen; a bad one panics. -/
theorem C77_index {n : Nat} (v : Vector α n) (xs : List α) (i : Nat) (x : α) :
    (vget v i : TraceExec b α).trace = [.index i] ∧ (vget v i : TraceExec b α).result = element v.toList i ∧
    (lget xs i : TraceExec b α).trace = [.index i] ∧ (lget xs i : TraceExec b α).result = element xs i ∧
    (vset v i x : TraceExec b _).trace = [.index i] ∧
    (vset v i x : TraceExec b _).result.map Vector.toList =
      if i < n then .ok (v.toList.set i x) else .error .index := by
  have h1 : (vget v i : TraceExec b α).trace = [.index i] ∧
      (vget v i : TraceExec b α).result = element v.toList i := by
    unfold vget element
    by_cases h : i < n
    · rw [List.getElem?_eq_getElem (by simpa using h)]
      simp only [dif_pos h, Vector.getElem_toList]
      exact ⟨rfl, rfl⟩
    · rw [List.getElem?_eq_none (by simpa using h)]
      simp only [dif_neg h]
      exact ⟨rfl, rfl⟩
  have h2 : (lget xs i : TraceExec b α).trace = [.index i] ∧ (lget xs i : TraceExec b α).result = element xs i := by
    unfold lget element
    by_cases h : i < xs.length
    · rw [List.getElem?_eq_getElem h]
      simp only [dif_pos h]
      exact ⟨rfl, rfl⟩
    · rw [List.getElem?_eq_none (by omega)]
      simp only [dif_neg h]
      exact ⟨rfl, rfl⟩
  have h3 : (vset v i x : TraceExec b _).trace = [.index i] ∧ (vset v i x : TraceExec b _).result.map Vector.toList =
      if i < n then .ok (v.toList.set i x) else .error .index := by
    unfold vset
    by_cases h : i < n
    · simp only [dif_pos h, if_pos h]
      exact ⟨rfl, congrArg Except.ok (Vector.toList_set ..)⟩
    · simp only [dif_neg h, if_neg h]
      exact ⟨rfl, rfl⟩
  exact ⟨h1.1, h1.2, h2.1, h2.2, h3.1, h3.2⟩

/-- The part of a list between two positions. -/
def Part (xs : List α) (lo hi : Nat) (part : List α) : Prop :=
  ∃ pre post, xs = pre ++ part ++ post ∧ pre.length = lo ∧ (pre ++ part).length = hi

theorem part_iff {xs part : List α} {lo hi : Nat} :
    Part xs lo hi part ↔ (lo ≤ hi ∧ hi ≤ xs.length) ∧ part = (xs.drop lo).take (hi - lo) := by
  constructor
  · rintro ⟨pre, post, rfl, rfl, rfl⟩
    refine ⟨⟨by simp, by simp⟩, ?_⟩
    rw [List.append_assoc, List.drop_left, List.take_left' (by simp)]
  · rintro ⟨⟨h1, h2⟩, rfl⟩
    refine ⟨xs.take lo, xs.drop hi, ?_, by simp; omega, by simp; omega⟩
    have : xs.drop hi = (xs.drop lo).drop (hi - lo) := by rw [List.drop_drop]; congr 1; omega
    rw [this, List.append_assoc, List.take_append_drop, List.take_append_drop]

/-- **C77** Slices: the bounds are seen; bad ones panic. -/
theorem C77_slice (xs : List α) (lo hi : Nat) :
    (slice xs lo hi : TraceExec b _).trace = [.range lo hi] ∧
    (∀ part, (slice xs lo hi : TraceExec b _).result = .ok part ↔ Part xs lo hi part) ∧
    ((∀ part, ¬ Part xs lo hi part) → (slice xs lo hi : TraceExec b _).result = .error .slice) := by
  unfold slice
  by_cases h : lo ≤ hi ∧ hi ≤ xs.length
  · simp only [if_pos h]
    refine ⟨rfl, fun part => ?_, fun hn => absurd (part_iff.2 ⟨h, rfl⟩) (hn _)⟩
    rw [part_iff]
    exact ⟨fun e => ⟨h, (Except.ok.inj e).symm⟩, fun e => congrArg Except.ok e.2.symm⟩
  · simp only [if_neg h]
    refine ⟨rfl, fun part => ⟨fun e => (by cases e), fun e => absurd (part_iff.1 e).1 h⟩, fun _ => rfl⟩

/-- **C77** Copying into a whole array: the lengths must be the same. -/
theorem C77_copy (n : Nat) (src : List α) :
    (copyFromSlice n src : TraceExec b _).trace = [] ∧
    (copyFromSlice n src : TraceExec b _).result.map Vector.toList =
      if src.length = n then .ok src else .error .copyLen := by
  unfold copyFromSlice
  by_cases h : src.length = n
  · rw [dif_pos h, if_pos h]
    exact ⟨rfl, rfl⟩
  · rw [dif_neg h, if_neg h]
    exact ⟨rfl, rfl⟩

/-- **C77** Copying into a part of an array replaces this part and nothing else. -/
theorem C77_write {n : Nat} (dst : Vector α n) (lo hi : Nat) (src : List α) :
    (writeSlice dst lo hi src : TraceExec b _).trace = [.range lo hi] ∧
    (∀ v, (writeSlice dst lo hi src : TraceExec b _).result = .ok v ↔ ∃ pre old post, dst.toList = pre ++ old ++ post ∧
      pre.length = lo ∧ (pre ++ old).length = hi ∧ old.length = src.length ∧ v.toList = pre ++ src ++ post) ∧
    ((∀ part, ¬ Part dst.toList lo hi part) → (writeSlice dst lo hi src : TraceExec b _).result = .error .slice) ∧
    ((∃ part, Part dst.toList lo hi part ∧ part.length ≠ src.length) →
      (writeSlice dst lo hi src : TraceExec b _).result = .error .copyLen) := by
  unfold writeSlice
  have hl : dst.toList.length = n := by simp
  by_cases h : lo ≤ hi ∧ hi ≤ n
  · simp only [dif_pos h]
    have hp : Part dst.toList lo hi ((dst.toList.drop lo).take (hi - lo)) := part_iff.2 ⟨by rw [hl]; exact h, rfl⟩
    by_cases h' : src.length = hi - lo
    · simp only [dif_pos h']
      refine ⟨rfl, fun v => ⟨?_, ?_⟩, fun hn => absurd hp (hn _), ?_⟩
      · intro e
        obtain rfl := (Except.ok.inj e).symm
        refine ⟨dst.toList.take lo, (dst.toList.drop lo).take (hi - lo), dst.toList.drop hi, ?_, by simp; omega,
          by simp; omega, by simp; omega, rfl⟩
        have : dst.toList.drop hi = (dst.toList.drop lo).drop (hi - lo) := by rw [List.drop_drop]; congr 1; omega
        rw [this, List.append_assoc, List.take_append_drop, List.take_append_drop]
      · rintro ⟨pre, old, post, e, h1, h2, h3, h4⟩
        refine congrArg Except.ok (Vector.toList_inj.mp ?_)
        rw [h4]
        show dst.toList.take lo ++ src ++ dst.toList.drop hi = _
        rw [e, List.append_assoc pre, List.take_left' h1, ← List.append_assoc pre old, List.drop_left' h2]
      · rintro ⟨part, h1, h2⟩
        refine absurd ?_ h2
        rw [(part_iff.1 h1).2, h', List.length_take, List.length_drop, hl]
        omega
    · simp only [dif_neg h']
      refine ⟨rfl, fun v => ⟨fun e => (by cases e), ?_⟩, fun hn => absurd hp (hn _), fun _ => rfl⟩
      rintro ⟨pre, old, post, e, h1, h2, h3, h4⟩
      rw [List.length_append] at h2
      omega
  · simp only [dif_neg h]
    have hn : ∀ part, ¬ Part dst.toList lo hi part := fun part hp => h (by rw [← hl]; exact (part_iff.1 hp).1)
    refine ⟨rfl, fun v => ⟨fun e => (by cases e), ?_⟩, fun _ => rfl, fun ⟨part, hp, _⟩ => absurd hp (hn _)⟩
    rintro ⟨pre, old, post, e, h1, h2, -, -⟩
    exact absurd ⟨pre, post, e, h1, h2⟩ (hn old)

/-- **C77** `debug_assert!`: without debug assertions the condition is not even computed. -/
theorem C77_debug_assert (c : TraceExec b Bool) :
    (debugAssert c).result = (if b.debugAssertions then
      match c.result with
      | .error e => .error e
      | .ok true => .ok ()
      | .ok false => .error .debugAssert
      else .ok ()) ∧
    (debugAssert c).trace = if b.debugAssertions then c.trace else [] := by
  have hb : (Rust.build (TraceExec b)).debugAssertions = b.debugAssertions := rfl
  unfold debugAssert
  rw [hb]
  split
  · obtain ⟨L, r⟩ := c
    cases r with
    | error e => exact ⟨rfl, rfl⟩
    | ok v => cases v <;> exact ⟨rfl, List.append_nil L⟩
  · exact ⟨rfl, rfl⟩

theorem loopFrom_range {m : Type → Type} [Rust m] [LawfulMonad m] (body : Nat → σ → m σ) : ∀ (c i : Nat) (s : σ),
    loopFrom body c i s = (List.range' i c).foldlM (fun s i => body i s) s
  | 0, _, _ => rfl
  | c + 1, i, s => by
    rw [loopFrom, List.range'_succ, List.foldlM_cons]
    simp only [loopFrom_range body c]

/-- **C77** `for` loops run the body for each number of the range, in order. -/
theorem C77_for (lo hi : Nat) (lo' hi' : UInt32) (s : σ) (body : Nat → σ → TraceExec b σ)
    (body' : UInt32 → σ → TraceExec b σ) :
    forUsize lo hi s body = (do
      leak (.trip (hi - lo))
      (List.range' lo (hi - lo)).foldlM (fun s i => body i s) s) ∧
    forU32 lo' hi' s body' = (do
      leak (.trip (hi'.toNat - lo'.toNat))
      ((List.range' lo'.toNat (hi'.toNat - lo'.toNat)).map UInt32.ofNat).foldlM (fun s i => body' i s) s) := by
  refine ⟨?_, ?_⟩
  · simp only [forUsize, loopFrom_range]
  · simp only [forU32, loopFrom_range, List.foldlM_map]

/-- A loop that ends early. -/
def ending {ι ε : Type} (body : ι → σ → Except ε σ) : List ι → σ → Except ε σ
  | [], s => .ok s
  | i :: is, s =>
    match body i s with
    | .ok s => ending body is s
    | .error e => .error e

/-- **C77** A `for` loop with `?` or `return` in its body ends with the first error. -/
theorem C77_for_early {ε : Type} (lo hi : UInt32) (s : σ) (body : UInt32 → σ → TraceExec b (Except ε σ))
    (f : UInt32 → σ → Except ε σ) (hf : ∀ i s, (body i s).result = .ok (f i s)) :
    (forU32E lo hi s body).result =
      .ok (ending f ((List.range' lo.toNat (hi.toNat - lo.toNat)).map UInt32.ofNat) s) := by
  have key : ∀ (c i : Nat) (s : σ), (loopFromE (fun i => body (UInt32.ofNat i)) c i s).result =
      .ok (ending f ((List.range' i c).map UInt32.ofNat) s) := by
    intro c
    induction c with
    | zero => intro i s; rfl
    | succ c ih =>
      intro i s
      rw [loopFromE, List.range'_succ, List.map_cons, ending]
      have h := hf (UInt32.ofNat i) s
      generalize body (UInt32.ofNat i) s = x at h ⊢
      obtain ⟨L, r⟩ := x
      obtain rfl : r = .ok (f (UInt32.ofNat i) s) := h
      cases f (UInt32.ofNat i) s with
      | error e => rfl
      | ok s' => exact ih (i + 1) s'
  exact key _ _ _

/-- **C77** A `while` loop runs its body as long as the condition holds. -/
theorem C77_while (cond : σ → Bool) (f : σ → σ) (body : σ → TraceExec b σ) (hb : ∀ s, body s = pure (f s)) (s : σ)
    (n fuel : Nat) (hn : ∀ k < n, cond (f^[k] s) = true) (he : cond (f^[n] s) = false) (hf : n < fuel) :
    (whileFuel cond body fuel s).result = .ok (f^[n] s) ∧
    (whileFuel cond body fuel s).trace = List.replicate n (.branch true) ++ [.branch false] := by
  induction n generalizing s fuel with
  | zero =>
    obtain ⟨fuel, rfl⟩ : ∃ k, fuel = k + 1 := ⟨fuel - 1, by omega⟩
    have he : cond s = false := he
    rw [whileFuel, he]
    exact ⟨rfl, rfl⟩
  | succ n ih =>
    obtain ⟨fuel, rfl⟩ : ∃ k, fuel = k + 1 := ⟨fuel - 1, by omega⟩
    have h0 : cond s = true := hn 0 (by omega)
    obtain ⟨h1, h2⟩ := ih (f s) fuel (fun k hk => by
      rw [← Function.iterate_succ_apply]; exact hn (k + 1) (by omega)) (by rw [← Function.iterate_succ_apply]; exact he)
      (by omega)
    rw [whileFuel, h0, if_pos rfl, hb, pure_bind, Function.iterate_succ_apply]
    refine ⟨h1, ?_⟩
    rw [List.replicate_succ, List.cons_append, ← h2]
    rfl

/-! ## The hypotheses are met, and the cases differ -/

example : (200 : Nat) < 2 ^ demoBuild.usizeBits ∧ wrapping demoBuild 32 (-1) = .error .overflow ∧
    wrapping { demoBuild with overflowChecks := false } 32 (-1) = .ok (2 ^ 32 - 1) ∧
    wrapping demoBuild 32 7 = .ok 7 := by
  decide

example : Part [1, 2, 3, 4] 1 3 [2, 3] := ⟨[1], [4], rfl, rfl, rfl⟩

/-- The body adds up the loop variables, and fails at 3. -/
example : ending (fun (i : UInt32) (s : Nat) => if i = 3 then .error s else .ok (s + i.toNat))
    ((List.range' 0 7).map UInt32.ofNat) 0 = .error 3 := by
  decide

/-- Counting down from 5. -/
example : (whileFuel (fun s : Nat => decide (0 < s)) (fun s => pure (s - 1)) 9 5 : TraceExec b Nat).result = .ok 0 :=
  (C77_while _ (· - 1) _ (fun _ => rfl) 5 5 9 (by decide) (by decide) (by decide)).1

end Fips205.Props
