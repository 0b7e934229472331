import Verif.Proofs.Spread

/-!
# The randomizers of signatures

The randomizer of a signature is the beginning of a value of the hash function.  For different inputs these are values at
different points, unless the hashes inside of HMAC are the same.
-/

namespace Fips205.Props
open Fips205 Fips205.Model Oracle

variable {ps : ParamSet} {B w : Nat} {P0 : Spec.Prims}

theorem avg_toByte_eq {m : Nat} (r : Fin (256 ^ m)) :
    (avg fun e : Fin (256 ^ m) => ind (Spec.toByte e m = Spec.toByte r m)) = 1 / 256 ^ m := by
  have h2 := avg_point r
  rw [Fintype.card_fin] at h2
  push_cast at h2
  rw [← h2]
  refine congrArg avg (funext fun e => ind_congr ?_)
  exact ⟨fun h => by rw [← number_toByte e, h, number_toByte], fun h => by rw [h]⟩

/-- The values at two different points, of which neither depends on the value at the first, begin with the same `n` bytes
with probability `1 / 256^n`. -/
theorem avg_same {n : Nat} (hn : n ≤ w) (y y' : (Query B → Fin (256 ^ w)) → Query B)
    (hst : ∀ O O', y O ≠ y' O → (∀ q, q ≠ y O → O' q = O q) → y O' = y O ∧ y' O' = y' O) :
    (avg fun O : Query B → Fin (256 ^ w) => ind (y O ≠ y' O) * ind (headOf n (O (y O)) = headOf n (O (y' O)))) =
      avg fun O : Query B → Fin (256 ^ w) => ind (y O ≠ y' O) * (1 / 256 ^ n) := by
  obtain ⟨τ, i1, i2, e, he⟩ := split_one (w := w) (m := n) (h := n) (nb := 1) hn (Nat.le_refl _) rfl
  have hd : ∀ v : Fin 1 → Fin (256 ^ w), digest n n v = Spec.toByte (headOf n (v 0)) n := by
    intro v
    rw [digest]
    simp only [List.range_one, List.flatMap_cons, List.flatMap_nil, List.append_nil, Nat.zero_lt_one, dif_pos]
    exact List.take_of_length_le (by rw [Spec.toByte_length])
  have h := avg_blocks e he (fun O => y O ≠ y' O) (fun O _ => y O) (fun O => headOf n (O (y' O)))
    (fun O _ i j _ => Subsingleton.elim i j) (fun O O' hW h => ?_) fun d r => ind (d = Spec.toByte r n)
  · simp only [avg_toByte_eq] at h
    refine Eq.trans (congrArg avg (funext fun O => congrArg (_ * ·) (ind_congr ?_))) h
    rw [hd]
    exact ⟨fun h => by rw [h], fun h => by rw [← number_toByte (headOf n (O (y O))), h, number_toByte]⟩
  · obtain ⟨h1, h2⟩ := hst O O' hW fun q hq => h q fun _ => hq.symm
    refine ⟨by rw [h1, h2]; exact hW, funext fun _ => h1, ?_⟩
    rw [h2, h _ fun _ => hW]

/-- Two given points. -/
theorem avg_apart {n : Nat} (hn : n ≤ w) {y y' : Query B} (hne : y ≠ y') :
    (avg fun O : Query B → Fin (256 ^ w) => ind (headOf n (O y) = headOf n (O y'))) = 1 / 256 ^ n := by
  have hO : Nonempty (Query B → Fin (256 ^ w)) := ⟨fun _ => ⟨0, Nat.pow_pos (by decide)⟩⟩
  have h := avg_same hn (fun _ => y) (fun _ => y') fun _ _ _ _ => ⟨rfl, rfl⟩
  have h1 : ind (y ≠ y') = 1 := by simp [ind, hne]
  simp only [h1, one_mul] at h
  exact h.trans (avg_const _)

/-- The key of HMAC in a block, with each byte changed. -/
def padBy (ps : ParamSet) (c : UInt8) (k : List UInt8) : List UInt8 :=
  (k ++ List.replicate (blen ps - k.length) 0).map (· ^^^ c)

theorem padBy_length {c : UInt8} {k : List UInt8} (hk : k.length = ps.sp.n) : (padBy ps c k).length = blen ps := by
  have := n_le_blen ps
  simp only [padBy, List.length_map, List.length_append, List.length_replicate]
  omega

theorem padBy_inj {c : UInt8} {k k' : List UInt8} (hk : k.length = ps.sp.n) (hk' : k'.length = ps.sp.n)
    (h : padBy ps c k = padBy ps c k') : k = k' := by
  rw [padBy, padBy, List.map_append, List.map_append] at h
  have h := (List.append_inj h (by rw [List.length_map, List.length_map, hk, hk'])).1
  exact List.map_injective_iff.mpr (fun a b e => by
    have e : a ^^^ c = b ^^^ c := e
    rw [← UInt8.xor_zero (a := a), ← UInt8.xor_self (a := c), ← UInt8.xor_assoc, e, UInt8.xor_assoc, UInt8.xor_self,
      UInt8.xor_zero]) h

theorem padBy_ne {k k' : List UInt8} (hk : k.length = ps.sp.n) (hk' : k'.length = ps.sp.n) :
    padBy ps 0x36 k ≠ padBy ps 0x5c k' := by
  have hb : ps.sp.n < blen ps := by clear * -; cases ps <;> decide
  intro h
  rw [padBy, padBy, List.map_append, List.map_append] at h
  have h := (List.append_inj h (by rw [List.length_map, List.length_map, hk, hk'])).2
  rw [List.map_replicate, List.map_replicate, hk, hk'] at h
  obtain ⟨j, hj⟩ : ∃ j, blen ps - ps.sp.n = j + 1 := ⟨blen ps - ps.sp.n - 1, by omega⟩
  rw [hj, List.replicate_succ, List.replicate_succ] at h
  exact absurd (List.cons.inj h).1 (by decide)

/-- The calls of HMAC. -/
theorem prf_sha2 (hps : ps.family = .sha2) (hw : 64 ≤ w) (O : Query B → Fin (256 ^ w)) {k : List UInt8}
    (hk : k.length = ps.sp.n) (o M : List UInt8) :
    (ps.hf (withHash P0 O)).PRFmsg k o M = Spec.toByte (headOf ps.sp.n (O (shaQ ps B (padBy ps 0x5c k ++
      Spec.toByte (headOf (hlen ps) (O (shaQ ps B (padBy ps 0x36 k ++ (o ++ M))))) (hlen ps))))) ps.sp.n := by
  have hb := n_le_blen ps
  have hn := n_le_hlen ps
  have hh := (hlen_le ps).trans hw
  have h0 : ∀ P, (if k.length ≤ blen ps then k else shaOf ps P k) = k := fun P => if_pos (by omega)
  rw [sha2_PRFmsg hps]
  simp only [Spec.hmac, h0]
  rw [wide_sha hw, wide_sha hw, Spec.trunc, toByte_headOf hh, List.take_take, Nat.min_eq_left hn, ← toByte_headOf (hn.trans hh)]
  rfl

theorem prf_shake (hps : ps.family = .shake) (hw : 64 ≤ w) (O : Query B → Fin (256 ^ w)) (k o M : List UInt8) :
    (ps.hf (withHash P0 O)).PRFmsg k o M =
      Spec.toByte (headOf ps.sp.n (O (.of B ⟨.shake256, k ++ (o ++ M)⟩))) ps.sp.n := by
  have hn : ps.sp.n ≤ w := by have := n_le_32 ps; omega
  rw [hf_shake hps, toByte_headOf hn, ← wide_shake (P0 := P0) hn, ← List.append_assoc]
  rfl

/-- The blocks with which the inputs of the hash function begin that draws the randomizer: they contain `SK.prf`. -/
def keyBlocks (ps : ParamSet) (k : List UInt8) : List (List UInt8) :=
  match ps.family with
  | .shake => [k]
  | .sha2 => [padBy ps 0x36 k, padBy ps 0x5c k]

/-- A call for an input that begins with such a block. -/
def Keyed (ps : ParamSet) (k : List UInt8) (q : Query B) : Prop := ∃ X ∈ keyBlocks ps k, X <+: q.1.input

theorem of_short {c : Call} (h : c.input.length ≤ B) : (Query.of B c).1 = c := by rw [Query.of, dif_pos h]

theorem keyed_shake (hps : ps.family = .shake) {k X : List UInt8} (h : (k ++ X).length ≤ B) :
    Keyed ps k (.of B ⟨.shake256, k ++ X⟩) :=
  ⟨k, by rw [keyBlocks, hps]; exact List.mem_cons_self, by rw [of_short h]; exact List.prefix_append _ _⟩

theorem keyed_sha2 (hps : ps.family = .sha2) {k X : List UInt8} {c : UInt8} (hc : c ∈ [0x36, 0x5c])
    (h : (padBy ps c k ++ X).length ≤ B) : Keyed ps k (shaQ ps B (padBy ps c k ++ X)) := by
  refine ⟨padBy ps c k, ?_, by rw [shaQ_val h]; exact List.prefix_append _ _⟩
  rw [keyBlocks, hps]
  rcases List.mem_cons.mp hc with rfl | hc
  · exact List.mem_cons_self
  · rw [List.mem_singleton.mp hc]
    exact List.mem_cons_of_mem _ List.mem_cons_self

section
variable (P0 : Spec.Prims) (hw : 64 ≤ w) {k k' o o' : List UInt8} {M M' : (Query B → Fin (256 ^ w)) → List UInt8}
  (hk : k.length = ps.sp.n) (hk' : k'.length = ps.sp.n) (ho : o.length = ps.sp.n) (ho' : o'.length = ps.sp.n)
  (hB : ∀ O, 192 + (M O).length ≤ B) (hB' : ∀ O, 192 + (M' O).length ≤ B)
  (hst : ∀ O O', (∀ q, ¬ Keyed ps k q → O' q = O q) → M O' = M O ∧ M' O' = M' O)
include hw hk ho hB hst

theorem prf_uniform {r : List UInt8} (hr : r.length = ps.sp.n) :
    (avg fun O : Query B → Fin (256 ^ w) => ind ((ps.hf (withHash P0 O)).PRFmsg k o (M O) = r)) = 1 / 256 ^ ps.sp.n := by
  have hn := n_le_32 ps
  have hV : Nonempty (Fin (256 ^ w)) := ⟨⟨0, Nat.pow_pos (by decide)⟩⟩
  classical
  have key : ∀ y : (Query B → Fin (256 ^ w)) → Query B,
      (∀ O, (ps.hf (withHash P0 O)).PRFmsg k o (M O) = Spec.toByte (headOf ps.sp.n (O (y O))) ps.sp.n) →
      (∀ O O', (∀ q, q ≠ y O → O' q = O q) → y O' = y O) →
      (avg fun O : Query B → Fin (256 ^ w) => ind ((ps.hf (withHash P0 O)).PRFmsg k o (M O) = r)) = 1 / 256 ^ ps.sp.n := by
    intro y h1 h2
    rw [← avg_headOf (w := w) (by omega) (number ps.sp.n r),
      ← Oracle.avg_star y h2 fun e => ind (headOf ps.sp.n e = number ps.sp.n r)]
    refine congrArg avg (funext fun O => ind_congr ?_)
    rw [h1]
    exact ⟨fun h => by rw [← h, number_toByte], fun h => by rw [h, toByte_number hr]⟩
  cases hps : ps.family with
  | shake =>
    have hl : ∀ O, (k ++ (o ++ M O)).length ≤ B := fun O => by
      have := hB O; simp only [List.length_append]; omega
    refine key (fun O => .of B ⟨.shake256, k ++ (o ++ M O)⟩) (fun O => prf_shake hps hw O _ _ _) fun O O' h => ?_
    rw [(hst O O' fun q hq => h q fun e => hq (e ▸ keyed_shake hps (hl O))).1]
  | sha2 =>
    have hbl : blen ps ≤ 128 := by clear * -; cases ps <;> decide
    have hh := hlen_le ps
    have hl := padBy_length (c := 0x36) hk
    have hu := padBy_length (c := 0x5c) hk
    have hx : ∀ O, (padBy ps 0x36 k ++ (o ++ M O)).length ≤ B := fun O => by
      have := hB O; simp only [List.length_append]; omega
    refine key _ (fun O => prf_sha2 hps hw O hk _ _) fun O O' h => ?_
    have hy : (padBy ps 0x5c k ++ Spec.toByte (headOf (hlen ps) (O (shaQ ps B (padBy ps 0x36 k ++ (o ++ M O)))))
        (hlen ps)).length ≤ B := by
      have := hB O; simp only [List.length_append, Spec.toByte_length]; omega
    have e := (hst O O' fun q hq => h q fun e => hq (e ▸ keyed_sha2 hps (by simp) hy)).1
    rw [e, h (shaQ ps B (padBy ps 0x36 k ++ (o ++ M O))) fun e => ?_]
    exact padBy_ne hk hk (List.append_inj (shaQ_inj (hx O) hy e) (by rw [hl, hu])).1

include hk' ho' hB'

theorem prf_apart_shake (hps : ps.family = .shake) :
    (avg fun O : Query B → Fin (256 ^ w) => ind ((k, o, M O) ≠ (k', o', M' O)) *
      ind ((ps.hf (withHash P0 O)).PRFmsg k o (M O) = (ps.hf (withHash P0 O)).PRFmsg k' o' (M' O))) =
      avg fun O : Query B → Fin (256 ^ w) => ind ((k, o, M O) ≠ (k', o', M' O)) * (1 / 256 ^ ps.sp.n) := by
  have hn := n_le_32 ps
  have hl : ∀ O, (k ++ (o ++ M O)).length ≤ B := fun O => by
    have := hB O; simp only [List.length_append]; omega
  have hl' : ∀ O, (k' ++ (o' ++ M' O)).length ≤ B := fun O => by
    have := hB' O; simp only [List.length_append]; omega
  have hq : ∀ O, Query.of B ⟨.shake256, k ++ (o ++ M O)⟩ ≠ Query.of B ⟨.shake256, k' ++ (o' ++ M' O)⟩ ↔
      (k, o, M O) ≠ (k', o', M' O) := by
    refine fun O => not_congr ⟨fun h => ?_, fun h => ?_⟩
    · have h := congrArg Subtype.val h
      rw [of_short (hl O), of_short (hl' O)] at h
      have h := congrArg Call.input h
      obtain ⟨h1, h2⟩ := List.append_inj h (by omega)
      obtain ⟨h3, h4⟩ := List.append_inj h2 (by omega)
      rw [h1, h3, h4]
    · obtain ⟨h1, h⟩ := Prod.mk.inj h
      obtain ⟨h2, h3⟩ := Prod.mk.inj h
      rw [h1, h2, h3]
  have h := avg_same (w := w) (n := ps.sp.n) (by omega) (fun O => .of B ⟨.shake256, k ++ (o ++ M O)⟩)
    (fun O => .of B ⟨.shake256, k' ++ (o' ++ M' O)⟩) fun O O' _ h => by
      obtain ⟨h1, h2⟩ := hst O O' fun q hq => h q fun e => hq (e ▸ keyed_shake hps (hl O))
      rw [h1, h2]
      exact ⟨rfl, rfl⟩
  simp only [ind_congr (hq _)] at h
  rw [← h]
  refine congrArg avg (funext fun O => congrArg (_ * ·) (ind_congr ?_))
  rw [prf_shake hps hw, prf_shake hps hw]
  exact ⟨fun h => by rw [← number_toByte (headOf ps.sp.n _), h, number_toByte], fun h => by rw [h]⟩

theorem prf_apart_sha2 (hps : ps.family = .sha2) :
    (avg fun O : Query B → Fin (256 ^ w) => ind ((k, o, M O) ≠ (k', o', M' O)) *
      ind ((ps.hf (withHash P0 O)).PRFmsg k o (M O) = (ps.hf (withHash P0 O)).PRFmsg k' o' (M' O))) ≤
      1 / 256 ^ ps.sp.n + 1 / 256 ^ hlen ps := by
  have hO : Nonempty (Query B → Fin (256 ^ w)) := ⟨fun _ => ⟨0, Nat.pow_pos (by decide)⟩⟩
  have hn := n_le_32 ps
  have hbl : blen ps ≤ 128 := by clear * -; cases ps <;> decide
  have hh := hlen_le ps
  have hl := padBy_length (c := 0x36) hk
  have hl' := padBy_length (c := 0x36) hk'
  have hu := padBy_length (c := 0x5c) hk
  have hu' := padBy_length (c := 0x5c) hk'
  -- the inputs of the first hashes
  let x : (Query B → Fin (256 ^ w)) → List UInt8 := fun O => padBy ps 0x36 k ++ (o ++ M O)
  let x' : (Query B → Fin (256 ^ w)) → List UInt8 := fun O => padBy ps 0x36 k' ++ (o' ++ M' O)
  have hx : ∀ O, (x O).length ≤ B := fun O => by have := hB O; simp only [x, List.length_append]; omega
  have hx' : ∀ O, (x' O).length ≤ B := fun O => by have := hB' O; simp only [x', List.length_append]; omega
  have hq : ∀ O, (k, o, M O) ≠ (k', o', M' O) → shaQ ps B (x O) ≠ shaQ ps B (x' O) := by
    intro O hne h
    have h := shaQ_inj (hx O) (hx' O) h
    obtain ⟨h1, h2⟩ := List.append_inj h (by omega)
    obtain ⟨h3, h4⟩ := List.append_inj h2 (by omega)
    exact hne (by rw [padBy_inj hk hk' h1, h3, h4])
  let i : (Query B → Fin (256 ^ w)) → Fin (256 ^ hlen ps) := fun O => headOf (hlen ps) (O (shaQ ps B (x O)))
  let i' : (Query B → Fin (256 ^ w)) → Fin (256 ^ hlen ps) := fun O => headOf (hlen ps) (O (shaQ ps B (x' O)))
  let y : (Query B → Fin (256 ^ w)) → Query B := fun O => shaQ ps B (padBy ps 0x5c k ++ Spec.toByte (i O) (hlen ps))
  let y' : (Query B → Fin (256 ^ w)) → Query B := fun O => shaQ ps B (padBy ps 0x5c k' ++ Spec.toByte (i' O) (hlen ps))
  have hy : ∀ O, (padBy ps 0x5c k ++ Spec.toByte (i O) (hlen ps)).length ≤ B := fun O => by
    have := hB O; simp only [List.length_append, Spec.toByte_length]; omega
  have hy' : ∀ O, (padBy ps 0x5c k' ++ Spec.toByte (i' O) (hlen ps)).length ≤ B := fun O => by
    have := hB O; simp only [List.length_append, Spec.toByte_length]; omega
  -- the first hashes do not depend on the value at the point of the second
  have hoff : ∀ O k1 X, k1.length = ps.sp.n → (padBy ps 0x36 k1 ++ X).length ≤ B →
      shaQ ps B (padBy ps 0x36 k1 ++ X) ≠ y O := by
    intro O k1 X h1 hX h
    have h := shaQ_inj hX (hy O) h
    exact padBy_ne h1 hk (List.append_inj h (by rw [padBy_length h1, hu])).1
  have h1 := avg_same (w := w) (n := ps.sp.n) (by omega) y y' fun O O' _ h => by
    obtain ⟨e1, e2⟩ := hst O O' fun q hq => h q fun e => hq (e ▸ keyed_sha2 hps (by simp) (hy O))
    have e3 : x O' = x O := by simp only [x, e1]
    have e4 : x' O' = x' O := by simp only [x', e2]
    have e : i O' = i O := by
      simp only [i, e3]
      exact congrArg (headOf _) (h _ (hoff O k _ hk (hx O)))
    have e' : i' O' = i' O := by
      simp only [i', e4]
      exact congrArg (headOf _) (h _ (hoff O k' _ hk' (hx' O)))
    exact ⟨by simp only [y, e], by simp only [y', e']⟩
  have h2 := avg_same (w := w) (n := hlen ps) (by omega) (fun O => shaQ ps B (x O)) (fun O => shaQ ps B (x' O))
    fun O O' _ h => by
      obtain ⟨e1, e2⟩ := hst O O' fun q hq => h q fun e => hq (e ▸ keyed_sha2 hps (by simp) (hx O))
      simp only [x, x', e1, e2]
      exact ⟨trivial, trivial⟩
  have key : ∀ O : Query B → Fin (256 ^ w), ind ((k, o, M O) ≠ (k', o', M' O)) *
      ind ((ps.hf (withHash P0 O)).PRFmsg k o (M O) = (ps.hf (withHash P0 O)).PRFmsg k' o' (M' O)) ≤
      ind (y O ≠ y' O) * ind (headOf ps.sp.n (O (y O)) = headOf ps.sp.n (O (y' O))) +
        ind (shaQ ps B (x O) ≠ shaQ ps B (x' O)) * ind (i O = i' O) := by
    intro O
    rw [prf_sha2 hps hw O hk, prf_sha2 hps hw O hk']
    by_cases hne : (k, o, M O) = (k', o', M' O)
    · have h3 : ind ((k, o, M O) ≠ (k', o', M' O)) = 0 := by rw [ind, if_neg (not_not.mpr hne)]
      rw [h3, zero_mul]
      exact add_nonneg (mul_nonneg (ind_nonneg _) (ind_nonneg _)) (mul_nonneg (ind_nonneg _) (ind_nonneg _))
    refine (mul_le_of_le_one_left (ind_nonneg _) (ind_le_one _)).trans ?_
    by_cases hW : y O = y' O
    · have he := (List.append_inj (shaQ_inj (hy O) (hy' O) hW) (by rw [hu, hu'])).2
      have he : i O = i' O := by rw [← number_toByte (i O), he, number_toByte]
      have h3 : ind (i O = i' O) = 1 := by simp [ind, he]
      have h4 : ind (shaQ ps B (x O) ≠ shaQ ps B (x' O)) = 1 := by rw [ind, if_pos (hq O hne)]
      rw [h3, h4, one_mul]
      exact le_trans (ind_le_one _) (le_add_of_nonneg_left (mul_nonneg (ind_nonneg _) (ind_nonneg _)))
    · have h3 : ind (y O ≠ y' O) = 1 := by simp [ind, hW]
      rw [h3, one_mul]
      refine le_trans (ind_mono fun h => ?_) (le_add_of_nonneg_right (mul_nonneg (ind_nonneg _) (ind_nonneg _)))
      have h := congrArg (number ps.sp.n) h
      rw [number_toByte, number_toByte] at h
      exact h
  have hle : ∀ (W : (Query B → Fin (256 ^ w)) → Prop) (c : ℚ), 0 ≤ c → (avg fun O => ind (W O) * c) ≤ c := fun W c hc =>
    le_trans (avg_mono fun O => mul_le_of_le_one_left hc (ind_le_one _)) (avg_const (α := Query B → Fin (256 ^ w)) c).le
  refine (avg_mono key).trans ?_
  rw [avg_add, h1, h2]
  exact add_le_add (hle _ _ (by positivity)) (hle _ _ (by positivity))

end

end Fips205.Props
