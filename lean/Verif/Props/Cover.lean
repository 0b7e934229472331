import Verif.Props.Unforgeable
import Mathlib.Algebra.BigOperators.Group.Finset.Basic
import Mathlib.Algebra.Order.BigOperators.Group.Finset
import Mathlib.Algebra.Order.BigOperators.Ring.Finset
import Mathlib.Data.Fintype.BigOperators

/-! # How many digests a set of known signatures covers (C61) -/

namespace Fips205.Props
open Fips205 Fips205.Model

variable {P : Spec.Prims} {ps : ParamSet}

/-- The FORS key a digest selects: tree and leaf. -/
def forsKey (ps : ParamSet) (digest : List UInt8) : Nat × Nat :=
  (Spec.digestTree ps.sp digest, Spec.digestLeaf ps.sp digest)

/-- The leaf it selects in FORS tree `i` of that key. -/
def forsLeaf (ps : ParamSet) (digest : List UInt8) (i : Nat) : Nat :=
  (Spec.base2b (Spec.digestMd ps.sp digest) ps.sp.a ps.sp.k).getD i 0

/-- Every FORS leaf the digest selects is selected by one of the known digests too. -/
def Covered (ps : ParamSet) (known : List (List UInt8)) (digest : List UInt8) : Prop :=
  ∀ i < ps.sp.k, ∃ e ∈ known, forsKey ps e = forsKey ps digest ∧ forsLeaf ps e i = forsLeaf ps digest i

instance (known : List (List UInt8)) (digest : List UInt8) : Decidable (Covered ps known digest) := by
  unfold Covered; infer_instance

/-- **C61** Whatever signatures of a generated key are known, another accepted pair of signature and
formatted message shows a break, or contains a secret none of them opens, or has a digest, computed for a
randomizer and message not among the known ones, that is covered by the known digests. -/
theorem C61_new_signature_needs {pk : PublicKey ps.params} {sk : PrivateKey ps.params}
    (hk : Generated P pk sk) {known : List (Vector UInt8 ps.params.SIG_LEN × List UInt8)}
    (hQ : ∀ e ∈ known, SignedBy P sk e.1 e.2) {sig : Vector UInt8 ps.params.SIG_LEN} {M : List UInt8}
    (h : Accepted P pk sig M) (hnew : (sig, M) ∉ known) :
    (against P sk sig M).Break ∨
    (∃ i < ps.sp.k, disclosed sig i = secretAt P sk (opened P pk sig M i) ∧
      ∀ e ∈ known, ∀ j < ps.sp.k, opened P pk e.1 e.2 j ≠ opened P pk sig M i) ∨
    ((∀ e ∈ known, e.2 = M → e.1.toList.take ps.sp.n ≠ sig.toList.take ps.sp.n) ∧
      Covered ps (known.map fun e => digestOf P pk e.1 e.2) (digestOf P pk sig M)) := by
  rcases C48_new_signature_needs hk (Q := fun s N => (s, N) ∈ known) (fun s N h => hQ _ h) h hnew with
    hb | ⟨i, hi, h1, h2⟩ | ⟨h1, h2⟩
  · exact .inl hb
  · exact .inr (.inl ⟨i, hi, h1, fun e he => h2 e.1 e.2 he⟩)
  · refine .inr (.inr ⟨fun e he hM => h1 e.1 (hM ▸ he), fun i hi => ?_⟩)
    obtain ⟨s, N, hs, j, hj, e⟩ := h2 i hi
    refine ⟨_, List.mem_map.mpr ⟨(s, N), hs, rfl⟩, ?_⟩
    simp only [opened, Place.forsPrf.injEq] at e
    obtain ⟨e1, e2, e3⟩ := e
    have hlt : ∀ digest i, forsLeaf ps digest i < 2 ^ ps.sp.a := fun _ _ => base2b_getD_lt
    have l1 := hlt (digestOf P pk s N) j
    have l2 := hlt (digestOf P pk sig M) i
    have e3 : j * 2 ^ ps.sp.a + forsLeaf ps (digestOf P pk s N) j =
      i * 2 ^ ps.sp.a + forsLeaf ps (digestOf P pk sig M) i := e3
    have hji : j = i := by
      have h1 : (j * 2 ^ ps.sp.a + forsLeaf ps (digestOf P pk s N) j) / 2 ^ ps.sp.a = j := by
        rw [Nat.mul_comm, Nat.mul_add_div (Nat.two_pow_pos _), Nat.div_eq_of_lt l1, Nat.add_zero]
      have h2 : (i * 2 ^ ps.sp.a + forsLeaf ps (digestOf P pk sig M) i) / 2 ^ ps.sp.a = i := by
        rw [Nat.mul_comm, Nat.mul_add_div (Nat.two_pow_pos _), Nat.div_eq_of_lt l2, Nat.add_zero]
      rw [← h1, e3, h2]
    subst hji
    exact ⟨Prod.ext e1 e2, Nat.add_left_cancel e3⟩

/-- A known signature and another accepted one. -/
example (ps : ParamSet) : ∃ (known : List (Vector UInt8 ps.params.SIG_LEN × List UInt8))
    (sig : Vector UInt8 ps.params.SIG_LEN) (M : List UInt8), known.length = 1 ∧
    (∀ e ∈ known, SignedBy demoPrims (demoKeys ps).2 e.1 e.2) ∧ Accepted demoPrims (demoKeys ps).1 sig M ∧
    (sig, M) ∉ known := by
  obtain ⟨s', sig, h⟩ := demo_sign ps demoBuild true
  obtain ⟨s'', sig', h'⟩ := demo_hash_sign ps demoBuild .SHA256 true
  refine ⟨[(sig, Spec.pureMsg [9] [104, 105])], sig', _, rfl, fun e he => ?_,
    (SignedBy.hash demoBuild _ _ _ _ _ _ _ h').accepted (demo_generated ps), fun e => ?_⟩
  · rw [List.mem_singleton.mp he]
    exact .pure demoBuild _ _ _ _ _ _ h
  · have e := (Prod.ext_iff.mp (List.mem_singleton.mp e)).2
    have := congrArg (fun l : List UInt8 => l.head?) e
    simp [Spec.pureMsg, Spec.prehashMsg, Spec.toByte] at this

/-- The bits of a digest that select nothing. -/
def unused (ps : ParamSet) (digest : List UInt8) : Nat × Nat × Nat :=
  let p := ps.sp
  let i1 := (p.k * p.a + 7) / 8
  let i2 := i1 + (p.h - p.h / p.d + 7) / 8
  let i3 := i2 + (p.h + 8 * p.d - 1) / (8 * p.d)
  (Spec.toInt (Spec.slice digest 0 i1) % 2 ^ (8 * i1 - p.k * p.a),
   Spec.toInt (Spec.slice digest i1 i2) / 2 ^ (p.h - p.h / p.d),
   Spec.toInt (Spec.slice digest i2 i3) / 2 ^ (p.h / p.d))

/-- A digest is determined by what it selects and the unused bits. -/
theorem digest_inj {d e : List UInt8} (hd : d.length = ps.sp.m) (he : e.length = ps.sp.m)
    (h1 : forsKey ps d = forsKey ps e) (h2 : ∀ i < ps.sp.k, forsLeaf ps d i = forsLeaf ps e i)
    (h3 : unused ps d = unused ps e) : d = e := by
  have hm : (ps.sp.k * ps.sp.a + 7) / 8 + (ps.sp.h - ps.sp.h / ps.sp.d + 7) / 8 +
      (ps.sp.h + 8 * ps.sp.d - 1) / (8 * ps.sp.d) = ps.sp.m := by cases ps <;> rfl
  have hka : ps.sp.k * ps.sp.a ≤ 8 * ((ps.sp.k * ps.sp.a + 7) / 8) := by omega
  simp only [forsKey, Prod.mk.injEq, Spec.digestTree, Spec.digestLeaf] at h1
  simp only [unused, Prod.mk.injEq] at h3
  generalize hi1 : (ps.sp.k * ps.sp.a + 7) / 8 = i1 at *
  generalize hi2 : i1 + (ps.sp.h - ps.sp.h / ps.sp.d + 7) / 8 = i2 at *
  have hle1 : i1 ≤ i2 := by omega
  have hle2 : i2 ≤ ps.sp.m := Nat.le.intro hm
  rw [hm] at h1 h3
  have l1 : ∀ {x : List UInt8}, x.length = ps.sp.m → (Spec.slice x 0 i1).length = i1 := fun {x} hx => by
    rw [Spec.slice_length (by omega)]; omega
  have s1 : Spec.slice d 0 i1 = Spec.slice e 0 i1 := by
    refine Spec.toInt_inj (by rw [l1 hd, l1 he]) ?_
    have hdig : Spec.base2b (Spec.slice d 0 i1) ps.sp.a ps.sp.k =
        Spec.base2b (Spec.slice e 0 i1) ps.sp.a ps.sp.k := by
      refine List.ext_getElem (by simp [Spec.base2b]) fun i hi hi' => ?_
      have hik : i < ps.sp.k := by simpa [Spec.base2b] using hi
      have := h2 i hik
      simp only [forsLeaf, Spec.digestMd, hi1] at this
      rwa [List.getD_eq_getElem _ _ hi, List.getD_eq_getElem _ _ hi'] at this
    have := Spec.toInt_of_digits (by rw [l1 hd, l1 he]) ps.sp.k (by rw [l1 hd]; exact hka) hdig
    rw [l1 hd] at this
    rw [← Nat.div_add_mod (Spec.toInt (Spec.slice d 0 i1)) (2 ^ (8 * i1 - ps.sp.k * ps.sp.a)), this, h3.1,
      Nat.div_add_mod]
  have s2 : Spec.slice d i1 i2 = Spec.slice e i1 i2 := by
    refine Spec.toInt_inj (by rw [Spec.slice_length (by omega), Spec.slice_length (by omega)]) ?_
    rw [← Nat.div_add_mod (Spec.toInt (Spec.slice d i1 i2)) (2 ^ (ps.sp.h - ps.sp.h / ps.sp.d)), h1.1, h3.2.1,
      Nat.div_add_mod]
  have s3 : Spec.slice d i2 ps.sp.m = Spec.slice e i2 ps.sp.m := by
    refine Spec.toInt_inj (by rw [Spec.slice_length (by omega), Spec.slice_length (by omega)]) ?_
    rw [← Nat.div_add_mod (Spec.toInt (Spec.slice d i2 ps.sp.m)) (2 ^ (ps.sp.h / ps.sp.d)), h1.2, h3.2.2,
      Nat.div_add_mod]
  have all : ∀ {x : List UInt8}, x.length = ps.sp.m →
      x = Spec.slice x 0 i1 ++ Spec.slice x i1 i2 ++ Spec.slice x i2 ps.sp.m := fun {x} hx => by
    rw [Spec.slice_append_slice _ (by omega) (by omega), Spec.slice_append_slice _ (by omega) (by omega), ← hx,
      Spec.slice_all]
  rw [all hd, all he, s1, s2, s3]

/-- How many they are. -/
def unusedBits (ps : ParamSet) : Nat × Nat × Nat :=
  let p := ps.sp
  (8 * ((p.k * p.a + 7) / 8) - p.k * p.a, 8 * ((p.h - p.h / p.d + 7) / 8) - (p.h - p.h / p.d),
    8 * ((p.h + 8 * p.d - 1) / (8 * p.d)) - p.h / p.d)

theorem unusedBits_sum (ps : ParamSet) : (unusedBits ps).1 + (unusedBits ps).2.1 + (unusedBits ps).2.2 +
    (ps.sp.h + ps.sp.k * ps.sp.a) = 8 * ps.sp.m := by
  cases ps <;> rfl

theorem unused_lt (d : List UInt8) : (unused ps d).1 < 2 ^ (unusedBits ps).1 ∧
    (unused ps d).2.1 < 2 ^ (unusedBits ps).2.1 ∧ (unused ps d).2.2 < 2 ^ (unusedBits ps).2.2 := by
  have hsl : ∀ i j, (Spec.slice d i j).length ≤ j - i := fun i j => by
    rw [Spec.slice, List.length_take]; omega
  have hlt : ∀ i j b, b ≤ 8 * (j - i) → Spec.toInt (Spec.slice d i j) / 2 ^ b < 2 ^ (8 * (j - i) - b) := by
    intro i j b hb
    refine Nat.div_lt_of_lt_mul ?_
    rw [← Nat.pow_add, Nat.add_sub_cancel' hb, Nat.pow_mul]
    exact lt_of_lt_of_le (Spec.toInt_lt _) (Nat.pow_le_pow_right (by decide) (hsl i j))
  refine ⟨Nat.mod_lt _ (Nat.two_pow_pos _), ?_, ?_⟩
  · have := hlt ((ps.sp.k * ps.sp.a + 7) / 8) ((ps.sp.k * ps.sp.a + 7) / 8 + (ps.sp.h - ps.sp.h / ps.sp.d + 7) / 8)
      (ps.sp.h - ps.sp.h / ps.sp.d) (by omega)
    rwa [Nat.add_sub_cancel_left] at this
  · have := hlt ((ps.sp.k * ps.sp.a + 7) / 8 + (ps.sp.h - ps.sp.h / ps.sp.d + 7) / 8)
      ((ps.sp.k * ps.sp.a + 7) / 8 + (ps.sp.h - ps.sp.h / ps.sp.d + 7) / 8 +
        (ps.sp.h + 8 * ps.sp.d - 1) / (8 * ps.sp.d)) (ps.sp.h / ps.sp.d)
      (by rw [Nat.add_sub_cancel_left]; cases ps <;> decide)
    rwa [Nat.add_sub_cancel_left] at this

/-- **C61** Of the `256 ^ m` digests, those covered by a list of known ones are at most the fraction
`(Σ r^k) / 2^(h + k a)`, where `r` runs through the numbers of known digests for each FORS key. -/
theorem C61_covered_digests (ps : ParamSet) (known : List (List UInt8)) :
    ((Finset.range (256 ^ ps.sp.m)).filter fun N => Covered ps known (Spec.toByte N ps.sp.m)).card *
      2 ^ (ps.sp.h + ps.sp.k * ps.sp.a) ≤
    256 ^ ps.sp.m * ∑ x ∈ (known.map (forsKey ps)).toFinset, (known.map (forsKey ps)).count x ^ ps.sp.k := by
  let leaves (x : Nat × Nat) (i : Nat) : Finset Nat :=
    ((known.filter fun e => forsKey ps e = x).map fun e => forsLeaf ps e i).toFinset
  have hleaves : ∀ x i, (leaves x i).card ≤ (known.map (forsKey ps)).count x := fun x i => by
    refine (List.toFinset_card_le _).trans ?_
    rw [List.length_map, ← List.countP_eq_length_filter, List.count, List.countP_map]
    refine le_of_eq (List.countP_congr fun e _ => ?_)
    simp
  let S : Finset ((Nat × Nat) × (Fin ps.sp.k → Nat)) := (known.map (forsKey ps)).toFinset.biUnion fun x =>
    (Fintype.piFinset fun i : Fin ps.sp.k => leaves x i).image fun f => (x, f)
  have hS : S.card ≤ ∑ x ∈ (known.map (forsKey ps)).toFinset, (known.map (forsKey ps)).count x ^ ps.sp.k := by
    refine Finset.card_biUnion_le.trans (Finset.sum_le_sum fun x _ => ?_)
    refine Finset.card_image_le.trans ?_
    rw [Fintype.card_piFinset]
    have := Finset.prod_le_pow_card Finset.univ (fun i : Fin ps.sp.k => (leaves x i).card) _
      fun i _ => hleaves x i
    rwa [Finset.card_univ, Fintype.card_fin] at this
  let R : Finset (Nat × Nat × Nat) := Finset.range (2 ^ (unusedBits ps).1) ×ˢ
    Finset.range (2 ^ (unusedBits ps).2.1) ×ˢ Finset.range (2 ^ (unusedBits ps).2.2)
  have hR : R.card * 2 ^ (ps.sp.h + ps.sp.k * ps.sp.a) = 256 ^ ps.sp.m := by
    rw [Finset.card_product, Finset.card_product, Finset.card_range, Finset.card_range, Finset.card_range,
      ← Nat.pow_add, ← Nat.pow_add, ← Nat.pow_add, show (256 : Nat) = 2 ^ 8 from rfl, ← Nat.pow_mul,
      ← unusedBits_sum]
    congr 1
    omega
  let φ (N : Nat) : ((Nat × Nat) × (Fin ps.sp.k → Nat)) × (Nat × Nat × Nat) :=
    ((forsKey ps (Spec.toByte N ps.sp.m), fun i => forsLeaf ps (Spec.toByte N ps.sp.m) i),
      unused ps (Spec.toByte N ps.sp.m))
  have hk : 0 < ps.sp.k := by cases ps <;> decide
  have hcard : ((Finset.range (256 ^ ps.sp.m)).filter fun N => Covered ps known (Spec.toByte N ps.sp.m)).card ≤
      (S ×ˢ R).card := by
    refine Finset.card_le_card_of_injOn φ ?_ ?_
    · intro N hN
      have hcov := (Finset.mem_filter.mp hN).2
      obtain ⟨u1, u2, u3⟩ := unused_lt (ps := ps) (Spec.toByte N ps.sp.m)
      refine Finset.mem_product.mpr ⟨Finset.mem_biUnion.mpr ⟨forsKey ps (Spec.toByte N ps.sp.m), ?_,
        Finset.mem_image.mpr ⟨_, Fintype.mem_piFinset.mpr fun i => ?_, rfl⟩⟩,
        Finset.mem_product.mpr ⟨Finset.mem_range.mpr u1, Finset.mem_product.mpr ⟨Finset.mem_range.mpr u2,
          Finset.mem_range.mpr u3⟩⟩⟩
      · obtain ⟨e, he, h1, _⟩ := hcov 0 hk
        exact List.mem_toFinset.mpr (List.mem_map.mpr ⟨e, he, h1⟩)
      · obtain ⟨e, he, h1, h2⟩ := hcov i i.2
        exact List.mem_toFinset.mpr (List.mem_map.mpr ⟨e, List.mem_filter.mpr ⟨he, by simpa using h1⟩, h2⟩)
    · intro N hN N' hN' e
      have h1 := Finset.mem_range.mp (Finset.mem_filter.mp hN).1
      have h2 := Finset.mem_range.mp (Finset.mem_filter.mp hN').1
      simp only [φ, Prod.mk.injEq] at e
      have := digest_inj (ps := ps) (Spec.toByte_length _ _) (Spec.toByte_length _ _) e.1.1
        (fun i hi => congrFun e.1.2 ⟨i, hi⟩) e.2
      have := congrArg Spec.toInt this
      rwa [Spec.toInt_toByte, Spec.toInt_toByte, Nat.mod_eq_of_lt h1, Nat.mod_eq_of_lt h2] at this
  calc _ ≤ (S ×ˢ R).card * 2 ^ (ps.sp.h + ps.sp.k * ps.sp.a) := Nat.mul_le_mul_right _ hcard
    _ = 256 ^ ps.sp.m * S.card := by rw [Finset.card_product, Nat.mul_assoc, hR, Nat.mul_comm]
    _ ≤ _ := Nat.mul_le_mul_left _ hS

/-- The `m`-byte strings are those of the theorem, each once. -/
theorem digest_numbers (m : Nat) (d : List UInt8) (h : d.length = m) :
    ∃! N, N < 256 ^ m ∧ Spec.toByte N m = d := by
  subst h
  refine ⟨Spec.toInt d, ⟨Spec.toInt_lt d, Spec.toByte_toInt d⟩, fun N ⟨h1, h2⟩ => ?_⟩
  rw [← h2, Spec.toInt_toByte, Nat.mod_eq_of_lt h1]

/-- **C61** If `q` digests are known and no FORS key is selected by more than `r` of them, they cover at
most the fraction `q r^(k-1) / 2^(h + k a)` of all digests. -/
theorem C61_covered_fraction (ps : ParamSet) (known : List (List UInt8)) (r : Nat)
    (hr : ∀ x, (known.map (forsKey ps)).count x ≤ r) :
    ((Finset.range (256 ^ ps.sp.m)).filter fun N => Covered ps known (Spec.toByte N ps.sp.m)).card *
      2 ^ (ps.sp.h + ps.sp.k * ps.sp.a) ≤ 256 ^ ps.sp.m * (known.length * r ^ (ps.sp.k - 1)) := by
  refine (C61_covered_digests ps known).trans (Nat.mul_le_mul_left _ ?_)
  have hk : ps.sp.k = ps.sp.k - 1 + 1 := by cases ps <;> rfl
  calc _ ≤ ∑ x ∈ (known.map (forsKey ps)).toFinset, (known.map (forsKey ps)).count x * r ^ (ps.sp.k - 1) := by
        refine Finset.sum_le_sum fun x _ => ?_
        rw [hk, Nat.pow_succ, Nat.mul_comm, ← hk]
        exact Nat.mul_le_mul_left _ (Nat.pow_le_pow_left (hr x) _)
    _ = known.length * r ^ (ps.sp.k - 1) := by
        have := List.sum_toFinset_count_eq_length (known.map (forsKey ps))
        rw [List.length_map] at this
        rw [← Finset.sum_mul, ← this]
        refine congrArg (· * _) (Finset.sum_congr rfl fun x _ => ?_)
        simp only [List.count]
        exact List.countP_congr fun y _ => by simp

/-- One known digest covers itself, and no FORS key is selected twice. -/
example (ps : ParamSet) (d : List UInt8) : Covered ps [d] d ∧ ∀ x, ([d].map (forsKey ps)).count x ≤ 1 := by
  refine ⟨fun i _ => ⟨d, by simp, rfl, rfl⟩, fun x => ?_⟩
  exact List.count_le_length.trans (by simp)

end Fips205.Props
