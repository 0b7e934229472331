import Verif.Proofs.Shake

/-!
# How many addresses a key has, and how likely a public key begins with one
-/

namespace Fips205.Props
open Fips205 Fips205.Model

/-- The places of a key. -/
def allPlaces (p : Spec.Params) : List Place :=
  ((List.range p.d).flatMap fun j => (List.range (2 ^ (p.hp * (p.d - 1 - j)))).flatMap fun t =>
    ((List.range (2 ^ p.hp)).flatMap fun l => .wotsPk j t l :: (List.range p.len).flatMap fun i =>
      .wotsPrf j t l i :: (List.range 15).map fun s => .wotsHash j t l i s) ++
    ((List.range p.hp).flatMap fun k => (List.range (2 ^ (p.hp - (k + 1)))).map fun i => .tree j t (k + 1) i)) ++
  ((List.range (2 ^ (p.hp * (p.d - 1)))).flatMap fun t => (List.range (2 ^ p.hp)).flatMap fun l =>
    .forsRoots t l :: (((List.range (p.k * 2 ^ p.a)).map fun i => .forsPrf t l i) ++
      (List.range (p.a + 1)).flatMap fun k => (List.range (p.k * 2 ^ (p.a - k))).map fun i => .forsTree t l k i))

theorem mem_allPlaces {p : Spec.Params} {x : Place} (hx : x.Exists p) : x ∈ allPlaces p := by
  simp only [allPlaces, List.mem_append, List.mem_flatMap, List.mem_range, List.mem_cons, List.mem_map]
  cases x with
  | wotsHash j t l i s => exact .inl ⟨j, hx.1, t, hx.2.1, .inl ⟨l, hx.2.2.1, .inr ⟨i, hx.2.2.2.1, .inr ⟨s, hx.2.2.2.2, rfl⟩⟩⟩⟩
  | wotsPk j t l => exact .inl ⟨j, hx.1, t, hx.2.1, .inl ⟨l, hx.2.2, .inl rfl⟩⟩
  | tree j t k i =>
    obtain ⟨h1, h2, h3, h4, h5⟩ := hx
    obtain ⟨k, rfl⟩ : ∃ k', k = k' + 1 := ⟨k - 1, by omega⟩
    exact .inl ⟨j, h1, t, h2, .inr ⟨k, h4, i, h5, rfl⟩⟩
  | forsTree t l k i => exact .inr ⟨t, hx.1, l, hx.2.1, .inr (.inr ⟨k, Nat.lt_succ_of_le hx.2.2.1, i, hx.2.2.2, rfl⟩)⟩
  | forsRoots t l => exact .inr ⟨t, hx.1, l, hx.2, .inl rfl⟩
  | wotsPrf j t l i => exact .inl ⟨j, hx.1, t, hx.2.1, .inl ⟨l, hx.2.2.1, .inr ⟨i, hx.2.2.2, .inl rfl⟩⟩⟩
  | forsPrf t l i => exact .inr ⟨t, hx.1, l, hx.2.1, .inr (.inl ⟨i, hx.2.2, rfl⟩)⟩

/-- The number of places of a key. -/
def placeCount (p : Spec.Params) : Nat :=
  ((List.range p.d).map fun j => 2 ^ (p.hp * (p.d - 1 - j)) *
    (2 ^ p.hp * (p.len * 16 + 1) + ((List.range p.hp).map fun k => 2 ^ (p.hp - (k + 1))).sum)).sum +
  2 ^ (p.hp * (p.d - 1)) * (2 ^ p.hp * (p.k * 2 ^ p.a + ((List.range (p.a + 1)).map fun k => p.k * 2 ^ (p.a - k)).sum + 1))

theorem allPlaces_length (p : Spec.Params) : (allPlaces p).length = placeCount p := by
  simp [allPlaces, placeCount, List.length_flatMap]

theorem placeCount_le (ps : ParamSet) : placeCount ps.sp ≤ 2 ^ 86 := by cases ps <;> decide

variable {ps : ParamSet} {B : Nat}

/-- The root of a key is random. -/
theorem root_random (hB : 160 + inputBound ps ≤ B) (P0 : Spec.Prims) (sk_prf pk_seed : Vector UInt8 ps.params.N)
    (f : List UInt8 → ℚ) :
    (Oracle.avg fun s : D ps => Oracle.avg fun O : Query B → D ps =>
      f (pairOf P0 sk_prf pk_seed s O).1.key.pk_root.toList) = Oracle.avg fun r : D ps => f (Spec.toByte r ps.sp.n) := by
  classical
  have : Nonempty (D ps) := ⟨⟨0, Nat.pow_pos (by decide)⟩⟩
  rw [(romSys (seed_length pk_seed) hB).avg_real
    (fun s O => f (pairOf P0 sk_prf pk_seed s O).1.key.pk_root.toList)
    (fun s O x => number ps.sp.n (valueAt ps.sp (ParamSet.hfRandom ps (withHash P0 O)
        (fun x : D ps × (∅ : Finset (List UInt8)) => absurd x.2.2 (Finset.notMem_empty _))) (Spec.toByte s ps.sp.n)
      pk_seed.toList x.1)) (fun V F => funext fun x => by
        rw [values_eq (seed_length pk_seed) hB V F _ x.2, bytesOf_pos V x.2, number_toByte])]
  have h : ∀ (V : Option (Slot ps) → D ps) (F : Query B → D ps),
      (pairOf P0 sk_prf pk_seed (V none) (realO (seed_length pk_seed) hB V F)).1.key.pk_root.toList =
        Spec.toByte (V (some ⟨_, top_exists⟩)) ps.sp.n := by
    intro V F
    rw [pairOf_pk, pkFrom, viewOf, bytesOf_pos V top_exists]
    exact toVec_toList ((Spec.toByte_length _ _).trans (N_eq ps))
  simp only [realO] at h
  simp only [h, Oracle.avg_const]
  rw [Oracle.avg_update (some ⟨_, top_exists⟩)]
  simp only [Function.update_self, Oracle.avg_const]

/-- A random public key begins with an address with at most this probability. -/
theorem clear_le (ps : ParamSet) : (Oracle.avg fun p : D ps => Oracle.avg fun r : D ps =>
    Oracle.ind (¬ Clear ps (Spec.toByte p ps.sp.n) (Spec.toByte r ps.sp.n))) ≤ placeCount ps.sp / 256 ^ 32 := by
  have pos : ∀ j, Nonempty (Fin (256 ^ j)) := fun j => ⟨⟨0, Nat.pow_pos (by decide)⟩⟩
  have := pos 32
  have := pos (ps.sp.n - (32 - ps.sp.n))
  have h16 := sixteen_le_n ps
  have h1 : 32 - ps.sp.n ≤ ps.sp.n := by omega
  have h2 := n_le_32 ps
  let L : List (Fin (256 ^ 32)) := (allPlaces ps.sp).map fun x => number 32 x.adrs
  have hm := Oracle.avg_mem_le L
  rw [Fintype.card_fin, List.length_map, allPlaces_length, Oracle.avg_equiv (glue h2), Oracle.avg_prod] at hm
  push_cast at hm
  refine le_trans (Oracle.avg_mono fun p => ?_) hm
  rw [Oracle.avg_equiv (glue h1), Oracle.avg_prod]
  refine Oracle.avg_mono fun r => le_trans (Oracle.avg_mono fun t => Oracle.ind_mono ?_) (le_of_eq (Oracle.avg_const _))
  intro h
  rw [Clear] at h
  push Not at h
  obtain ⟨x, hx, h⟩ := h
  refine List.mem_map.mpr ⟨x, mem_allPlaces hx, ?_⟩
  rw [h, List.take_append, Spec.toByte_length, List.take_of_length_le (by rw [Spec.toByte_length]; exact h2),
    ← toByte_headOf h1, headOf_glue]
  rfl

end Fips205.Props
