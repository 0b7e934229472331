import Verif.Props.RomGame
import Verif.Proofs.Hidden
import Verif.Proofs.Values
import Verif.Proofs.BreakAsk
import Mathlib.Data.Set.Finite.List

/-!
# The hash functions as random functions

The calls of SHA-256, SHA-512 and SHAKE256 at the places of a key, and the game of `Verif.Proofs.Hidden` that a
forger plays with them.
-/

namespace Fips205.Props
open Fips205 Fips205.Model

/-! ## Finiteness -/

instance : Finite UInt8 := Finite.of_injective UInt8.toFin fun _ _ => UInt8.toFin_inj.mp

instance instFiniteQuery (B : Nat) : Finite (Query B) := by
  have : Finite { l : List UInt8 // l.length ≤ B } := (List.finite_length_le UInt8 B).to_subtype
  let f : Query B → Fin 4 × { l : List UInt8 // l.length ≤ B } := fun c =>
    (match c.1.alg with | .sha256 => 0 | .sha512 => 1 | .shake128 => 2 | .shake256 => 3, ⟨c.1.input, c.2⟩)
  refine Finite.of_injective f ?_
  rintro ⟨⟨a, x⟩, hx⟩ ⟨⟨a', x'⟩, hx'⟩ h
  simp only [f, Prod.mk.injEq, Subtype.mk.injEq] at h
  obtain ⟨h1, h2⟩ := h
  subst h2
  cases a <;> cases a' <;> first | rfl | exact absurd h1 (by decide)

noncomputable instance (B : Nat) : Fintype (Query B) := Fintype.ofFinite _
noncomputable instance (B : Nat) : DecidableEq (Query B) := Classical.decEq _

/-- The places of a key. -/
abbrev Slot (ps : ParamSet) : Type := { x : Place // x.Exists ps.sp }

variable {ps : ParamSet}

theorem adrs_length (x : Place) : x.adrs.length = 32 := by
  cases x <;> simp [Place.adrs, Place.adrs.be, Spec.toByte_length]

instance instFiniteSlot : Finite (Slot ps) := by
  have : Finite { l : List UInt8 // l.length ≤ 32 } := (List.finite_length_le UInt8 32).to_subtype
  refine Finite.of_injective (fun x : Slot ps => (⟨x.1.adrs, (adrs_length x.1).le⟩ : { l : List UInt8 // l.length ≤ 32 })) ?_
  intro x y h
  by_contra hne
  exact (C43_addresses_distinct x.2 y.2 fun e => hne (Subtype.ext e)).1 (congrArg Subtype.val h)

noncomputable instance : Fintype (Slot ps) := Fintype.ofFinite _
noncomputable instance : DecidableEq (Slot ps) := Classical.decEq _

/-! ## The calls at places -/

/-- The call at a place. -/
def callOf (ps : ParamSet) (PKseed : List UInt8) (x : Place) (z : List UInt8) : Call :=
  match ps.family with
  | .shake => ⟨.shake256, PKseed ++ x.adrs ++ z⟩
  | .sha2 =>
    if ps.row.category = 1 ∨ x.kind = .PRF ∨ x.kind = .F then
      ⟨.sha256, PKseed ++ Spec.toByte 0 (64 - ps.row.n) ++ Spec.compress x.adrs ++ z⟩
    else ⟨.sha512, PKseed ++ Spec.toByte 0 (128 - ps.row.n) ++ Spec.compress x.adrs ++ z⟩

theorem compress_length {A : List UInt8} (h : A.length = 32) : (Spec.compress A).length = 22 := by
  simp only [Spec.compress, Spec.slice, List.length_append, List.length_take, List.length_drop, h]
  rfl

theorem callOf_inj {PKseed : List UInt8} {x y : Place} (hx : x.Exists ps.sp) (hy : y.Exists ps.sp) {z z' : List UInt8}
    (h : callOf ps PKseed x z = callOf ps PKseed y z') : x = y ∧ z = z' := by
  have key : (x.adrs = y.adrs ∨ Spec.compress x.adrs = Spec.compress y.adrs) ∧ z = z' := by
    simp only [callOf] at h
    split at h
    · have h := (Call.mk.inj h).2
      rw [List.append_assoc, List.append_assoc] at h
      obtain ⟨h1, h2⟩ := List.append_inj (List.append_cancel_left h) (by rw [adrs_length, adrs_length])
      exact ⟨.inl h1, h2⟩
    · have hl : (Spec.compress x.adrs).length = (Spec.compress y.adrs).length := by
        rw [compress_length (adrs_length _), compress_length (adrs_length _)]
      split at h <;> split at h
      · have h := (Call.mk.inj h).2
        rw [List.append_assoc, List.append_assoc _ _ z'] at h
        obtain ⟨h1, h2⟩ := List.append_inj (List.append_cancel_left h) hl
        exact ⟨.inr h1, h2⟩
      · cases (Call.mk.inj h).1
      · cases (Call.mk.inj h).1
      · have h := (Call.mk.inj h).2
        rw [List.append_assoc, List.append_assoc _ _ z'] at h
        obtain ⟨h1, h2⟩ := List.append_inj (List.append_cancel_left h) hl
        exact ⟨.inr h1, h2⟩
  refine ⟨?_, key.2⟩
  by_contra hne
  obtain ⟨h1, h2⟩ := C43_addresses_distinct hx hy hne
  exact key.1.elim h1 h2

theorem callOf_length {PKseed : List UInt8} (hl : PKseed.length = ps.sp.n) (x : Place) (z : List UInt8) :
    (callOf ps PKseed x z).input.length ≤ 160 + z.length := by
  have hn : ps.row.n ≤ 32 := by cases ps <;> decide
  have hn' : ps.sp.n = ps.row.n := rfl
  have h1 := adrs_length x
  have h2 := compress_length h1
  rw [hn'] at hl
  simp only [callOf]
  split
  · simp only [List.length_append]; omega
  · split <;>
    · simp only [List.length_append, Spec.toByte_length]
      omega

section
variable {B : Nat} {P0 : Spec.Prims} {O : Query B → Fin (256 ^ ps.sp.n)}

theorem trunc_sha256 (hn : ps.sp.n ≤ 32) (X : List UInt8) :
    Spec.trunc ps.sp.n (Spec.sha256' (withHash P0 O) X) = Spec.toByte (O (.of B ⟨.sha256, X⟩)) ps.sp.n := by
  have hl := Spec.toByte_length (O (.of B ⟨.sha256, X⟩)) ps.sp.n
  rw [Spec.sha256', withHash, toVec_toList (by rw [List.length_append, hl, List.length_drop, Vector.length_toList]; omega)]
  exact List.take_left' hl

theorem trunc_sha512 (hn : ps.sp.n ≤ 32) (X : List UInt8) :
    Spec.trunc ps.sp.n (Spec.sha512' (withHash P0 O) X) = Spec.toByte (O (.of B ⟨.sha512, X⟩)) ps.sp.n := by
  have hl := Spec.toByte_length (O (.of B ⟨.sha512, X⟩)) ps.sp.n
  rw [Spec.sha512', withHash, toVec_toList (by rw [List.length_append, hl, List.length_drop, Vector.length_toList]; omega)]
  exact List.take_left' hl

theorem trunc_shake (X : List UInt8) :
    ((withHash P0 O).shake256 X ps.sp.n).toList = Spec.toByte (O (.of B ⟨.shake256, X⟩)) ps.sp.n := by
  have hl := Spec.toByte_length (O (.of B ⟨.shake256, X⟩)) ps.sp.n
  have hd : ((P0.shake256 X ps.sp.n).toList.drop ps.sp.n) = [] :=
    List.drop_eq_nil_of_le (by rw [Vector.length_toList])
  change (toVec ps.sp.n (_ ++ _)).toList = _
  rw [hd, List.append_nil, toVec_toList hl]

/-- The hashes at places are those of these calls. -/
theorem hashAt_eq (PKseed : List UInt8) (x : Place) (z : List UInt8) :
    hashAt (ps.hf (withHash P0 O)) PKseed x z =
      Spec.toByte (O (.of B (callOf ps PKseed x z))) ps.sp.n := by
  have hn : ps.sp.n ≤ 32 := by cases ps <;> decide
  have h1 := fun X => trunc_sha256 (P0 := P0) (O := O) hn X
  have h2 := fun X => trunc_sha512 (P0 := P0) (O := O) hn X
  have h3 := fun X => trunc_shake (P0 := P0) (O := O) X
  simp only [hashAt, callOf, ParamSet.hf, Spec.hashFns]
  cases ps.family with
  | shake => cases x.kind <;> exact h3 _
  | sha2 =>
    simp only
    by_cases hc : ps.row.category = 1
    · simp only [hc, if_true, true_or]
      cases x.kind <;> exact h1 _
    · simp only [hc, if_false, false_or]
      cases hk : x.kind
      · exact h1 _
      · exact h1 _
      · exact h2 _
      · exact h2 _

end

/-! ## The game -/

section
variable {B : Nat} {PKseed : List UInt8}

abbrev D (ps : ParamSet) : Type := Fin (256 ^ ps.sp.n)

/-- The values at the places, in bytes. -/
noncomputable def bytesOf (V : Option (Slot ps) → D ps) (x : Place) : List UInt8 := by
  classical exact if h : x.Exists ps.sp then Spec.toByte (V (some ⟨x, h⟩)) ps.sp.n else []

theorem bytesOf_pos (V : Option (Slot ps) → D ps) {x : Place} (h : x.Exists ps.sp) :
    bytesOf V x = Spec.toByte (V (some ⟨x, h⟩)) ps.sp.n := by rw [bytesOf, dif_pos h]

theorem bytesOf_length (V : Option (Slot ps) → D ps) (x : Place) : (bytesOf V x).length ≤ ps.sp.n := by
  rw [bytesOf]
  split
  · rw [Spec.toByte_length]
  · exact Nat.zero_le _

/-- What is hashed at a place. -/
noncomputable def argOf (V : Option (Slot ps) → D ps) (x : Place) : List UInt8 :=
  argAt ps.sp (Spec.toByte (V none) ps.sp.n) (bytesOf V) x

theorem two_le_len (ps : ParamSet) : 2 ≤ ps.sp.len ∧ 1 ≤ ps.sp.k := by cases ps <;> decide

/-- How long inputs at places are. -/
abbrev inputBound (ps : ParamSet) : Nat := (ps.sp.len + ps.sp.k) * ps.sp.n

theorem le_bound (ps : ParamSet) : ps.sp.n ≤ inputBound ps ∧ ps.sp.n + ps.sp.n ≤ inputBound ps ∧
    ps.sp.len * ps.sp.n ≤ inputBound ps ∧ ps.sp.k * ps.sp.n ≤ inputBound ps := by
  obtain ⟨h1, h2⟩ := two_le_len ps
  have a : 1 * ps.sp.n ≤ (ps.sp.len + ps.sp.k) * ps.sp.n := Nat.mul_le_mul_right _ (by omega)
  have b : 2 * ps.sp.n ≤ (ps.sp.len + ps.sp.k) * ps.sp.n := Nat.mul_le_mul_right _ (by omega)
  exact ⟨by rwa [Nat.one_mul] at a, by rwa [Nat.two_mul] at b, Nat.mul_le_mul_right _ (by omega),
    Nat.mul_le_mul_right _ (by omega)⟩

theorem argOf_length (V : Option (Slot ps) → D ps) (x : Place) : (argOf V x).length ≤ inputBound ps := by
  obtain ⟨h1, h2, h3, h4⟩ := le_bound ps
  have hb := bytesOf_length V
  have hs : (Spec.toByte (V none) ps.sp.n).length = ps.sp.n := Spec.toByte_length _ _
  have app : ∀ a b : Place, (bytesOf V a ++ bytesOf V b).length ≤ inputBound ps := fun a b => by
    have := hb a
    have := hb b
    rw [List.length_append]
    omega
  cases x with
  | wotsPrf j t l i => exact hs.le.trans h1
  | forsPrf t l i => exact hs.le.trans h1
  | wotsHash j t l i s => exact (hb _).trans h1
  | wotsPk j t l => exact (Spec.Attempt.concat_length_le fun i _ => hb _).trans h3
  | tree j t k i => exact app _ _
  | forsTree t l k i =>
    cases k with
    | zero => exact (hb _).trans h1
    | succ k => exact app _ _
  | forsRoots t l => exact (Spec.Attempt.concat_length_le fun i _ => hb _).trans h4

/-- The place of a call. -/
noncomputable def placeOf (ps : ParamSet) (PKseed : List UInt8) (y : Query B) : Option (Slot ps) := by
  classical exact if h : ∃ x : Slot ps, ∃ z, y.1 = callOf ps PKseed x.1 z then some h.choose else none

/-- The argument in a call. -/
noncomputable def dataOf (ps : ParamSet) (PKseed : List UInt8) (y : Query B) : D ps := by
  classical exact if h : ∃ z, ∃ x : Slot ps, y.1 = callOf ps PKseed x.1 z then number ps.sp.n h.choose
    else number ps.sp.n []

/-- The call at a place, as a query. -/
def queryAt (ps : ParamSet) (B : Nat) (PKseed : List UInt8) (x : Place) (z : List UInt8) : Query B :=
  .of B (callOf ps PKseed x z)

theorem queryAt_val (hl : PKseed.length = ps.sp.n) (hB : 160 + inputBound ps ≤ B) (x : Place) {z : List UInt8}
    (hz : z.length ≤ inputBound ps) : (queryAt ps B PKseed x z).1 = callOf ps PKseed x z := by
  have := callOf_length (ps := ps) hl x z
  rw [queryAt, Query.of, dif_pos (by omega)]

theorem placeOf_query (hl : PKseed.length = ps.sp.n) (hB : 160 + inputBound ps ≤ B) (x : Slot ps) {z : List UInt8}
    (hz : z.length ≤ inputBound ps) : placeOf ps PKseed (queryAt ps B PKseed x.1 z) = some x := by
  have hv := queryAt_val hl hB x.1 hz
  have h : ∃ y : Slot ps, ∃ z', (queryAt ps B PKseed x.1 z).1 = callOf ps PKseed y.1 z' := ⟨x, z, hv⟩
  rw [placeOf, dif_pos h]
  obtain ⟨z', h'⟩ := h.choose_spec
  exact congrArg some (Subtype.ext (callOf_inj x.2 h.choose.2 (hv.symm.trans h')).1.symm)

theorem dataOf_query (hl : PKseed.length = ps.sp.n) (hB : 160 + inputBound ps ≤ B) (x : Slot ps) {z : List UInt8}
    (hz : z.length ≤ inputBound ps) : dataOf ps PKseed (queryAt ps B PKseed x.1 z) = number ps.sp.n z := by
  have hv := queryAt_val hl hB x.1 hz
  have h : ∃ z', ∃ y : Slot ps, (queryAt ps B PKseed x.1 z).1 = callOf ps PKseed y.1 z' := ⟨z, x, hv⟩
  rw [dataOf, dif_pos h]
  obtain ⟨y, h'⟩ := h.choose_spec
  exact congrArg _ (callOf_inj x.2 y.2 (hv.symm.trans h')).2.symm

theorem queryAt_inj (hl : PKseed.length = ps.sp.n) (hB : 160 + inputBound ps ≤ B) (x : Slot ps) {z z' : List UInt8}
    (hz : z.length ≤ inputBound ps) (hz' : z'.length ≤ inputBound ps)
    (h : queryAt ps B PKseed x.1 z = queryAt ps B PKseed x.1 z') : z = z' := by
  have h := congrArg Subtype.val h
  rw [queryAt_val hl hB x.1 hz, queryAt_val hl hB x.1 hz'] at h
  exact (callOf_inj x.2 x.2 h).2

/-- The value that is the argument at a hidden place. -/
def srcOf : Slot ps → Option (Slot ps)
  | ⟨.wotsHash j t l i s, h⟩ => some ⟨.link j t l i s, link_exists ⟨h.1, h.2.1, h.2.2.1⟩ h.2.2.2.1 (by have := h.2.2.2.2; omega)⟩
  | ⟨.forsTree t l 0 i, h⟩ => some ⟨.forsPrf t l i, ⟨h.1, h.2.1, by simpa using h.2.2.2⟩⟩
  | _ => none

/-- What may be known does not depend on the sources of the hidden places. -/
theorem told_upd {V : Option (Slot ps) → D ps} {u : Set Place} {x : Slot ps} (h : Hid ps.sp (bytesOf V) u x.1) (v : D ps)
    {y : Place} (hy : y.Exists ps.sp) (ht : Told ps.sp (bytesOf V) u y) :
    bytesOf V y = bytesOf (Function.update V (srcOf x) v) y := by
  rw [bytesOf_pos V hy, bytesOf_pos _ hy, Function.update_of_ne]
  intro e
  obtain ⟨x, hx⟩ := x
  cases x with
  | wotsHash j t l i s =>
    have e := congrArg Subtype.val (Option.some.inj e)
    dsimp only at e
    subst e
    exact absurd (told_link.mp ht) (Nat.not_le.mpr h)
  | forsTree t l k i =>
    cases k with
    | zero =>
      have e := congrArg Subtype.val (Option.some.inj e)
      dsimp only at e
      subst e
      exact h ht
    | succ k => cases h
  | wotsPrf j t l i => cases e
  | forsPrf t l i => cases e
  | _ => cases h

/-- What the forger is told: the public root, or a signature with a given randomizer and digest. -/
noncomputable def viewOf (ps : ParamSet) (q : Option (List UInt8 × List UInt8)) (V : Option (Slot ps) → D ps) : List UInt8 :=
  match q with
  | none => bytesOf V (.node (ps.sp.d - 1) 0 ps.sp.hp 0)
  | some (R, digest) => sigAt ps.sp (bytesOf V) R digest

/-- The FORS secrets opened after it. -/
def stepOf (ps : ParamSet) (q : Option (List UInt8 × List UInt8)) (u : Set Place) : Set Place :=
  match q with
  | none => u
  | some (_, digest) => u ∪ openedBy ps.sp digest

theorem stepOf_le (q : Option (List UInt8 × List UInt8)) (u : Set Place) : u ⊆ stepOf ps q u := by
  cases q with
  | none => exact subset_rfl
  | some q => exact Set.subset_union_left

/-- The game with the hash functions. -/
noncomputable def romSys (hl : PKseed.length = ps.sp.n) (hB : 160 + inputBound ps ≤ B) :
    Oracle.Sys (Slot ps) (Query B) (D ps) (Option (List UInt8 × List UInt8)) (List UInt8) (Set Place) where
  at? := placeOf ps PKseed
  inp x V := queryAt ps B PKseed x.1 (argOf V x.1)
  at_inp x V := placeOf_query hl hB x (argOf_length V x.1)
  view := viewOf ps
  step := stepOf ps
  hid V u x := Hid ps.sp (bytesOf V) u x.1
  src := srcOf
  guess := dataOf ps PKseed
  hid_guess V u x h := by
    rw [dataOf_query hl hB x (argOf_length V x.1)]
    obtain ⟨x, hx⟩ := x
    cases x with
    | wotsHash j t l i s =>
      simp only [argOf, argAt]
      rw [bytesOf_pos V (link_exists ⟨hx.1, hx.2.1, hx.2.2.1⟩ hx.2.2.2.1 (by have := hx.2.2.2.2; omega)), number_toByte]
      rfl
    | forsTree t l k i =>
      cases k with
      | zero =>
        simp only [argOf, argAt]
        rw [bytesOf_pos V (x := .forsPrf t l i) ⟨hx.1, hx.2.1, by simpa using hx.2.2.2⟩, number_toByte]
        rfl
      | succ k => cases h
    | wotsPrf j t l i => exact (number_toByte _).symm
    | forsPrf t l i => exact (number_toByte _).symm
    | _ => cases h
  hid_step V q u x h := by
    obtain ⟨x, hx⟩ := x
    cases x with
    | forsTree t l k i =>
      cases k with
      | zero => exact fun e => h (stepOf_le q u e)
      | succ k => exact h
    | _ => exact h
  hid_upd V u x x' v h := (hid_congr (fun y hy ht => told_upd h v hy ht) x'.2 u).symm
  inp_upd V u x x' v h h' := by
    rw [argOf, argOf, ← argAt_told (fun y hy ht => told_upd h v hy ht) x'.2 h']
  src_ne V u x x' h h' e := by
    refine h' ?_
    obtain ⟨x, hx⟩ := x
    cases x with
    | wotsHash j t l i s =>
      have e := congrArg Subtype.val (Option.some.inj e)
      dsimp only at e
      rw [e]
      cases s with
      | zero => trivial
      | succ s => exact Nat.lt_of_succ_lt h
    | forsTree t l k i =>
      cases k with
      | zero =>
        have e := congrArg Subtype.val (Option.some.inj e)
        dsimp only at e
        rw [e]
        trivial
      | succ k => cases h
    | wotsPrf j t l i => cases e
    | forsPrf t l i => cases e
    | _ => cases h
  view_upd V q u x v h := by
    cases q with
    | none =>
      refine (told_upd h v (node_exists ?_ ?_ (Nat.le_refl _) ?_) told_node).symm
      · have := ps.wf.d_pos; omega
      · exact Nat.two_pow_pos _
      · exact Nat.two_pow_pos _
    | some q =>
      exact (sigAt_told ps.wf (u := u ∪ openedBy ps.sp q.2) Set.subset_union_right
        fun y hy ht => told_upd h v hy ht).symm

end

end Fips205.Props
