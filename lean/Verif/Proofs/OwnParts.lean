import Verif.Proofs.Hit
import Verif.Proofs.Sorted
import Verif.Proofs.BindCases

/-!
# What foretells a value, for a player who wants a signature to be accepted for another key or message

A value that the hash functions give is foretold if it is the value at another point, if it is part of a point, or if it
is needed for the signature to be accepted: if it is the value that a WOTS+ signature in it signs, or the digest that
selects the secrets in it.
-/

namespace Fips205.Props
open Fips205 Fips205.Model Fips205.Oracle

variable {ps : ParamSet} {B w : Nat}

/-! ## Parts of points -/

/-- The `n` bytes from byte `o` on. -/
def startAt (n o : Nat) (y : Query B) : Fin (256 ^ n) := number n ((y.1.input.drop o).take n)

/-- The first `n` of the last `e` bytes. -/
def endAt (n e : Nat) (y : Query B) : Fin (256 ^ n) := startAt n (y.1.input.length - e) y

/-- The parts of a point. -/
def windows (ps : ParamSet) (y : Query B) : List (Fin (256 ^ ps.sp.n)) :=
  [startAt ps.sp.n 0 y, startAt ps.sp.n (2 * ps.sp.n) y, endAt ps.sp.n 32 y, endAt ps.sp.n 64 y] ++
    (List.range (ps.sp.len + ps.sp.k)).map fun j => endAt ps.sp.n (ps.sp.n * (j + 1)) y

theorem windows_length (ps : ParamSet) (y : Query B) : (windows ps y).length = ps.sp.len + ps.sp.k + 4 := by
  rw [windows, List.length_append, List.length_map, List.length_range, Nat.add_comm]
  rfl

/-! ## Values that are needed -/

/-- The point for a hash at a place. -/
def pointAt (ps : ParamSet) (B : Nat) (seed : List UInt8) (q : Place × List UInt8) : Query B :=
  .of B (callOf ps seed q.1 q.2)

/-- The hash at a place. -/
def hAt (ps : ParamSet) (f : Query B → Fin (256 ^ w)) (seed : List UInt8) (x : Place) (z : List UInt8) : List UInt8 :=
  Spec.toByte (headOf ps.sp.n (f (pointAt ps B seed (x, z)))) ps.sp.n

/-- The WOTS+ signatures in a signature. -/
def wotsOf (ps : ParamSet) (S : Vector UInt8 ps.params.SIG_LEN) (j : Nat) : Nat → List UInt8 :=
  (attemptBy ps (ps.hf demoPrims) [] S.toList).vWots j

/-- At `y` a WOTS+ key was compressed, and the WOTS+ signature in `S` signs `μ` with this key. -/
def Enc (ps : ParamSet) (S : Vector UInt8 ps.params.SIG_LEN) (K : Finset (Query B)) (f : Query B → Fin (256 ^ w))
    (y : Query B) (μ : List UInt8) : Prop :=
  μ.length = ps.sp.n ∧ ∃ seed j t l, seed.length = ps.sp.n ∧ (Place.wotsPk j t l).Exists ps.sp ∧
    (∀ q ∈ (Ask.wots ps.sp j t l (wotsOf ps S j) μ).asked (hAt ps f seed), pointAt ps B seed q ∈ K) ∧
    y = pointAt ps B seed (.wotsPk j t l, (Ask.wots ps.sp j t l (wotsOf ps S j) μ).eval (hAt ps f seed))

/-- At `y` the digest of a message begins. -/
def Starts (ps : ParamSet) (R : List UInt8) (K : Finset (Query B)) (f : Query B → Fin (256 ^ w)) (y : Query B)
    (seed root M : List UInt8) : Prop :=
  (R ++ seed ++ root ++ M).length ≤ B ∧
  match ps.family with
  | .shake => y = .of B ⟨.shake256, R ++ seed ++ root ++ M⟩
  | .sha2 => shaQ ps B (R ++ seed ++ root ++ M) ∈ K ∧
    y = shaQ ps B (R ++ seed ++ Spec.toByte (headOf (hlen ps) (f (shaQ ps B (R ++ seed ++ root ++ M)))) (hlen ps) ++
      Spec.toByte 0 4)

/-- At `y` a digest begins, and `u` are the first `n` bytes of a digest for which the signature is accepted. -/
def Dig (ps : ParamSet) (S : Vector UInt8 ps.params.SIG_LEN) (K : Finset (Query B)) (f : Query B → Fin (256 ^ w))
    (y : Query B) (u : List UInt8) : Prop :=
  ∃ δ seed root M : List UInt8, u = δ.take ps.sp.n ∧ δ.length = ps.sp.m ∧ seed.length = ps.sp.n ∧
    root.length = ps.sp.n ∧ Starts ps (S.toList.take ps.sp.n) K f y seed root M ∧
    (∀ q ∈ ((attemptBy ps (ps.hf demoPrims) δ S.toList).layersP ps.sp.d).asked (hAt ps f seed),
      pointAt ps B seed q ∈ K) ∧
    ((attemptBy ps (ps.hf demoPrims) δ S.toList).layersP ps.sp.d).eval (hAt ps f seed) = root

/-- One of the values with a property, if there is one. -/
noncomputable def pick (n : Nat) (p : List UInt8 → Prop) : List (Fin (256 ^ n)) := by
  classical
  exact if h : ∃ u, p u then [number n h.choose] else []

theorem pick_length (n : Nat) (p : List UInt8 → Prop) : (pick n p).length ≤ 1 := by
  rw [pick]
  split
  · exact Nat.le_refl _
  · exact Nat.zero_le _

/-- The only one. -/
theorem mem_pick {n : Nat} {p : List UInt8 → Prop} {u : List UInt8} (h : p u) (hu : ∀ u', p u' → u' = u) :
    number n u ∈ pick n p := by
  rw [pick, dif_pos ⟨u, h⟩, List.mem_singleton]
  exact congrArg _ (hu _ (Exists.choose_spec (⟨u, h⟩ : ∃ u, p u))).symm

/-- What foretells the value at a point. -/
noncomputable def parts (ps : ParamSet) (c : Call × Option (Vector UInt8 ps.params.SIG_LEN)) (K : Finset (Query B))
    (f : Query B → Fin (256 ^ w)) : List (Fin (256 ^ ps.sp.n)) :=
  K.toList.map (fun y => headOf ps.sp.n (f y)) ++ (insert (Query.of B c.1) K).toList.flatMap (windows ps) ++
    match c.2 with
    | none => []
    | some S => K.toList.flatMap (fun y => pick ps.sp.n (Enc ps S K f y)) ++ pick ps.sp.n (Dig ps S K f (.of B c.1))

theorem flatMap_length_le {α β : Type} {l : List α} {g : α → List β} {k : Nat} (h : ∀ x, (g x).length ≤ k) :
    (l.flatMap g).length ≤ k * l.length := by
  induction l with
  | nil => simp
  | cons a l ih =>
    rw [List.flatMap_cons, List.length_append, List.length_cons, Nat.mul_succ]
    have := h a
    omega

theorem parts_length (c : Call × Option (Vector UInt8 ps.params.SIG_LEN)) (K : Finset (Query B))
    (f : Query B → Fin (256 ^ w)) : (parts ps c K f).length ≤ (ps.sp.len + ps.sp.k + 6) * (K.card + 1) := by
  have h1 : (insert (Query.of B c.1) K).card ≤ K.card + 1 := Finset.card_insert_le _ _
  have h2 := flatMap_length_le (l := (insert (Query.of B c.1) K).toList) (g := windows ps) fun y =>
    (windows_length ps y).le
  rw [Finset.length_toList] at h2
  have h2 := h2.trans (Nat.mul_le_mul_left _ h1)
  have h3 : (match c.2 with
    | none => []
    | some S => K.toList.flatMap (fun y => pick ps.sp.n (Enc ps S K f y)) ++
      pick ps.sp.n (Dig ps S K f (.of B c.1))).length ≤ K.card + 1 := by
    split
    · exact Nat.zero_le _
    · rename_i S _
      have h4 := flatMap_length_le (l := K.toList) (g := fun y => pick ps.sp.n (Enc ps S K f y)) fun y =>
        pick_length _ _
      rw [Finset.length_toList, Nat.one_mul] at h4
      rw [List.length_append]
      have := pick_length ps.sp.n (Dig ps S K f (.of B c.1))
      omega
  rw [parts, List.length_append, List.length_append, List.length_map, Finset.length_toList,
    show ps.sp.len + ps.sp.k + 6 = (ps.sp.len + ps.sp.k + 4) + 2 by omega, Nat.add_mul]
  omega

/-! ## They depend on the values seen only -/

theorem hAt_same {K : Finset (Query B)} {f f' : Query B → Fin (256 ^ w)} (h : ∀ y ∈ K, f y = f' y)
    {seed : List UInt8} {α : Type} {a : Ask α} (ha : ∀ q ∈ a.asked (hAt ps f seed), pointAt ps B seed q ∈ K) :
    a.asked (hAt ps f' seed) = a.asked (hAt ps f seed) ∧ a.eval (hAt ps f' seed) = a.eval (hAt ps f seed) :=
  a.same fun q hq => by rw [hAt, hAt, h _ (ha q hq)]

theorem Enc.congr {S : Vector UInt8 ps.params.SIG_LEN} {K : Finset (Query B)} {f f' : Query B → Fin (256 ^ w)}
    (h : ∀ y ∈ K, f y = f' y) {y : Query B} {μ : List UInt8} (he : Enc ps S K f y μ) : Enc ps S K f' y μ := by
  obtain ⟨h1, seed, j, t, l, h2, h3, h4, h5⟩ := he
  obtain ⟨e1, e2⟩ := hAt_same h h4
  exact ⟨h1, seed, j, t, l, h2, h3, by rw [e1]; exact h4, by rw [e2]; exact h5⟩

theorem Starts.congr {R : List UInt8} {K : Finset (Query B)} {f f' : Query B → Fin (256 ^ w)}
    (h : ∀ y ∈ K, f y = f' y) {y : Query B} {seed root M : List UInt8} (hs : Starts ps R K f y seed root M) :
    Starts ps R K f' y seed root M := by
  unfold Starts at hs ⊢
  refine ⟨hs.1, ?_⟩
  have hs := hs.2
  cases hps : ps.family with
  | shake => simpa only [hps] using hs
  | sha2 =>
    simp only [hps] at hs ⊢
    rw [← h _ hs.1]
    exact hs

theorem Dig.congr {S : Vector UInt8 ps.params.SIG_LEN} {K : Finset (Query B)} {f f' : Query B → Fin (256 ^ w)}
    (h : ∀ y ∈ K, f y = f' y) {y : Query B} {u : List UInt8} (he : Dig ps S K f y u) : Dig ps S K f' y u := by
  obtain ⟨δ, seed, root, M, h1, h2, h3, h4, h5, h6, h7⟩ := he
  obtain ⟨e1, e2⟩ := hAt_same h h6
  exact ⟨δ, seed, root, M, h1, h2, h3, h4, h5.congr h, by rw [e1]; exact h6, by rw [e2]; exact h7⟩

theorem parts_congr (c : Call × Option (Vector UInt8 ps.params.SIG_LEN)) (K : Finset (Query B))
    (f f' : Query B → Fin (256 ^ w)) (h : ∀ y ∈ K, f y = f' y) : parts ps c K f = parts ps c K f' := by
  have h' : ∀ y ∈ K, f' y = f y := fun y hy => (h y hy).symm
  have e1 : K.toList.map (fun y => headOf ps.sp.n (f y)) = K.toList.map fun y => headOf ps.sp.n (f' y) :=
    List.map_congr_left fun y hy => by rw [h y (Finset.mem_toList.mp hy)]
  have e2 : ∀ S, Enc ps S K f = Enc ps S K f' := fun S => funext fun y => funext fun μ =>
    propext ⟨fun e => e.congr h, fun e => e.congr h'⟩
  have e3 : ∀ S, Dig ps S K f = Dig ps S K f' := fun S => funext fun y => funext fun μ =>
    propext ⟨fun e => e.congr h, fun e => e.congr h'⟩
  simp only [parts, e1, e2, e3]

/-! ## A run in which no value was foretold -/

/-- The points `Z`, in the order of evaluation; from number `n0` on, the signature `S` was known. -/
structure Tidy (ps : ParamSet) (S : Vector UInt8 ps.params.SIG_LEN) (O : Query B → Fin (256 ^ w)) (Z : List (Query B))
    (n0 : Nat) : Prop where
  inj : ∀ x ∈ Z, ∀ y ∈ Z, headOf ps.sp.n (O x) = headOf ps.sp.n (O y) → x = y
  late : ∀ x ∈ Z, ∀ y ∈ Z, headOf ps.sp.n (O x) ∈ windows ps y → Z.idxOf x < Z.idxOf y
  enc : ∀ x ∈ Z, n0 ≤ Z.idxOf x → ∀ y ∈ Z, Z.idxOf y < Z.idxOf x →
    headOf ps.sp.n (O x) ∉ pick ps.sp.n (Enc ps S (Z.take (Z.idxOf x)).toFinset O y)
  dig : ∀ x ∈ Z, n0 ≤ Z.idxOf x → headOf ps.sp.n (O x) ∉ pick ps.sp.n (Dig ps S (Z.take (Z.idxOf x)).toFinset O x)

theorem mem_take_of_lt {α : Type} [DecidableEq α] {Z : List α} {y : α} (hy : y ∈ Z) {i : Nat} (h : Z.idxOf y < i) :
    y ∈ Z.take i := (List.mem_take_iff_idxOf_lt hy).mpr h

theorem tidy {α : Type} {S : Vector UInt8 ps.params.SIG_LEN} {O : Query B → Fin (256 ^ w)}
    (t : Tree (Call × Option (Vector UInt8 ps.params.SIG_LEN)) (Fin (256 ^ w)) Panic α)
    (hn : ¬ t.Hit (fun c => Query.of B c.1) (headOf ps.sp.n) (parts ps) O ∅) {la lb : List Call}
    (hl : (t.log fun c => O (.of B c.1)) = la.map (·, none) ++ lb.map (·, some S)) :
    Tidy ps S O ((la ++ lb).map (Query.of B)) la.length := by
  obtain ⟨Z, hZ⟩ : ∃ Z, Z = (la ++ lb).map (Query.of B) := ⟨_, rfl⟩
  obtain ⟨l, e⟩ : ∃ l, l = la.map (fun c => (c, (none : Option (Vector UInt8 ps.params.SIG_LEN)))) ++
    lb.map (·, some S) := ⟨_, rfl⟩
  rw [← e] at hl
  rw [← hZ]
  have hlZ : l.map (fun c => Query.of B c.1) = Z := by
    rw [e, hZ, List.map_append, List.map_append, List.map_map, List.map_map]
    rfl
  have key : ∀ x ∈ Z, ∃ c : Call × Option (Vector UInt8 ps.params.SIG_LEN), Query.of B c.1 = x ∧
      (la.length ≤ Z.idxOf x → c.2 = some S) ∧
      headOf ps.sp.n (O x) ∉ parts ps c (Z.take (Z.idxOf x)).toFinset O := by
    intro x hx
    have hi := List.idxOf_lt_length_iff.mpr hx
    have hil : Z.idxOf x < l.length := by rw [← hlZ, List.length_map] at hi; rwa [← hlZ]
    refine ⟨l[Z.idxOf x], ?_, fun h => ?_, ?_⟩
    · have : (l.map fun c => Query.of B c.1)[Z.idxOf x]'(by rw [List.length_map]; exact hil) = x := by
        simp only [hlZ]
        exact List.getElem_idxOf hi
      rwa [List.getElem_map] at this
    · simp only [e]
      rw [List.getElem_append_right (by rw [List.length_map]; exact h), List.getElem_map]
    · have hx' : Query.of B (l[Z.idxOf x]).1 = x := by
        have : (l.map fun c => Query.of B c.1)[Z.idxOf x]'(by rw [List.length_map]; exact hil) = x := by
          simp only [hlZ]
          exact List.getElem_idxOf hi
        rwa [List.getElem_map] at this
      have hd : l = l.take (Z.idxOf x) ++ l[Z.idxOf x] :: l.drop (Z.idxOf x + 1) := by
        rw [← List.drop_eq_getElem_cons hil, List.take_append_drop]
      have ht : (l.take (Z.idxOf x)).map (fun c => Query.of B c.1) = Z.take (Z.idxOf x) := by
        rw [List.map_take, hlZ]
      have := t.not_hit hn (hl.trans hd) (Finset.notMem_empty _) (by
        rw [ht, hx']
        intro hm
        exact absurd ((List.mem_take_iff_idxOf_lt hx).mp hm) (Nat.lt_irrefl _))
      rwa [hx', ht, Finset.empty_union] at this
  have hK : ∀ {x y}, y ∈ Z → Z.idxOf y < Z.idxOf x → y ∈ (Z.take (Z.idxOf x)).toFinset := fun hy h =>
    List.mem_toFinset.mpr (mem_take_of_lt hy h)
  have half : ∀ x ∈ Z, ∀ y ∈ Z, headOf ps.sp.n (O x) = headOf ps.sp.n (O y) → ¬ Z.idxOf y < Z.idxOf x := by
    intro x hx y hy h hlt
    obtain ⟨c, -, -, hc⟩ := key x hx
    refine hc (List.mem_append_left _ (List.mem_append_left _ (List.mem_map.mpr ⟨y, ?_, h.symm⟩)))
    exact Finset.mem_toList.mpr (hK hy hlt)
  refine ⟨fun x hx y hy h => ?_, fun x hx y hy h => ?_, fun x hx h0 y hy hlt h => ?_, fun x hx h0 h => ?_⟩
  · have h1 := half x hx y hy h
    have h2 := half y hy x hx h.symm
    exact List.idxOf_inj hx |>.mp (by omega)
  · by_contra hlt
    obtain ⟨c, rfl, -, hc⟩ := key x hx
    refine hc (List.mem_append_left _ (List.mem_append_right _ (List.mem_flatMap.mpr ⟨y, ?_, h⟩)))
    rw [Finset.mem_toList, Finset.mem_insert]
    by_cases hxy : y = Query.of B c.1
    · exact .inl hxy
    · refine .inr (hK hy ?_)
      have : Z.idxOf y ≠ Z.idxOf (Query.of B c.1) := fun h => hxy ((List.idxOf_inj hy).mp h)
      omega
  · obtain ⟨c, -, h1, hc⟩ := key x hx
    refine hc (List.mem_append_right _ ?_)
    rw [h1 h0]
    exact List.mem_append_left _ (List.mem_flatMap.mpr ⟨y, Finset.mem_toList.mpr (hK hy hlt), h⟩)
  · obtain ⟨c, e1, h1, hc⟩ := key x hx
    refine hc (List.mem_append_right _ ?_)
    rw [h1 h0]
    refine List.mem_append_right _ ?_
    rw [e1]
    exact h

end Fips205.Props
