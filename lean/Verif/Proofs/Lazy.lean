import Verif.Proofs.Override

/-!
# Composing random functions

A random function of `(r, y)`, where `y` is the value of another random function at `(r, M)`, is a random function of
`(r, M)` — unless two values of the latter collide, or one of them is guessed.
-/

namespace Fips205.Oracle

/-- A player who evaluates two functions, `n` times in all. -/
inductive Player (R S Y X : Type) : ℕ → Type
  | done {n : ℕ} (p : Prop) : Player R S Y X n
  /-- evaluate the inner function -/
  | look {n : ℕ} (x : R × S) (next : Y → Player R S Y X n) : Player R S Y X (n + 1)
  /-- evaluate the outer function -/
  | peek {n : ℕ} (j : R × Y) (next : X → Player R S Y X n) : Player R S Y X (n + 1)
  | skip {n : ℕ} (next : Player R S Y X n) : Player R S Y X (n + 1)

section
variable {R S Y X : Type} (ex : Y → Prop) (f : R × S → Y) (g : R × Y → X)

/-- What the player reaches, or `ex` for one of the values of the inner function. -/
def Player.real : {n : ℕ} → Player R S Y X n → Prop
  | _, .done p => p
  | _, .look x next => ex (f x) ∨ (next (f x)).real
  | _, .peek j next => (next (g j)).real
  | _, .skip next => next.real

variable (h : R × S → X)

/-- The point of the list at which the inner function has this value. -/
def find [DecidableEq R] [DecidableEq Y] (K : List (R × S)) (j : R × Y) : Option (R × S) :=
  K.find? fun x => decide ((x.1, f x) = j)

/-- What the player reaches if a third function, of the arguments of the inner function, has the values of the outer
one at the values of the inner one, so far as the player knows these. -/
def Player.ideal [DecidableEq R] [DecidableEq Y] : {n : ℕ} → Player R S Y X n → List (R × S) → Prop
  | _, .done p, _ => p
  | _, .look x next, K => (next (f x)).ideal (x :: K)
  | _, .peek j next, K => (next ((find f K j).elim (g j) h)).ideal K
  | _, .skip next, K => next.ideal K

end

section
variable {R S Y X : Type} [DecidableEq R] [DecidableEq S] [DecidableEq Y]

omit [DecidableEq S] in
theorem find_some {f : R × S → Y} {K : List (R × S)} {j : R × Y} {x : R × S} (h : find f K j = some x) :
    x ∈ K ∧ (x.1, f x) = j := by
  rw [find] at h
  exact ⟨List.mem_of_find?_eq_some h, by simpa using List.find?_some h⟩

omit [DecidableEq S] in
theorem find_none {f : R × S → Y} {K : List (R × S)} {j : R × Y} (h : find f K j = none) {x : R × S} (hx : x ∈ K) :
    (x.1, f x) ≠ j := by
  rw [find, List.find?_eq_none] at h
  simpa using h x hx

omit [DecidableEq S] in
theorem find_head {f : R × S → Y} {K : List (R × S)} (x : R × S) : find f (x :: K) (x.1, f x) = some x := by
  simp [find]

omit [DecidableEq S] in
theorem find_congr {f f' : R × S → Y} {K : List (R × S)} (h : ∀ x ∈ K, f x = f' x) (j : R × Y) :
    find f K j = find f' K j := by
  induction K with
  | nil => rfl
  | cons a K ih =>
    have ha := h a List.mem_cons_self
    have ih := ih fun x hx => h x (List.mem_cons_of_mem _ hx)
    simp only [find] at ih ⊢
    rw [List.find?_cons, List.find?_cons, ha, ih]

/-- The outer function does not matter where the player knows of the third one. -/
theorem Player.ideal_congr {f : R × S → Y} {h : R × S → X} {n : ℕ} (t : Player R S Y X n) :
    ∀ {g g' : R × Y → X} {K : List (R × S)}, (∀ j, (∀ x ∈ K, (x.1, f x) ≠ j) → g j = g' j) →
    (t.ideal f g h K ↔ t.ideal f g' h K) := by
  induction t with
  | done p => exact fun _ => Iff.rfl
  | skip next ih => exact ih
  | look x next ih =>
    intro g g' K hg
    exact ih _ fun j hj => hg j fun x hx => hj x (List.mem_cons_of_mem _ hx)
  | peek j next ih =>
    intro g g' K hg
    rw [Player.ideal, Player.ideal]
    cases e : find f K j with
    | some x => exact ih _ hg
    | none => rw [Option.elim, Option.elim, hg j fun x hx => find_none e hx]; exact ih _ hg

/-- The third function, with the values that are known. -/
def third (KY : Finset (R × S)) (f0 : R × S → Y) (KV : Finset (R × Y)) (g0 : R × Y → X) (h : R × S → X) (x : R × S) : X :=
  if x ∈ KY ∧ (x.1, f0 x) ∈ KV then g0 (x.1, f0 x) else h x

variable [Fintype R] [Fintype S] [Fintype Y] [Fintype X] [Nonempty X] [Nonempty Y]

/-- With values known: those of the inner function at `KY`, those of the outer one at `KV`. -/
theorem Player.le_with (ex : Y → Prop) {β : ℚ} (hex : (avg fun y => ind (ex y)) ≤ β) {n : ℕ} (t : Player R S Y X n) :
    ∀ (a : ℕ) (KY : Finset (R × S)) (f0 : R × S → Y) (KV : Finset (R × Y)) (g0 : R × Y → X) (K : List (R × S)),
      (∀ x, x ∈ K ↔ x ∈ KY) → (∀ x ∈ KY, ¬ ex (f0 x)) →
      (∀ x ∈ KY, ∀ x' ∈ KY, x.1 = x'.1 → f0 x = f0 x' → x = x') → KY.card + KV.card ≤ a →
    (avg fun f : R × S → Y => avg fun g : R × Y → X => ind (t.real ex (merge KY f0 f) (merge KV g0 g))) ≤
      (avg fun f : R × S → Y => avg fun g : R × Y → X => avg fun h : R × S → X =>
        ind (t.ideal (merge KY f0 f) (merge KV g0 g) (third KY f0 KV g0 h) K)) +
        n * ((a + n) / Fintype.card Y + β) := by
  have hY : (0 : ℚ) < Fintype.card Y := Nat.cast_pos.mpr Fintype.card_pos
  have hβ : 0 ≤ β := le_trans (avg_nonneg fun _ => ind_nonneg _) hex
  have hgrow : ∀ (a n : ℕ), (n : ℚ) * ((a + n) / Fintype.card Y + β) ≤
      (n + 1 : ℕ) * ((a + (n + 1 : ℕ)) / Fintype.card Y + β) := by
    intro a n
    have h1 : ((a : ℚ) + n) / Fintype.card Y ≤ (a + (n + 1 : ℕ)) / Fintype.card Y :=
      div_le_div_of_nonneg_right (by push_cast; linarith) hY.le
    have h2 : (0 : ℚ) ≤ (a + n) / Fintype.card Y := by positivity
    refine mul_le_mul (by push_cast; linarith) (by linarith) (by linarith) (by positivity)
  have hgrow' : ∀ (a n : ℕ), (n : ℚ) * (((a + 1 : ℕ) + n) / Fintype.card Y + β) ≤
      (n + 1 : ℕ) * ((a + (n + 1 : ℕ)) / Fintype.card Y + β) := by
    intro a n
    have h1 : (((a + 1 : ℕ) : ℚ) + n) / Fintype.card Y = (a + (n + 1 : ℕ)) / Fintype.card Y := by
      push_cast; ring
    have h2 : (0 : ℚ) ≤ (a + (n + 1 : ℕ)) / Fintype.card Y := by positivity
    rw [h1]
    refine mul_le_mul_of_nonneg_right (by push_cast; linarith) (by linarith)
  induction t with
  | done p =>
    intro a KY f0 KV g0 K _ _ _ _
    have : Nonempty (R × S → X) := ⟨fun _ => Classical.arbitrary X⟩
    simp only [Player.real, Player.ideal, avg_const]
    have : (0 : ℚ) ≤ ‹ℕ› := Nat.cast_nonneg _
    refine le_add_of_nonneg_right (mul_nonneg (Nat.cast_nonneg _) (add_nonneg (by positivity) hβ))
  | skip next ih =>
    intro a KY f0 KV g0 K h1 h2 h3 h4
    exact (ih a KY f0 KV g0 K h1 h2 h3 h4).trans (add_le_add_right (hgrow a _) _)
  | look x next ih =>
    rename_i n
    intro a KY f0 KV g0 K h1 h2 h3 h4
    by_cases hx : x ∈ KY
    · have e : ∀ f, merge KY f0 f x = f0 x := fun f => if_pos hx
      simp only [Player.real, Player.ideal, e, h2 x hx, false_or]
      refine (ih (f0 x) a KY f0 KV g0 (x :: K) ?_ h2 h3 h4).trans (add_le_add_right (hgrow a _) _)
      intro x'
      rw [List.mem_cons, h1]
      exact ⟨fun h => h.elim (fun h => h ▸ hx) id, .inr⟩
    · have e : ∀ f d, merge (insert x KY) (Function.update f0 x d) f x = d := fun f d => by simp [merge]
      rw [avg_update x, avg_update x]
      simp only [← merge_insert KY f0 _ hx, Player.real, Player.ideal, e]
      let L : List Y := (KV.toList.map Prod.snd) ++ KY.toList.map f0
      have hL : L.length ≤ a := by simp only [L, List.length_append, List.length_map, Finset.length_toList]; omega
      have hstep : ∀ y, (avg fun f : R × S → Y => avg fun g : R × Y → X =>
          ind (ex y ∨ (next y).real ex (merge (insert x KY) (Function.update f0 x y) f) (merge KV g0 g))) ≤
          (avg fun f : R × S → Y => avg fun g : R × Y → X => avg fun h : R × S → X =>
            ind ((next y).ideal (merge (insert x KY) (Function.update f0 x y) f) (merge KV g0 g) (third KY f0 KV g0 h)
              (x :: K))) +
            (n * (((a + 1 : ℕ) + n) / Fintype.card Y + β) + (ind (ex y) + ind (y ∈ L))) := by
        intro y
        have hpos : (0 : ℚ) ≤ n * (((a + 1 : ℕ) + n) / Fintype.card Y + β) := by positivity
        by_cases hbad : ex y ∨ y ∈ L
        · have hone : (1 : ℚ) ≤ ind (ex y) + ind (y ∈ L) := by
            have h := ind_or_le (ex y) (y ∈ L)
            rwa [show ind (ex y ∨ y ∈ L) = 1 by simp [ind, hbad]] at h
          have h0 : (0 : ℚ) ≤ avg fun f : R × S → Y => avg fun g : R × Y → X => avg fun h : R × S → X =>
            ind ((next y).ideal (merge (insert x KY) (Function.update f0 x y) f) (merge KV g0 g) (third KY f0 KV g0 h)
              (x :: K)) := avg_nonneg fun _ => avg_nonneg fun _ => avg_nonneg fun _ => ind_nonneg _
          refine le_trans (avg_mono fun f => avg_mono fun g => ind_le_one _) ?_
          rw [avg_const, avg_const]
          linarith
        · rw [not_or] at hbad
          have hKV : (x.1, y) ∉ KV := fun h => hbad.2 (List.mem_append_left _ (List.mem_map.mpr
            ⟨_, Finset.mem_toList.mpr h, rfl⟩))
          have hKY : ∀ x' ∈ KY, f0 x' ≠ y := fun x' hx' h => hbad.2 (List.mem_append_right _ (List.mem_map.mpr
            ⟨_, Finset.mem_toList.mpr hx', h⟩))
          have hup : ∀ x' ∈ KY, Function.update f0 x y x' = f0 x' := fun x' hx' =>
            Function.update_of_ne (fun h : x' = x => hx (h ▸ hx')) _ _
          have hthird : ∀ h, third (insert x KY) (Function.update f0 x y) KV g0 h = third KY f0 KV g0 h := by
            intro h
            funext x'
            rw [third, third]
            by_cases hxx : x' = x
            · subst hxx
              rw [Function.update_self, if_neg fun h => hKV h.2, if_neg fun h => hx h.1]
            · rw [Function.update_of_ne hxx]
              simp only [Finset.mem_insert, hxx, false_or]
          have h := ih y (a + 1) (insert x KY) (Function.update f0 x y) KV g0 (x :: K) (fun x' => ?_) ?_ ?_ ?_
          · simp only [hthird] at h
            simp only [hbad.1, false_or]
            exact h.trans (add_le_add_right (le_add_of_nonneg_right (add_nonneg (ind_nonneg _) (ind_nonneg _))) _)
          · rw [List.mem_cons, Finset.mem_insert, h1]
          · intro x' hx'
            rcases Finset.mem_insert.mp hx' with rfl | hx'
            · rw [Function.update_self]; exact hbad.1
            · rw [hup x' hx']; exact h2 x' hx'
          · intro x1 hx1 x2 hx2 hr he
            rcases Finset.mem_insert.mp hx1 with rfl | hx1' <;> rcases Finset.mem_insert.mp hx2 with rfl | hx2'
            · rfl
            · rw [Function.update_self, hup x2 hx2'] at he
              exact absurd he.symm (hKY x2 hx2')
            · rw [Function.update_self, hup x1 hx1'] at he
              exact absurd he (hKY x1 hx1')
            · rw [hup x1 hx1', hup x2 hx2'] at he
              exact h3 x1 hx1' x2 hx2' hr he
          · rw [Finset.card_insert_of_notMem hx]; omega
      refine (avg_mono hstep).trans ?_
      rw [avg_add]
      refine add_le_add_right ?_ _
      rw [avg_add, avg_const, avg_add]
      have hmem : (avg fun y => ind (y ∈ L)) ≤ a / Fintype.card Y :=
        (avg_mem_le L).trans (div_le_div_of_nonneg_right (by exact_mod_cast hL) hY.le)
      have hle : (a : ℚ) / Fintype.card Y ≤ ((a + 1 : ℕ) + n) / Fintype.card Y :=
        div_le_div_of_nonneg_right (by push_cast; linarith [(Nat.cast_nonneg n : (0 : ℚ) ≤ n)]) hY.le
      have e : ((a : ℚ) + (n + 1 : ℕ)) = (a + 1 : ℕ) + n := by push_cast; ring
      rw [e]
      push_cast at hle ⊢
      linarith
  | peek j next ih =>
    rename_i n
    intro a KY f0 KV g0 K h1 h2 h3 h4
    have hfind : ∀ f, find (merge KY f0 f) K j = find f0 K j := fun f =>
      find_congr (fun x hx => if_pos ((h1 x).mp hx)) j
    simp only [Player.real, Player.ideal, hfind]
    by_cases hj : j ∈ KV
    · have e : ∀ g, merge KV g0 g j = g0 j := fun g => if_pos hj
      have e' : ∀ h, (find f0 K j).elim (g0 j) (third KY f0 KV g0 h) = g0 j := by
        intro h
        cases hf : find f0 K j with
        | none => rfl
        | some x =>
          obtain ⟨hx, hxj⟩ := find_some hf
          rw [Option.elim, third, hxj, if_pos ⟨(h1 x).mp hx, hj⟩]
      simp only [e, e']
      exact (ih (g0 j) a KY f0 KV g0 K h1 h2 h3 h4).trans (add_le_add_right (hgrow a _) _)
    · have e : ∀ g d, merge (insert j KV) (Function.update g0 j d) g j = d := fun g d => by simp [merge]
      have hl : (avg fun f : R × S → Y => avg fun g : R × Y → X =>
          ind ((next (merge KV g0 g j)).real ex (merge KY f0 f) (merge KV g0 g))) =
          avg fun d : X => avg fun f : R × S → Y => avg fun g : R × Y → X =>
            ind ((next d).real ex (merge KY f0 f) (merge (insert j KV) (Function.update g0 j d) g)) := by
        rw [avg_comm (α := X)]
        refine congrArg avg (funext fun f => ?_)
        rw [avg_update j]
        simp only [← merge_insert KV g0 _ hj, e]
      have hr : (avg fun f : R × S → Y => avg fun g : R × Y → X => avg fun h : R × S → X =>
          ind ((next ((find f0 K j).elim (merge KV g0 g j) (third KY f0 KV g0 h))).ideal (merge KY f0 f) (merge KV g0 g)
            (third KY f0 KV g0 h) K)) =
          avg fun d : X => avg fun f : R × S → Y => avg fun g : R × Y → X => avg fun h : R × S → X =>
            ind ((next d).ideal (merge KY f0 f) (merge (insert j KV) (Function.update g0 j d) g)
              (third KY f0 (insert j KV) (Function.update g0 j d) h) K) := by
        rw [avg_comm (α := X)]
        refine congrArg avg (funext fun f => ?_)
        have hfK : ∀ x ∈ K, merge KY f0 f x = f0 x := fun x hx => if_pos ((h1 x).mp hx)
        cases hf : find f0 K j with
        | none =>
          have hthird : ∀ d h, third KY f0 (insert j KV) (Function.update g0 j d) h = third KY f0 KV g0 h := by
            intro d h
            funext x
            rw [third, third]
            by_cases hx : x ∈ KY
            · have hne := find_none hf ((h1 x).mpr hx)
              rw [Function.update_of_ne hne]
              simp only [Finset.mem_insert, hne, false_or]
            · rw [if_neg fun h => hx h.1, if_neg fun h => hx h.1]
          simp only [Option.elim, hthird]
          rw [avg_update j]
          simp only [← merge_insert KV g0 _ hj, e]
        | some z =>
          obtain ⟨hz, hzj⟩ := find_some hf
          have hzY := (h1 z).mp hz
          have hthird : ∀ d h, third KY f0 KV g0 (Function.update h z d) =
              third KY f0 (insert j KV) (Function.update g0 j d) h := by
            intro d h
            funext x
            rw [third, third]
            by_cases hxz : x = z
            · subst hxz
              rw [hzj, if_neg fun h => hj h.2, if_pos ⟨hzY, Finset.mem_insert_self _ _⟩, Function.update_self,
                Function.update_self]
            · rw [Function.update_of_ne hxz]
              by_cases hx : x ∈ KY
              · have hne : (x.1, f0 x) ≠ j := fun h => hxz (h3 x hx z hzY (Prod.mk.inj (h.trans hzj.symm)).1
                  (Prod.mk.inj (h.trans hzj.symm)).2)
                rw [Function.update_of_ne hne]
                simp only [Finset.mem_insert, hne, false_or]
              · rw [if_neg fun h => hx h.1, if_neg fun h => hx h.1]
          have e2 : ∀ d h, third KY f0 (insert j KV) (Function.update g0 j d) h z = d := by
            intro d h
            rw [third, hzj, if_pos ⟨hzY, Finset.mem_insert_self _ _⟩, Function.update_self]
          rw [avg_comm (α := X)]
          refine congrArg avg (funext fun g => ?_)
          simp only [Option.elim]
          rw [avg_update z]
          simp only [hthird, e2]
          refine congrArg avg (funext fun d => congrArg avg (funext fun h => ind_congr ?_))
          refine Player.ideal_congr _ fun j' hj' => ?_
          have hne : j' ≠ j := fun e => hj' z hz (by rw [hfK z hz, hzj, e])
          rw [merge, merge, Function.update_of_ne hne]
          simp only [Finset.mem_insert, hne, false_or]
      rw [hl, hr]
      have hstep := fun d => ih d (a + 1) KY f0 (insert j KV) (Function.update g0 j d) K h1 h2 h3
        (by rw [Finset.card_insert_of_notMem hj]; omega)
      refine (avg_mono hstep).trans ?_
      rw [avg_add, avg_const]
      exact add_le_add_right (hgrow' a n) _

/-- What the player reaches, in one game and the other. -/
theorem Player.le (ex : Y → Prop) {β : ℚ} (hex : (avg fun y => ind (ex y)) ≤ β) {n : ℕ} (t : Player R S Y X n) :
    (avg fun f : R × S → Y => avg fun g : R × Y → X => ind (t.real ex f g)) ≤
      (avg fun f : R × S → Y => avg fun g : R × Y → X => avg fun h : R × S → X => ind (t.ideal f g h [])) +
        n * (n / Fintype.card Y + β) := by
  have h := t.le_with ex hex 0 ∅ (fun _ => Classical.arbitrary Y) ∅ (fun _ => Classical.arbitrary X) []
    (by simp) (by simp) (by simp) (by simp)
  have e1 : ∀ (f0 f : R × S → Y), merge ∅ f0 f = f := fun f0 f => by funext x; simp [merge]
  have e2 : ∀ (g0 g : R × Y → X), merge ∅ g0 g = g := fun g0 g => by funext x; simp [merge]
  have e3 : ∀ (f0 : R × S → Y) (g0 : R × Y → X) (h : R × S → X), third ∅ f0 ∅ g0 h = h := fun f0 g0 h => by
    funext x; simp [third]
  simp only [e1, e2, e3, Nat.cast_zero, zero_add] at h
  exact h

end

end Fips205.Oracle
