import Verif.Proofs.Oracle
import Mathlib.Data.Fintype.EquivFin
import Mathlib.Data.Fintype.Pi

/-!
# Games with a random function that computes secrets

A random function is applied to a secret and to its own values, at places that can be told from the argument.  A player
learns some of the values and may evaluate the function, at points of their choice.  How likely is it that the player
hits an argument that was kept from them, or finds a second argument with the value of a place?
-/

namespace Fips205.Oracle

/-! ## Guessing -/

section
variable {S D : Type} [Fintype S] [DecidableEq S] [Fintype D] [Nonempty D]

theorem avg_sum {α ι : Type} [Fintype α] (s : Finset ι) (f : ι → α → ℚ) :
    avg (fun a => ∑ i ∈ s, f i a) = ∑ i ∈ s, avg (f i) := by
  simp only [avg]
  rw [Finset.sum_comm, Finset.sum_div]

/-- A guess at one of many random values, which may depend on all the others, is right with probability at most that of
a single value. -/
theorem guess_le (pick : (S → D) → Option (S × D))
    (h : ∀ V s x, pick V = some (s, x) → ∀ v, pick (Function.update V s v) = some (s, x)) :
    (avg fun V => ind (∃ s, pick V = some (s, V s))) ≤ 1 / Fintype.card D := by
  classical
  have hD : (0 : ℚ) < Fintype.card D := Nat.cast_pos.mpr Fintype.card_pos
  have hS : (0 : ℚ) < Fintype.card (S → D) := Nat.cast_pos.mpr Fintype.card_pos
  have hsum : (∑ V : S → D, ind (∃ s, pick V = some (s, V s))) =
      (Finset.univ.filter fun V : S → D => ∃ s, pick V = some (s, V s)).card := by
    rw [Finset.card_filter]
    push_cast
    exact Finset.sum_congr rfl fun V _ => by by_cases hV : ∃ s, pick V = some (s, V s) <;> simp [ind, hV]
  rw [avg, hsum, div_le_div_iff₀ hS hD, one_mul]
  have key : (Finset.univ.filter fun V : S → D => ∃ s, pick V = some (s, V s)).card * Fintype.card D ≤
      Fintype.card (S → D) := by
    rw [← Finset.card_univ (α := D), ← Finset.card_product, ← Finset.card_univ (α := S → D)]
    let f : (S → D) × D → (S → D) := fun x =>
      match pick x.1 with
      | some (s, _) => Function.update x.1 s x.2
      | none => x.1
    refine Finset.card_le_card_of_injOn f (fun _ _ => Finset.mem_coe.mpr (Finset.mem_univ _)) ?_
    rintro ⟨V, v⟩ hV ⟨W, w⟩ hW e
    obtain ⟨s, hs⟩ := (Finset.mem_filter.mp (Finset.mem_product.mp hV).1).2
    obtain ⟨t, ht⟩ := (Finset.mem_filter.mp (Finset.mem_product.mp hW).1).2
    simp only [f] at e hs ht
    rw [hs, ht] at e
    simp only at e
    have h1 := h _ _ _ hs v
    have h2 := h _ _ _ ht w
    rw [e, h2] at h1
    obtain ⟨e1, e2⟩ := Prod.mk.inj (Option.some.inj h1)
    subst e1
    have e3 : v = w := by simpa using congrFun e t
    refine Prod.ext (funext fun x => ?_) e3
    by_cases hx : x = t
    · subst hx; exact e2.symm
    · simpa [hx] using congrFun e x
  exact_mod_cast key

end

/-! ## The game -/

/-- A player who may evaluate the function `n` times. -/
inductive Strat (Y D Q W : Type) : ℕ → Type
  | done {n : ℕ} : Strat Y D Q W n
  /-- evaluate the function -/
  | ask {n : ℕ} (y : Y) (k : D → Strat Y D Q W n) : Strat Y D Q W (n + 1)
  /-- ask to be told values -/
  | tell {n : ℕ} (q : Q) (k : W → Strat Y D Q W n) : Strat Y D Q W n

/-- What the function is used for: `V none` is the secret, `V (some p)` the value computed at place `p`. -/
structure Sys (P Y D Q W σ : Type) [DecidableEq P] where
  /-- the place an argument belongs to -/
  at? : Y → Option P
  /-- the argument of the function at a place -/
  inp : P → (Option P → D) → Y
  at_inp : ∀ p V, at? (inp p V) = some p
  /-- what is told -/
  view : Q → (Option P → D) → W
  step : Q → σ → σ
  /-- the places whose arguments are kept from the player -/
  hid : (Option P → D) → σ → P → Prop
  /-- the value that is such an argument -/
  src : P → Option P
  guess : Y → D
  hid_guess : ∀ V u p, hid V u p → V (src p) = guess (inp p V)
  hid_step : ∀ V q u p, hid V (step q u) p → hid V u p
  hid_upd : ∀ V u p p' v, hid V u p → (hid (Function.update V (src p) v) u p' ↔ hid V u p')
  inp_upd : ∀ V u p p' v, hid V u p → ¬ hid V u p' → inp p' (Function.update V (src p) v) = inp p' V
  src_ne : ∀ V u p p', hid V u p → ¬ hid V u p' → some p' ≠ src p
  view_upd : ∀ V q u p v, hid V (step q u) p → view q (Function.update V (src p) v) = view q V

namespace Sys

variable {P Y D Q W σ : Type} [DecidableEq P] (s : Sys P Y D Q W σ)

open Classical in
/-- The function: `V` where it is used, otherwise `F`. -/
noncomputable def real (V : Option P → D) (F : Y → D) (y : Y) : D :=
  match s.at? y with
  | none => F y
  | some p => if y = s.inp p V then V (some p) else F y

open Classical in
/-- The function, as the player knows it: `F` at hidden arguments. -/
noncomputable def ideal (V : Option P → D) (F : Y → D) (u : σ) (y : Y) : D :=
  match s.at? y with
  | none => F y
  | some p => if s.hid V u p then F y else if y = s.inp p V then V (some p) else F y

/-- An argument the player should not have come by. -/
def Bad (V : Option P → D) (F : Y → D) (u : σ) (y : Y) : Prop :=
  ∃ p, s.at? y = some p ∧ (F y = V (some p) ∨ s.hid V u p ∧ y = s.inp p V)

/-- One of the arguments of the player is bad. -/
def BadRun (V : Option P → D) (F : Y → D) : {n : ℕ} → Strat Y D Q W n → σ → Prop
  | _, .done, _ => False
  | _, .ask y k, u => s.Bad V F u y ∨ BadRun V F (k (s.real V F y)) u
  | _, .tell q k, u => BadRun V F (k (s.view q V)) (s.step q u)

open Classical in
/-- The value at which argument `t` is a guess, if it belongs to a hidden place. -/
noncomputable def pickV (V : Option P → D) (F : Y → D) : {n : ℕ} → Strat Y D Q W n → σ → ℕ → Option (Option P × D)
  | _, .done, _, _ => none
  | _, .ask y k, u, t =>
    match t with
    | 0 => match s.at? y with
      | none => none
      | some p => if s.hid V u p then some (s.src p, s.guess y) else none
    | t + 1 => pickV V F (k (s.ideal V F u y)) u t
  | _, .tell q k, u, t => pickV V F (k (s.view q V)) (s.step q u) t

open Classical in
/-- Argument `t`, if it is new, and the value it should not have. -/
noncomputable def pickF (V : Option P → D) (F : Y → D) : {n : ℕ} → Strat Y D Q W n → σ → List Y → ℕ → Option (Y × D)
  | _, .done, _, _, _ => none
  | _, .ask y k, u, seen, t =>
    match t with
    | 0 => if y ∈ seen then none else (s.at? y).map fun p => (y, V (some p))
    | t + 1 => pickF V F (k (s.ideal V F u y)) u (y :: seen) t
  | _, .tell q k, u, seen, t => pickF V F (k (s.view q V)) (s.step q u) seen t

theorem pickV_hid (V : Option P → D) (F : Y → D) {n : ℕ} (G : Strat Y D Q W n) : ∀ (u : σ) (t : ℕ) (x : Option P × D),
    s.pickV V F G u t = some x → ∃ p, s.src p = x.1 ∧ s.hid V u p := by
  induction G with
  | done => intro u t x h; cases h
  | ask y k ih =>
    intro u t x h
    cases t with
    | zero =>
      simp only [pickV] at h
      split at h
      · cases h
      · next p _ =>
        split at h
        · next hh => exact ⟨p, by rw [← Option.some.inj h], hh⟩
        · cases h
    | succ t => exact ih _ _ _ _ h
  | tell q k ih =>
    intro u t x h
    obtain ⟨p, h1, h2⟩ := ih _ _ _ _ h
    exact ⟨p, h1, s.hid_step _ _ _ _ h2⟩

theorem ideal_upd {V : Option P → D} (F : Y → D) {u : σ} {p : P} (h : s.hid V u p) (v : D) (y : Y) :
    s.ideal (Function.update V (s.src p) v) F u y = s.ideal V F u y := by
  simp only [ideal]
  cases s.at? y with
  | none => rfl
  | some p' =>
    simp only
    by_cases hp : s.hid V u p'
    · rw [if_pos hp, if_pos ((s.hid_upd V u p p' v h).mpr hp)]
    · rw [if_neg hp, if_neg (fun e => hp ((s.hid_upd V u p p' v h).mp e)), s.inp_upd V u p p' v h hp,
        Function.update_of_ne (s.src_ne V u p p' h hp)]

theorem pickV_upd (V : Option P → D) (F : Y → D) {n : ℕ} (G : Strat Y D Q W n) : ∀ (u : σ) (t : ℕ) (x : Option P)
    (d : D), s.pickV V F G u t = some (x, d) → ∀ v, s.pickV (Function.update V x v) F G u t = some (x, d) := by
  induction G with
  | done => intro u t x d h; cases h
  | ask y k ih =>
    intro u t x d h v
    obtain ⟨p, hp, hh⟩ := s.pickV_hid V F _ u t _ h
    simp only at hp
    subst hp
    cases t with
    | zero =>
      simp only [pickV] at h ⊢
      cases hy : s.at? y with
      | none => rw [hy] at h; cases h
      | some p' =>
        rw [hy] at h
        simp only at h ⊢
        split at h
        · next h' => rw [if_pos ((s.hid_upd V u p p' v hh).mpr h'), h]
        · cases h
    | succ t =>
      simp only [pickV] at h ⊢
      rw [s.ideal_upd F hh]
      exact ih _ _ _ _ _ h v
  | tell q k ih =>
    intro u t x d h v
    simp only [pickV] at h ⊢
    obtain ⟨p, hp, hh⟩ := s.pickV_hid V F _ _ t _ h
    simp only at hp
    subst hp
    rw [s.view_upd V q u p v hh]
    exact ih _ _ _ _ _ h v

theorem pickF_upd [DecidableEq Y] (V : Option P → D) (F : Y → D) {n : ℕ} (G : Strat Y D Q W n) : ∀ (u : σ) (seen : List Y) (t : ℕ)
    (x : Y) (d : D), s.pickF V F G u seen t = some (x, d) →
    x ∉ seen ∧ ∀ v, s.pickF V (Function.update F x v) G u seen t = some (x, d) := by
  induction G with
  | done => intro u seen t x d h; cases h
  | ask y k ih =>
    intro u seen t x d h
    cases t with
    | zero =>
      simp only [pickF] at h
      split at h
      · cases h
      · next hy =>
        refine ⟨?_, fun v => ?_⟩
        · cases hp : s.at? y with
          | none => rw [hp] at h; cases h
          | some p =>
            rw [hp] at h
            have h := Option.some.inj h
            rwa [← (Prod.mk.inj h).1]
        · simp only [pickF]
          rw [if_neg hy, h]
    | succ t =>
      simp only [pickF] at h
      obtain ⟨h1, h2⟩ := ih _ _ _ _ _ _ h
      refine ⟨fun e => h1 (List.mem_cons_of_mem _ e), fun v => ?_⟩
      have hne : y ≠ x := fun e => h1 (e ▸ List.mem_cons_self)
      simp only [pickF]
      have e : s.ideal V (Function.update F x v) u y = s.ideal V F u y := by
        unfold ideal
        rw [Function.update_of_ne hne]
      rw [e]
      exact h2 v
  | tell q k ih =>
    intro u seen t x d h
    exact ih _ _ _ _ _ _ h

theorem badRun_pick (V : Option P → D) (F : Y → D) {n : ℕ} (G : Strat Y D Q W n) : ∀ (u : σ) (seen : List Y),
    (∀ y ∈ seen, ∀ p, s.at? y = some p → F y ≠ V (some p)) → s.BadRun V F G u →
    ∃ t < n, (∃ x, s.pickV V F G u t = some (x, V x)) ∨ ∃ y, s.pickF V F G u seen t = some (y, F y) := by
  induction G with
  | done => intro u seen _ h; cases h
  | @ask n y k ih =>
    intro u seen hs h
    by_cases hb : s.Bad V F u y
    · obtain ⟨p, hp, hF | ⟨hh, hi⟩⟩ := hb
      · refine ⟨0, Nat.succ_pos _, .inr ⟨y, ?_⟩⟩
        simp only [pickF]
        rw [if_neg (fun e => hs y e p hp hF), hp, hF]
        rfl
      · refine ⟨0, Nat.succ_pos _, .inl ⟨s.src p, ?_⟩⟩
        simp only [pickV]
        rw [hp]
        simp only
        rw [if_pos hh, s.hid_guess V u p hh, ← hi]
    · have h := (or_iff_right hb).mp h
      have e : s.real V F y = s.ideal V F u y := by
        simp only [real, ideal]
        cases hy : s.at? y with
        | none => rfl
        | some p =>
          simp only
          by_cases hh : s.hid V u p
          · rw [if_pos hh, if_neg fun e => hb ⟨p, hy, .inr ⟨hh, e⟩⟩]
          · rw [if_neg hh]
      rw [e] at h
      obtain ⟨t, ht, h⟩ := ih _ u (y :: seen) (fun z hz p hp => by
        rcases List.mem_cons.mp hz with e | hz
        · subst e; exact fun e => hb ⟨p, hp, .inl e⟩
        · exact hs z hz p hp) h
      exact ⟨t + 1, Nat.succ_lt_succ ht, h⟩
  | tell q k ih =>
    intro u seen hs h
    exact ih _ _ _ hs h

variable [Fintype P] [Fintype Y] [DecidableEq Y] [Fintype D] [Nonempty D]

/-- **The bound**: each evaluation is bad with probability at most `2 / |D|`. -/
theorem badRun_le {n : ℕ} (G : Strat Y D Q W n) (u : σ) :
    (avg fun V : Option P → D => avg fun F : Y → D => ind (s.BadRun V F G u)) ≤ 2 * n / Fintype.card D := by
  classical
  have h1 : ∀ (V : Option P → D) (F : Y → D), ind (s.BadRun V F G u) ≤
      ∑ t ∈ Finset.range n, (ind (∃ x, s.pickV V F G u t = some (x, V x)) +
        ind (∃ y, s.pickF V F G u [] t = some (y, F y))) := by
    intro V F
    by_cases hb : s.BadRun V F G u
    · obtain ⟨t, ht, h⟩ := s.badRun_pick V F G u [] (fun y hy => absurd hy List.not_mem_nil) hb
      refine le_trans ?_ (Finset.single_le_sum (f := fun t => ind (∃ x, s.pickV V F G u t = some (x, V x)) +
        ind (∃ y, s.pickF V F G u [] t = some (y, F y)))
        (fun t _ => add_nonneg (ind_nonneg _) (ind_nonneg _)) (Finset.mem_range.mpr ht))
      exact le_trans (ind_mono fun _ => h) (ind_or_le _ _)
    · rw [show ind (s.BadRun V F G u) = 0 by simp [ind, hb]]
      exact Finset.sum_nonneg fun t _ => add_nonneg (ind_nonneg _) (ind_nonneg _)
  refine (avg_mono fun V => avg_mono fun F => h1 V F).trans ?_
  simp only [avg_sum, avg_add]
  have h2 : ∀ t, (avg fun V : Option P → D => avg fun F : Y → D =>
      ind (∃ x, s.pickV V F G u t = some (x, V x))) ≤ 1 / Fintype.card D := by
    intro t
    rw [avg_comm]
    refine (avg_mono fun F => guess_le (fun V => s.pickV V F G u t) fun V x d h v =>
      s.pickV_upd V F G u t x d h v).trans ?_
    rw [avg_const]
  have h3 : ∀ t, (avg fun V : Option P → D => avg fun F : Y → D =>
      ind (∃ y, s.pickF V F G u [] t = some (y, F y))) ≤ 1 / Fintype.card D := by
    intro t
    refine (avg_mono fun V => guess_le (fun F => s.pickF V F G u [] t) fun F x d h v =>
      (s.pickF_upd V F G u [] t x d h).2 v).trans ?_
    rw [avg_const]
  refine (Finset.sum_le_sum fun t _ => add_le_add (h2 t) (h3 t)).trans (le_of_eq ?_)
  rw [Finset.sum_const, Finset.card_range, nsmul_eq_mul]
  ring

/-- A random function and a random secret determine random values at all places: one may as well draw these values
first. -/
theorem avg_real (f : D → (Y → D) → ℚ) (honest : D → (Y → D) → P → D)
    (h : ∀ V F, honest (V none) (s.real V F) = fun p => V (some p)) :
    (avg fun d : D => avg fun F : Y → D => f d F) =
      avg fun V : Option P → D => avg fun F : Y → D => f (V none) (s.real V F) := by
  let φ : (Option P → D) × (Y → D) → (D × (Y → D)) × (P → D) := fun x =>
    ((x.1 none, s.real x.1 x.2), fun p => x.2 (s.inp p x.1))
  have inj : Function.Injective φ := by
    rintro ⟨V, F⟩ ⟨V', F'⟩ e
    simp only [φ, Prod.mk.injEq] at e
    obtain ⟨⟨e0, e1⟩, e2⟩ := e
    have eV : V = V' := by
      funext p
      cases p with
      | none => exact e0
      | some p =>
        have a := congrFun (h V F) p
        have b := congrFun (h V' F') p
        rw [e0, e1] at a
        exact a.symm.trans b
    subst eV
    refine Prod.ext rfl (funext fun y => ?_)
    have e1 := congrFun e1 y
    simp only [real] at e1
    cases hy : s.at? y with
    | none => rw [hy] at e1; exact e1
    | some p =>
      rw [hy] at e1
      simp only at e1
      by_cases hi : y = s.inp p V
      · subst hi; exact congrFun e2 p
      · rwa [if_neg hi, if_neg hi] at e1
  have card : Fintype.card ((Option P → D) × (Y → D)) = Fintype.card ((D × (Y → D)) × (P → D)) := by
    simp only [Fintype.card_prod, Fintype.card_fun, Fintype.card_option, pow_succ]
    ring
  let e := Equiv.ofBijective φ ((Fintype.bijective_iff_injective_and_card φ).mpr ⟨inj, card⟩)
  have h1 : (avg fun x : (D × (Y → D)) × (P → D) => f x.1.1 x.1.2) = avg fun d : D => avg fun F : Y → D => f d F := by
    rw [avg_prod, avg_prod]
    refine congrArg avg (funext fun d => congrArg avg (funext fun F => ?_))
    exact avg_const (α := P → D) (f d F)
  rw [← h1, avg_equiv e, avg_prod]
  rfl

end Sys

end Fips205.Oracle
