import Verif.Proofs.VisitSlh
import Mathlib.Data.List.Nodup

/-! # How many places there are -/

namespace Fips205

/-- The predicate holds of exactly `n` values. -/
def Counted {α : Type} (S : α → Prop) (n : Nat) : Prop :=
  ∃ xs : List α, xs.Nodup ∧ (∀ x, x ∈ xs ↔ S x) ∧ xs.length = n

namespace Counted
variable {α : Type} {S T : α → Prop} {n m : Nat}

theorem congr (h : Counted S n) (hS : ∀ x, S x ↔ T x) (hn : n = m) : Counted T m := by
  obtain ⟨xs, h1, h2, h3⟩ := h
  exact ⟨xs, h1, fun x => (h2 x).trans (hS x), h3.trans hn⟩

theorem unique (h : Counted S n) (h' : Counted S m) : n = m := by
  obtain ⟨xs, h1, h2, rfl⟩ := h
  obtain ⟨ys, h1', h2', rfl⟩ := h'
  exact ((List.perm_ext_iff_of_nodup h1 h1').mpr fun x => (h2 x).trans (h2' x).symm).length_eq

theorem none (h : ∀ x, ¬ S x) : Counted S 0 :=
  ⟨[], List.nodup_nil, fun x => by simp [h x], rfl⟩

theorem single (a : α) : Counted (· = a) 1 := ⟨[a], List.nodup_singleton a, fun x => by simp, rfl⟩

theorem or (h : Counted S n) (h' : Counted T m) (hd : ∀ x, S x → T x → False) :
    Counted (fun x => S x ∨ T x) (n + m) := by
  obtain ⟨xs, h1, h2, rfl⟩ := h
  obtain ⟨ys, h1', h2', rfl⟩ := h'
  refine ⟨xs ++ ys, ?_, fun x => by rw [List.mem_append, h2, h2'], List.length_append⟩
  rw [List.nodup_append]
  refine ⟨h1, h1', ?_⟩
  rintro x hx _ hy rfl
  exact hd x ((h2 x).mp hx) ((h2' x).mp hy)

theorem sub (h : Counted S n) (h' : Counted T m) (hs : ∀ x, T x → S x) :
    Counted (fun x => S x ∧ ¬ T x) (n - m) := by
  classical
  obtain ⟨xs, h1, h2, h3⟩ := h
  have hc : Counted (fun x => S x ∧ ¬ T x) (xs.filter fun x => ¬ T x).length :=
    ⟨_, h1.filter _, fun x => by simp [h2], rfl⟩
  have := (hc.or h' fun x h h' => h.2 h').congr (T := S) (fun x => by
    by_cases ht : T x <;> simp [ht, hs]) rfl
  have := this.unique ⟨xs, h1, h2, h3⟩
  exact hc.congr (fun _ => Iff.rfl) (by omega)

/-- A union of disjoint sets. -/
theorem sum {S : Nat → α → Prop} {c : Nat → Nat} : ∀ n : Nat, (∀ i, i < n → Counted (S i) (c i)) →
    (∀ i j x, i < n → j < n → S i x → S j x → i = j) →
    Counted (fun x => ∃ i, i < n ∧ S i x) ((List.range n).map c).sum
  | 0, _, _ => none fun x => by rintro ⟨_, h, _⟩; omega
  | n + 1, h, hd => by
    refine ((sum n (fun i hi => h i (by omega)) fun i j x hi hj => hd i j x (by omega) (by omega)).or
      (h n (by omega)) ?_).congr (fun x => ?_) (by rw [List.range_succ]; simp)
    · rintro x ⟨i, hi, h1⟩ h2
      have := hd i n x (by omega) (by omega) h1 h2
      omega
    · constructor
      · rintro (⟨i, hi, h⟩ | h)
        · exact ⟨i, by omega, h⟩
        · exact ⟨n, by omega, h⟩
      · rintro ⟨i, hi, hx⟩
        rcases Nat.lt_succ_iff_lt_or_eq.mp hi with hi | rfl
        · exact .inl ⟨i, hi, hx⟩
        · exact .inr hx

theorem range (n : Nat) {f : Nat → α} (hf : ∀ i j, i < n → j < n → f i = f j → i = j) :
    Counted (fun x => ∃ i, i < n ∧ x = f i) n :=
  (sum (c := fun _ => 1) n (fun i _ => single (f i)) fun i j x hi hj h1 h2 =>
    hf i j hi hj (h1.symm.trans h2)).congr (fun _ => Iff.rfl) (by simp)

end Counted

theorem EachOnce.length {At : Place → Call → Prop} {S : Place → Prop} {L : List Call} {n : Nat}
    (h : EachOnce At S L) (hS : Counted S n) : L.length = n := by
  obtain ⟨xs, h1, h2, h3⟩ := h
  exact h3.length_eq.symm.trans (Counted.unique ⟨xs, h1, h2, rfl⟩ hS)

namespace Model
open Spec

theorem mul_sum (c : Nat) (f : Nat → Nat) (xs : List Nat) : c * (xs.map f).sum = (xs.map fun x => c * f x).sum := by
  induction xs with
  | nil => rfl
  | cons x xs ih => simp only [List.map_cons, List.sum_cons, Nat.mul_add, ih]

theorem sum_two_pow (n : Nat) : ((List.range n).map fun k => 2 ^ (n - 1 - k)).sum = 2 ^ n - 1 := by
  have : ∀ m, m ≤ n → ((List.range m).map fun k => 2 ^ (n - 1 - k)).sum + 2 ^ (n - m) = 2 ^ n := by
    intro m
    induction m with
    | zero => intro _; simp
    | succ m ih =>
      intro hm
      rw [List.range_succ, List.map_append, List.sum_append, ← ih (by omega),
        show n - m = n - (m + 1) + 1 by omega, Nat.pow_succ]
      simp only [List.map_cons, List.map_nil, List.sum_cons, List.sum_nil,
        show n - 1 - m = n - (m + 1) by omega]
      omega
  have := this n (Nat.le_refl _)
  simp at this
  omega

section
variable {p : Spec.Params}

/-- A full XMSS tree. -/
theorem xmssPlaces_count (j t : Nat) :
    Counted (xmssPlaces p j t) (2 ^ p.hp * (p.len * 16 + 1) + (2 ^ p.hp - 1)) := by
  have h1 : Counted (fun x => ∃ l, l < 2 ^ p.hp ∧ ∃ i, i < p.len ∧ ∃ s, s < 15 ∧ x = Place.wotsHash j t l i s)
      (2 ^ p.hp * (p.len * 15)) :=
    (Counted.sum _ (fun l _ => Counted.sum _ (fun i _ => Counted.range 15 (f := Place.wotsHash j t l i)
      (by rintro s s' - - h; injection h)) (by
        rintro i i' x - - ⟨s, -, rfl⟩ ⟨s', -, h⟩; injection h)) (by
        rintro l l' x - - ⟨i, -, s, -, rfl⟩ ⟨i', -, s', -, h⟩; injection h)).congr (fun _ => Iff.rfl)
      (by simp)
  have h2 : Counted (fun x => ∃ l, l < 2 ^ p.hp ∧ x = Place.wotsPk j t l) (2 ^ p.hp) :=
    Counted.range _ (by rintro s s' - - h; injection h)
  have h3 : Counted (fun x => ∃ l, l < 2 ^ p.hp ∧ ∃ i, i < p.len ∧ x = Place.wotsPrf j t l i)
      (2 ^ p.hp * p.len) :=
    (Counted.sum _ (fun l _ => Counted.range p.len (f := Place.wotsPrf j t l)
      (by rintro s s' - - h; injection h)) (by
        rintro l l' x - - ⟨s, -, rfl⟩ ⟨s', -, h⟩; injection h)).congr (fun _ => Iff.rfl) (by simp)
  have h4 : Counted (fun x => ∃ k, k < p.hp ∧ ∃ i, i < 2 ^ (p.hp - 1 - k) ∧ x = Place.tree j t (k + 1) i)
      (2 ^ p.hp - 1) :=
    (Counted.sum _ (fun k _ => Counted.range (2 ^ (p.hp - 1 - k)) (f := Place.tree j t (k + 1))
      (by rintro s s' - - h; injection h)) (by
        rintro l l' x - - ⟨s, -, rfl⟩ ⟨s', -, h⟩; injection h; omega)).congr (fun _ => Iff.rfl)
      (sum_two_pow _)
  refine (((h1.or h2 ?_).or h3 ?_).or h4 ?_).congr (fun x => ?_) (by ring)
  · rintro x ⟨_, -, _, -, _, -, rfl⟩ ⟨_, -, h⟩; cases h
  · rintro x (⟨_, -, _, -, _, -, rfl⟩ | ⟨_, -, rfl⟩) ⟨_, -, _, -, h⟩ <;> cases h
  · rintro x ((⟨_, -, _, -, _, -, rfl⟩ | ⟨_, -, rfl⟩) | ⟨_, -, _, -, rfl⟩) ⟨_, -, _, -, h⟩ <;> cases h
  · constructor
    · rintro (((⟨l, hl, i, hi, s, hs, rfl⟩ | ⟨l, hl, rfl⟩) | ⟨l, hl, i, hi, rfl⟩) | ⟨k, hk, i, hi, rfl⟩)
      · exact ⟨rfl, rfl, hl, hi, hs⟩
      · exact ⟨rfl, rfl, hl⟩
      · exact ⟨rfl, rfl, hl, hi⟩
      · exact ⟨rfl, rfl, Nat.succ_pos _, hk, by rwa [show p.hp - (k + 1) = p.hp - 1 - k by omega]⟩
    · intro h
      cases x with
      | wotsHash j' t' l i s =>
        obtain ⟨rfl, rfl, hl, hi, hs⟩ := h
        exact .inl (.inl (.inl ⟨l, hl, i, hi, s, hs, rfl⟩))
      | wotsPk j' t' l =>
        obtain ⟨rfl, rfl, hl⟩ := h
        exact .inl (.inl (.inr ⟨l, hl, rfl⟩))
      | wotsPrf j' t' l i =>
        obtain ⟨rfl, rfl, hl, hi⟩ := h
        exact .inl (.inr ⟨l, hl, i, hi, rfl⟩)
      | tree j' t' k i =>
        obtain ⟨rfl, rfl, h0, hk, hi⟩ := h
        refine .inr ⟨k - 1, by omega, i, ?_, by rw [Nat.sub_add_cancel h0]⟩
        rwa [show p.hp - 1 - (k - 1) = p.hp - k by omega]
      | _ => cases h

/-- What the verifier computes in a tree. -/
theorem xmssVerifyPlaces_count (j t l : Nat) (msg : List UInt8) :
    Counted (xmssVerifyPlaces p j t l msg)
      (((List.range p.len).map fun i => 15 - (wotsDigits p msg).getD i 0).sum + 1 + p.hp) := by
  have h1 : Counted (fun x => ∃ i, i < p.len ∧ ∃ s, s < 15 - (wotsDigits p msg).getD i 0 ∧
      x = Place.wotsHash j t l i ((wotsDigits p msg).getD i 0 + s)) _ :=
    Counted.sum (c := fun i => 15 - (wotsDigits p msg).getD i 0) _ (fun i _ => Counted.range _ (by
      rintro s s' - - h; injection h; omega)) (by
        rintro l l' x - - ⟨s, -, rfl⟩ ⟨s', -, h⟩; injection h)
  have h2 := Counted.single (Place.wotsPk j t l)
  have h3 : Counted (fun x => ∃ k, k < p.hp ∧ x = Place.tree j t (k + 1) (l / 2 ^ (k + 1))) p.hp :=
    Counted.range _ (by rintro s s' - - h; injection h; omega)
  refine ((h1.or h2 ?_).or h3 ?_).congr (fun x => ?_) rfl
  · rintro x ⟨_, -, _, -, rfl⟩ h; cases h
  · rintro x (⟨_, -, _, -, rfl⟩ | rfl) ⟨_, -, h⟩ <;> cases h
  · constructor
    · rintro ((⟨i, hi, s, hs, rfl⟩ | rfl) | ⟨k, hk, rfl⟩)
      · exact ⟨rfl, rfl, rfl, hi, Nat.le_add_right _ _, by show _ + s < 15; omega⟩
      · exact ⟨rfl, rfl, rfl⟩
      · exact ⟨rfl, rfl, Nat.succ_pos _, hk, rfl⟩
    · intro h
      cases x with
      | wotsHash j' t' l i s =>
        obtain ⟨rfl, rfl, rfl, hi, h1, h2⟩ := h
        have h1 : (wotsDigits p msg).getD i 0 ≤ s := h1
        have h2 : s < 15 := h2
        exact .inl (.inl ⟨i, hi, s - (wotsDigits p msg).getD i 0, by omega,
          by rw [Nat.add_sub_cancel' h1]⟩)
      | wotsPk j' t' l =>
        obtain ⟨rfl, rfl, rfl⟩ := h
        exact .inl (.inr rfl)
      | tree j' t' k i =>
        obtain ⟨rfl, rfl, h0, hk, rfl⟩ := h
        exact .inr ⟨k - 1, by omega, by rw [Nat.sub_add_cancel h0]⟩
      | wotsPrf j' t' l i => cases h.2.2
      | _ => cases h

/-- A whole FORS key. -/
theorem forsPlaces_count (t l : Nat) :
    Counted (forsPlaces p t l) (p.k * (2 ^ p.a * 2 + (2 ^ p.a - 1)) + 1) := by
  have h1 : Counted (fun x => ∃ i, i < p.k * 2 ^ p.a ∧ x = Place.forsPrf t l i) (p.k * 2 ^ p.a) :=
    Counted.range _ (by rintro s s' - - h; injection h)
  have h2 : Counted (fun x => ∃ k, k < p.a + 1 ∧ ∃ i, i < p.k * 2 ^ (p.a - k) ∧ x = Place.forsTree t l k i)
      (p.k * (2 ^ (p.a + 1) - 1)) :=
    (Counted.sum _ (fun k _ => Counted.range (p.k * 2 ^ (p.a - k)) (f := Place.forsTree t l k)
      (by rintro s s' - - h; injection h)) (by
        rintro l l' x - - ⟨s, -, rfl⟩ ⟨s', -, h⟩; injection h)).congr (fun _ => Iff.rfl)
      (by rw [← sum_two_pow, mul_sum]; rfl)
  have h3 := Counted.single (Place.forsRoots t l)
  refine ((h1.or h2 ?_).or h3 ?_).congr (fun x => ?_) ?_
  · rintro x ⟨_, -, rfl⟩ ⟨_, -, _, -, h⟩; cases h
  · rintro x (⟨_, -, rfl⟩ | ⟨_, -, _, -, rfl⟩) h <;> cases h
  · constructor
    · rintro ((⟨i, hi, rfl⟩ | ⟨k, hk, i, hi, rfl⟩) | rfl)
      · exact ⟨rfl, rfl, hi⟩
      · exact ⟨rfl, rfl, by omega, hi⟩
      · exact ⟨rfl, rfl, trivial⟩
    · intro h
      cases x with
      | forsPrf t' l' i =>
        obtain ⟨rfl, rfl, hi⟩ := h
        exact .inl (.inl ⟨i, hi, rfl⟩)
      | forsTree t' l' k i =>
        obtain ⟨rfl, rfl, hk, hi⟩ := h
        exact .inl (.inr ⟨k, by omega, i, hi, rfl⟩)
      | forsRoots t' l' =>
        obtain ⟨rfl, rfl, -⟩ := h
        exact .inr rfl
      | _ => cases h
  · have := Nat.two_pow_pos p.a
    rw [← Nat.mul_add]
    congr 2
    rw [Nat.pow_succ]
    omega

/-- What the verifier computes in a FORS key. -/
theorem forsVerifyPlaces_count (t l : Nat) (md : List UInt8) :
    Counted (forsVerifyPlaces p t l md) (p.k * (1 + p.a) + 1) := by
  have h2 : Counted (fun x => ∃ k, k < p.a + 1 ∧ ∃ i, i < p.k ∧
      x = Place.forsTree t l k (forsLeaf p md i / 2 ^ k)) (p.k * (1 + p.a)) :=
    (Counted.sum _ (fun k hk => Counted.range p.k (f := fun i => Place.forsTree t l k (forsLeaf p md i / 2 ^ k))
      (by
        rintro s s' - - h
        injection h with _ _ _ h
        have h := congrArg (· / 2 ^ (p.a - k)) h
        simpa only [forsLeaf_div (show k ≤ p.a by omega)] using h)) (by
        rintro l l' x - - ⟨s, -, rfl⟩ ⟨s', -, h⟩; injection h)).congr (fun _ => Iff.rfl)
      (by simp; ring)
  refine (h2.or (Counted.single (Place.forsRoots t l)) ?_).congr (fun x => ?_) rfl
  · rintro x ⟨_, -, _, -, rfl⟩ h; cases h
  · constructor
    · rintro (⟨k, hk, i, hi, rfl⟩ | rfl)
      · exact ⟨rfl, rfl, by omega, i, hi, rfl⟩
      · exact ⟨rfl, rfl, trivial⟩
    · intro h
      cases x with
      | forsPrf t' l' i => cases h.2.2
      | forsTree t' l' k i =>
        obtain ⟨rfl, rfl, hk, i, hi, rfl⟩ := h
        exact .inl ⟨k, by omega, i, hi, rfl⟩
      | forsRoots t' l' =>
        obtain ⟨rfl, rfl, -⟩ := h
        exact .inr rfl
      | _ => cases h

end

/-! ## The three operations -/

theorem keygenPlaces_count {p : Spec.Params} (hd : 1 ≤ p.d) :
    Counted (keygenPlaces p) (2 ^ p.hp * (p.len * 16 + 1) + (2 ^ p.hp - 1)) :=
  (xmssPlaces_count _ _).congr (keygenPlaces_iff hd) rfl

theorem onTree_layer {j t j' t' : Nat} {s1 s2 : Nat → Nat → Nat → Prop} {k1 k2 : Nat → Prop}
    {r1 r2 n1 n2 : Nat → Nat → Prop} {x : Place} (h1 : onTree j t s1 k1 r1 n1 x)
    (h2 : onTree j' t' s2 k2 r2 n2 x) : j = j' := by
  cases x <;> first | exact h1.1.symm.trans h2.1 | cases h1

theorem onFors_onTree {j t t' l' : Nat} {s1 : Nat → Nat → Nat → Prop} {k1 r2 : Nat → Prop}
    {r1 n1 n2 : Nat → Nat → Prop} {c2 : Prop} {x : Place} (h1 : onTree j t s1 k1 r1 n1 x)
    (h2 : onFors t' l' r2 n2 c2 x) : False := by
  cases x <;> first | exact h1 | exact h2

variable {c : Attempt}

theorem verifyPlaces_count (ht : c.t < 2 ^ (c.p.hp * (c.p.d - 1))) (hl : c.l < 2 ^ c.p.hp) :
    Counted (verifyPlaces c) (c.p.k * (1 + c.p.a) + 1 + ((List.range c.p.d).map fun j =>
      ((List.range c.p.len).map fun i => 15 - c.vDigit j i).sum + 1 + c.p.hp).sum) := by
  refine ((forsVerifyPlaces_count c.t c.l c.md).or (Counted.sum c.p.d (fun j _ =>
    xmssVerifyPlaces_count j (htTree c.p c.t j) (htLeaf c.p c.t c.l j) (c.vMsg j)) ?_) ?_).congr
    (verifyPlaces_iff ht hl) rfl
  · rintro i j x - - h1 h2
    exact onTree_layer h1 h2
  · rintro x h1 ⟨j, -, h2⟩
    exact onFors_onTree h2 h1

theorem signPlaces_count (hd : 1 ≤ c.p.d) (ht : c.t < 2 ^ (c.p.hp * (c.p.d - 1)))
    (hl : c.l < 2 ^ c.p.hp) :
    Counted (signPlaces c) (c.p.k * (2 ^ c.p.a * 2 + (2 ^ c.p.a - 1)) + 1 +
      (c.p.d * (2 ^ c.p.hp * (c.p.len * 16 + 1) + (2 ^ c.p.hp - 1)) -
        (((List.range c.p.len).map fun i => 15 - c.hDigit (c.p.d - 1) i).sum + 1 + c.p.hp))) := by
  have hll : ∀ j, c.leaf j < 2 ^ c.p.hp := fun j => Spec.htLeaf_lt _ hl _
  refine ((forsPlaces_count c.t c.l).or (((Counted.sum c.p.d (fun j _ =>
    xmssPlaces_count j (htTree c.p c.t j)) ?_).congr (fun _ => Iff.rfl) (by simp)).sub
    (xmssVerifyPlaces_count (c.p.d - 1) (htTree c.p c.t (c.p.d - 1)) (htLeaf c.p c.t c.l (c.p.d - 1))
      (c.hMsg (c.p.d - 1))) ?_) ?_).congr (signPlaces_iff hd ht hl) rfl
  · rintro i j x - - h1 h2
    exact onTree_layer h1 h2
  · rintro x h
    refine ⟨c.p.d - 1, by omega, ?_⟩
    cases x with
    | wotsHash j t l i s =>
      obtain ⟨rfl, rfl, rfl, hi, -, h2⟩ := h
      exact ⟨rfl, rfl, hll _, hi, h2⟩
    | wotsPk j t l =>
      obtain ⟨rfl, rfl, rfl⟩ := h
      exact ⟨rfl, rfl, hll _⟩
    | tree j t k i =>
      obtain ⟨rfl, rfl, h0, hk, rfl⟩ := h
      refine ⟨rfl, rfl, h0, hk, ?_⟩
      rw [Nat.div_lt_iff_lt_mul (Nat.two_pow_pos _), ← Nat.pow_add, Nat.sub_add_cancel hk]
      exact hll _
    | wotsPrf j t l i => cases h.2.2
    | _ => cases h
  · rintro x h1 ⟨⟨j, -, h2⟩, -⟩
    exact onFors_onTree h2 h1

end Model
end Fips205
