import Verif.Proofs.Forge
import Verif.Proofs.Places
import Verif.Spec.Seen

/-! # Two accepted signatures under one public key -/

namespace Fips205.Spec.Attempt
open Fips205

variable {c c' : Attempt} {m : Nat}

theorem Ok.htTree_lt (o : c.Ok m) {j : Nat} (hj : j < c.p.d) :
    htTree c.p c.t j < 2 ^ (c.p.hp * (c.p.d - 1 - j)) := by
  have h := o.t_lt
  have e : c.p.h - c.p.hp = c.p.hp * (c.p.d - 1 - j) + c.p.hp * j := by
    rw [← Nat.mul_add, show c.p.d - 1 - j + j = c.p.d - 1 by omega, o.wf.h_eq, Nat.mul_comm,
      Nat.mul_sub, Nat.mul_one]
  rw [e, Nat.pow_add] at h
  rw [htTree]
  exact Nat.div_lt_of_lt_mul (by rwa [Nat.mul_comm] at h)

/-! ## Each value is the hash of what is seen at its place -/

theorem wotsPk_value (o : c.Ok m) (j : Nat) : c.vXmss j 0 = hashAt c.hf c.PKseed
    (.wotsPk j (htTree c.p c.t j) (c.leaf j)) (c.seen (.wotsPk j (htTree c.p c.t j) (c.leaf j))) := by
  show c.hf.T c.PKseed (wotsPkAdrs (c.wotsAdrs j)) _ = _
  rw [wotsAdrs, adrs, wotsAdrs_eq, wotsPkAdrs_eq _ _ (o.leaf_lt32 j)]
  rfl

theorem tree_value (o : c.Ok m) (j : Nat) {k : Nat} (hk : k < c.p.hp) : c.vXmss j (k + 1) =
    hashAt c.hf c.PKseed (.tree j (htTree c.p c.t j) (k + 1) (c.leaf j / 2 ^ (k + 1)))
      (children (c.leaf j / 2 ^ k) (c.vXmss j k) (c.vAuth j k)) :=
  climb_node (setTypeAndClear_length (c.adrs_length j) _) (o.leaf_lt32 j) (fun _ _ => rfl) hk

theorem chain_value (j i : Nat) {s : Nat} (hs : c.vDigit j i ≤ s) : c.vChain j i (s + 1) =
    hashAt c.hf c.PKseed (.wotsHash j (htTree c.p c.t j) (c.leaf j) i s) (c.vChain j i s) := by
  rw [vChain, show s + 1 - c.vDigit j i = s - c.vDigit j i + 1 by omega, chain,
    show c.vDigit j i + (s - c.vDigit j i) = s by omega, chainAdrs, wotsAdrs, adrs, wotsAdrs_eq]
  rfl

theorem forsRoots_value (o : c.Ok m) : c.vMsg 0 = hashAt c.hf c.PKseed (.forsRoots c.t c.l)
    (concat c.p.k fun i => c.vFors i c.p.a) := by
  have hl : c.l < 2 ^ 32 := by
    have := o.leaf_lt32 0
    exact this
  rw [vMsg_zero, fRootsAdrs, fAdrs, forsAdrs_eq, getKeyPairAddress_adrs6 _ _ _ _ _ hl]
  rfl

theorem forsNode_value (o : c.Ok m) {i k : Nat} (hi : i < c.p.k) (hk : k < c.p.a) : c.vFors i (k + 1) =
    hashAt c.hf c.PKseed (.forsTree c.t c.l (k + 1) (c.fLeaf i / 2 ^ (k + 1)))
      (children (c.fLeaf i / 2 ^ k) (c.vFors i k) (c.vForsAuth i k)) :=
  climb_node c.fAdrs_length (fLeaf_lt o hi) (fun k hk => c.fLeaf_bits i hk) hk

theorem forsLeaf_value (i : Nat) : c.vFors i 0 =
    hashAt c.hf c.PKseed (.forsTree c.t c.l 0 (c.fLeaf i)) (c.vSecret i) := rfl

theorem fLeaf_div (c : Attempt) (i : Nat) {k : Nat} (hk : k ≤ c.p.a) :
    c.fLeaf i / 2 ^ k / 2 ^ (c.p.a - k) = i := by
  rw [Nat.div_div_eq_div_mul, ← Nat.pow_add, show k + (c.p.a - k) = c.p.a by omega, fLeaf_top]

theorem seen_fors (c : Attempt) (t l i : Nat) {k : Nat} (hk : k < c.p.a) :
    c.seen (.forsTree t l (k + 1) (c.fLeaf i / 2 ^ (k + 1))) =
      children (c.fLeaf i / 2 ^ k) (c.vFors i k) (c.vForsAuth i k) := by
  simp only [seen, fLeaf_div c i (k := k + 1) (by omega)]

/-! ## The places of a verification -/

theorem place_wotsPk (o : c.Ok m) {j : Nat} (hj : j < c.p.d) :
    verifyPlaces c (.wotsPk j (htTree c.p c.t j) (c.leaf j)) :=
  ⟨⟨hj, o.htTree_lt hj, o.leaf_lt j⟩, rfl, rfl⟩

theorem place_tree (o : c.Ok m) {j k : Nat} (hj : j < c.p.d) (hk : k < c.p.hp) :
    verifyPlaces c (.tree j (htTree c.p c.t j) (k + 1) (c.leaf j / 2 ^ (k + 1))) := by
  refine ⟨⟨hj, o.htTree_lt hj, by omega, by omega, ?_⟩, rfl, rfl⟩
  refine Nat.div_lt_of_lt_mul ?_
  rw [← Nat.pow_add, show k + 1 + (c.p.hp - (k + 1)) = c.p.hp by omega]
  exact o.leaf_lt j

theorem place_chain (o : c.Ok m) {j i s : Nat} (hj : j < c.p.d) (hi : i < c.p.len) (hs : c.vDigit j i ≤ s)
    (h : s < 15) : verifyPlaces c (.wotsHash j (htTree c.p c.t j) (c.leaf j) i s) :=
  ⟨⟨hj, o.htTree_lt hj, o.leaf_lt j, hi, h⟩, rfl, rfl, hs⟩

theorem Ok.t_lt' (o : c.Ok m) : c.t < 2 ^ (c.p.hp * (c.p.d - 1)) := by
  have := o.htTree_lt (j := 0) o.wf.d_pos
  rwa [htTree, Nat.mul_zero, Nat.pow_zero, Nat.div_one] at this

theorem place_forsRoots (o : c.Ok m) : verifyPlaces c (.forsRoots c.t c.l) :=
  ⟨⟨o.t_lt', o.l_lt⟩, rfl, rfl⟩

theorem place_fors (o : c.Ok m) {i k : Nat} (hi : i < c.p.k) (hk : k ≤ c.p.a) :
    verifyPlaces c (.forsTree c.t c.l k (c.fLeaf i / 2 ^ k)) := by
  refine ⟨⟨o.t_lt', o.l_lt, hk, ?_⟩, rfl, rfl, i, hi, rfl⟩
  have := fLeaf_div c i hk
  have h2 : 0 < 2 ^ (c.p.a - k) := Nat.two_pow_pos _
  rw [← Nat.div_lt_iff_lt_mul h2, this]
  exact hi

/-! ## Going down from the common root -/

/-- The two attempts are made against one public key. -/
structure Like (c c' : Attempt) (m : Nat) : Prop where
  ok : c.Ok m
  ok' : c'.Ok m
  p : c'.p = c.p
  hf : c'.hf = c.hf
  seed : c'.PKseed = c.PKseed

structure Pair (c c' : Attempt) (m : Nat) : Prop extends Like c c' m where
  root : c.vMsg c.p.d = c'.vMsg c.p.d
  coll : ¬ c.Collision c'
  reuse : ¬ c.Reuse c'

theorem Like.step (_ : Like c c' m) (hc : ¬ c.Collision c') {x : Place} (h : verifyPlaces c x)
    (h' : verifyPlaces c' x)
    (e : hashAt c.hf c.PKseed x (c.seen x) = hashAt c.hf c.PKseed x (c'.seen x)) : c.seen x = c'.seen x := by
  by_contra hne
  exact hc ⟨x, h, h', hne, e⟩

/-- The common part of a chain. -/
theorem Like.chain (R : Like c c' m) (hc : ¬ c.Collision c') {j i : Nat} (hj : j < c.p.d) (hi : i < c.p.len)
    (ht : htTree c.p c.t j = htTree c.p c'.t j) (hl : c.leaf j = c'.leaf j)
    (hend : c.vChain j i (w - 1) = c'.vChain j i (w - 1)) :
    ∀ r ≤ 15, c.vDigit j i ≤ 15 - r → c'.vDigit j i ≤ 15 - r →
      c.vChain j i (15 - r) = c'.vChain j i (15 - r) := by
  intro r
  induction r with
  | zero => intro _ _ _; exact hend
  | succ r ih =>
    intro hr h1 h2
    obtain ⟨s, hs⟩ : ∃ s, s = 15 - (r + 1) := ⟨_, rfl⟩
    have e : 15 - r = s + 1 := by omega
    rw [← hs] at h1 h2 ⊢
    rw [e] at ih
    have h := ih (by omega) (by omega) (by omega)
    have p1 := place_chain R.ok hj hi h1 (by omega)
    have p2 := place_chain R.ok' (j := j) (i := i) (by rw [R.p]; exact hj) (by rw [R.p]; exact hi) h2
      (by omega)
    rw [R.p, ← ht, ← hl] at p2
    rw [chain_value j i h1, chain_value j i h2, R.hf, R.seed, R.p, ← ht, ← hl] at h
    exact R.step hc p1 p2 h

theorem vChain_digit (c : Attempt) (j i : Nat) : c.vChain j i (c.vDigit j i) = c.vWots j i := by
  rw [vChain, Nat.sub_self]; rfl

/-- What a one-time key used twice shows. -/
theorem Like.reuse_meaning (R : Like c c' m) (h : c.Reuse c') : c.Collision c' ∨
    ∃ j < c.p.d, ∃ i < c.p.len, ∃ i' < c.p.len, c.vDigit j i < c'.vDigit j i ∧ c'.vDigit j i' < c.vDigit j i' ∧
      c'.vWots j i = c.vChain j i (c'.vDigit j i) ∧ c.vWots j i' = c'.vChain j i' (c.vDigit j i') := by
  by_cases hc : c.Collision c'
  · exact .inl hc
  right
  obtain ⟨j, hj, ht, hl, hne, hends⟩ := h
  have hlen' : (c'.vMsg j).length = c.p.n := by rw [R.ok'.vMsg_length, R.p]
  obtain ⟨i, hi, h1⟩ := wotsDigits_dominate R.ok.n_le hlen' (R.ok.vMsg_length j) hne.symm
  obtain ⟨i', hi', h2⟩ := wotsDigits_dominate R.ok.n_le (R.ok.vMsg_length j) hlen' hne
  have h1 : c.vDigit j i < c'.vDigit j i := by rw [vDigit, vDigit, R.p]; exact h1
  have h2 : c'.vDigit j i' < c.vDigit j i' := by rw [vDigit, vDigit, R.p]; exact h2
  have hle : c'.vDigit j i ≤ 15 := c'.vDigit_le j i
  have hle' : c.vDigit j i' ≤ 15 := c.vDigit_le j i'
  refine ⟨j, hj, i, hi, i', hi', h1, h2, ?_, ?_⟩
  · have := R.chain hc hj hi ht hl (hends i hi) (15 - c'.vDigit j i) (by omega)
    rw [show 15 - (15 - c'.vDigit j i) = c'.vDigit j i by omega] at this
    rw [this (by omega) (by omega), vChain_digit]
  · have := R.chain hc hj hi' ht hl (hends i' hi') (15 - c.vDigit j i') (by omega)
    rw [show 15 - (15 - c.vDigit j i') = c.vDigit j i' by omega] at this
    rw [← this (by omega) (by omega), vChain_digit]

/-- The owner of a key reuses nothing, and meets no collision. -/
theorem Like.owner (R : Like c c' m) (hs : c'.SKseed = c.SKseed)
    (hF : c.SIGfors = forsSign c.p c.hf c.md c.SKseed c.PKseed c.fAdrs)
    (hT : c.SIGht = htSign c.p c.hf c.hForsPk c.SKseed c.PKseed c.t c.l)
    (hF' : c'.SIGfors = forsSign c'.p c'.hf c'.md c'.SKseed c'.PKseed c'.fAdrs)
    (hT' : c'.SIGht = htSign c'.p c'.hf c'.hForsPk c'.SKseed c'.PKseed c'.t c'.l) :
    ¬ c.Collision c' ∧ ¬ c.Reuse c' := by
  obtain ⟨m1, ch1, au1, no1, fo1⟩ := honest_values R.ok.wf R.ok.valid rfl rfl R.ok.l_lt hF hT
  obtain ⟨m2, ch2, au2, no2, fo2⟩ := honest_values R.ok'.wf R.ok'.valid rfl rfl R.ok'.l_lt hF' hT'
  rw [R.p] at m2 ch2 au2 no2 fo2
  have hadrs : ∀ j, htTree c.p c.t j = htTree c.p c'.t j → c'.adrs j = c.adrs j := fun j h => by
    rw [adrs, adrs, R.p, h]
  have hchain : ∀ j i s, htTree c.p c.t j = htTree c.p c'.t j → c.leaf j = c'.leaf j →
      c'.hChain j i s = c.hChain j i s := fun j i s ht hl => by
    rw [hChain, hChain, chainAdrs, chainAdrs, wotsAdrs, wotsAdrs, hadrs j ht, R.hf, hs, R.seed, hl]
  have hxmss : ∀ j i k, htTree c.p c.t j = htTree c.p c'.t j → c'.hXmss j i k = c.hXmss j i k :=
    fun j i k ht => by rw [hXmss, hXmss, hadrs j ht, R.p, R.hf, hs, R.seed]
  have hfors : ∀ i k, c.t = c'.t → c.l = c'.l → c'.hFors i k = c.hFors i k := fun i k ht hl => by
    rw [hFors, hFors, fAdrs, fAdrs, ht, hl, R.hf, hs, R.seed]
  have hmsg : ∀ j, htTree c.p c.t j = htTree c.p c'.t j → c.leaf j = c'.leaf j →
      c'.hMsg j = c.hMsg j := by
    intro j ht hl
    cases j with
    | zero =>
      have ht : c.t = c'.t := by simpa [htTree] using ht
      have hl : c.l = c'.l := hl
      rw [hMsg, hMsg, hForsPk, hForsPk, fRootsAdrs, fRootsAdrs, fAdrs, fAdrs, R.p, R.hf, R.seed, ht, hl]
      exact congrArg _ (concat_congr fun i _ => hfors i _ ht hl)
    | succ j =>
      have : htTree c.p c.t j = htTree c.p c'.t j := by
        have e : ∀ t, htTree c.p t j = htTree c.p t (j + 1) * 2 ^ c.p.hp + htTree c.p t j % 2 ^ c.p.hp := by
          intro t
          rw [htTree, htTree, Nat.mul_add, Nat.mul_one, Nat.pow_add, ← Nat.div_div_eq_div_mul,
            Nat.div_add_mod']
        have hl : htTree c.p c.t j % 2 ^ c.p.hp = htTree c.p c'.t j % 2 ^ c.p.hp := by
          rw [leaf, leaf, R.p] at hl
          exact hl
        rw [e c.t, e c'.t, ht, hl]
      rw [hMsg, hMsg, hxmss j _ _ this, R.p]
  constructor
  · rintro ⟨x, ⟨he, h⟩, ⟨-, h'⟩, hne, -⟩
    apply hne
    cases x with
    | wotsHash j t l i s =>
      obtain ⟨rfl, rfl, hs⟩ := h
      obtain ⟨ht, hl, hs'⟩ := h'
      rw [R.p] at ht
      obtain ⟨hj, -, -, hi, -⟩ := he
      simp only [seen]
      rw [ch1 j hj i hi s hs, ch2 j hj i hi s hs', hchain j i s ht hl]
    | wotsPk j t l =>
      obtain ⟨rfl, rfl⟩ := h
      obtain ⟨ht, hl⟩ := h'
      rw [R.p] at ht
      simp only [seen]
      rw [R.p]
      refine concat_congr fun i hi => ?_
      rw [ch1 j he.1 i hi _ (c.vDigit_le j i), ch2 j he.1 i hi _ (c'.vDigit_le j i), hchain j i _ ht hl]
    | tree j t k i =>
      obtain ⟨rfl, rfl⟩ := h
      obtain ⟨ht, hl⟩ := h'
      rw [R.p] at ht
      obtain ⟨hj, -, h1, h2, -⟩ := he
      obtain ⟨k, rfl⟩ : ∃ u, k = u + 1 := ⟨k - 1, by omega⟩
      have e : c.leaf j / 2 ^ k / 2 = c'.leaf j / 2 ^ k / 2 := by
        rw [Nat.div_div_eq_div_mul, Nat.div_div_eq_div_mul, ← Nat.pow_succ]; exact hl
      simp only [seen, Nat.add_sub_cancel]
      rw [no1 j hj k (by omega), no2 j hj k (by omega), au1 j hj k (by omega), au2 j hj k (by omega),
        children_node (c.leaf j / 2 ^ k) (fun x => c.hXmss j x k),
        children_node (c'.leaf j / 2 ^ k) (fun x => c'.hXmss j x k), hxmss j _ _ ht, hxmss j _ _ ht, e]
    | forsTree t l k x =>
      obtain ⟨rfl, rfl, i, hi, rfl⟩ := h
      obtain ⟨ht, hl, i', hi', hx⟩ := h'
      have hk : k ≤ c.p.a := he.2.2.1
      have e1 := fLeaf_div c i hk
      have e2 := fLeaf_div c' i' (k := k) (by rw [R.p]; exact hk)
      rw [← hx, R.p, e1] at e2
      subst e2
      obtain ⟨f1, f2, f3⟩ := fo1 i hi
      obtain ⟨g1, g2, g3⟩ := fo2 i hi
      cases k with
      | zero =>
        rw [Nat.pow_zero, Nat.div_one, Nat.div_one] at hx
        simp only [seen, Nat.pow_zero, Nat.div_one]
        rw [fLeaf_top, hx, fLeaf_top, f1, g1, hSecret, hSecret, fAdrs, fAdrs, hs, R.hf, R.seed, ht, hl, hx]
      | succ k =>
        rw [seen_fors c _ _ i (by omega), hx, seen_fors c' _ _ i (by rw [R.p]; omega)]
        have e : c.fLeaf i / 2 ^ k / 2 = c'.fLeaf i / 2 ^ k / 2 := by
          rw [Nat.div_div_eq_div_mul, Nat.div_div_eq_div_mul, ← Nat.pow_succ]; exact hx
        rw [f2 k (by omega), g2 k (by omega), f3 k (by omega), g3 k (by omega),
          children_node (c.fLeaf i / 2 ^ k) (fun x => c.hFors x k),
          children_node (c'.fLeaf i / 2 ^ k) (fun x => c'.hFors x k), hfors _ _ ht hl, hfors _ _ ht hl, e]
    | forsRoots t l =>
      obtain ⟨rfl, rfl⟩ := h
      obtain ⟨ht, hl⟩ := h'
      simp only [seen]
      rw [R.p]
      refine concat_congr fun i hi => ?_
      rw [(fo1 i hi).2.2 _ (Nat.le_refl _), (fo2 i hi).2.2 _ (Nat.le_refl _), hfors _ _ ht hl, fLeaf_top,
        ← R.p, fLeaf_top]
    | wotsPrf => exact h.elim
    | forsPrf => exact h.elim
  · rintro ⟨j, hj, ht, hl, hne, -⟩
    exact hne (by rw [m1 j (by omega), m2 j (by omega), hmsg j ht hl])

variable (R : Pair c c' m)
include R

theorem Pair.step {x : Place} (h : verifyPlaces c x) (h' : verifyPlaces c' x)
    (e : hashAt c.hf c.PKseed x (c.seen x) = hashAt c.hf c.PKseed x (c'.seen x)) : c.seen x = c'.seen x := by
  exact R.toLike.step R.coll h h' e

omit R in
theorem half {x x' k : Nat} (h : x / 2 ^ k = x' / 2 ^ k) : x / 2 ^ (k + 1) = x' / 2 ^ (k + 1) := by
  rw [Nat.pow_succ, ← Nat.div_div_eq_div_mul, ← Nat.div_div_eq_div_mul, h]

omit R in
theorem Ok.xmss_length (o : c.Ok m) (j k : Nat) : (c.vXmss j k).length = c.p.n :=
  climb_length o.valid (o.valid.T _ _ _) _

omit R in
theorem Ok.forsNode_length (o : c.Ok m) (i k : Nat) : (c.vFors i k).length = c.p.n :=
  climb_length o.valid (o.valid.F _ _ _) _

/-- The parents both compute have the same children. -/
theorem Pair.children {j k : Nat} (hj : j < c.p.d) (hk : k < c.p.hp)
    (ht : htTree c.p c.t j = htTree c.p c'.t j)
    (hl : c.leaf j / 2 ^ (k + 1) = c'.leaf j / 2 ^ (k + 1))
    (h : c.vXmss j (k + 1) = c'.vXmss j (k + 1)) :
    children (c.leaf j / 2 ^ k) (c.vXmss j k) (c.vAuth j k) =
      children (c'.leaf j / 2 ^ k) (c'.vXmss j k) (c'.vAuth j k) := by
  have h1 := place_tree R.ok hj hk
  have h2 := place_tree R.ok' (j := j) (k := k) (by rw [R.p]; exact hj) (by rw [R.p]; exact hk)
  rw [R.p, ← ht, ← hl] at h2
  rw [tree_value R.ok j hk, tree_value R.ok' j (by rw [R.p]; exact hk), R.hf, R.seed, R.p, ← ht, ← hl] at h
  exact R.step h1 h2 h

/-- In a tree that both use, the nodes both compute are the same. -/
theorem Pair.xmss {j : Nat} (hj : j < c.p.d) (ht : htTree c.p c.t j = htTree c.p c'.t j)
    (hm : c.vMsg (j + 1) = c'.vMsg (j + 1)) : ∀ r ≤ c.p.hp,
    c.leaf j / 2 ^ (c.p.hp - r) = c'.leaf j / 2 ^ (c.p.hp - r) →
    c.vXmss j (c.p.hp - r) = c'.vXmss j (c.p.hp - r) := by
  intro r
  induction r with
  | zero =>
    intro _ _
    rw [vMsg_succ, vMsg_succ, R.p] at hm
    exact hm
  | succ r ih =>
    intro hr hl
    obtain ⟨k, hk⟩ : ∃ k, k = c.p.hp - (r + 1) := ⟨_, rfl⟩
    have e : c.p.hp - r = k + 1 := by omega
    rw [← hk] at hl ⊢
    rw [e] at ih
    have := R.children hj (k := k) (by omega) ht (half hl) (ih (by omega) (half hl))
    rw [← hl] at this
    refine (children_inj ?_ ?_ this).1
    · rw [R.ok.xmss_length, R.ok'.xmss_length, R.p]
    · rw [R.ok.auth_length hj (by omega), R.ok'.auth_length (by rw [R.p]; exact hj) (by rw [R.p]; omega), R.p]

theorem Pair.xmss' {j k : Nat} (hj : j < c.p.d) (ht : htTree c.p c.t j = htTree c.p c'.t j)
    (hm : c.vMsg (j + 1) = c'.vMsg (j + 1)) (hk : k ≤ c.p.hp) (hl : c.leaf j / 2 ^ k = c'.leaf j / 2 ^ k) :
    c.vXmss j k = c'.vXmss j k := by
  have := R.xmss hj ht hm (c.p.hp - k) (by omega)
  rw [show c.p.hp - (c.p.hp - k) = k by omega] at this
  exact this hl

/-- In a one-time key that both use, the ends of the chains are the same, and so is what it signs. -/
theorem Pair.wots {j : Nat} (hj : j < c.p.d) (ht : htTree c.p c.t j = htTree c.p c'.t j)
    (hl : c.leaf j = c'.leaf j) (hm : c.vMsg (j + 1) = c'.vMsg (j + 1)) :
    (∀ i < c.p.len, c.vChain j i (w - 1) = c'.vChain j i (w - 1)) ∧ c.vMsg j = c'.vMsg j := by
  have hj' : j < c'.p.d := by rw [R.p]; exact hj
  have h0 := R.xmss' hj ht hm (Nat.zero_le _) (by rw [hl])
  have h1 := place_wotsPk R.ok hj
  have h2 := place_wotsPk R.ok' hj'
  rw [R.p, ← ht, ← hl] at h2
  rw [wotsPk_value R.ok, wotsPk_value R.ok', R.hf, R.seed, R.p, ← ht, ← hl] at h0
  have h3 := R.step h1 h2 h0
  simp only [seen] at h3
  rw [R.p] at h3
  have hends := concat_inj (n := c.p.n)
    (fun i hi => chain_length R.ok.valid (R.ok.wots_length hj hi) _ _ _ _)
    (fun i hi => by
      have := chain_length R.ok'.valid (R.ok'.wots_length hj' (by rw [R.p]; exact hi)) (c'.vDigit j i)
        (w - 1 - c'.vDigit j i) c'.PKseed (c'.chainAdrs j i)
      rw [R.p] at this
      exact this) h3
  refine ⟨hends, ?_⟩
  by_contra hne
  exact R.reuse ⟨j, hj, ht, hl, hne, hends⟩

omit R in
theorem htTree_succ (p : Params) (t j : Nat) : htTree p t (j + 1) = htTree p t j / 2 ^ p.hp := by
  rw [htTree, htTree, Nat.mul_add, Nat.mul_one, Nat.pow_add, Nat.div_div_eq_div_mul]

/-- Going down the layers. -/
theorem Pair.msgs : ∀ r ≤ c.p.d, (0 < r → htTree c.p c.t (c.p.d - r) = htTree c.p c'.t (c.p.d - r) ∧
      c.leaf (c.p.d - r) = c'.leaf (c.p.d - r)) → c.vMsg (c.p.d - r) = c'.vMsg (c.p.d - r) := by
  intro r
  induction r with
  | zero => intro _ _; exact R.root
  | succ r ih =>
    intro hr h
    obtain ⟨ht, hl⟩ := h (by omega)
    have e : c.p.d - r = c.p.d - (r + 1) + 1 := by omega
    have hm := ih (by omega) fun _ => by
      rw [e, htTree_succ, htTree_succ, ht]
      refine ⟨rfl, ?_⟩
      simp only [leaf, htLeaf]
      rw [R.p, ht]
    rw [e] at hm
    exact (R.wots (by omega) ht hl hm).2

theorem Pair.above {j : Nat} (hj : j < c.p.d) (ht : htTree c.p c.t j = htTree c.p c'.t j) :
    c.vMsg (j + 1) = c'.vMsg (j + 1) := by
  have := R.msgs (c.p.d - (j + 1)) (by omega)
  rw [show c.p.d - (c.p.d - (j + 1)) = j + 1 by omega] at this
  refine this fun _ => ?_
  rw [htTree_succ, htTree_succ, ht]
  refine ⟨rfl, ?_⟩
  simp only [leaf, htLeaf]
  rw [R.p, ht]

/-- The common part of a chain. -/
theorem Pair.chain {j i : Nat} (hj : j < c.p.d) (hi : i < c.p.len)
    (ht : htTree c.p c.t j = htTree c.p c'.t j) (hl : c.leaf j = c'.leaf j) :
    ∀ r ≤ 15, c.vDigit j i ≤ 15 - r → c'.vDigit j i ≤ 15 - r →
      c.vChain j i (15 - r) = c'.vChain j i (15 - r) :=
  R.toLike.chain R.coll hj hi ht hl ((R.wots hj ht hl (R.above hj ht)).1 i hi)

/-! ### FORS -/

theorem Pair.forsRoots (ht : c.t = c'.t) (hl : c.l = c'.l) :
    ∀ i < c.p.k, c.vFors i c.p.a = c'.vFors i c.p.a := by
  have hd := R.ok.wf.d_pos
  have h0 := (R.wots hd (by rw [ht]) (by simp only [leaf, htLeaf]; exact hl) (R.above hd (by rw [ht]))).2
  have p1 := place_forsRoots R.ok
  have p2 := place_forsRoots R.ok'
  rw [← ht, ← hl] at p2
  rw [forsRoots_value R.ok, forsRoots_value R.ok', R.hf, R.seed, ← ht, ← hl] at h0
  have h3 := R.step p1 p2 h0
  simp only [seen] at h3
  rw [R.p] at h3
  exact concat_inj (n := c.p.n) (fun i _ => R.ok.forsNode_length _ _)
    (fun i _ => by rw [R.ok'.forsNode_length, R.p]) h3

theorem Pair.forsChildren {i k : Nat} (ht : c.t = c'.t) (hl : c.l = c'.l) (hi : i < c.p.k) (hk : k < c.p.a)
    (hx : c.fLeaf i / 2 ^ (k + 1) = c'.fLeaf i / 2 ^ (k + 1)) (h : c.vFors i (k + 1) = c'.vFors i (k + 1)) :
    Attempt.children (c.fLeaf i / 2 ^ k) (c.vFors i k) (c.vForsAuth i k) =
      Attempt.children (c'.fLeaf i / 2 ^ k) (c'.vFors i k) (c'.vForsAuth i k) := by
  have hk' : k < c'.p.a := by rw [R.p]; exact hk
  have hi' : i < c'.p.k := by rw [R.p]; exact hi
  have p1 := place_fors R.ok hi (k := k + 1) hk
  have p2 := place_fors R.ok' hi' (k := k + 1) hk'
  rw [← ht, ← hl, ← hx] at p2
  rw [forsNode_value R.ok hi hk, forsNode_value R.ok' hi' hk', R.hf, R.seed, ← ht, ← hl, ← hx] at h
  have := R.step p1 p2
  rw [seen_fors c _ _ i hk, hx, seen_fors c' _ _ i hk', ← hx] at this
  exact this h

theorem Pair.fors {i : Nat} (ht : c.t = c'.t) (hl : c.l = c'.l) (hi : i < c.p.k) : ∀ r ≤ c.p.a,
    c.fLeaf i / 2 ^ (c.p.a - r) = c'.fLeaf i / 2 ^ (c.p.a - r) →
    c.vFors i (c.p.a - r) = c'.vFors i (c.p.a - r) := by
  intro r
  induction r with
  | zero => intro _ _; exact R.forsRoots ht hl i hi
  | succ r ih =>
    intro hr hx
    obtain ⟨k, hk⟩ : ∃ k, k = c.p.a - (r + 1) := ⟨_, rfl⟩
    have e : c.p.a - r = k + 1 := by omega
    rw [← hk] at hx ⊢
    rw [e] at ih
    have := R.forsChildren ht hl hi (k := k) (by omega) (half hx) (ih (by omega) (half hx))
    rw [← hx] at this
    refine (children_inj ?_ ?_ this).1
    · rw [R.ok.forsNode_length, R.ok'.forsNode_length, R.p]
    · rw [(R.ok.fors_slice hi).2.1 k (by omega),
        (R.ok'.fors_slice (by rw [R.p]; exact hi)).2.1 k (by rw [R.p]; omega), R.p]

theorem Pair.fors' {i k : Nat} (ht : c.t = c'.t) (hl : c.l = c'.l) (hi : i < c.p.k) (hk : k ≤ c.p.a)
    (hx : c.fLeaf i / 2 ^ k = c'.fLeaf i / 2 ^ k) : c.vFors i k = c'.vFors i k := by
  have := R.fors ht hl hi (c.p.a - k) (by omega)
  rw [show c.p.a - (c.p.a - k) = k by omega] at this
  exact this hx

theorem Pair.secret {i : Nat} (ht : c.t = c'.t) (hl : c.l = c'.l) (hi : i < c.p.k)
    (hx : c.fLeaf i = c'.fLeaf i) : c.vSecret i = c'.vSecret i := by
  have h := R.fors' ht hl hi (Nat.zero_le _) (by rw [hx])
  have p1 := place_fors R.ok hi (k := 0) (by omega)
  have p2 := place_fors R.ok' (i := i) (by rw [R.p]; exact hi) (k := 0) (by omega)
  rw [Nat.pow_zero, Nat.div_one] at p1 p2
  rw [← ht, ← hl, ← hx] at p2
  rw [forsLeaf_value, forsLeaf_value, R.hf, R.seed, ← ht, ← hl, ← hx] at h
  have := R.step p1 p2
  have e1 : c.seen (.forsTree c.t c.l 0 (c.fLeaf i)) = c.vSecret i := by
    rw [seen, fLeaf_top]
  have e2 : c'.seen (.forsTree c.t c.l 0 (c.fLeaf i)) = c'.vSecret i := by
    rw [seen, hx, fLeaf_top]
  rw [e1, e2] at this
  exact this h

/-- Two verifications of one public key see the same at every place both visit. -/
theorem Pair.same {x : Place} (h : verifyPlaces c x) (h' : verifyPlaces c' x) : c.seen x = c'.seen x := by
  obtain ⟨he, h⟩ := h
  obtain ⟨he', h'⟩ := h'
  cases x with
  | wotsHash j t l i s =>
    obtain ⟨rfl, rfl, hs⟩ := h
    obtain ⟨ht, hl, hs'⟩ := h'
    rw [R.p] at ht
    obtain ⟨hj, -, -, hi, hs15⟩ := he
    have := R.chain hj hi ht hl (15 - s) (by omega)
    rw [show 15 - (15 - s) = s by omega] at this
    exact this hs hs'
  | wotsPk j t l =>
    obtain ⟨rfl, rfl⟩ := h
    obtain ⟨ht, hl⟩ := h'
    rw [R.p] at ht
    simp only [seen]
    rw [R.p]
    exact concat_congr (R.wots he.1 ht hl (R.above he.1 ht)).1
  | tree j t k i =>
    obtain ⟨rfl, rfl⟩ := h
    obtain ⟨ht, hl⟩ := h'
    rw [R.p] at ht
    obtain ⟨hj, -, h1, h2, -⟩ := he
    obtain ⟨k, rfl⟩ : ∃ u, k = u + 1 := ⟨k - 1, by omega⟩
    exact R.children hj (by omega) ht hl (R.xmss' hj ht (R.above hj ht) h2 hl)
  | forsTree t l k x =>
    obtain ⟨rfl, rfl, i, hi, rfl⟩ := h
    obtain ⟨ht, hl, i', hi', hx⟩ := h'
    have hk : k ≤ c.p.a := he.2.2.1
    have e1 := fLeaf_div c i hk
    have e2 := fLeaf_div c' i' (k := k) (by rw [R.p]; exact hk)
    rw [← hx, R.p, e1] at e2
    subst e2
    cases k with
    | zero =>
      rw [Nat.pow_zero, Nat.div_one, Nat.div_one] at hx
      have := R.secret ht hl hi hx
      simp only [seen, Nat.pow_zero, Nat.div_one]
      rw [fLeaf_top, hx, fLeaf_top]
      exact this
    | succ k =>
      have := R.forsChildren ht hl hi (k := k) (by omega) hx (R.fors' ht hl hi hk hx)
      rw [seen_fors c _ _ i (by omega), hx, seen_fors c' _ _ i (by rw [R.p]; omega)]
      exact this
  | forsRoots t l =>
    obtain ⟨rfl, rfl⟩ := h
    obtain ⟨ht, hl⟩ := h'
    simp only [seen]
    rw [R.p]
    exact concat_congr (R.forsRoots ht hl)
  | wotsPrf => exact h.elim
  | forsPrf => exact h.elim

/-- The same digest gives the same signature. -/
theorem Pair.unique (hmd : c.md = c'.md) (ht : c.t = c'.t) (hl : c.l = c'.l) :
    c.SIGfors = c'.SIGfors ∧ c.SIGht = c'.SIGht := by
  have hx : ∀ i, c.fLeaf i = c'.fLeaf i := fun i => by rw [fLeaf, fLeaf, fDigit, fDigit, R.p, hmd]
  have hleaf : ∀ j, c.leaf j = c'.leaf j := fun j => by rw [leaf, leaf, R.p, ht, hl]
  constructor
  · have hall : ∀ {c : Attempt}, c.Ok m → c.SIGfors = concat c.p.k fun i =>
        c.vSecret i ++ concat c.p.a fun k => c.vForsAuth i k := fun {c} o => by
      have : c.SIGfors = concat c.p.k fun i =>
          slice c.SIGfors (i * ((c.p.a + 1) * c.p.n)) ((i + 1) * ((c.p.a + 1) * c.p.n)) := by
        rw [concat_slice, ← o.fors, slice_all]
      rw [this]
      exact concat_congr fun i hi => (o.fors_slice hi).2.2
    rw [hall R.ok, hall R.ok', R.p]
    refine concat_congr fun i hi => congrArg₂ _ (R.secret ht hl hi (hx i)) (concat_congr fun k hk => ?_)
    have := R.forsChildren ht hl hi hk (by rw [hx]) (R.fors' ht hl hi hk (by rw [hx]))
    rw [← hx] at this
    refine (children_inj ?_ ?_ this).2
    · rw [R.ok.forsNode_length, R.ok'.forsNode_length, R.p]
    · rw [(R.ok.fors_slice hi).2.1 k (by omega),
        (R.ok'.fors_slice (by rw [R.p]; exact hi)).2.1 k (by rw [R.p]; omega), R.p]
  · have hall : ∀ {c : Attempt}, c.Ok m → c.SIGht = concat c.p.d c.vLayer := fun {c} o => by
      have := concat_slice c.SIGht c.p.d c.p.xmssLen
      rw [← o.ht, slice_all] at this
      exact this.symm
    rw [hall R.ok, hall R.ok', R.p]
    refine concat_congr fun j hj => ?_
    have hj' : j < c'.p.d := by rw [R.p]; exact hj
    have hlay : ∀ {c : Attempt}, c.Ok m → j < c.p.d → c.vLayer j = (concat c.p.len fun i => c.vWots j i) ++
        concat c.p.hp fun k => c.vAuth j k := fun {c} o hj => by
      have hl := o.layer_length hj
      have hle : c.p.len * c.p.n ≤ (c.p.len + c.p.hp) * c.p.n := Nat.mul_le_mul_right _ (by omega)
      have e1 : c.vLayer j = slice (c.vLayer j) 0 (c.p.len * c.p.n) ++
          slice (c.vLayer j) (c.p.len * c.p.n) ((c.p.len + c.p.hp) * c.p.n) := by
        rw [slice_append_slice _ (by omega) hle, ← hl, slice_all]
      conv_lhs => rw [e1]
      refine congrArg₂ _ ?_ ?_
      · simp only [vWots]
        rw [concat_slice, slice_slice _ (by omega), Nat.zero_add, Nat.zero_add]
      · have e3 : c.p.len * c.p.n + c.p.hp * c.p.n = (c.p.len + c.p.hp) * c.p.n := (Nat.add_mul _ _ _).symm
        simp only [vAuth]
        rw [concat_slice, slice_slice _ (by omega), Nat.add_zero, e3]
    rw [hlay R.ok hj, hlay R.ok' hj', R.p]
    have htj : htTree c.p c.t j = htTree c.p c'.t j := by rw [ht]
    have hab := R.above hj htj
    have hm := (R.wots hj htj (hleaf j) hab).2
    have hdig : ∀ i, c.vDigit j i = c'.vDigit j i := fun i => by rw [vDigit, vDigit, hm, R.p]
    refine congrArg₂ _ (concat_congr fun i hi => ?_) (concat_congr fun k hk => ?_)
    · have hle : c.vDigit j i ≤ 15 := c.vDigit_le j i
      have := R.chain hj hi htj (hleaf j) (15 - c.vDigit j i) (by omega)
      rw [show 15 - (15 - c.vDigit j i) = c.vDigit j i by omega] at this
      have := this (by omega) (by rw [hdig])
      rwa [vChain_digit, hdig, vChain_digit] at this
    · have := R.children hj hk htj (by rw [hleaf]) (R.xmss' hj htj hab hk (by rw [hleaf]))
      rw [← hleaf] at this
      refine (children_inj ?_ ?_ this).2
      · rw [R.ok.xmss_length, R.ok'.xmss_length, R.p]
      · rw [R.ok.auth_length hj hk, R.ok'.auth_length hj' (by rw [R.p]; exact hk), R.p]

end Fips205.Spec.Attempt

namespace Fips205.Spec
variable {p : Params} {hf : HashFns} {m : Nat}

/-- The parts of a string of the length of a signature. -/
theorem attempt_ok (W : p.WF) (V : Valid hf p.n m) (hn : p.n ≤ 128)
    {M SIG SKseed PKseed PKroot : Bytes} (hlen : SIG.length = p.sigLen) :
    let c := attempt p hf M SIG SKseed PKseed PKroot
    c.Ok m ∧ SIG = slice SIG 0 p.n ++ c.SIGfors ++ c.SIGht := by
  generalize hc : attempt p hf M SIG SKseed PKseed PKroot = c
  have hcp : c.p = p := by rw [← hc]; rfl
  have hch : c.hf = hf := by rw [← hc]; rfl
  have hsl : p.sigLen = p.n + p.k * ((p.a + 1) * p.n) + p.d * p.xmssLen := by
    rw [Params.sigLen, Params.xmssLen, W.h_eq]; ring
  have e1 : (1 + p.k * (1 + p.a)) * p.n = p.n + p.k * ((p.a + 1) * p.n) := by ring
  have e2 : (1 + p.k * (1 + p.a) + p.h + p.d * p.len) * p.n = p.sigLen := rfl
  have hcf : c.SIGfors = slice SIG p.n (p.n + p.k * ((p.a + 1) * p.n)) := by rw [← hc, ← e1]; rfl
  have hct : c.SIGht = slice SIG (p.n + p.k * ((p.a + 1) * p.n)) p.sigLen := by
    rw [← hc, ← e1, ← e2]; rfl
  refine ⟨?_, ?_⟩
  · constructor
    · rw [hcp]; exact W
    · rw [hcp, hch]; exact V
    · rw [hcp]; exact hn
    · rw [hcf, hcp, slice_length (by omega)]; omega
    · rw [hct, hcp, slice_length (by omega)]; omega
    · have := digestTree_lt (p := p) (hf.Hmsg (slice SIG 0 p.n) PKseed PKroot M)
      rw [W.hd] at this
      rw [← hc]; exact this
    · have := digestLeaf_lt (p := p) (hf.Hmsg (slice SIG 0 p.n) PKseed PKroot M)
      rw [W.hd] at this
      rw [← hc]; exact this
  · rw [hcf, hct, slice_append_slice _ (by omega) (by omega), slice_append_slice _ (by omega) (by omega),
      ← hlen, slice_all]

/-- What acceptance means for the values the verifier computes. -/
theorem attempt_accepts (M SIG SKseed PKseed PKroot : Bytes) :
    verifyInternal p hf M SIG PKseed PKroot = true ↔ SIG.length = p.sigLen ∧
      (attempt p hf M SIG SKseed PKseed PKroot).vMsg p.d = PKroot := by
  rw [verifyInternal]
  split
  · rename_i hlen
    refine ⟨nofun, fun h => absurd h.1 hlen⟩
  · rename_i hlen
    have hlen : SIG.length = p.sigLen := by omega
    dsimp only
    rw [htVerify_eq, beq_iff_eq, and_iff_right hlen]
    rfl

/-- Two acceptances by one public key. -/
theorem attempt_like (W : p.WF) (V : Valid hf p.n m) (hn : p.n ≤ 128) {M SIG M' SIG' : Bytes}
    {PKseed PKroot : Bytes} (h : verifyInternal p hf M SIG PKseed PKroot = true)
    (h' : verifyInternal p hf M' SIG' PKseed PKroot = true) (SKseed : Bytes) :
    let c := attempt p hf M SIG SKseed PKseed PKroot
    let c' := attempt p hf M' SIG' SKseed PKseed PKroot
    c.Like c' m ∧ (c.Collision c' ∨ c.Reuse c' ∨ c.Pair c' m) := by
  obtain ⟨l1, r1⟩ := (attempt_accepts M SIG SKseed PKseed PKroot).mp h
  obtain ⟨l2, r2⟩ := (attempt_accepts M' SIG' SKseed PKseed PKroot).mp h'
  have L : (attempt p hf M SIG SKseed PKseed PKroot).Like (attempt p hf M' SIG' SKseed PKseed PKroot) m :=
    ⟨(attempt_ok W V hn l1).1, (attempt_ok W V hn l2).1, rfl, rfl, rfl⟩
  refine ⟨L, ?_⟩
  by_cases hc : (attempt p hf M SIG SKseed PKseed PKroot).Collision (attempt p hf M' SIG' SKseed PKseed PKroot)
  · exact .inl hc
  by_cases hr : (attempt p hf M SIG SKseed PKseed PKroot).Reuse (attempt p hf M' SIG' SKseed PKseed PKroot)
  · exact .inr (.inl hr)
  exact .inr (.inr ⟨L, r1.trans r2.symm, hc, hr⟩)

end Fips205.Spec
