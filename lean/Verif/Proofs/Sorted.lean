import Verif.Proofs.Congr

/-!
# The order in which a verification is computed

If a hash whose value is part of the argument of another one was computed before it, then all hashes of a layer were
computed before any time before which its root was.
-/

namespace Fips205
open Spec

/-- `r` is in `z`, followed by at most `J - 1` blocks of `n` bytes. -/
def Inside (n J : Nat) (r z : Bytes) : Prop := ∃ u v j, z = u ++ r ++ v ∧ j < J ∧ v.length = n * j

theorem Inside.self {n J : Nat} (hJ : 0 < J) (r : Bytes) : Inside n J r r :=
  ⟨[], [], 0, by simp, hJ, rfl⟩

theorem Inside.concat {n J N : Nat} {g : Nat → Bytes} (hg : ∀ i < N, (g i).length = n) (hN : N ≤ J) {i : Nat}
    (hi : i < N) : Inside n J (g i) (concat N g) := by
  induction N generalizing J with
  | zero => omega
  | succ N ih =>
    rw [concat_succ]
    by_cases e : i = N
    · exact ⟨Spec.concat N g, [], 0, by rw [e, List.append_nil], by omega, rfl⟩
    · obtain ⟨u, v, j, h1, h2, h3⟩ := ih (J := J - 1) (fun i hi => hg i (by omega)) (by omega) (by omega)
      refine ⟨u, v ++ g N, j + 1, ?_, by omega, ?_⟩
      · rw [h1, List.append_assoc]
      · rw [List.length_append, h3, hg N (by omega), Nat.mul_succ]

theorem Inside.children {n J x : Nat} {a b : Bytes} (hJ : 1 < J) (hb : b.length = n) :
    Inside n J a (Attempt.children x a b) := by
  rw [Attempt.children]
  split
  · exact ⟨[], b, 1, by rw [List.nil_append], hJ, by rw [Nat.mul_one, hb]⟩
  · exact ⟨b, [], 0, by rw [List.append_nil], by omega, rfl⟩

namespace Ask
variable {α β : Type} {h : Place → Bytes → Bytes} {I : Place × Bytes → Nat} {n J : Nat} {A : Place × Bytes → Prop}

/-- Before any time before which `r` was computed, all the hashes `l` were. -/
def Sorted (h : Place → Bytes → Bytes) (I : Place × Bytes → Nat) (l : List (Place × Bytes)) (r : Bytes) : Prop :=
  ∀ T, (∀ q ∈ l, h q.1 q.2 = r → I q < T) → ∀ q ∈ l, I q < T

theorem Sorted.nil (r : Bytes) : Sorted h I [] r := fun _ _ _ hq => nomatch hq

/-- What holds for the hashes of a key. -/
def Late (h : Place → Bytes → Bytes) (I : Place × Bytes → Nat) (n J : Nat) (A : Place × Bytes → Prop) : Prop :=
  ∀ q q', A q → A q' → Inside n J (h q.1 q.2) q'.2 → I q < I q'

theorem Sorted.step (hI : Late h I n J A) {l : List (Place × Bytes)} {r : Bytes} (hl : Sorted h I l r) {x : Place}
    {z : Bytes} (hz : Inside n J r z) (hA : ∀ q ∈ l ++ [(x, z)], A q) : Sorted h I (l ++ [(x, z)]) (h x z) := by
  intro T hT q hq
  have h0 : I (x, z) < T := hT _ (List.mem_append_right _ (List.mem_singleton_self _)) rfl
  rcases List.mem_append.mp hq with hq | hq
  · refine lt_trans (hl (I (x, z)) (fun q hq e => ?_) q hq) h0
    exact hI _ _ (hA _ (List.mem_append_left _ hq)) (hA _ (List.mem_append_right _ (List.mem_singleton_self _)))
      (e ▸ hz)
  · rw [List.mem_singleton.mp hq]
    exact h0

theorem mem_concat_iff {N : Nat} {f : Nat → Ask Bytes} {q : Place × Bytes} :
    q ∈ (concat N f).asked h ↔ ∃ i < N, q ∈ (f i).asked h := by
  refine ⟨fun hq => ?_, fun ⟨i, hi, hq⟩ => mem_concat hi hq⟩
  induction N with
  | zero => cases hq
  | succ N ih =>
    rw [concat, asked_bind, asked_bind, List.mem_append, List.mem_append] at hq
    rcases hq with hq | hq | hq
    · obtain ⟨i, hi, hq⟩ := ih hq
      exact ⟨i, by omega, hq⟩
    · exact ⟨N, by omega, hq⟩
    · cases hq

theorem Sorted.concat (hI : Late h I n J A) {N : Nat} (hN : N ≤ J) {f : Nat → Ask Bytes}
    (hl : ∀ i < N, Sorted h I ((f i).asked h) ((f i).eval h)) (hg : ∀ i < N, ((f i).eval h).length = n) {x : Place}
    (hA : ∀ q ∈ (Ask.concat N f).asked h ++ [(x, (Ask.concat N f).eval h)], A q) :
    Sorted h I ((Ask.concat N f).asked h ++ [(x, (Ask.concat N f).eval h)]) (h x ((Ask.concat N f).eval h)) := by
  have hx : (x, (Ask.concat N f).eval h) ∈ (Ask.concat N f).asked h ++ [(x, (Ask.concat N f).eval h)] :=
    List.mem_append_right _ (List.mem_singleton_self _)
  intro T hT q hq
  have h0 := hT _ hx rfl
  rcases List.mem_append.mp hq with hq | hq
  · obtain ⟨i, hi, hq⟩ := mem_concat_iff.mp hq
    refine lt_trans (hl i hi (I (x, (Ask.concat N f).eval h)) (fun q hq e => ?_) q hq) h0
    refine hI _ _ (hA _ (List.mem_append_left _ (mem_concat hi hq))) (hA _ hx) ?_
    rw [e]
    change Inside n J _ ((Ask.concat N f).eval h)
    rw [eval_concat]
    exact Inside.concat (g := fun i => (f i).eval h) hg hN hi
  · rw [List.mem_singleton.mp hq]
    exact h0

section
variable (hlen : ∀ x z, (h x z).length = n)
include hlen

theorem chain_length (j t l i d : Nat) {X : Bytes} (hX : X.length = n) (s : Nat) :
    ((chain j t l i d X s).eval h).length = n := by
  cases s with
  | zero => exact hX
  | succ s => rw [chain, eval_bind]; exact hlen _ _

theorem climb_length (x : Nat → Place) (T : Nat) (AUTH : Nat → Bytes) {node : Bytes} (hX : node.length = n) (s : Nat) :
    ((climb x T AUTH node s).eval h).length = n := by
  cases s with
  | zero => exact hX
  | succ s => rw [climb, eval_bind]; exact hlen _ _

end

theorem chain_asked (j t l i d : Nat) (X : Bytes) (s : Nat) : (chain j t l i d X (s + 1)).asked h =
    (chain j t l i d X s).asked h ++ [(.wotsHash j t l i (d + s), (chain j t l i d X s).eval h)] := by
  rw [chain, asked_bind]
  rfl

theorem chain_eval (j t l i d : Nat) (X : Bytes) (s : Nat) : (chain j t l i d X (s + 1)).eval h =
    h (.wotsHash j t l i (d + s)) ((chain j t l i d X s).eval h) := by
  rw [chain, eval_bind]
  rfl

theorem Sorted.chain (hI : Late h I n J A) (hJ : 0 < J) (j t l i d : Nat) (X : Bytes) (s : Nat)
    (hA : ∀ q ∈ (chain j t l i d X s).asked h, A q) :
    Sorted h I ((Ask.chain j t l i d X s).asked h) ((Ask.chain j t l i d X s).eval h) := by
  induction s with
  | zero => exact .nil _
  | succ s ih =>
    rw [chain_asked] at hA ⊢
    rw [chain_eval]
    exact .step hI (ih fun q hq => hA q (List.mem_append_left _ hq)) (.self hJ _) hA

theorem climb_asked (x : Nat → Place) (T : Nat) (AUTH : Nat → Bytes) (node : Bytes) (k : Nat) :
    (climb x T AUTH node (k + 1)).asked h = (climb x T AUTH node k).asked h ++
      [(x (k + 1), Attempt.children (T / 2 ^ k) ((climb x T AUTH node k).eval h) (AUTH k))] := by
  rw [climb, asked_bind]
  rfl

theorem climb_eval (x : Nat → Place) (T : Nat) (AUTH : Nat → Bytes) (node : Bytes) (k : Nat) :
    (climb x T AUTH node (k + 1)).eval h =
      h (x (k + 1)) (Attempt.children (T / 2 ^ k) ((climb x T AUTH node k).eval h) (AUTH k)) := by
  rw [climb, eval_bind]
  rfl

theorem Sorted.climb (hI : Late h I n J A) (hJ : 1 < J) (x : Nat → Place) (T : Nat) (AUTH : Nat → Bytes) (node : Bytes)
    {l : List (Place × Bytes)} (hl : Sorted h I l node) (k : Nat) (hk : ∀ i < k, (AUTH i).length = n)
    (hA : ∀ q ∈ l ++ (climb x T AUTH node k).asked h, A q) :
    Sorted h I (l ++ (Ask.climb x T AUTH node k).asked h) ((Ask.climb x T AUTH node k).eval h) := by
  induction k with
  | zero =>
    rw [show (Ask.climb x T AUTH node 0).asked h = [] from rfl, List.append_nil]
    exact hl
  | succ k ih =>
    rw [climb_asked, ← List.append_assoc] at hA ⊢
    rw [climb_eval]
    exact .step hI (ih (fun i hi => hk i (by omega)) fun q hq => hA q (List.mem_append_left _ hq))
      (.children hJ (hk k (by omega))) hA

/-- The hashes of a WOTS+ signature, without the last. -/
def wots (p : Params) (j t l : Nat) (X : Nat → Bytes) (M : Bytes) : Ask Bytes :=
  concat p.len fun i => chain j t l i ((wotsDigits p M).getD i 0) (X i) (15 - (wotsDigits p M).getD i 0)

end Ask

namespace Spec.Attempt
variable {c : Attempt} {m : Nat} {I : Place × Bytes → Nat} {J : Nat} {A : Place × Bytes → Prop}

theorem layerP_asked (j : Nat) (M : Bytes) {h : Place → Bytes → Bytes} {x : Place}
    (hx : x = .wotsPk j (htTree c.p c.t j) (c.leaf j)) {a : Ask Bytes}
    (ha : a = Ask.wots c.p j (htTree c.p c.t j) (c.leaf j) (c.vWots j) M) :
    (c.layerP j M).asked h = a.asked h ++ [(x, a.eval h)] ++
      (Ask.climb (fun k => .tree j (htTree c.p c.t j) k (c.leaf j / 2 ^ k)) (c.leaf j) (c.vAuth j)
        (h x (a.eval h)) c.p.hp).asked h := by
  subst hx ha
  rw [layerP, Ask.asked_bind, Ask.asked_bind, List.append_assoc]
  rfl

theorem layerP_eval (j : Nat) (M : Bytes) {h : Place → Bytes → Bytes} {x : Place}
    (hx : x = .wotsPk j (htTree c.p c.t j) (c.leaf j)) {a : Ask Bytes}
    (ha : a = Ask.wots c.p j (htTree c.p c.t j) (c.leaf j) (c.vWots j) M) :
    (c.layerP j M).eval h =
      (Ask.climb (fun k => .tree j (htTree c.p c.t j) k (c.leaf j / 2 ^ k)) (c.leaf j) (c.vAuth j)
        (h x (a.eval h)) c.p.hp).eval h := by
  subst hx ha
  rw [layerP, Ask.eval_bind, Ask.eval_bind]
  rfl

section
variable {h : Place → Bytes → Bytes} (hlen : ∀ x z, (h x z).length = c.p.n) (hI : Ask.Late h I c.p.n J A) (hJ : 1 < J)
  (hJl : c.p.len ≤ J) (hJk : c.p.k ≤ J) (o : c.Ok m)
include hlen hI hJ o

include hJl in
theorem sorted_layerP {j : Nat} (hj : j < c.p.d) (M : Bytes) (hA : ∀ q ∈ (c.layerP j M).asked h, A q) :
    Ask.Sorted h I ((c.layerP j M).asked h) ((c.layerP j M).eval h) := by
  rw [layerP_asked j M rfl rfl] at hA ⊢
  rw [layerP_eval j M rfl rfl]
  refine .climb hI hJ _ _ _ _ (.concat hI hJl (fun i hi => ?_) (fun i hi => ?_) fun q hq => ?_) _
    (fun k hk => o.auth_length hj hk) hA
  · refine .chain hI (by omega) _ _ _ _ _ _ _ fun q hq => ?_
    exact hA q (List.mem_append_left _ (List.mem_append_left _ (Ask.mem_concat hi hq)))
  · exact Ask.chain_length hlen _ _ _ _ _ (o.wots_length hj hi) _
  · exact hA q (List.mem_append_left _ hq)

include hJk in
theorem sorted_forsP (hA : ∀ q ∈ c.forsP.asked h, A q) : Ask.Sorted h I (c.forsP.asked h) (c.forsP.eval h) := by
  rw [forsP, Ask.asked_bind] at hA ⊢
  rw [Ask.eval_bind]
  refine .concat hI hJk (fun i hi => ?_) (fun i hi => ?_) hA
  · have hA' := fun q hq => hA q (List.mem_append_left _ (Ask.mem_concat hi hq))
    rw [Ask.asked_bind] at hA' ⊢
    rw [Ask.eval_bind]
    refine .climb hI hJ _ _ _ _ ?_ _ (fun k hk => (o.fors_slice hi).2.1 k hk) hA'
    exact fun T hT q hq => hT q hq (by rw [List.mem_singleton.mp hq]; rfl)
  · rw [Ask.eval_bind]
    exact Ask.climb_length hlen _ _ _ (hlen _ _) _

/-- All hashes of a verification were computed before the time `T`, if the root was, and the message of a layer was
whenever the layer was. -/
theorem sorted_layersP (hJl : c.p.len ≤ J) (hJk : c.p.k ≤ J) {T : Nat} (hE : ∀ j < c.p.d,
      (∀ q ∈ (c.layerP j ((c.layersP j).eval h)).asked h, I q < T) →
      ∀ q ∈ (c.layersP j).asked h, h q.1 q.2 = (c.layersP j).eval h → I q < T) (j : Nat) (hj : j ≤ c.p.d)
    (hA : ∀ q ∈ (c.layersP j).asked h, A q)
    (hT : ∀ q ∈ (c.layersP j).asked h, h q.1 q.2 = (c.layersP j).eval h → I q < T) :
    ∀ q ∈ (c.layersP j).asked h, I q < T := by
  induction j with
  | zero => exact sorted_forsP hlen hI hJ hJk o hA T hT
  | succ j ih =>
    have ha : (c.layersP (j + 1)).asked h = (c.layersP j).asked h ++
      (c.layerP j ((c.layersP j).eval h)).asked h := by rw [layersP, Ask.asked_bind]
    have he : (c.layersP (j + 1)).eval h = (c.layerP j ((c.layersP j).eval h)).eval h := by rw [layersP, Ask.eval_bind]
    rw [ha] at hA hT ⊢
    rw [he] at hT
    have h1 := sorted_layerP hlen hI hJ hJl o (j := j) (by omega) _ (fun q hq => hA q (List.mem_append_right _ hq)) T
      fun q hq => hT q (List.mem_append_right _ hq)
    intro q hq
    rcases List.mem_append.mp hq with hq | hq
    · exact ih (by omega) (fun q hq => hA q (List.mem_append_left _ hq)) (hE j (by omega) h1) q hq
    · exact h1 q hq

end

end Spec.Attempt

/-! ## One message for a WOTS+ signature -/

namespace Ask
variable {h : Place → Bytes → Bytes} {I : Place × Bytes → Nat} {n J : Nat} {A : Place × Bytes → Prop}

/-- Chains from one value, with the same last value, begin at the same step. -/
theorem chain_start (hI : Late h I n J A) (hJ : 0 < J)
    (hinj : ∀ q q', A q → A q' → q.1 = q'.1 → h q.1 q.2 = h q'.1 q'.2 → q = q') {j t l i d d' e : Nat} {X : Bytes}
    (hd : d ≤ e) (hd' : d' ≤ e) (hA : ∀ q ∈ (chain j t l i d X (e - d)).asked h, A q)
    (hA' : ∀ q ∈ (chain j t l i d' X (e - d')).asked h, A q)
    (he : (chain j t l i d X (e - d)).eval h = (chain j t l i d' X (e - d')).eval h) : ¬ d < d' := by
  intro hlt
  have key : ∀ u, u ≤ e - d' → (chain j t l i d X (e - d - u)).eval h = (chain j t l i d' X (e - d' - u)).eval h := by
    intro u
    induction u with
    | zero => exact fun _ => he
    | succ u ih =>
      intro hu
      have ih := ih (by omega)
      obtain ⟨a, ha⟩ : ∃ a, e - d - u = a + 1 := ⟨e - d - u - 1, by omega⟩
      obtain ⟨b, hb⟩ : ∃ b, e - d' - u = b + 1 := ⟨e - d' - u - 1, by omega⟩
      rw [ha, hb, chain_eval, chain_eval] at ih
      have h1 := hA _ (mem_chain (s := e - d) (u := a) (by omega))
      have h2 := hA' _ (mem_chain (s := e - d') (u := b) (by omega))
      have h3 := hinj _ _ h1 h2 (by rw [show d + a = d' + b by omega]) ih
      rw [show e - d - (u + 1) = a by omega, show e - d' - (u + 1) = b by omega]
      exact (Prod.mk.inj h3).2
  have h0 := key (e - d') (Nat.le_refl _)
  rw [Nat.sub_self, show e - d - (e - d') = d' - d by omega] at h0
  have h0 : (chain j t l i d X (d' - d)).eval h = X := h0
  have hmem := fun u (hu : u < e - d) => hA _ (mem_chain (h := h) (j := j) (t := t) (l := l) (i := i) (d := d) (X := X) hu)
  have step : ∀ u, u < e - d → I (.wotsHash j t l i (d + 0), X) ≤
      I (.wotsHash j t l i (d + u), (chain j t l i d X u).eval h) := by
    intro u
    induction u with
    | zero => exact fun _ => Nat.le_refl _
    | succ u ih =>
      intro hu
      refine (ih (by omega)).trans (Nat.le_of_lt (hI _ _ (hmem u (by omega)) (hmem (u + 1) hu) ?_))
      change Inside n J _ ((chain j t l i d X (u + 1)).eval h)
      rw [chain_eval]
      exact .self hJ _
  obtain ⟨a, ha⟩ : ∃ a, d' - d = a + 1 := ⟨d' - d - 1, by omega⟩
  rw [ha, chain_eval] at h0
  have h1 := step a (by omega)
  have h2 := hI _ (.wotsHash j t l i (d + 0), X) (hmem a (by omega)) (hmem 0 (by omega))
    (show Inside n J (h _ _) X by rw [h0]; exact .self hJ _)
  omega

/-- The digits of a message of `n` bytes determine it. -/
theorem wots_unique (hI : Late h I n J A) (hJ : 0 < J)
    (hinj : ∀ q q', A q → A q' → q.1 = q'.1 → h q.1 q.2 = h q'.1 q'.2 → q = q') {p : Params} {j t l : Nat}
    {X : Nat → Bytes} {M M' : Bytes} (hX : ∀ i < p.len, (X i).length = n) (hlen : ∀ x z, (h x z).length = n)
    (hA : ∀ q ∈ (wots p j t l X M).asked h, A q) (hA' : ∀ q ∈ (wots p j t l X M').asked h, A q)
    (he : (wots p j t l X M).eval h = (wots p j t l X M').eval h)
    (h15 : ∀ M i, (wotsDigits p M).getD i 0 ≤ 15) :
    ∀ i < p.len, (wotsDigits p M).getD i 0 = (wotsDigits p M').getD i 0 := by
  intro i hi
  have hl := fun (M : Bytes) i (hi : i < p.len) => chain_length (h := h) hlen j t l i ((wotsDigits p M).getD i 0) (hX i hi)
    (15 - (wotsDigits p M).getD i 0)
  have e : (chain j t l i ((wotsDigits p M).getD i 0) (X i) (15 - (wotsDigits p M).getD i 0)).eval h =
      (chain j t l i ((wotsDigits p M').getD i 0) (X i) (15 - (wotsDigits p M').getD i 0)).eval h := by
    rw [wots, wots, eval_concat, eval_concat] at he
    exact concat_inj (fun i hi => hl M i hi) (fun i hi => hl M' i hi) he i hi
  have a := fun q hq => hA q (mem_concat hi hq)
  have a' := fun q hq => hA' q (mem_concat hi hq)
  have h1 := chain_start hI hJ hinj (h15 M i) (h15 M' i) a a' e
  have h2 := chain_start hI hJ hinj (h15 M' i) (h15 M i) a' a e.symm
  omega

end Ask

/-! ## The places and lengths -/

namespace Ask
variable {α : Type} {h h' : Place → Bytes → Bytes}

theorem Only.asked {Q : Place → Prop} {a : Ask α} (ha : a.Only Q) : ∀ q ∈ a.asked h, Q q.1 := by
  induction a with
  | pure a => exact fun _ hq => nomatch hq
  | ask x z k ih =>
    intro q hq
    rcases List.mem_cons.mp hq with rfl | hq
    · exact ha.1
    · exact ih _ (ha.2 _) q hq

/-- A program depends on what it asks only. -/
theorem same (a : Ask α) (hh : ∀ q ∈ a.asked h, h q.1 q.2 = h' q.1 q.2) :
    a.asked h' = a.asked h ∧ a.eval h' = a.eval h := by
  induction a with
  | pure a => exact ⟨rfl, rfl⟩
  | ask x z k ih =>
    have h0 := hh _ (List.mem_cons_self)
    have := ih (h x z) fun q hq => hh q (List.mem_cons_of_mem _ hq)
    dsimp only at h0
    exact ⟨by rw [asked, asked, ← h0, this.1], by rw [eval, eval, ← h0, this.2]⟩

/-- The arguments are not longer than `N`. -/
def Short (h : Place → Bytes → Bytes) (N : Nat) (a : Ask α) : Prop := ∀ q ∈ a.asked h, q.2.length ≤ N

theorem Short.bind {N : Nat} {β : Type} {a : Ask α} {f : α → Ask β} (ha : a.Short h N) (hf : (f (a.eval h)).Short h N) :
    (a >>= f).Short h N := by
  intro q hq
  rw [asked_bind, List.mem_append] at hq
  exact hq.elim (ha q) (hf q)

theorem Short.query {N : Nat} {x : Place} {z : Bytes} (hz : z.length ≤ N) : (Ask.query x z).Short h N := by
  intro q hq
  rw [List.mem_singleton.mp hq]
  exact hz

theorem Short.concat {N k : Nat} {f : Nat → Ask Bytes} (hf : ∀ i < k, (f i).Short h N) : (Ask.concat k f).Short h N := by
  intro q hq
  obtain ⟨i, hi, hq⟩ := mem_concat_iff.mp hq
  exact hf i hi q hq

theorem Short.chain {n N : Nat} (hlen : ∀ x z, (h x z).length = n) (hN : n ≤ N) (j t l i d : Nat) {X : Bytes}
    (hX : X.length = n) (s : Nat) : (Ask.chain j t l i d X s).Short h N := by
  induction s with
  | zero => exact fun _ hq => nomatch hq
  | succ s ih => exact .bind ih (.query ((chain_length hlen _ _ _ _ _ hX _).trans_le hN))

theorem Short.climb {n N : Nat} (hlen : ∀ x z, (h x z).length = n) (hN : 2 * n ≤ N) (x : Nat → Place) (T : Nat)
    (AUTH : Nat → Bytes) {node : Bytes} (hX : node.length = n) (k : Nat) (hk : ∀ i < k, (AUTH i).length = n) :
    (Ask.climb x T AUTH node k).Short h N := by
  induction k with
  | zero => exact fun _ hq => nomatch hq
  | succ k ih =>
    refine .bind (ih fun i hi => hk i (by omega)) (.query ?_)
    rw [Attempt.children_length, climb_length hlen _ _ _ hX, hk k (by omega)]
    omega

theorem concat_len {n k : Nat} {f : Nat → Ask Bytes} (hf : ∀ i < k, ((f i).eval h).length = n) :
    ((Ask.concat k f).eval h).length ≤ k * n := by
  rw [eval_concat]
  exact Attempt.concat_length_le fun i hi => (hf i hi).le

theorem Short.wots {n N : Nat} (hlen : ∀ x z, (h x z).length = n) (hN : n ≤ N) {p : Params} (j t l : Nat) {X : Nat → Bytes}
    (hX : ∀ i < p.len, (X i).length = n) (M : Bytes) : (Ask.wots p j t l X M).Short h N :=
  .concat fun i hi => .chain hlen hN _ _ _ _ _ (hX i hi) _

theorem wots_len {n : Nat} (hlen : ∀ x z, (h x z).length = n) {p : Params} (j t l : Nat) {X : Nat → Bytes}
    (hX : ∀ i < p.len, (X i).length = n) (M : Bytes) : ((Ask.wots p j t l X M).eval h).length ≤ p.len * n :=
  concat_len fun i hi => chain_length hlen _ _ _ _ _ (hX i hi) _

theorem wots_only {p : Params} {j t l : Nat} (hp : (Place.wotsPk j t l).Exists p) (X : Nat → Bytes) (M : Bytes) :
    (Ask.wots p j t l X M).Only (·.Exists p) :=
  only_concat fun i hi => only_chain fun u hu => ⟨hp.1, hp.2.1, hp.2.2, hi, by omega⟩

end Ask

namespace Spec.Attempt
variable {c : Attempt} {m : Nat} {h : Place → Bytes → Bytes}

theorem short_layersP (hlen : ∀ x z, (h x z).length = c.p.n) (h1 : 1 ≤ c.p.len) (hk1 : 1 ≤ c.p.k) (o : c.Ok m) {j : Nat}
    (hj : j ≤ c.p.d) : (c.layersP j).Short h ((c.p.len + c.p.k) * c.p.n) := by
  have hb := bound2 h1 hk1
  have b1 : c.p.len * c.p.n ≤ (c.p.len + c.p.k) * c.p.n := Nat.mul_le_mul_right _ (by omega)
  have b2 : c.p.k * c.p.n ≤ (c.p.len + c.p.k) * c.p.n := Nat.mul_le_mul_right _ (by omega)
  induction j with
  | zero =>
    rw [layersP, forsP]
    refine .bind (.concat fun i hi => .bind (.query ?_) (.climb hlen hb _ _ _ (hlen _ _) _ (o.fors_slice hi).2.1))
      (.query ((Ask.concat_len fun i hi => ?_).trans b2))
    · rw [(o.fors_slice hi).1]; omega
    · rw [Ask.eval_bind]
      exact Ask.climb_length hlen _ _ _ (hlen _ _) _
  | succ j ih =>
    rw [layersP]
    refine .bind (ih (by omega)) ?_
    have hX : ∀ i < c.p.len, (c.vWots j i).length = c.p.n := fun i hi => o.wots_length hj hi
    exact .bind (.wots hlen (by omega) _ _ _ hX _) (.bind (.query ((Ask.wots_len hlen _ _ _ hX _).trans b1))
      (.climb hlen hb _ _ _ (hlen _ _) _ fun k hk => o.auth_length hj hk))

end Spec.Attempt

end Fips205
