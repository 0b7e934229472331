import Verif.Proofs.BreakAsk

/-!
# Keys and signatures depend on the hash functions at places only

If two tables of hash functions agree at the places that exist in a key, then keys, signatures and verdicts are the
same, provided that the digests are.
-/

namespace Fips205
open Spec

/-- The two tables have the same hashes at the places of a key. -/
def Agree (p : Params) (PKseed : Bytes) (hf hf' : HashFns) : Prop :=
  ∀ x : Place, x.Exists p → ∀ z, hashAt hf PKseed x z = hashAt hf' PKseed x z

namespace Ask
variable {α β : Type}

/-- The program asks at such places only. -/
def Only (Q : Place → Prop) : Ask α → Prop
  | .pure _ => True
  | .ask x _ k => Q x ∧ ∀ r, (k r).Only Q

variable {Q : Place → Prop}

theorem only_bind {a : Ask α} {f : α → Ask β} (ha : a.Only Q) (hf : ∀ r, (f r).Only Q) : (a >>= f).Only Q := by
  change (a.bind f).Only Q
  induction a with
  | pure a => exact hf a
  | ask x z k ih => exact ⟨ha.1, fun r => ih r (ha.2 r)⟩

theorem only_query {x : Place} (hx : Q x) (z : Bytes) : (query x z).Only Q := ⟨hx, fun _ => trivial⟩

theorem only_concat {n : Nat} {f : Nat → Ask Bytes} (h : ∀ i < n, (f i).Only Q) : (concat n f).Only Q := by
  induction n with
  | zero => trivial
  | succ n ih =>
    rw [concat]
    exact only_bind (ih fun i hi => h i (by omega)) fun _ => only_bind (h n (by omega)) fun _ => trivial

theorem only_chain {j t l i d s : Nat} {X : Bytes} (h : ∀ u < s, Q (.wotsHash j t l i (d + u))) :
    (chain j t l i d X s).Only Q := by
  induction s with
  | zero => trivial
  | succ s ih =>
    rw [chain]
    exact only_bind (ih fun u hu => h u (by omega)) fun _ => only_query (h s (by omega)) _

theorem only_climb {x : Nat → Place} {T : Nat} {AUTH : Nat → Bytes} {node : Bytes} {k : Nat}
    (h : ∀ u < k, Q (x (u + 1))) : (climb x T AUTH node k).Only Q := by
  induction k with
  | zero => trivial
  | succ k ih =>
    rw [climb]
    exact only_bind (ih fun u hu => h u (by omega)) fun _ => only_query (h k (by omega)) _

theorem eval_congr {h h' : Place → Bytes → Bytes} (hh : ∀ x, Q x → ∀ z, h x z = h' x z) (a : Ask α) (ha : a.Only Q) :
    a.eval h = a.eval h' := by
  induction a with
  | pure a => rfl
  | ask x z k ih =>
    rw [eval, eval, ← hh x ha.1]
    exact ih _ (ha.2 _)

end Ask

namespace Spec.Attempt
variable {c : Attempt} {m : Nat}

theorem only_forsP (o : c.Ok m) : c.forsP.Only (·.Exists c.p) := by
  rw [forsP]
  refine Ask.only_bind (Ask.only_concat fun i hi => Ask.only_bind (Ask.only_query ?_ _) fun _ =>
    Ask.only_climb fun u hu => (place_fors o hi hu).1) fun _ => Ask.only_query (place_forsRoots o).1 _
  have := (place_fors o hi (k := 0) (Nat.zero_le _)).1
  rwa [Nat.pow_zero, Nat.div_one] at this

theorem only_layerP (o : c.Ok m) {j : Nat} (hj : j < c.p.d) (M : Bytes) : (c.layerP j M).Only (·.Exists c.p) := by
  rw [layerP]
  refine Ask.only_bind (Ask.only_concat fun i hi => Ask.only_chain fun u hu => ?_) fun _ =>
    Ask.only_bind (Ask.only_query (place_wotsPk o hj).1 _) fun _ => Ask.only_climb fun u hu => (place_tree o hj hu).1
  have hp := (place_wotsPk o hj).1
  exact ⟨hp.1, hp.2.1, hp.2.2, hi, by omega⟩

theorem only_layersP (o : c.Ok m) {j : Nat} (hj : j ≤ c.p.d) : (c.layersP j).Only (·.Exists c.p) := by
  induction j with
  | zero => exact only_forsP o
  | succ j ih =>
    rw [layersP]
    exact Ask.only_bind (ih (by omega)) fun M => only_layerP o hj M

theorem layersP_congr {c c' : Attempt} (h1 : c.p = c'.p) (h2 : c.md = c'.md) (h3 : c.t = c'.t) (h4 : c.l = c'.l)
    (h5 : c.SIGfors = c'.SIGfors) (h6 : c.SIGht = c'.SIGht) (j : Nat) : c.layersP j = c'.layersP j := by
  obtain ⟨p, hf, s, k, md, t, l, f, g⟩ := c
  obtain ⟨p', hf', s', k', md', t', l', f', g'⟩ := c'
  dsimp only at h1 h2 h3 h4 h5 h6
  subst h1 h2 h3 h4 h5 h6
  induction j with
  | zero => rfl
  | succ j ih => rw [layersP, layersP, ih]; rfl

end Spec.Attempt

namespace Agree
variable {p : Params} {hf hf' : HashFns} {SKseed PKseed : Bytes} {m : Nat}

theorem symm (A : Agree p PKseed hf hf') : Agree p PKseed hf' hf := fun x hx z => (A x hx z).symm

theorem valueAt (A : Agree p PKseed hf hf') (W : p.WF) {x : Place} (hx : x.Exists p) :
    valueAt p hf SKseed PKseed x = Fips205.valueAt p hf' SKseed PKseed x :=
  valueAt_unique W (fun x hx => (valueAt_eq W hx).trans (A x hx _).symm) hx

theorem pkRoot (A : Agree p PKseed hf hf') (W : p.WF) : pkRoot p hf SKseed PKseed = Spec.pkRoot p hf' SKseed PKseed := by
  have h := A.valueAt (SKseed := SKseed) W (x := .node (p.d - 1) 0 p.hp 0)
    (node_exists (by have := W.d_pos; omega) (Nat.two_pow_pos _) (Nat.le_refl _) (Nat.two_pow_pos _))
  rw [valueAt_node, valueAt_node] at h
  exact h

theorem signWithR (A : Agree p PKseed hf hf') (W : p.WF) (V : Valid hf p.n m) (V' : Valid hf' p.n m)
    {R M PKroot : Bytes} (hd : hf.Hmsg R PKseed PKroot M = hf'.Hmsg R PKseed PKroot M) :
    signWithR p hf R M SKseed PKseed PKroot = Spec.signWithR p hf' R M SKseed PKseed PKroot := by
  rw [signWithR_eq W V, signWithR_eq W V', hd]
  exact sigAt_told W (u := Set.univ) (Set.subset_univ _) fun x hx _ => A.valueAt W hx

theorem verifyInternal (A : Agree p PKseed hf hf') (W : p.WF) (V : Valid hf p.n m) (V' : Valid hf' p.n m)
    (hn : p.n ≤ 128) {M SIG PKroot : Bytes}
    (hd : hf.Hmsg (slice SIG 0 p.n) PKseed PKroot M = hf'.Hmsg (slice SIG 0 p.n) PKseed PKroot M) :
    verifyInternal p hf M SIG PKseed PKroot = Spec.verifyInternal p hf' M SIG PKseed PKroot := by
  refine Bool.eq_iff_iff.mpr ?_
  rw [attempt_accepts M SIG [] PKseed PKroot, attempt_accepts M SIG [] PKseed PKroot]
  refine and_congr_right fun hlen => ?_
  have o := (attempt_ok W V hn (M := M) (SKseed := []) (PKseed := PKseed) (PKroot := PKroot) hlen).1
  have o' := (attempt_ok W V' hn (M := M) (SKseed := []) (PKseed := PKseed) (PKroot := PKroot) hlen).1
  have e := Attempt.eval_layersP o p.d
  have e' := Attempt.eval_layersP o' p.d
  have hP : (attempt p hf M SIG [] PKseed PKroot).layersP p.d = (attempt p hf' M SIG [] PKseed PKroot).layersP p.d := by
    simp only [attempt]
    rw [hd]
    apply Attempt.layersP_congr <;> rfl
  rw [← e, ← e', ← hP]
  refine Eq.congr_left ?_
  exact Ask.eval_congr (fun x hx z => A x hx z) _ (Attempt.only_layersP o (Nat.le_refl _))

end Agree

end Fips205
