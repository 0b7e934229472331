import Verif.Props.Forgery

/-!
# Verification as a program that asks for hashes

What the verifier computes, as a program that does not know the hash functions but asks for hashes at places of the
key; the values are those of `Spec.Attempt`.
-/

namespace Fips205
open Spec

/-- A program that asks for hashes at places. -/
inductive Ask (α : Type)
  | pure (a : α)
  | ask (x : Place) (z : Bytes) (k : Bytes → Ask α)

namespace Ask
variable {α β : Type}

def bind : Ask α → (α → Ask β) → Ask β
  | .pure a, f => f a
  | .ask x z k, f => .ask x z fun r => (k r).bind f

instance : Monad Ask where
  pure := .pure
  bind := .bind

/-- Ask for one hash. -/
def query (x : Place) (z : Bytes) : Ask Bytes := .ask x z .pure

/-- The result, if `h` are the hashes. -/
def eval (h : Place → Bytes → Bytes) : Ask α → α
  | .pure a => a
  | .ask x z k => (k (h x z)).eval h

/-- What was asked. -/
def asked (h : Place → Bytes → Bytes) : Ask α → List (Place × Bytes)
  | .pure _ => []
  | .ask x z k => (x, z) :: (k (h x z)).asked h

variable {h : Place → Bytes → Bytes}

theorem eval_bind (a : Ask α) (f : α → Ask β) : (a >>= f).eval h = (f (a.eval h)).eval h := by
  change (a.bind f).eval h = _
  induction a with
  | pure a => rfl
  | ask x z k ih => exact ih _

theorem asked_bind (a : Ask α) (f : α → Ask β) :
    (a >>= f).asked h = a.asked h ++ (f (a.eval h)).asked h := by
  change (a.bind f).asked h = _
  induction a with
  | pure a => rfl
  | ask x z k ih => exact congrArg (_ :: ·) (ih _)

theorem mem_left {a : Ask α} {f : α → Ask β} {q : Place × Bytes} (hq : q ∈ a.asked h) : q ∈ (a >>= f).asked h := by
  rw [asked_bind]; exact List.mem_append_left _ hq

theorem mem_right {a : Ask α} {f : α → Ask β} {q : Place × Bytes} (hq : q ∈ (f (a.eval h)).asked h) :
    q ∈ (a >>= f).asked h := by
  rw [asked_bind]; exact List.mem_append_right _ hq

theorem mem_query (x : Place) (z : Bytes) : (x, z) ∈ (query x z).asked h := List.mem_singleton_self _

/-- The concatenation of `f 0`, ..., `f (n-1)`. -/
def concat : (n : Nat) → (f : Nat → Ask Bytes) → Ask Bytes
  | 0, _ => .pure []
  | n + 1, f => do
    let x ← concat n f
    let y ← f n
    .pure (x ++ y)

theorem eval_concat (n : Nat) (f : Nat → Ask Bytes) : (concat n f).eval h = Spec.concat n fun i => (f i).eval h := by
  induction n with
  | zero => rfl
  | succ n ih => rw [concat, eval_bind, eval_bind, ih, concat_succ]; rfl

theorem mem_concat {n i : Nat} (hi : i < n) {f : Nat → Ask Bytes} {q : Place × Bytes} (hq : q ∈ (f i).asked h) :
    q ∈ (concat n f).asked h := by
  induction n with
  | zero => omega
  | succ n ih =>
    rw [concat]
    by_cases e : i = n
    · subst e; exact mem_right (mem_left hq)
    · exact mem_left (ih (by omega))

theorem length_concat {n c : Nat} {f : Nat → Ask Bytes} (hc : ∀ i < n, ((f i).asked h).length ≤ c) :
    ((concat n f).asked h).length ≤ n * c := by
  induction n with
  | zero => simp [concat, asked]
  | succ n ih =>
    rw [concat, asked_bind, asked_bind, List.length_append, List.length_append]
    have h1 := ih fun i hi => hc i (by omega)
    have h2 := hc n (by omega)
    have h3 : (asked h (.pure ((concat n f).eval h ++ (f n).eval h) : Ask Bytes)).length = 0 := rfl
    rw [h3, Nat.succ_mul]
    omega

/-- Steps of a chain, from step `d` on. -/
def chain (j t l i d : Nat) (X : Bytes) : Nat → Ask Bytes
  | 0 => .pure X
  | s + 1 => do
    let tmp ← chain j t l i d X s
    query (.wotsHash j t l i (d + s)) tmp

/-- A path; `x k` is the place of its node of height `k`, and `T` the index of the leaf. -/
def climb (x : Nat → Place) (T : Nat) (AUTH : Nat → Bytes) (node : Bytes) : Nat → Ask Bytes
  | 0 => .pure node
  | k + 1 => do
    let nd ← climb x T AUTH node k
    query (x (k + 1)) (Attempt.children (T / 2 ^ k) nd (AUTH k))

theorem length_chain (j t l i d : Nat) (X : Bytes) (s : Nat) : ((chain j t l i d X s).asked h).length = s := by
  induction s with
  | zero => rfl
  | succ s ih => rw [chain, asked_bind, List.length_append, ih]; rfl

theorem length_climb (x : Nat → Place) (T : Nat) (AUTH : Nat → Bytes) (node : Bytes) (k : Nat) :
    ((climb x T AUTH node k).asked h).length = k := by
  induction k with
  | zero => rfl
  | succ k ih => rw [climb, asked_bind, List.length_append, ih]; rfl

theorem mem_chain {j t l i d s : Nat} {X : Bytes} {u : Nat} (hu : u < s) :
    (Place.wotsHash j t l i (d + u), (chain j t l i d X u).eval h) ∈ (chain j t l i d X s).asked h := by
  induction s with
  | zero => omega
  | succ s ih =>
    rw [chain]
    by_cases e : u = s
    · subst e; exact mem_right (mem_query _ _)
    · exact mem_left (ih (by omega))

theorem mem_climb {x : Nat → Place} {T : Nat} {AUTH : Nat → Bytes} {node : Bytes} {k n : Nat} (hk : k < n) :
    (x (k + 1), Attempt.children (T / 2 ^ k) ((climb x T AUTH node k).eval h) (AUTH k)) ∈
      (climb x T AUTH node n).asked h := by
  induction n with
  | zero => omega
  | succ n ih =>
    rw [climb]
    by_cases e : k = n
    · subst e; exact mem_right (mem_query _ _)
    · exact mem_left (ih (by omega))

theorem eval_chain {hf : HashFns} {PKseed : Bytes} (j t i d : Nat) {l : Nat} (hl : l < 2 ^ 32) (X : Bytes) (s : Nat) :
    (chain j t l i d X s).eval (hashAt hf PKseed) = Spec.chain hf X d s PKseed
      (setChainAddress (setKeyPairAddress (setTypeAndClear (htAdrs j t) WOTS_HASH) l) i) := by
  induction s with
  | zero => rfl
  | succ s ih =>
    rw [chain, eval_bind, ih, (Props.C43_wots_addresses ⟨0, 0, 0, 0, 0, 0, 0⟩ hf hl X [] PKseed d i s).1]
    rfl

end Ask

namespace Spec.Attempt
variable (c : Attempt)

/-! ## The program -/

/-- The FORS public key from the signature. -/
def forsP : Ask Bytes := do
  let roots ← Ask.concat c.p.k fun i => do
    let node ← Ask.query (.forsTree c.t c.l 0 (c.fLeaf i)) (c.vSecret i)
    Ask.climb (fun k => .forsTree c.t c.l k (c.fLeaf i / 2 ^ k)) (c.fLeaf i) (c.vForsAuth i) node c.p.a
  Ask.query (.forsRoots c.t c.l) roots

/-- The root of layer `j` from the signature, if `M` is signed. -/
def layerP (j : Nat) (M : Bytes) : Ask Bytes := do
  let tmp ← Ask.concat c.p.len fun i =>
    Ask.chain j (htTree c.p c.t j) (c.leaf j) i ((wotsDigits c.p M).getD i 0) (c.vWots j i)
      (15 - (wotsDigits c.p M).getD i 0)
  let node ← Ask.query (.wotsPk j (htTree c.p c.t j) (c.leaf j)) tmp
  Ask.climb (fun k => .tree j (htTree c.p c.t j) k (c.leaf j / 2 ^ k)) (c.leaf j) (c.vAuth j) node c.p.hp

/-- The message of layer `j`. -/
def layersP : Nat → Ask Bytes
  | 0 => c.forsP
  | j + 1 => do
    let M ← layersP j
    c.layerP j M

/-- The number of hashes of a verification. -/
def _root_.Fips205.Spec.Params.verifyCost (p : Params) : Nat :=
  p.k * (1 + p.a) + 1 + p.d * (p.len * 15 + 1 + p.hp)

variable {c} {h : Place → Bytes → Bytes}

theorem length_forsP : (c.forsP.asked h).length ≤ c.p.k * (1 + c.p.a) + 1 := by
  rw [forsP, Ask.asked_bind, List.length_append]
  refine Nat.add_le_add (Ask.length_concat fun i _ => ?_) (Nat.le_refl 1)
  rw [Ask.asked_bind, List.length_append, Ask.length_climb]
  exact Nat.le_refl _

theorem length_layerP (j : Nat) (M : Bytes) : ((c.layerP j M).asked h).length ≤ c.p.len * 15 + 1 + c.p.hp := by
  rw [layerP, Ask.asked_bind, Ask.asked_bind, List.length_append, List.length_append, Ask.length_climb, ← Nat.add_assoc]
  refine Nat.add_le_add_right (Nat.add_le_add (Ask.length_concat fun i _ => ?_) (Nat.le_refl 1)) _
  rw [Ask.length_chain]
  omega

theorem length_layersP (j : Nat) : ((c.layersP j).asked h).length ≤
    c.p.k * (1 + c.p.a) + 1 + j * (c.p.len * 15 + 1 + c.p.hp) := by
  induction j with
  | zero => rw [Nat.zero_mul]; exact length_forsP
  | succ j ih =>
    rw [layersP, Ask.asked_bind, List.length_append, Nat.succ_mul, ← Nat.add_assoc]
    exact Nat.add_le_add ih (length_layerP j _)

/-! ## The values -/

variable {m : Nat}

theorem Ok.l_lt32 (o : c.Ok m) : c.l < 2 ^ 32 := by
  have := o.l_lt
  have h31 : 2 ^ c.p.hp ≤ 2 ^ 31 := Nat.pow_le_pow_right (by decide) o.wf.hp_le
  omega

theorem eval_xmss (o : c.Ok m) (j k : Nat) (hk : k ≤ c.p.hp) :
    (Ask.climb (fun k => .tree j (htTree c.p c.t j) k (c.leaf j / 2 ^ k)) (c.leaf j) (c.vAuth j)
      (hashAt c.hf c.PKseed (.wotsPk j (htTree c.p c.t j) (c.leaf j)) (concat c.p.len fun i => c.vChain j i (w - 1)))
      k).eval (hashAt c.hf c.PKseed) = c.vXmss j k := by
  induction k with
  | zero =>
    rw [vXmss, climb_zero, wotsAdrs, adrs, wotsAdrs_eq, wotsPkAdrs_eq _ _ (o.leaf_lt32 j)]
    rfl
  | succ k ih =>
    rw [Ask.climb, Ask.eval_bind, ih (by omega)]
    exact (climb_node (hf := c.hf) (PKseed := c.PKseed) (idx := c.leaf j) (AUTH := c.vAuth j)
      (node := c.hf.T c.PKseed (wotsPkAdrs (c.wotsAdrs j)) (concat c.p.len fun i => c.vChain j i (w - 1)))
      (setTypeAndClear_length (c.adrs_length j) TREE) (o.leaf_lt32 j) (levels := c.p.hp) (fun _ _ => rfl) hk).symm

theorem eval_layer (o : c.Ok m) (j : Nat) (i : Nat) (s : Nat) :
    (Ask.chain j (htTree c.p c.t j) (c.leaf j) i ((wotsDigits c.p (c.vMsg j)).getD i 0) (c.vWots j i) s).eval
      (hashAt c.hf c.PKseed) = c.vChain j i (c.vDigit j i + s) := by
  rw [Ask.eval_chain _ _ _ _ (o.leaf_lt32 j), vChain, Nat.add_sub_cancel_left]
  rfl

theorem eval_wots (o : c.Ok m) (j : Nat) :
    (Ask.concat c.p.len fun i => Ask.chain j (htTree c.p c.t j) (c.leaf j) i ((wotsDigits c.p (c.vMsg j)).getD i 0)
      (c.vWots j i) (15 - (wotsDigits c.p (c.vMsg j)).getD i 0)).eval (hashAt c.hf c.PKseed) =
      concat c.p.len fun i => c.vChain j i (w - 1) := by
  rw [Ask.eval_concat]
  refine concat_congr fun i _ => ?_
  rw [eval_layer o]
  have := c.vDigit_le j i
  congr 1
  rw [w] at this ⊢
  change c.vDigit j i + (15 - c.vDigit j i) = _
  omega

theorem eval_layerP (o : c.Ok m) (j : Nat) :
    (c.layerP j (c.vMsg j)).eval (hashAt c.hf c.PKseed) = c.vMsg (j + 1) := by
  rw [layerP, Ask.eval_bind, Ask.eval_bind, eval_wots o, vMsg_succ]
  exact eval_xmss o j _ (Nat.le_refl _)

theorem eval_fors (o : c.Ok m) {i : Nat} (hi : i < c.p.k) (k : Nat) (hk : k ≤ c.p.a) :
    (Ask.climb (fun k => .forsTree c.t c.l k (c.fLeaf i / 2 ^ k)) (c.fLeaf i) (c.vForsAuth i)
      (hashAt c.hf c.PKseed (.forsTree c.t c.l 0 (c.fLeaf i)) (c.vSecret i)) k).eval (hashAt c.hf c.PKseed) =
      c.vFors i k := by
  induction k with
  | zero => rfl
  | succ k ih =>
    rw [Ask.climb, Ask.eval_bind, ih (by omega)]
    exact (climb_node (hf := c.hf) (idx := c.fDigit i) (PKseed := c.PKseed) (AUTH := c.vForsAuth i) (B := c.fAdrs)
      (node := c.hf.F c.PKseed (c.fLeafAdrs (c.fLeaf i)) (c.vSecret i)) c.fAdrs_length (fLeaf_lt o hi)
      (levels := c.p.a) (fun k hk => c.fLeaf_bits i hk) hk).symm

theorem eval_forsP (o : c.Ok m) : c.forsP.eval (hashAt c.hf c.PKseed) = c.vMsg 0 := by
  have hl := o.l_lt32
  rw [forsP, Ask.eval_bind, Ask.eval_concat, vMsg_zero, fRootsAdrs, fAdrs, forsAdrs_eq,
    getKeyPairAddress_adrs6 _ _ _ _ _ hl]
  refine congrArg (hashAt c.hf c.PKseed (.forsRoots c.t c.l)) (concat_congr fun i hi => ?_)
  rw [Ask.eval_bind]
  exact eval_fors o hi _ (Nat.le_refl _)

theorem eval_layersP (o : c.Ok m) (j : Nat) : (c.layersP j).eval (hashAt c.hf c.PKseed) = c.vMsg j := by
  induction j with
  | zero => exact eval_forsP o
  | succ j ih => rw [layersP, Ask.eval_bind, ih, eval_layerP o]

/-! ## What is asked -/

/-- Hashes of the verification. -/
theorem mem_layersP {q : Place × Bytes} {j n : Nat} (o : c.Ok m) (hj : j < n)
    (hq : q ∈ (c.layerP j (c.vMsg j)).asked (hashAt c.hf c.PKseed)) :
    q ∈ (c.layersP n).asked (hashAt c.hf c.PKseed) := by
  induction n with
  | zero => omega
  | succ n ih =>
    rw [layersP]
    by_cases e : j = n
    · subst e
      refine Ask.mem_right ?_
      rwa [eval_layersP o]
    · exact Ask.mem_left (ih (by omega))

theorem mem_fors {q : Place × Bytes} {n : Nat} (hq : q ∈ c.forsP.asked h) : q ∈ (c.layersP n).asked h := by
  induction n with
  | zero => exact hq
  | succ n ih => rw [layersP]; exact Ask.mem_left ih

/-- The steps of the chains ... -/
theorem asked_chain (o : c.Ok m) {j i s : Nat} (hj : j < c.p.d) (hi : i < c.p.len) (h1 : c.vDigit j i ≤ s)
    (h2 : s < w - 1) : (Place.wotsHash j (htTree c.p c.t j) (c.leaf j) i s, c.vChain j i s) ∈
      (c.layersP c.p.d).asked (hashAt c.hf c.PKseed) := by
  refine mem_layersP o hj ?_
  rw [layerP]
  refine Ask.mem_left (Ask.mem_concat hi ?_)
  have hu : s - c.vDigit j i < 15 - (wotsDigits c.p (c.vMsg j)).getD i 0 := by
    change _ < 15 - c.vDigit j i
    rw [w] at h2
    omega
  have e := Ask.mem_chain (h := hashAt c.hf c.PKseed) (j := j) (t := htTree c.p c.t j) (l := c.leaf j) (i := i)
    (d := (wotsDigits c.p (c.vMsg j)).getD i 0) (X := c.vWots j i) hu
  rw [eval_layer o] at e
  have e2 : c.vDigit j i + (s - c.vDigit j i) = s := by omega
  have e3 : (wotsDigits c.p (c.vMsg j)).getD i 0 + (s - c.vDigit j i) = s := e2
  rwa [e2, e3] at e

/-- ... the compressions of WOTS+ keys ... -/
theorem asked_wots (o : c.Ok m) {j : Nat} (hj : j < c.p.d) :
    (Place.wotsPk j (htTree c.p c.t j) (c.leaf j), concat c.p.len fun i => c.vChain j i (w - 1)) ∈
      (c.layersP c.p.d).asked (hashAt c.hf c.PKseed) := by
  refine mem_layersP o hj ?_
  rw [layerP]
  refine Ask.mem_right (Ask.mem_left ?_)
  rw [eval_wots o]
  exact Ask.mem_query _ _

/-- ... the nodes of the paths ... -/
theorem asked_xmss (o : c.Ok m) {j k : Nat} (hj : j < c.p.d) (hk : k < c.p.hp) :
    (Place.tree j (htTree c.p c.t j) (k + 1) (c.leaf j / 2 ^ (k + 1)),
      children (c.leaf j / 2 ^ k) (c.vXmss j k) (c.vAuth j k)) ∈
      (c.layersP c.p.d).asked (hashAt c.hf c.PKseed) := by
  refine mem_layersP o hj ?_
  rw [layerP]
  refine Ask.mem_right (Ask.mem_right ?_)
  rw [eval_wots o]
  have e := Ask.mem_climb (h := hashAt c.hf c.PKseed) (x := fun k => .tree j (htTree c.p c.t j) k (c.leaf j / 2 ^ k))
    (T := c.leaf j) (AUTH := c.vAuth j) (node := hashAt c.hf c.PKseed (.wotsPk j (htTree c.p c.t j) (c.leaf j))
      (concat c.p.len fun i => c.vChain j i (w - 1))) hk
  rw [eval_xmss o j k (by omega)] at e
  exact e

/-- ... the leaves of the FORS trees ... -/
theorem asked_forsLeaf {i : Nat} (hi : i < c.p.k) :
    (Place.forsTree c.t c.l 0 (c.fLeaf i), c.vSecret i) ∈ (c.layersP c.p.d).asked h := by
  refine mem_fors ?_
  rw [forsP]
  exact Ask.mem_left (Ask.mem_concat hi (Ask.mem_left (Ask.mem_query _ _)))

/-- ... their nodes ... -/
theorem asked_forsNode (o : c.Ok m) {i k : Nat} (hi : i < c.p.k) (hk : k < c.p.a) :
    (Place.forsTree c.t c.l (k + 1) (c.fLeaf i / 2 ^ (k + 1)),
      children (c.fLeaf i / 2 ^ k) (c.vFors i k) (c.vForsAuth i k)) ∈
      (c.layersP c.p.d).asked (hashAt c.hf c.PKseed) := by
  refine mem_fors ?_
  rw [forsP]
  refine Ask.mem_left (Ask.mem_concat hi (Ask.mem_right ?_))
  have e := Ask.mem_climb (h := hashAt c.hf c.PKseed) (x := fun k => .forsTree c.t c.l k (c.fLeaf i / 2 ^ k))
    (T := c.fLeaf i) (AUTH := c.vForsAuth i)
    (node := hashAt c.hf c.PKseed (.forsTree c.t c.l 0 (c.fLeaf i)) (c.vSecret i)) hk
  rw [eval_fors o hi k (by omega)] at e
  exact e

/-- ... and their roots. -/
theorem asked_forsRoots (o : c.Ok m) : (Place.forsRoots c.t c.l, concat c.p.k fun i => c.vFors i c.p.a) ∈
    (c.layersP c.p.d).asked (hashAt c.hf c.PKseed) := by
  refine mem_fors ?_
  rw [forsP]
  refine Ask.mem_right ?_
  have e : (Ask.concat c.p.k fun i => do
      let node ← Ask.query (.forsTree c.t c.l 0 (c.fLeaf i)) (c.vSecret i)
      Ask.climb (fun k => .forsTree c.t c.l k (c.fLeaf i / 2 ^ k)) (c.fLeaf i) (c.vForsAuth i) node c.p.a).eval
      (hashAt c.hf c.PKseed) = concat c.p.k fun i => c.vFors i c.p.a := by
    rw [Ask.eval_concat]
    refine concat_congr fun i hi => ?_
    rw [Ask.eval_bind]
    exact eval_fors o hi _ (Nat.le_refl _)
  rw [e]
  exact Ask.mem_query _ _

end Spec.Attempt

end Fips205
