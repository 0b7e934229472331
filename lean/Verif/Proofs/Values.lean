import Verif.Props.Forgery
import Verif.Proofs.VisitSlh

/-!
# The values of a key

The value computed at each place of a key, from the values at other places; a signature as a selection of these
values; and which of them the signatures leave unknown.
-/

namespace Fips205
open Spec

/-- Value `s` of chain `i` of a WOTS+ key: the secret value, or what step `s - 1` computes. -/
def Place.link (j t l i : Nat) : Nat → Place
  | 0 => .wotsPrf j t l i
  | s + 1 => .wotsHash j t l i s

/-- Node `i` of height `k` of an XMSS tree. -/
def Place.node (j t : Nat) : (k i : Nat) → Place
  | 0, i => .wotsPk j t i
  | k + 1, i => .tree j t (k + 1) i

section
variable (p : Params)

/-- What is hashed at a place, if `v` are the values at the places. -/
def argAt (seed : Bytes) (v : Place → Bytes) : Place → Bytes
  | .wotsPrf .. => seed
  | .forsPrf .. => seed
  | .wotsHash j t l i s => v (.link j t l i s)
  | .wotsPk j t l => concat p.len fun i => v (.link j t l i 15)
  | .tree j t k i => v (.node j t (k - 1) (2 * i)) ++ v (.node j t (k - 1) (2 * i + 1))
  | .forsTree t l 0 i => v (.forsPrf t l i)
  | .forsTree t l (k + 1) i => v (.forsTree t l k (2 * i)) ++ v (.forsTree t l k (2 * i + 1))
  | .forsRoots t l => concat p.k fun i => v (.forsTree t l p.a i)

/-- What the WOTS+ key of a leaf signs. -/
def msgAt (v : Place → Bytes) : (j t l : Nat) → Bytes
  | 0, t, l => v (.forsRoots t l)
  | j + 1, t, l => v (.node j (t * 2 ^ p.hp + l) p.hp 0)

/-- Its digits. -/
def digitAt (v : Place → Bytes) (j t l i : Nat) : Nat := (wotsDigits p (msgAt p v j t l)).getD i 0

/-- The signature with a given digest. -/
def sigAt (v : Place → Bytes) (R digest : Bytes) : Bytes :=
  let t := digestTree p digest
  let l := digestLeaf p digest
  let idx := fun i => (base2b (digestMd p digest) p.a p.k).getD i 0
  R ++
  (concat p.k fun i => v (.forsPrf t l (i * 2 ^ p.a + idx i)) ++
    concat p.a fun j => v (.forsTree t l j (i * 2 ^ (p.a - j) + sibling (idx i / 2 ^ j)))) ++
  concat p.d fun j =>
    (concat p.len fun i => v (.link j (htTree p t j) (htLeaf p t l j) i
      (digitAt p v j (htTree p t j) (htLeaf p t l j) i))) ++
    concat p.hp fun k => v (.node j (htTree p t j) k (sibling (htLeaf p t l j / 2 ^ k)))

/-- The value at a place, for the key with the given seeds. -/
def valueAt (hf : HashFns) (SKseed PKseed : Bytes) : Place → Bytes
  | .wotsPrf j t l i => hf.PRF PKseed SKseed (Place.wotsPrf j t l i).adrs
  | .wotsHash j t l i s => chain hf (hf.PRF PKseed SKseed (Place.wotsPrf j t l i).adrs) 0 (s + 1) PKseed
      (setChainAddress (setKeyPairAddress (setTypeAndClear (htAdrs j t) WOTS_HASH) l) i)
  | .wotsPk j t l => wotsPKgen p hf SKseed PKseed (setKeyPairAddress (setTypeAndClear (htAdrs j t) WOTS_HASH) l)
  | .tree j t k i => xmssNode p hf SKseed i k PKseed (htAdrs j t)
  | .forsPrf t l i => forsSKgen hf SKseed PKseed (forsAdrs t l) i
  | .forsTree t l k i => forsNode hf SKseed i k PKseed (forsAdrs t l)
  | .forsRoots t l => hf.T PKseed (Place.forsRoots t l).adrs
      (concat p.k fun i => forsNode hf SKseed i p.a PKseed (forsAdrs t l))

end

section
variable {p : Params} {hf : HashFns} {SKseed PKseed : Bytes}

theorem valueAt_link (j t l i s : Nat) : valueAt p hf SKseed PKseed (.link j t l i s) =
    chain hf (hf.PRF PKseed SKseed (Place.wotsPrf j t l i).adrs) 0 s PKseed
      (setChainAddress (setKeyPairAddress (setTypeAndClear (htAdrs j t) WOTS_HASH) l) i) := by
  cases s <;> rfl

theorem valueAt_node (j t k i : Nat) : valueAt p hf SKseed PKseed (.node j t k i) =
    xmssNode p hf SKseed i k PKseed (htAdrs j t) := by
  cases k <;> rfl

theorem _root_.Fips205.Place.leaf_lt (W : p.WF) {l : Nat} (h : l < 2 ^ p.hp) : l < 2 ^ 32 := by
  have : 2 ^ p.hp ≤ 2 ^ 31 := Nat.pow_le_pow_right (by decide) W.hp_le
  omega

/-- The values are computed from each other. -/
theorem valueAt_eq (W : p.WF) {x : Place} (hx : x.Exists p) :
    valueAt p hf SKseed PKseed x = hashAt hf PKseed x (argAt p SKseed (valueAt p hf SKseed PKseed) x) := by
  cases x with
  | wotsPrf j t l i => rfl
  | wotsHash j t l i s =>
    simp only [argAt, valueAt_link]
    exact (Props.C43_wots_addresses p hf (Place.leaf_lt W hx.2.2.1) _ SKseed PKseed 0 i s).1.trans
      (by rw [Nat.zero_add]; rfl)
  | wotsPk j t l =>
    simp only [argAt, valueAt_link]
    exact (Props.C43_wots_addresses p hf (Place.leaf_lt W hx.2.2) [] SKseed PKseed 0 0 0).2.1
  | tree j t k i =>
    obtain ⟨_, _, hk, _⟩ := hx
    obtain ⟨k, rfl⟩ := Nat.exists_eq_succ_of_ne_zero (Nat.pos_iff_ne_zero.mp hk)
    simp only [argAt, valueAt_node]
    rfl
  | forsPrf t l i => exact (Props.C43_fors_addresses p hf (Place.leaf_lt W hx.2.1) i 0 SKseed PKseed).1
  | forsTree t l k i =>
    cases k with
    | zero =>
      refine (Props.C43_fors_addresses p hf (Place.leaf_lt W hx.2.1) i 0 SKseed PKseed).2.1.trans ?_
      rw [← (Props.C43_fors_addresses p hf (Place.leaf_lt W hx.2.1) i 0 SKseed PKseed).1]
      rfl
    | succ k => rfl
  | forsRoots t l => rfl

/-! ## Order -/

/-- The values are computed in the order of these numbers. -/
def Place.rank (p : Params) : Place → Nat
  | .wotsPrf .. | .forsPrf .. => 0
  | .wotsHash _ _ _ _ s => s + 1
  | .wotsPk .. => 16
  | .tree _ _ k _ => 16 + k
  | .forsTree _ _ k _ => k + 1
  | .forsRoots .. => p.a + 2

theorem link_exists {j t l i s : Nat} (h : (Place.wotsPk j t l).Exists p) (hi : i < p.len) (hs : s ≤ 15) :
    (Place.link j t l i s).Exists p := by
  obtain ⟨h1, h2, h3⟩ := h
  cases s with
  | zero => exact ⟨h1, h2, h3, hi⟩
  | succ s => exact ⟨h1, h2, h3, hi, by omega⟩

theorem link_rank (j t l i s : Nat) : (Place.link j t l i s).rank p = s := by cases s <;> rfl

theorem node_exists {j t k i : Nat} (hj : j < p.d) (ht : t < 2 ^ (p.hp * (p.d - 1 - j))) (hk : k ≤ p.hp)
    (hi : i < 2 ^ (p.hp - k)) : (Place.node j t k i).Exists p := by
  cases k with
  | zero => exact ⟨hj, ht, hi⟩
  | succ k => exact ⟨hj, ht, Nat.succ_pos _, hk, hi⟩

theorem node_rank (j t k i : Nat) : (Place.node j t k i).rank p = 16 + k := by cases k <;> rfl

theorem child_lt {n k i : Nat} (hk : k < n) (h : i < 2 ^ (n - (k + 1))) : 2 * i + 1 < 2 ^ (n - k) := by
  have : 2 ^ (n - k) = 2 * 2 ^ (n - (k + 1)) := by
    rw [← Nat.pow_succ', show (n - (k + 1)).succ = n - k by omega]
  omega

/-- The arguments depend on earlier values only. -/
theorem argAt_congr {seed : Bytes} {v v' : Place → Bytes} {x : Place} (hx : x.Exists p)
    (h : ∀ y : Place, y.Exists p → y.rank p < x.rank p → v y = v' y) : argAt p seed v x = argAt p seed v' x := by
  cases x with
  | wotsPrf j t l i => rfl
  | forsPrf t l i => rfl
  | wotsHash j t l i s =>
    obtain ⟨h1, h2, h3, h4, h5⟩ := hx
    exact h _ (link_exists ⟨h1, h2, h3⟩ h4 (by omega)) (by rw [link_rank]; exact Nat.lt_succ_self s)
  | wotsPk j t l =>
    exact concat_congr fun i hi => h _ (link_exists hx hi (Nat.le_refl _)) (by rw [link_rank]; exact Nat.lt_succ_self 15)
  | tree j t k i =>
    obtain ⟨h1, h2, h3, h4, h5⟩ := hx
    obtain ⟨k, rfl⟩ := Nat.exists_eq_succ_of_ne_zero (Nat.pos_iff_ne_zero.mp h3)
    have hc := child_lt h4 h5
    refine congrArg₂ (· ++ ·) (h _ (node_exists h1 h2 (by omega) (by simp; omega)) ?_)
      (h _ (node_exists h1 h2 (by omega) (by simpa using hc)) ?_) <;>
    · rw [node_rank]
      simp only [Place.rank]
      omega
  | forsTree t l k i =>
    obtain ⟨h1, h2, h3, h4⟩ := hx
    cases k with
    | zero => exact h _ ⟨h1, h2, by simpa using h4⟩ (by simp [Place.rank])
    | succ k =>
      have e : 2 ^ (p.a - k) = 2 * 2 ^ (p.a - (k + 1)) := by
        rw [← Nat.pow_succ', show (p.a - (k + 1)).succ = p.a - k by omega]
      have e2 : p.k * 2 ^ (p.a - k) = 2 * (p.k * 2 ^ (p.a - (k + 1))) := by rw [e]; ring
      refine congrArg₂ (· ++ ·) (h _ ⟨h1, h2, by omega, by omega⟩ ?_) (h _ ⟨h1, h2, by omega, by omega⟩ ?_) <;>
      · simp only [Place.rank]
        omega
  | forsRoots t l =>
    exact concat_congr fun i hi => h _ ⟨hx.1, hx.2, Nat.le_refl _, by simpa using hi⟩ (by simp [Place.rank])

/-- Values that satisfy the equations are the values. -/
theorem valueAt_unique (W : p.WF) {v : Place → Bytes} (h : ∀ x : Place, x.Exists p → v x = hashAt hf PKseed x (argAt p SKseed v x))
    {x : Place} (hx : x.Exists p) : valueAt p hf SKseed PKseed x = v x := by
  induction hr : x.rank p using Nat.strong_induction_on generalizing x with
  | _ r ih =>
    rw [valueAt_eq W hx, h x hx]
    refine congrArg _ (argAt_congr hx fun y hy hlt => ih _ (hr ▸ hlt) hy rfl)

/-! ## Signatures -/

theorem valueAt_msg (hl : l < 2 ^ p.hp) (c : Attempt) (hp : c.p = p) (hh : c.hf = hf) (hs : c.SKseed = SKseed)
    (hk : c.PKseed = PKseed) (ht : c.t = t) (hc : c.l = l) (W : p.WF) (j : Nat) :
    msgAt p (valueAt p hf SKseed PKseed) j (htTree p t j) (htLeaf p t l j) = c.hMsg j := by
  subst hp hh hs hk ht hc
  cases j with
  | zero =>
    rw [htTree_zero]
    simp only [msgAt, htLeaf, valueAt, Attempt.hMsg, Attempt.hForsPk, Attempt.fRootsAdrs, Attempt.hFors, Attempt.fAdrs]
    rw [forsAdrs_eq, getKeyPairAddress_adrs6 _ _ _ _ _ (Place.leaf_lt W hl)]
    rfl
  | succ j =>
    simp only [msgAt, valueAt_node, Attempt.hMsg, Attempt.hXmss, Attempt.adrs, htLeaf]
    rw [htTree_succ, Nat.mul_comm, Nat.div_add_mod]

/-- A signature consists of values of the key. -/
theorem signWithR_eq {m : Nat} (W : p.WF) (V : Valid hf p.n m) (R M PKroot : Bytes) :
    signWithR p hf R M SKseed PKseed PKroot =
      sigAt p (valueAt p hf SKseed PKseed) R (hf.Hmsg R PKseed PKroot M) := by
  have hl : digestLeaf p (hf.Hmsg R PKseed PKroot M) < 2 ^ p.hp := by
    have := digestLeaf_lt (p := p) (hf.Hmsg R PKseed PKroot M)
    rwa [W.hd] at this
  rw [signWithR, sigAt]
  dsimp only
  rw [fors_correct W V, htSign_eq]
  generalize digestTree p (hf.Hmsg R PKseed PKroot M) = t at *
  generalize digestLeaf p (hf.Hmsg R PKseed PKroot M) = l at *
  generalize digestMd p (hf.Hmsg R PKseed PKroot M) = md
  refine congrArg₂ (· ++ ·) rfl (concat_congr fun j _ => ?_)
  let c : Attempt := ⟨p, hf, SKseed, PKseed, [], t, l, [], []⟩
  have e := signMsg_honest W V c rfl rfl hl j
  have e2 := valueAt_msg hl c rfl rfl rfl rfl rfl rfl W j
  rw [signSig, xmssSign, e]
  refine congrArg₂ (· ++ ·) ?_ (concat_congr fun k _ => (valueAt_node ..).symm)
  rw [(Props.C43_wots_addresses p hf (Place.leaf_lt W (htLeaf_lt p hl j)) [] SKseed PKseed 0 0 0).2.2]
  refine concat_congr fun i _ => ?_
  rw [valueAt_link, digitAt, e2]

/-! ## What stays unknown -/

/-- Places whose arguments are not known to who knows signatures, if the FORS secrets in `u` were opened. -/
def Hid (p : Params) (v : Place → Bytes) (u : Set Place) : Place → Prop
  | .wotsPrf .. => True
  | .forsPrf .. => True
  | .wotsHash j t l i s => s < digitAt p v j t l i
  | .forsTree t l 0 i => .forsPrf t l i ∉ u
  | _ => False

/-- Places whose values may be known. -/
def Told (p : Params) (v : Place → Bytes) (u : Set Place) : Place → Prop
  | .wotsPrf j t l i => digitAt p v j t l i = 0
  | .wotsHash j t l i s => digitAt p v j t l i ≤ s + 1
  | .forsPrf t l i => .forsPrf t l i ∈ u
  | _ => True

/-- The FORS secrets that a signature with the given digest opens. -/
def openedBy (p : Params) (digest : Bytes) : Set Place := fun x =>
  ∃ i < p.k, x = .forsPrf (digestTree p digest) (digestLeaf p digest)
    (i * 2 ^ p.a + (base2b (digestMd p digest) p.a p.k).getD i 0)

theorem told_link {v : Place → Bytes} {u : Set Place} {j t l i s : Nat} :
    Told p v u (.link j t l i s) ↔ digitAt p v j t l i ≤ s := by
  cases s with
  | zero => exact Nat.le_zero.symm
  | succ s => exact Iff.rfl

theorem told_node {v : Place → Bytes} {u : Set Place} {j t k i : Nat} : Told p v u (.node j t k i) := by
  cases k <;> trivial

theorem digitAt_le (v : Place → Bytes) (j t l i : Nat) : digitAt p v j t l i ≤ 15 := by
  have : digitAt p v j t l i < 16 := Model.wotsDigits_lt i
  omega

section
variable {v v' : Place → Bytes} {u : Set Place}

theorem msgAt_congr (h : ∀ x : Place, x.Exists p → Told p v u x → v x = v' x) {j t l : Nat}
    (hx : (Place.wotsPk j t l).Exists p) : msgAt p v j t l = msgAt p v' j t l := by
  obtain ⟨h1, h2, h3⟩ := hx
  cases j with
  | zero => exact h _ ⟨by simpa using h2, h3⟩ trivial
  | succ j =>
    refine h _ (node_exists (by omega) ?_ (Nat.le_refl _) (by simp)) told_node
    have : p.d - 1 - j = p.d - 1 - (j + 1) + 1 := by omega
    rw [this, Nat.mul_succ, Nat.pow_add]
    calc t * 2 ^ p.hp + l < t * 2 ^ p.hp + 2 ^ p.hp := by omega
      _ = (t + 1) * 2 ^ p.hp := by ring
      _ ≤ _ := Nat.mul_le_mul_right _ h2

theorem digitAt_congr (h : ∀ x : Place, x.Exists p → Told p v u x → v x = v' x) {j t l : Nat}
    (hx : (Place.wotsPk j t l).Exists p) (i : Nat) : digitAt p v j t l i = digitAt p v' j t l i := by
  rw [digitAt, digitAt, msgAt_congr h hx]

theorem hid_congr (h : ∀ x : Place, x.Exists p → Told p v u x → v x = v' x) {x : Place} (hx : x.Exists p)
    (u' : Set Place) : Hid p v u' x ↔ Hid p v' u' x := by
  cases x with
  | wotsHash j t l i s =>
    have := digitAt_congr h (j := j) (t := t) (l := l) ⟨hx.1, hx.2.1, hx.2.2.1⟩ i
    simp only [Hid, this]
  | forsTree t l k i => cases k <;> rfl
  | _ => rfl

/-- The arguments at other places can be computed from what may be known. -/
theorem argAt_told {seed seed' : Bytes} (h : ∀ x : Place, x.Exists p → Told p v u x → v x = v' x) {x : Place}
    (hx : x.Exists p) (hn : ¬ Hid p v u x) : argAt p seed v x = argAt p seed' v' x := by
  cases x with
  | wotsPrf j t l i => exact absurd trivial hn
  | forsPrf t l i => exact absurd trivial hn
  | wotsHash j t l i s =>
    obtain ⟨h1, h2, h3, h4, h5⟩ := hx
    exact h _ (link_exists ⟨h1, h2, h3⟩ h4 (by omega)) (told_link.mpr (Nat.le_of_not_lt hn))
  | wotsPk j t l =>
    exact concat_congr fun i hi => h _ (link_exists hx hi (Nat.le_refl _)) (told_link.mpr (digitAt_le ..))
  | tree j t k i =>
    obtain ⟨h1, h2, h3, h4, h5⟩ := hx
    obtain ⟨k, rfl⟩ := Nat.exists_eq_succ_of_ne_zero (Nat.pos_iff_ne_zero.mp h3)
    have hc := child_lt h4 h5
    exact congrArg₂ (· ++ ·) (h _ (node_exists h1 h2 (by omega) (by simp; omega)) told_node)
      (h _ (node_exists h1 h2 (by omega) (by simpa using hc)) told_node)
  | forsTree t l k i =>
    obtain ⟨h1, h2, h3, h4⟩ := hx
    cases k with
    | zero => exact h _ ⟨h1, h2, by simpa using h4⟩ (not_not.mp hn)
    | succ k =>
      have e : 2 ^ (p.a - k) = 2 * 2 ^ (p.a - (k + 1)) := by
        rw [← Nat.pow_succ', show (p.a - (k + 1)).succ = p.a - k by omega]
      have e2 : p.k * 2 ^ (p.a - k) = 2 * (p.k * 2 ^ (p.a - (k + 1))) := by rw [e]; ring
      exact congrArg₂ (· ++ ·) (h _ ⟨h1, h2, by omega, by omega⟩ trivial) (h _ ⟨h1, h2, by omega, by omega⟩ trivial)
  | forsRoots t l =>
    exact concat_congr fun i hi => h _ ⟨hx.1, hx.2, Nat.le_refl _, by simpa using hi⟩ trivial

/-- A signature can be computed from what may be known. -/
theorem sigAt_told (W : p.WF) {R digest : Bytes} (hu : openedBy p digest ⊆ u)
    (h : ∀ x : Place, x.Exists p → Told p v u x → v x = v' x) : sigAt p v R digest = sigAt p v' R digest := by
  have hl : digestLeaf p digest < 2 ^ p.hp := by
    have := digestLeaf_lt (p := p) digest
    rwa [W.hd] at this
  have ht : digestTree p digest < 2 ^ (p.hp * (p.d - 1)) := by
    have := digestTree_lt (p := p) digest
    rwa [W.hd, W.h_eq, show p.d * p.hp - p.hp = p.hp * (p.d - 1) by
      rw [Nat.mul_sub_one, Nat.mul_comm]] at this
  rw [sigAt, sigAt]
  dsimp only
  refine congrArg₂ (· ++ ·) (congrArg _ (concat_congr fun i hi => ?_)) (concat_congr fun j hj => ?_)
  · have hx : (base2b (digestMd p digest) p.a p.k).getD i 0 < 2 ^ p.a := Model.base2b_getD_lt
    have hik : i * 2 ^ p.a + 2 ^ p.a ≤ p.k * 2 ^ p.a := by
      rw [← Nat.succ_mul]; exact Nat.mul_le_mul_right _ hi
    refine congrArg₂ (· ++ ·) (h _ ⟨ht, hl, by omega⟩ (hu ⟨i, hi, rfl⟩)) (concat_congr fun j hj => ?_)
    refine h _ ⟨ht, hl, by omega, ?_⟩ trivial
    have hs : sibling ((base2b (digestMd p digest) p.a p.k).getD i 0 / 2 ^ j) < 2 ^ (p.a - j) := by
      refine Model.sibling_lt (by omega) ?_
      rw [Nat.div_lt_iff_lt_mul (Nat.two_pow_pos _), ← Nat.pow_add, Nat.sub_add_cancel (by omega)]
      exact hx
    have : i * 2 ^ (p.a - j) + 2 ^ (p.a - j) ≤ p.k * 2 ^ (p.a - j) := by
      rw [← Nat.succ_mul]; exact Nat.mul_le_mul_right _ hi
    omega
  · have htj := Model.htTree_lt ht hj
    have hlj := htLeaf_lt p (t := digestTree p digest) hl j
    refine congrArg₂ (· ++ ·) (concat_congr fun i hi => ?_) (concat_congr fun k hk => ?_)
    · rw [← digitAt_congr h ⟨hj, htj, hlj⟩]
      exact h _ (link_exists ⟨hj, htj, hlj⟩ hi (digitAt_le ..)) (told_link.mpr (Nat.le_refl _))
    · refine h _ (node_exists hj htj (by omega) (Model.sibling_lt (by omega) ?_)) told_node
      rw [Nat.div_lt_iff_lt_mul (Nat.two_pow_pos _), ← Nat.pow_add, Nat.sub_add_cancel (by omega)]
      exact hlj

end

end

end Fips205
