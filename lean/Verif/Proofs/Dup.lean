import Verif.Props.DupGame
import Verif.Proofs.OwnTree
import Verif.Proofs.OwnUnique

/-!
# Two private keys with one root

What is hashed to compute the root of a private key.  If two different pairs of seeds lead to the same root, two
different inputs have the same hash.
-/

namespace Fips205.Ask
open Fips205 Fips205.Spec

/-! ## The tree of a key -/

/-- The secret value `i` of the WOTS+ key pair `l`, and its chain. -/
def linkP (S : Bytes) (j t l i : Nat) : Ask Bytes := do
  let r ← query (.wotsPrf j t l i) S
  chain j t l i 0 r 15

/-- A leaf: the public key of the WOTS+ key pair `l`. -/
def leafP (p : Params) (S : Bytes) (j t l : Nat) : Ask Bytes := do
  let tmp ← concat p.len fun i => linkP S j t l i
  query (.wotsPk j t l) tmp

/-- A node. -/
def nodeP (p : Params) (S : Bytes) (j t : Nat) : Nat → Nat → Ask Bytes
  | 0, i => leafP p S j t i
  | z + 1, i => do
    let l ← nodeP p S j t z (2 * i)
    let r ← nodeP p S j t z (2 * i + 1)
    query (.tree j t (z + 1) i) (l ++ r)

variable {p : Params} {h : Place → Bytes → Bytes}

theorem nodeP_eval (S : Bytes) (j t z i : Nat) : (nodeP p S j t (z + 1) i).eval h =
    h (.tree j t (z + 1) i) ((nodeP p S j t z (2 * i)).eval h ++ (nodeP p S j t z (2 * i + 1)).eval h) := by
  rw [nodeP, eval_bind, eval_bind]
  rfl

theorem eval_query (x : Place) (z : Bytes) : (query x z).eval h = h x z := rfl

theorem linkP_eval (S : Bytes) (j t l i : Nat) : (linkP S j t l i).eval h =
    (chain j t l i 0 (h (.wotsPrf j t l i) S) 15).eval h := by
  rw [linkP, eval_bind, eval_query]

theorem leafP_eval (S : Bytes) (j t l : Nat) : (leafP p S j t l).eval h =
    h (.wotsPk j t l) (Spec.concat p.len fun i => (chain j t l i 0 (h (.wotsPrf j t l i) S) 15).eval h) := by
  rw [leafP, eval_bind, eval_concat, eval_query]
  simp only [linkP_eval]

theorem length_query (x : Place) (z : Bytes) : ((query x z).asked h).length = 1 := rfl

theorem length_linkP (S : Bytes) (j t l i : Nat) : ((linkP S j t l i).asked h).length ≤ 16 := by
  rw [linkP, asked_bind, List.length_append, length_chain, length_query]

theorem length_nodeP (S : Bytes) (j t z i : Nat) : ((nodeP p S j t z i).asked h).length ≤
    2 ^ z * (p.len * 16 + 1) + (2 ^ z - 1) := by
  induction z generalizing i with
  | zero =>
    rw [nodeP, leafP, asked_bind, List.length_append, length_query]
    have := length_concat (h := h) (n := p.len) (c := 16) (f := fun c => linkP S j t i c) fun c _ => length_linkP ..
    omega
  | succ z ih =>
    rw [nodeP, asked_bind, asked_bind, List.length_append, List.length_append]
    have h2 := ih (2 * i)
    have h3 := ih (2 * i + 1)
    have h4 := Nat.two_pow_pos z
    rw [length_query, Nat.pow_succ]
    have h5 : 2 ^ z * 2 * (p.len * 16 + 1) = 2 ^ z * (p.len * 16 + 1) + 2 ^ z * (p.len * 16 + 1) := by ring
    omega

/-- Two different inputs with the same hash at one place. -/
def Meets (p : Params) (h : Place → Bytes → Bytes) (a a' : Ask Bytes) : Prop :=
  ∃ x u v, x.Exists p ∧ u.length ≤ p.len * p.n ∧ v.length ≤ p.len * p.n ∧ (x, u) ∈ a.asked h ∧ (x, v) ∈ a'.asked h ∧
    u ≠ v ∧ h x u = h x v

theorem chain_meets {j t l i : Nat} {X Y : Bytes} (s : Nat)
    (e : (chain j t l i 0 X s).eval h = (chain j t l i 0 Y s).eval h) : X = Y ∨ ∃ r < s, ∃ u v,
      (Place.wotsHash j t l i r, u) ∈ (chain j t l i 0 X s).asked h ∧
      (Place.wotsHash j t l i r, v) ∈ (chain j t l i 0 Y s).asked h ∧ u ≠ v ∧
      h (.wotsHash j t l i r) u = h (.wotsHash j t l i r) v ∧ u = (chain j t l i 0 X r).eval h ∧
      v = (chain j t l i 0 Y r).eval h := by
  induction s with
  | zero => exact .inl e
  | succ s ih =>
    by_cases e' : (chain j t l i 0 X s).eval h = (chain j t l i 0 Y s).eval h
    · rcases ih e' with e | ⟨r, hr, u, v, h1, h2, h3⟩
      · exact .inl e
      · refine .inr ⟨r, by omega, u, v, ?_, ?_, h3⟩
        · rw [chain_asked]; exact List.mem_append_left _ h1
        · rw [chain_asked]; exact List.mem_append_left _ h2
    · rw [chain_eval, chain_eval, Nat.zero_add] at e
      refine .inr ⟨s, Nat.lt_succ_self _, _, _, ?_, ?_, e', e, rfl, rfl⟩
      · rw [chain_asked, Nat.zero_add]; exact List.mem_append_right _ (List.mem_singleton_self _)
      · rw [chain_asked, Nat.zero_add]; exact List.mem_append_right _ (List.mem_singleton_self _)

theorem leafP_meets (hlen : ∀ x z, (h x z).length = p.n) (h1 : 0 < p.len) {S S' : Bytes} (hS : S.length = p.n)
    (hS' : S'.length = p.n) (hne : S ≠ S') {j t l : Nat} (hx : (Place.wotsPk j t l).Exists p)
    (e : (leafP p S j t l).eval h = (leafP p S' j t l).eval h) : Meets p h (leafP p S j t l) (leafP p S' j t l) := by
  have hn : p.n ≤ p.len * p.n := Nat.le_mul_of_pos_left _ h1
  have hcl : ∀ S : Bytes, ∀ i < p.len, ((chain j t l i 0 (h (.wotsPrf j t l i) S) 15).eval h).length = p.n :=
    fun S i _ => chain_length hlen _ _ _ _ _ (hlen _ _) _
  have hq : ∀ S : Bytes, (Place.wotsPk j t l, Spec.concat p.len fun i =>
      (chain j t l i 0 (h (.wotsPrf j t l i) S) 15).eval h) ∈ (leafP p S j t l).asked h := fun S => by
    rw [leafP]
    refine mem_right ?_
    rw [eval_concat]
    simp only [linkP_eval]
    exact mem_query _ _
  have hin : ∀ (S : Bytes) q, q ∈ (linkP S j t l 0).asked h →
      q ∈ (leafP p S j t l).asked h := fun S q hq => by
    rw [leafP]
    exact mem_left (mem_concat h1 hq)
  rw [leafP_eval, leafP_eval] at e
  by_cases ec : (Spec.concat p.len fun i => (chain j t l i 0 (h (.wotsPrf j t l i) S) 15).eval h) =
      Spec.concat p.len fun i => (chain j t l i 0 (h (.wotsPrf j t l i) S') 15).eval h
  · have e0 := Spec.concat_inj (hcl S) (hcl S') ec 0 h1
    rcases chain_meets 15 e0 with e0 | ⟨r, hr, u, v, m1, m2, huv, e1, eu, ev⟩
    · refine ⟨.wotsPrf j t l 0, S, S', ⟨hx.1, hx.2.1, hx.2.2, h1⟩, by omega, by omega, hin S _ ?_, hin S' _ ?_, hne, e0⟩
      · rw [linkP]; exact mem_left (mem_query _ _)
      · rw [linkP]; exact mem_left (mem_query _ _)
    · refine ⟨.wotsHash j t l 0 r, u, v, ⟨hx.1, hx.2.1, hx.2.2, h1, hr⟩, ?_, ?_, hin S _ ?_,
        hin S' _ ?_, huv, e1⟩
      · rw [eu, chain_length hlen _ _ _ _ _ (hlen _ _)]; exact hn
      · rw [ev, chain_length hlen _ _ _ _ _ (hlen _ _)]; exact hn
      · rw [linkP]; exact mem_right m1
      · rw [linkP]; exact mem_right m2
  · refine ⟨.wotsPk j t l, _, _, hx, ?_, ?_, hq S, hq S', ec, e⟩
    · exact (Spec.concat_length (hcl S)).le
    · exact (Spec.concat_length (hcl S')).le

theorem nodeP_length (hlen : ∀ x z, (h x z).length = p.n) (S : Bytes) (j t z i : Nat) :
    ((nodeP p S j t z i).eval h).length = p.n := by
  cases z with
  | zero => rw [nodeP, leafP_eval]; exact hlen _ _
  | succ z => rw [nodeP_eval]; exact hlen _ _

theorem Meets.mono {a a' c c' : Ask Bytes} (hm : Meets p h a a') (ha : ∀ q ∈ a.asked h, q ∈ c.asked h)
    (ha' : ∀ q ∈ a'.asked h, q ∈ c'.asked h) : Meets p h c c' := by
  obtain ⟨x, u, v, h1, h2, h3, h4, h5, h6⟩ := hm
  exact ⟨x, u, v, h1, h2, h3, ha _ h4, ha' _ h5, h6⟩

theorem nodeP_meets (hlen : ∀ x z, (h x z).length = p.n) (h1 : 2 ≤ p.len) {S S' : Bytes} (hS : S.length = p.n)
    (hS' : S'.length = p.n) (hne : S ≠ S') {j t : Nat} (hj : j < p.d) (ht : t < 2 ^ (p.hp * (p.d - 1 - j))) {z i : Nat}
    (hz : z ≤ p.hp) (hi : i < 2 ^ (p.hp - z)) (e : (nodeP p S j t z i).eval h = (nodeP p S' j t z i).eval h) :
    Meets p h (nodeP p S j t z i) (nodeP p S' j t z i) := by
  induction z generalizing i with
  | zero => exact leafP_meets hlen (by omega) hS hS' hne ⟨hj, ht, hi⟩ e
  | succ z ih =>
    have e2 : 2 ^ (p.hp - z) = 2 * 2 ^ (p.hp - (z + 1)) := by
      rw [show p.hp - z = p.hp - (z + 1) + 1 by omega, Nat.pow_succ]; omega
    have hq : ∀ S : Bytes, (Place.tree j t (z + 1) i, (nodeP p S j t z (2 * i)).eval h ++
        (nodeP p S j t z (2 * i + 1)).eval h) ∈ (nodeP p S j t (z + 1) i).asked h := fun S => by
      rw [nodeP]
      exact mem_right (mem_right (mem_query _ _))
    have hl : ∀ S : Bytes, ((nodeP p S j t z (2 * i)).eval h ++ (nodeP p S j t z (2 * i + 1)).eval h).length ≤
        p.len * p.n := fun S => by
      rw [List.length_append, nodeP_length hlen, nodeP_length hlen, ← Nat.two_mul]
      exact Nat.mul_le_mul_right _ h1
    rw [nodeP_eval, nodeP_eval] at e
    by_cases ec : (nodeP p S j t z (2 * i)).eval h ++ (nodeP p S j t z (2 * i + 1)).eval h =
        (nodeP p S' j t z (2 * i)).eval h ++ (nodeP p S' j t z (2 * i + 1)).eval h
    · have := (List.append_inj ec (by rw [nodeP_length hlen, nodeP_length hlen])).1
      refine (ih (by omega) (by omega) this).mono (fun q hq => ?_) fun q hq => ?_
      · rw [nodeP]; exact mem_left hq
      · rw [nodeP]; exact mem_left hq
    · exact ⟨.tree j t (z + 1) i, _, _, ⟨hj, ht, by omega, hz, hi⟩, hl S, hl S', hq S, hq S', ec, e⟩

theorem eval_nodeP {hf : HashFns} {PKseed : Bytes} (S : Bytes) (j t : Nat) {z i : Nat} (hi : (i + 1) * 2 ^ z ≤ 2 ^ 32) :
    (nodeP p S j t z i).eval (hashAt hf PKseed) = xmssNode p hf S i z PKseed (htAdrs j t) := by
  induction z generalizing i with
  | zero =>
    have hi : i < 2 ^ 32 := by omega
    rw [nodeP, leafP_eval]
    change _ = wotsPKgen p hf S PKseed (setKeyPairAddress (setTypeAndClear (htAdrs j t) WOTS_HASH) i)
    rw [(Props.C43_wots_addresses p hf (j := j) (t := t) hi [] S PKseed 0 0 0).2.1]
    simp only [eval_chain j t _ _ hi]
    rfl
  | succ z ih =>
    rw [Nat.pow_succ] at hi
    have h1 : (2 * i + 1) * 2 ^ z ≤ (i + 1) * (2 ^ z * 2) := by
      rw [show (i + 1) * (2 ^ z * 2) = (2 * i + 1) * 2 ^ z + 2 ^ z by ring]
      exact Nat.le_add_right _ _
    have h2 : (2 * i + 1 + 1) * 2 ^ z = (i + 1) * (2 ^ z * 2) := by ring
    rw [nodeP_eval, ih (h1.trans hi), ih (h2.le.trans hi)]
    rfl

end Fips205.Ask

namespace Fips205.Props
open Fips205 Fips205.Model Fips205.Oracle

variable {ps : ParamSet} {B w : Nat} {b : Build}

/-! ## The outcome -/

/-- The outcome of the game. -/
def Duplicator.outcome (P : Spec.Prims) (O : Query B → Fin (256 ^ w)) : {Q : Nat} → Duplicator ps B w Q → DupOutcome ps
  | _, .present v v' => { v, v', first := accepts (decodeOf P v), second := accepts (decodeOf P v') }
  | _, .call y next => (next (O y)).outcome P O

theorem dup_eq (P : Spec.Prims) (O : Query B → Fin (256 ^ w)) {Q : Nat} (A : Duplicator ps B w Q) :
    A.play (crypto P) (fun y => pure (O y)) = (pure (A.outcome P O) : Exec b _) := by
  induction A with
  | present v v' =>
    rw [Duplicator.play, exec_decodeOf, pure_bind, exec_decodeOf, pure_bind]
    rfl
  | call y next ih =>
    rw [Duplicator.play, pure_bind, ih]
    rfl

/-- An accepted private key holds the root of its seeds. -/
theorem accepts_root {P : Spec.Prims} {v : Vector UInt8 ps.params.SK_LEN} (h : accepts (decodeOf P v) = true) :
    (skOf v).key.pk_root.toList = Spec.pkRoot ps.sp (ps.hf P) (skOf v).key.sk_seed.toList (skOf v).key.pk_seed.toList := by
  rw [decodeOf] at h
  split at h
  · rename_i e
    rw [← rootVec_toList, ← e]
  · cases h

/-! ## The calls -/

/-- What is hashed to compute the root. -/
def rootP (ps : ParamSet) (S : List UInt8) : Ask (List UInt8) := Ask.nodeP ps.sp S (ps.sp.d - 1) 0 ps.sp.hp 0

/-- What is hashed in the game. -/
def Duplicator.tree (b : Build) : {Q : Nat} → Duplicator ps B w Q → AskExec b w (List UInt8)
  | _, .present v v' => do
    let _ ← placesP ps (skOf v).key.pk_seed.toList (rootP ps (skOf v).key.sk_seed.toList)
    placesP ps (skOf v').key.pk_seed.toList (rootP ps (skOf v').key.sk_seed.toList)
  | _, .call y next => Tree.ask y.1 fun u => (next u).tree b

theorem eval_rootP (P : Spec.Prims) (S PKseed : List UInt8) :
    (rootP ps S).eval (hashAt (ps.hf P) PKseed) = Spec.pkRoot ps.sp (ps.hf P) S PKseed := by
  have h : Spec.setLayerAddress Spec.zeroAdrs (ps.sp.d - 1) = Spec.htAdrs (ps.sp.d - 1) 0 := by cases ps <;> decide
  rw [rootP, Ask.eval_nodeP _ _ _ (by cases ps <;> decide), Spec.pkRoot, h]

/-- The calls for the root of a private key. -/
abbrev rootCalls (P : Spec.Prims) (sk : PrivateKey ps.params) : List Call :=
  ((rootP ps sk.key.sk_seed.toList).asked (hashAt (ps.hf P) sk.key.pk_seed.toList)).map fun q =>
    callOf ps sk.key.pk_seed.toList q.1 q.2

theorem rootCalls_length (P : Spec.Prims) (sk : PrivateKey ps.params) :
    (rootCalls P sk).length ≤ treeWork ps ps.sp.hp := by
  rw [rootCalls, List.length_map]
  exact Ask.length_nodeP ..

theorem run_dup (hw : 64 ≤ w) (P0 : Spec.Prims) (O : Query B → Fin (256 ^ w)) {Q : Nat} (A : Duplicator ps B w Q) :
    ∃ (l : List Call) (r : List UInt8), (runWith (b := b) O).app (A.tree b) = (l, .ok r) ∧
      l.length ≤ Q + 2 * treeWork ps ps.sp.hp ∧ ∃ v v', A.outcome (withHash P0 O) O =
        { v, v', first := accepts (decodeOf (withHash P0 O) v), second := accepts (decodeOf (withHash P0 O) v') } ∧
      (∀ c ∈ rootCalls (withHash P0 O) (skOf v), c ∈ l) ∧ ∀ c ∈ rootCalls (withHash P0 O) (skOf v'), c ∈ l := by
  induction A with
  | present v v' =>
    refine ⟨rootCalls (withHash P0 O) (skOf v) ++ rootCalls (withHash P0 O) (skOf v'),
      (rootP ps (skOf v').key.sk_seed.toList).eval (hashAt (ps.hf (withHash P0 O)) (skOf v').key.pk_seed.toList), ?_, ?_,
      v, v', rfl, fun c hc => List.mem_append_left _ hc, fun c hc => List.mem_append_right _ hc⟩
    · rw [Duplicator.tree, RustHom.map_bind]
      exact log_bind (run_placesP hw P0 O _ _) (run_placesP hw P0 O _ _)
    · have h1 := rootCalls_length (withHash P0 O) (skOf v)
      have h2 := rootCalls_length (withHash P0 O) (skOf v')
      rw [List.length_append]
      omega
  | @call Q y next ih =>
    obtain ⟨l, r, h1, h2, v, v', h3, h4, h5⟩ := ih (O y)
    refine ⟨y.1 :: l, r, ?_, ?_, v, v', h3, fun c hc => List.mem_cons_of_mem _ (h4 c hc),
      fun c hc => List.mem_cons_of_mem _ (h5 c hc)⟩
    · have e : (runWith (b := b) O).app (Duplicator.tree b (.call y next)) =
          (y.1 :: ((runWith (b := b) O).app ((next (O (.of B y.1))).tree b)).1,
            ((runWith (b := b) O).app ((next (O (.of B y.1))).tree b)).2) := rfl
      rw [e, Query.of_val, h1]
    · rw [List.length_cons]
      omega

/-! ## A collision -/

/-- Seeds that are not the same. -/
theorem skOf_ne {v v' : Vector UInt8 ps.params.SK_LEN} (hr : v.toList.drop (3 * ps.sp.n) = v'.toList.drop (3 * ps.sp.n))
    (h : ∃ i, (i < ps.sp.n ∨ 2 * ps.sp.n ≤ i) ∧ v.toList[i]? ≠ v'.toList[i]?) :
    (skOf v).key.pk_root = (skOf v').key.pk_root ∧
      ((skOf v).key.sk_seed.toList ≠ (skOf v').key.sk_seed.toList ∨
        (skOf v).key.pk_seed.toList ≠ (skOf v').key.pk_seed.toList) := by
  have hN := N_eq ps
  have hl : ∀ v : Vector UInt8 ps.params.SK_LEN, v.toList.length = 4 * ps.sp.n := fun v => by
    rw [Vector.length_toList]; cases ps <;> rfl
  have h1 : ∀ v : Vector UInt8 ps.params.SK_LEN, (skOf v).key.sk_seed.toList = v.toList.take ps.sp.n := fun v => by
    have := hl v
    rw [skOf]
    dsimp only
    rw [← hN, toVec_toList (by rw [List.length_take]; omega)]
  have h2 : ∀ v : Vector UInt8 ps.params.SK_LEN, (skOf v).key.pk_seed.toList = (v.toList.drop (2 * ps.sp.n)).take ps.sp.n :=
      fun v => by
    have := hl v
    rw [skOf]
    dsimp only
    rw [List.drop_drop, ← hN, toVec_toList (by rw [List.length_take, List.length_drop]; omega), Nat.two_mul]
  have h3 : ∀ v : Vector UInt8 ps.params.SK_LEN, (skOf v).key.pk_root = toVec _ (v.toList.drop (3 * ps.sp.n)) := fun v => by
    rw [skOf]
    dsimp only
    rw [List.drop_drop, List.drop_drop, ← hN, show 3 * ps.sp.n = ps.sp.n + (ps.sp.n + ps.sp.n) by omega]
  refine ⟨by rw [h3, h3, hr], ?_⟩
  by_contra hc
  push Not at hc
  obtain ⟨e1, e2⟩ := hc
  rw [h1, h1] at e1
  rw [h2, h2] at e2
  obtain ⟨i, hi, hne⟩ := h
  refine hne ?_
  by_cases c1 : i < ps.sp.n
  · have := congrArg (·[i]?) e1
    simpa only [List.getElem?_take, if_pos c1] using this
  · have hi : 2 * ps.sp.n ≤ i := hi.resolve_left c1
    by_cases c2 : i < 3 * ps.sp.n
    · have := congrArg (·[i - 2 * ps.sp.n]?) e2
      simp only [List.getElem?_take, List.getElem?_drop, if_pos (show i - 2 * ps.sp.n < ps.sp.n by omega)] at this
      rwa [show 2 * ps.sp.n + (i - 2 * ps.sp.n) = i by omega] at this
    · have := congrArg (·[i - 3 * ps.sp.n]?) hr
      simp only [List.getElem?_drop] at this
      rwa [show 3 * ps.sp.n + (i - 3 * ps.sp.n) = i by omega] at this

/-- Two pairs of seeds with the same root: two different calls whose values begin alike. -/
theorem root_collide (hw : 64 ≤ w) (P0 : Spec.Prims) (O : Query B → Fin (256 ^ w))
    (hB : 160 + ps.sp.len * ps.sp.n ≤ B) {sk sk' : PrivateKey ps.params}
    (e : Spec.pkRoot ps.sp (ps.hf (withHash P0 O)) sk.key.sk_seed.toList sk.key.pk_seed.toList =
      Spec.pkRoot ps.sp (ps.hf (withHash P0 O)) sk'.key.sk_seed.toList sk'.key.pk_seed.toList)
    (hne : sk.key.sk_seed.toList ≠ sk'.key.sk_seed.toList ∨ sk.key.pk_seed.toList ≠ sk'.key.pk_seed.toList) :
    ∃ c c', c ∈ rootCalls (withHash P0 O) sk ∧ c' ∈ rootCalls (withHash P0 O) sk' ∧ Query.of B c ≠ Query.of B c' ∧
      headOf ps.sp.n (O (.of B c)) = headOf ps.sp.n (O (.of B c')) := by
  have hn : ps.sp.n ≤ w := (n_le_32 ps).trans ((show 32 ≤ 64 by decide).trans hw)
  have h2 := (two_le_len ps).1
  have hhash : ∀ seed x z, (hashAt (ps.hf (withHash P0 O)) seed x z).length = ps.sp.n := fun seed x z => by
    rw [hashAt_wide hn, Spec.toByte_length]
  have hs : ∀ v : Vector UInt8 ps.params.N, v.toList.length = ps.sp.n := fun v => seed_length v
  have hcall : ∀ (v : Vector UInt8 ps.params.N) (x : Place) (z : List UInt8), z.length ≤ ps.sp.len * ps.sp.n →
      (callOf ps v.toList x z).input.length ≤ B := fun v x z hz =>
    (callOf_length (hs v) x z).trans ((Nat.add_le_add_left hz _).trans hB)
  rw [← eval_rootP, ← eval_rootP] at e
  by_cases hp : sk.key.pk_seed.toList = sk'.key.pk_seed.toList
  · have hne := hne.resolve_right (not_not_intro hp)
    rw [← hp] at e
    obtain ⟨x, u, u', hx, hu, hu', m1, m2, huu, e⟩ := Ask.nodeP_meets (hhash _) h2 (hs _) (hs _) hne
      (show ps.sp.d - 1 < ps.sp.d by cases ps <;> decide) (Nat.two_pow_pos _) (Nat.le_refl _) (Nat.two_pow_pos _) e
    refine ⟨_, _, List.mem_map_of_mem m1, ?_, of_ne (hcall _ _ _ hu) (hcall sk.key.pk_seed x u' hu') fun ec =>
      huu (callOf_inj hx hx ec).2, ?_⟩
    · rw [rootCalls, ← hp]
      exact List.mem_map_of_mem m2
    · refine toByte_inj ?_
      rw [← hashAt_wide hn, ← hashAt_wide hn]
      exact e
  · obtain ⟨z, hz⟩ : ∃ z, ps.sp.hp = z + 1 := ⟨ps.sp.hp - 1, by cases ps <;> decide⟩
    simp only [rootCalls, rootP, hz] at e ⊢
    rw [Ask.nodeP_eval, Ask.nodeP_eval] at e
    have hl : ∀ seed S i, ((Ask.nodeP ps.sp S (ps.sp.d - 1) 0 z i).eval
        (hashAt (ps.hf (withHash P0 O)) seed)).length = ps.sp.n := fun seed S i => Ask.nodeP_length (hhash seed) ..
    have hmem : ∀ seed S, (Place.tree (ps.sp.d - 1) 0 (z + 1) 0,
        (Ask.nodeP ps.sp S (ps.sp.d - 1) 0 z (2 * 0)).eval (hashAt (ps.hf (withHash P0 O)) seed) ++
        (Ask.nodeP ps.sp S (ps.sp.d - 1) 0 z (2 * 0 + 1)).eval (hashAt (ps.hf (withHash P0 O)) seed)) ∈
        (Ask.nodeP ps.sp S (ps.sp.d - 1) 0 (z + 1) 0).asked (hashAt (ps.hf (withHash P0 O)) seed) := fun seed S => by
      rw [Ask.nodeP]
      exact Ask.mem_right (Ask.mem_right (Ask.mem_query _ _))
    have hlen : ∀ seed S, ((Ask.nodeP ps.sp S (ps.sp.d - 1) 0 z (2 * 0)).eval (hashAt (ps.hf (withHash P0 O)) seed) ++
        (Ask.nodeP ps.sp S (ps.sp.d - 1) 0 z (2 * 0 + 1)).eval (hashAt (ps.hf (withHash P0 O)) seed)).length ≤
        ps.sp.len * ps.sp.n := fun seed S => by
      rw [List.length_append, hl, hl, ← Nat.two_mul]
      exact Nat.mul_le_mul_right _ h2
    refine ⟨_, _, List.mem_map_of_mem (hmem _ _), List.mem_map_of_mem (hmem _ _),
      of_ne (hcall _ _ _ (hlen _ _)) (hcall _ _ _ (hlen _ _)) fun ec => ?_, ?_⟩
    · obtain ⟨a, ha⟩ := callOf_input ps sk.key.pk_seed.toList (.tree (ps.sp.d - 1) 0 (z + 1) 0)
        ((Ask.nodeP ps.sp sk.key.sk_seed.toList (ps.sp.d - 1) 0 z (2 * 0)).eval
          (hashAt (ps.hf (withHash P0 O)) sk.key.pk_seed.toList) ++
        (Ask.nodeP ps.sp sk.key.sk_seed.toList (ps.sp.d - 1) 0 z (2 * 0 + 1)).eval
          (hashAt (ps.hf (withHash P0 O)) sk.key.pk_seed.toList))
      obtain ⟨a', ha'⟩ := callOf_input ps sk'.key.pk_seed.toList (.tree (ps.sp.d - 1) 0 (z + 1) 0)
        ((Ask.nodeP ps.sp sk'.key.sk_seed.toList (ps.sp.d - 1) 0 z (2 * 0)).eval
          (hashAt (ps.hf (withHash P0 O)) sk'.key.pk_seed.toList) ++
        (Ask.nodeP ps.sp sk'.key.sk_seed.toList (ps.sp.d - 1) 0 z (2 * 0 + 1)).eval
          (hashAt (ps.hf (withHash P0 O)) sk'.key.pk_seed.toList))
      have ei := congrArg Call.input ec
      rw [ha, ha', List.append_assoc, List.append_assoc] at ei
      exact hp (List.append_inj ei (by rw [hs, hs])).1
    · refine toByte_inj ?_
      rw [← hashAt_wide hn, ← hashAt_wide hn]
      exact e

/-- The chance to win the game. -/
theorem dup_le (hw : 64 ≤ w) (P0 : Spec.Prims) (hB : 160 + ps.sp.len * ps.sp.n ≤ B) {Q : Nat}
    (A : Duplicator ps B w Q) :
    (avg fun O : Query B → Fin (256 ^ w) => ind (A.outcome (withHash P0 O) O).Won) ≤
      (Q + 2 * treeWork ps ps.sp.hp : ℕ) ^ 2 / (2 * 256 ^ ps.sp.n) := by
  have : Nonempty (Fin (256 ^ w)) := ⟨⟨0, Nat.pow_pos (by decide)⟩⟩
  have hn : ps.sp.n ≤ w := (n_le_32 ps).trans ((show 32 ≤ 64 by decide).trans hw)
  let t : Tree Call (Fin (256 ^ w)) Panic (List UInt8) := A.tree demoBuild
  have ht : ∀ O : Query B → Fin (256 ^ w), (t.log fun c => O (.of B c)).length ≤ Q + 2 * treeWork ps ps.sp.hp ∧
      ((A.outcome (withHash P0 O) O).Won →
        ∃ c c', c ∈ (t.log fun c => O (.of B c)) ∧ c' ∈ (t.log fun c => O (.of B c)) ∧ Query.of B c ≠ Query.of B c' ∧
          headOf ps.sp.n (O (.of B c)) = headOf ps.sp.n (O (.of B c'))) := by
    intro O
    obtain ⟨l, r, h1, h2, v, v', h3, h4, h5⟩ := run_dup (b := demoBuild) hw P0 O A
    have e : (t.log fun c => O (.of B c)) = l := congrArg Prod.fst h1
    rw [e]
    refine ⟨h2, fun h => ?_⟩
    rw [h3] at h
    obtain ⟨a1, a2, hr, hd⟩ := h
    obtain ⟨er, hne⟩ := skOf_ne hr hd
    have e1 := accepts_root a1
    have e2 := accepts_root a2
    obtain ⟨c, c', m1, m2, m3⟩ := root_collide hw P0 O hB (e1.symm.trans ((congrArg Vector.toList er).trans e2)) hne
    exact ⟨c, c', h4 c m1, h5 c' m2, m3⟩
  have hc := Tree.collide_le (pr := Query.of B) (h := headOf ps.sp.n) (head_mem_le hn) t _ fun O => (ht O).1
  rw [Fintype.card_fin] at hc
  push_cast at hc ⊢
  exact (avg_mono fun O => ind_mono (ht O).2).trans hc

end Fips205.Props
