import Verif.Proofs.Full
import Verif.Proofs.Override
import Verif.Props.Apart

/-!
# The hash that decides

The root of a key, and the root that a verification computes, is one value of a hash function, at the place of the
root of the top tree.  Nothing that is computed before it depends on the hash functions there.
-/

namespace Fips205.Oracle
variable {Y E : Type} [Fintype Y] [DecidableEq Y] [Fintype E] [Nonempty E]

/-- A value of a random function at a point that can be told from the values elsewhere is random. -/
theorem avg_star (star : (Y → E) → Y) (hst : ∀ O O' : Y → E, (∀ y, y ≠ star O → O' y = O y) → star O' = star O)
    (G : E → ℚ) : (avg fun O : Y → E => G (O (star O))) = avg G := by
  have hinj : ∀ (O : Y → E) (i j : Unit) (y : Y), some (star O) = some y → some (star O) = some y → i = j :=
    fun _ _ _ _ _ _ => rfl
  have hov : ∀ (O : Y → E) (H : Unit → E), star (over (fun _ => some (star O)) O H) = star O := fun O H =>
    hst _ _ fun y hy => over_off _ _ fun _ e => hy (Option.some.inj e).symm
  rw [avg_over (I := Unit) (fun O _ => some (star O)) hinj fun O H => funext fun _ => congrArg some (hov O H)]
  have : ∀ (O : Y → E) (H : Unit → E), over (fun _ => some (star O)) O H
      (star (over (fun _ => some (star O)) O H)) = H () := fun O H => by
    rw [hov]
    exact over_at (hinj O) O H rfl
  simp only [this]
  have : Nonempty (Y → E) := inferInstance
  rw [avg_const, avg_equiv (Equiv.funUnique Unit E)]
  rfl

/-- All values are equally likely. -/
theorem avg_point {D : Type} [Fintype D] (r : D) : (avg fun a : D => ind (a = r)) = 1 / Fintype.card D := by
  classical
  have : (∑ a : D, ind (a = r)) = 1 := by
    refine (Finset.sum_eq_single r (fun a _ h => ?_) fun h => absurd (Finset.mem_univ r) h).trans ?_
    · simp [ind, h]
    · simp [ind]
  rw [avg, this]

end Fips205.Oracle

namespace Fips205
open Spec

namespace Ask
variable {α : Type} {Q R : Place → Prop}

theorem Only.and {a : Ask α} (h : a.Only Q) (h' : a.Only R) : a.Only fun x => Q x ∧ R x := by
  induction a with
  | pure a => trivial
  | ask x z k ih => exact ⟨⟨h.1, h'.1⟩, fun r => ih r (h.2 r) (h'.2 r)⟩

end Ask

/-- The place of the root of the top tree. -/
def topPlace (p : Params) : Place := .tree (p.d - 1) 0 p.hp 0

theorem topPlace_exists {p : Params} (W : p.WF) (h : 1 ≤ p.hp) : (topPlace p).Exists p :=
  ⟨by have := W.d_pos; omega, Nat.two_pow_pos _, h, Nat.le_refl _, Nat.two_pow_pos _⟩

namespace Spec.Attempt
variable {c : Attempt} {m : Nat}

/-- What the verifier hashes last. -/
def lastP (c : Attempt) : Ask Bytes := do
  let M ← c.layersP (c.p.d - 1)
  let tmp ← Ask.concat c.p.len fun i =>
    Ask.chain (c.p.d - 1) (htTree c.p c.t (c.p.d - 1)) (c.leaf (c.p.d - 1)) i ((wotsDigits c.p M).getD i 0)
      (c.vWots (c.p.d - 1) i) (15 - (wotsDigits c.p M).getD i 0)
  let node ← Ask.query (.wotsPk (c.p.d - 1) (htTree c.p c.t (c.p.d - 1)) (c.leaf (c.p.d - 1))) tmp
  let nd ← Ask.climb (fun k => .tree (c.p.d - 1) (htTree c.p c.t (c.p.d - 1)) k (c.leaf (c.p.d - 1) / 2 ^ k))
    (c.leaf (c.p.d - 1)) (c.vAuth (c.p.d - 1)) node (c.p.hp - 1)
  .pure (children (c.leaf (c.p.d - 1) / 2 ^ (c.p.hp - 1)) nd (c.vAuth (c.p.d - 1) (c.p.hp - 1)))

theorem top_place (o : c.Ok m) : Place.tree (c.p.d - 1) (htTree c.p c.t (c.p.d - 1)) c.p.hp
    (c.leaf (c.p.d - 1) / 2 ^ c.p.hp) = topPlace c.p := by
  have hd := o.wf.d_pos
  have h1 := o.htTree_lt (j := c.p.d - 1) (by omega)
  rw [Nat.sub_self, Nat.mul_zero, Nat.pow_zero] at h1
  have h2 : c.leaf (c.p.d - 1) / 2 ^ c.p.hp = 0 := Nat.div_eq_of_lt (o.leaf_lt _)
  rw [h2, Nat.lt_one_iff.mp h1, topPlace]

theorem lastP_eq (o : c.Ok m) (hp : 1 ≤ c.p.hp) : c.lastP.eval (hashAt c.hf c.PKseed) =
    children (c.leaf (c.p.d - 1) / 2 ^ (c.p.hp - 1)) (c.vXmss (c.p.d - 1) (c.p.hp - 1))
      (c.vAuth (c.p.d - 1) (c.p.hp - 1)) := by
  rw [lastP]
  simp only [Ask.eval_bind]
  rw [eval_layersP o, eval_wots o]
  change children _ ((Ask.climb _ _ _ _ _).eval _) _ = _
  exact congrArg (fun x => children _ x _) (eval_xmss o _ _ (by omega))

theorem lastP_length (o : c.Ok m) (hp : 1 ≤ c.p.hp) : (c.lastP.eval (hashAt c.hf c.PKseed)).length = 2 * c.p.n := by
  have hd := o.wf.d_pos
  have h1 := o.xmss_length (c.p.d - 1) (c.p.hp - 1)
  have h2 := o.auth_length (j := c.p.d - 1) (k := c.p.hp - 1) (by omega) (by omega)
  rw [lastP_eq o hp, children]
  split <;> rw [List.length_append, h1, h2] <;> omega

/-- The root is the hash of it. -/
theorem eval_lastP (o : c.Ok m) (hp : 1 ≤ c.p.hp) :
    c.vMsg c.p.d = hashAt c.hf c.PKseed (topPlace c.p) (c.lastP.eval (hashAt c.hf c.PKseed)) := by
  rw [lastP_eq o hp, ← top_place o]
  obtain ⟨d, hd⟩ : ∃ d, c.p.d = d + 1 := ⟨c.p.d - 1, by have := o.wf.d_pos; omega⟩
  obtain ⟨k, hk⟩ : ∃ k, c.p.hp = k + 1 := ⟨c.p.hp - 1, by omega⟩
  rw [hd, vMsg_succ, Nat.add_sub_cancel, hk, tree_value o d (by omega), Nat.add_sub_cancel]

/-- It does not depend on the hash at the root. -/
theorem only_lastP (o : c.Ok m) (hp : 1 ≤ c.p.hp) : c.lastP.Only fun x => x.Exists c.p ∧ x ≠ topPlace c.p := by
  have hd := o.wf.d_pos
  refine Ask.Only.and ?_ ?_
  · rw [lastP]
    refine Ask.only_bind (only_layersP o (by omega)) fun M => ?_
    have hw := (place_wotsPk o (j := c.p.d - 1) (by omega)).1
    exact Ask.only_bind (Ask.only_concat fun i hi => Ask.only_chain fun u hu =>
        ⟨hw.1, hw.2.1, hw.2.2, hi, by omega⟩) fun _ =>
      Ask.only_bind (Ask.only_query hw _) fun _ => Ask.only_bind (Ask.only_climb fun u hu =>
        (place_tree o (by omega) (by omega)).1) fun _ => trivial
  · have hf : c.forsP.Only (· ≠ topPlace c.p) := by
      rw [forsP]
      exact Ask.only_bind (Ask.only_concat fun i hi => Ask.only_bind (Ask.only_query nofun _) fun _ =>
        Ask.only_climb fun u hu => nofun) fun _ => Ask.only_query nofun _
    have hl : ∀ j ≤ c.p.d - 1, (c.layersP j).Only (· ≠ topPlace c.p) := by
      intro j hj
      induction j with
      | zero => exact hf
      | succ j ih =>
        rw [layersP]
        refine Ask.only_bind (ih (by omega)) fun M => ?_
        rw [layerP]
        refine Ask.only_bind (Ask.only_concat fun i hi => Ask.only_chain fun u hu => nofun) fun _ =>
          Ask.only_bind (Ask.only_query nofun _) fun _ => Ask.only_climb fun u hu e => ?_
        rw [topPlace] at e
        injection e
        omega
    rw [lastP]
    refine Ask.only_bind (hl _ le_rfl) fun M => Ask.only_bind (Ask.only_concat fun i hi => Ask.only_chain fun u hu => nofun)
      fun _ => Ask.only_bind (Ask.only_query nofun _) fun _ => Ask.only_bind (Ask.only_climb fun u hu e => ?_) fun _ => trivial
    rw [topPlace] at e
    injection e
    omega

theorem lastP_congr {c c' : Attempt} (h1 : c.p = c'.p) (h2 : c.md = c'.md) (h3 : c.t = c'.t) (h4 : c.l = c'.l)
    (h5 : c.SIGfors = c'.SIGfors) (h6 : c.SIGht = c'.SIGht) : c.lastP = c'.lastP := by
  have e := layersP_congr h1 h2 h3 h4 h5 h6
  rw [lastP, lastP, e]
  obtain ⟨p, hf, s, k, md, t, l, f, g⟩ := c
  obtain ⟨p', hf', s', k', md', t', l', f', g'⟩ := c'
  dsimp only at h1 h2 h3 h4 h5 h6
  subst h1 h2 h3 h4 h5 h6
  rfl

theorem lastP_same {c c' : Attempt} (o : c.Ok m) (hp : 1 ≤ c.p.hp) (h1 : c.p = c'.p) (h2 : c.md = c'.md)
    (h3 : c.t = c'.t) (h4 : c.l = c'.l) (h5 : c.SIGfors = c'.SIGfors) (h6 : c.SIGht = c'.SIGht)
    {h h' : Place → Bytes → Bytes} (hh : ∀ x, x.Exists c.p ∧ x ≠ topPlace c.p → ∀ z, h x z = h' x z) :
    c.lastP.eval h = c'.lastP.eval h' := by
  rw [← lastP_congr h1 h2 h3 h4 h5 h6]
  exact Ask.eval_congr hh _ (only_lastP o hp)

/-- A verification with hash functions that differ at the root only. -/
theorem attempt_last {p : Params} {hf hf' : HashFns} {M SIG PKseed PKroot : Bytes} (W : p.WF) (V : Valid hf p.n m)
    (hn : p.n ≤ 128) (hlen : SIG.length = p.sigLen) (hp : 1 ≤ p.hp)
    (hd : hf'.Hmsg (slice SIG 0 p.n) PKseed PKroot M = hf.Hmsg (slice SIG 0 p.n) PKseed PKroot M)
    (hh : ∀ x : Place, x.Exists p ∧ x ≠ topPlace p → ∀ z, hashAt hf PKseed x z = hashAt hf' PKseed x z) :
    (attempt p hf M SIG [] PKseed PKroot).lastP.eval (hashAt hf PKseed) =
      (attempt p hf' M SIG [] PKseed PKroot).lastP.eval (hashAt hf' PKseed) :=
  lastP_same (c' := attempt p hf' M SIG [] PKseed PKroot) (attempt_ok W V hn (M := M) (SKseed := []) (PKseed := PKseed)
    (PKroot := PKroot) hlen).1 hp rfl (congrArg (digestMd p) hd).symm (congrArg (digestTree p) hd).symm (congrArg (digestLeaf p) hd).symm rfl rfl hh

end Spec.Attempt
end Fips205

namespace Fips205.Props
open Fips205 Fips205.Model Oracle

variable {ps : ParamSet} {B w : Nat} {P0 : Spec.Prims} {O O' : Query B → Fin (256 ^ w)} {PKseed : List UInt8}

theorem one_le_hp (ps : ParamSet) : 1 ≤ ps.sp.hp := by cases ps <;> decide

theorem n_le_sigLen (ps : ParamSet) : ps.sp.n ≤ ps.sp.sigLen := by cases ps <;> decide

theorem top_is (ps : ParamSet) : (topPlace ps.sp).Exists ps.sp := topPlace_exists ps.wf (one_le_hp ps)

/-- The first `n` bytes of a random value are random. -/
theorem avg_headOf {n : Nat} (hw : n ≤ w) (r : Fin (256 ^ n)) :
    (avg fun e : Fin (256 ^ w) => ind (headOf n e = r)) = 1 / 256 ^ n := by
  classical
  have : Nonempty (Fin (256 ^ (w - n))) := ⟨⟨0, Nat.pow_pos (by decide)⟩⟩
  rw [avg_equiv (glue hw), avg_prod]
  simp only [headOf_glue, avg_const]
  rw [avg_point, Fintype.card_fin]
  push_cast
  rfl

theorem callOf_at (ps : ParamSet) (PKseed : List UInt8) (x : Place) (z : List UInt8) :
    CallAt ps.family ps.row PKseed x (callOf ps PKseed x z) := by
  refine ⟨z, ?_⟩
  rw [callOf]
  cases ps.family with
  | shake => rfl
  | sha2 =>
    dsimp only
    split <;> rfl

/-- A call at a place. -/
def CallTo (ps : ParamSet) (PKseed : List UInt8) (x : Place) (y : Query B) : Prop :=
  ∃ z, y.1 = callOf ps PKseed x z

/-- A call at the place of the root. -/
abbrev TopCall (ps : ParamSet) (PKseed : List UInt8) (y : Query B) : Prop := CallTo ps PKseed (topPlace ps.sp) y

theorem callOf_ne_nil (x : Place) (z : List UInt8) : (callOf ps PKseed x z).input ≠ [] := by
  intro h
  have h := congrArg List.length h
  have h1 := adrs_length x
  have h2 := compress_length h1
  simp only [callOf] at h
  split at h
  · simp only [List.length_append, List.length_nil] at h; omega
  · split at h <;>
    · simp only [List.length_append, List.length_nil] at h; omega

theorem of_ne_top {y : Query B} {x : Place} (hy : CallTo ps PKseed x y) {c : Call}
    (hc : ∀ z, c ≠ callOf ps PKseed x z) : Query.of B c ≠ y := by
  rintro rfl
  obtain ⟨z, hz⟩ := hy
  rw [Query.of] at hz
  split at hz
  · exact hc z hz
  · exact callOf_ne_nil _ _ (congrArg Call.input hz).symm

section
variable {y : Query B} {x0 : Place} (hx0 : x0.Exists ps.sp) (hy : CallTo ps PKseed x0 y) (hO : ∀ q, q ≠ y → O' q = O q)
include hx0 hy hO

theorem hashAt_off (hw : ps.sp.n ≤ w) {x : Place} (hx : x.Exists ps.sp ∧ x ≠ x0) (z : List UInt8) :
    hashAt (ps.hf (withHash P0 O)) PKseed x z = hashAt (ps.hf (withHash P0 O')) PKseed x z := by
  rw [hashAt_wide hw, hashAt_wide hw, hO]
  exact of_ne_top hy fun z' h => hx.2 (callOf_inj hx.1 hx0 h).1

/-- A string that does not begin with `PK.seed` and zeros. -/
theorem prims_off {X : List UInt8} (hX : ∀ rest, X ≠ PKseed ++ ([0, 0, 0] ++ rest)) :
    (withHash P0 O').sha256 X = (withHash P0 O).sha256 X ∧ (withHash P0 O').sha512 X = (withHash P0 O).sha512 X ∧
    (∀ k, (withHash P0 O').shake128 X k = (withHash P0 O).shake128 X k) ∧
    ∀ k, (withHash P0 O').shake256 X k = (withHash P0 O).shake256 X k := by
  have key : ∀ a : Spec.PreHash, O' (.of B ⟨a, X⟩) = O (.of B ⟨a, X⟩) := by
    intro a
    refine hO _ (of_ne_top hy fun z h => ?_)
    obtain ⟨rest, hr⟩ := callAt_begins hx0 (callOf_at ps PKseed x0 z)
    rw [← h] at hr
    exact hX rest hr
  simp only [withHash, key, and_self, implies_true]

/-- The digest of a message is the same. -/
theorem hmsg_off (hP : ¬ [0, 0, 0] <+: PKseed) (hn : PKseed.length = ps.sp.n) {R : List UInt8} (hR : R.length = ps.sp.n)
    (root M : List UInt8) :
    (ps.hf (withHash P0 O')).Hmsg R PKseed root M = (ps.hf (withHash P0 O)).Hmsg R PKseed root M := by
  have key : ∀ rest, (withHash P0 O').sha256 (R ++ (PKseed ++ rest)) = (withHash P0 O).sha256 (R ++ (PKseed ++ rest)) ∧
      (withHash P0 O').sha512 (R ++ (PKseed ++ rest)) = (withHash P0 O).sha512 (R ++ (PKseed ++ rest)) ∧
      (∀ k, (withHash P0 O').shake128 (R ++ (PKseed ++ rest)) k = (withHash P0 O).shake128 (R ++ (PKseed ++ rest)) k) ∧
      ∀ k, (withHash P0 O').shake256 (R ++ (PKseed ++ rest)) k = (withHash P0 O).shake256 (R ++ (PKseed ++ rest)) k := by
    intro rest
    refine prims_off hx0 hy hO fun rest' h => hP ?_
    have h := (List.append_inj h (hR.trans hn.symm)).2
    have h3 : 3 ≤ PKseed.length := by rw [hn]; cases ps <;> decide
    refine List.prefix_of_prefix_length_le (l₃ := PKseed ++ rest) ?_ (List.prefix_append _ _) h3
    rw [h]
    exact List.prefix_append _ _
  cases hf : ps.family with
  | shake =>
    simp only [ParamSet.hf, Spec.hashFns, hf, Spec.shakeFns, List.append_assoc, key]
  | sha2 =>
    simp only [ParamSet.hf, Spec.hashFns, hf]
    split
    · simp only [Spec.sha2Cat1Fns, Spec.mgf1, Spec.sha256', List.append_assoc, key]
    · simp only [Spec.sha2Cat35Fns, Spec.mgf1, Spec.sha512', List.append_assoc, key]

end

/-! ## The root -/

theorem top_val (hn : PKseed.length = ps.sp.n) (hB : 160 + 2 * ps.sp.n ≤ B) {z : List UInt8}
    (hz : z.length ≤ 2 * ps.sp.n) : TopCall ps PKseed (queryAt ps B PKseed (topPlace ps.sp) z) := by
  have := callOf_length (ps := ps) hn (topPlace ps.sp) z
  exact ⟨z, by rw [queryAt, Query.of, dif_pos (by omega)]⟩

section
variable (P0 O PKseed)

/-- The call that computes the root of a key. -/
def rootCall (ps : ParamSet) (SKseed : List UInt8) : Query B :=
  queryAt ps B PKseed (topPlace ps.sp)
    (argAt ps.sp SKseed (valueAt ps.sp (ps.hf (withHash P0 O)) SKseed PKseed) (topPlace ps.sp))

/-- The call that computes the root in a verification. -/
def verdictCall (ps : ParamSet) (M SIG PKroot : List UInt8) : Query B :=
  queryAt ps B PKseed (topPlace ps.sp)
    ((Spec.attempt ps.sp (ps.hf (withHash P0 O)) M SIG [] PKseed PKroot).lastP.eval
      (hashAt (ps.hf (withHash P0 O)) PKseed))

end

theorem hashAt_length (hw : ps.sp.n ≤ w) (x : Place) (z : List UInt8) :
    (hashAt (ps.hf (withHash P0 O)) PKseed x z).length = ps.sp.n := by
  rw [hashAt_wide hw, Spec.toByte_length]

section
variable {SKseed : List UInt8} (hw : ps.sp.n ≤ w)
include hw

theorem pkRoot_call : Spec.pkRoot ps.sp (ps.hf (withHash P0 O)) SKseed PKseed =
    Spec.toByte (headOf ps.sp.n (O (rootCall P0 O PKseed ps SKseed))) ps.sp.n := by
  have h := valueAt_eq (hf := ps.hf (withHash P0 O)) (SKseed := SKseed) (PKseed := PKseed) ps.wf (top_is ps)
  rw [hashAt_wide hw] at h
  exact h

theorem rootCall_top (hn : PKseed.length = ps.sp.n) (hB : 160 + 2 * ps.sp.n ≤ B) :
    TopCall ps PKseed (rootCall P0 O PKseed ps SKseed) := by
  refine top_val hn hB ?_
  have hp := one_le_hp ps
  have hl : ∀ i < 2, (valueAt ps.sp (ps.hf (withHash P0 O)) SKseed PKseed
      (.node (ps.sp.d - 1) 0 (ps.sp.hp - 1) i)).length = ps.sp.n := by
    intro i hi
    rw [valueAt_eq ps.wf, hashAt_length hw]
    refine node_exists (by have := ps.wf.d_pos; omega) (Nat.two_pow_pos _) (by omega) ?_
    rwa [show ps.sp.hp - (ps.sp.hp - 1) = 1 by omega]
  rw [topPlace, argAt, List.length_append, hl _ (by decide), hl _ (by decide)]
  omega

theorem rootCall_stable (hn : PKseed.length = ps.sp.n) (hB : 160 + 2 * ps.sp.n ≤ B)
    (hO : ∀ q, q ≠ rootCall P0 O PKseed ps SKseed → O' q = O q) :
    rootCall P0 O' PKseed ps SKseed = rootCall P0 O PKseed ps SKseed := by
  have hy := rootCall_top (P0 := P0) (O := O) (SKseed := SKseed) hw hn hB
  refine congrArg (queryAt ps B PKseed (topPlace ps.sp)) (argAt_congr (top_is ps) fun y hx hr => ?_)
  have : ∀ r (y : Place), y.Exists ps.sp → y.rank ps.sp = r → r < (topPlace ps.sp).rank ps.sp →
      valueAt ps.sp (ps.hf (withHash P0 O')) SKseed PKseed y = valueAt ps.sp (ps.hf (withHash P0 O)) SKseed PKseed y := by
    intro r
    induction r using Nat.strong_induction_on with
    | _ r ih =>
      intro y hx hr hlt
      have hne : y ≠ topPlace ps.sp := by rintro rfl; omega
      rw [valueAt_eq ps.wf hx, valueAt_eq ps.wf hx, ← hashAt_off (top_is ps) hy hO hw ⟨hx, hne⟩]
      refine congrArg _ (argAt_congr hx fun z hz hlt' => ih _ (by omega) z hz rfl (by omega))
  exact this _ y hx rfl hr

/-- The root of a key is random. -/
theorem avg_pkRoot (hn : PKseed.length = ps.sp.n) (hB : 160 + 2 * ps.sp.n ≤ B) (r : Fin (256 ^ ps.sp.n)) :
    (avg fun O : Query B → Fin (256 ^ w) =>
      ind (Spec.pkRoot ps.sp (ps.hf (withHash P0 O)) SKseed PKseed = Spec.toByte r ps.sp.n)) = 1 / 256 ^ ps.sp.n := by
  rw [← avg_headOf hw r, ← avg_star (fun O => rootCall P0 O PKseed ps SKseed)
    (fun O O' h => rootCall_stable hw hn hB h) (fun e : Fin (256 ^ w) => ind (headOf ps.sp.n e = r))]
  refine congrArg avg (funext fun O => ind_congr ?_)
  rw [pkRoot_call hw]
  refine ⟨fun h => ?_, fun h => by rw [h]⟩
  rw [← number_toByte (headOf ps.sp.n _), h, number_toByte]

end

section
variable {SIG PKroot : List UInt8} (hw : ps.sp.n ≤ w)
  (hs : SIG.length = ps.sp.sigLen)
include hs hw

theorem verify_call (M : List UInt8) : Spec.verifyInternal ps.sp (ps.hf (withHash P0 O)) M SIG PKseed PKroot = true ↔
    Spec.toByte (headOf ps.sp.n (O (verdictCall P0 O PKseed ps M SIG PKroot))) ps.sp.n = PKroot := by
  rw [Spec.attempt_accepts M SIG [] PKseed PKroot, and_iff_right hs]
  have o := (Spec.attempt_ok ps.wf (ps.valid (withHash P0 O)) (n_le ps) (M := M) (SKseed := []) (PKseed := PKseed)
    (PKroot := PKroot) hs).1
  have h := Spec.Attempt.eval_lastP o (one_le_hp ps)
  have h' := hashAt_wide (P0 := P0) (O := O) hw PKseed (topPlace ps.sp)
    ((Spec.attempt ps.sp (ps.hf (withHash P0 O)) M SIG [] PKseed PKroot).lastP.eval
      (hashAt (ps.hf (withHash P0 O)) PKseed))
  rw [show (Spec.attempt ps.sp (ps.hf (withHash P0 O)) M SIG [] PKseed PKroot).vMsg ps.sp.d = _ from h.trans h']
  rfl

omit hw in
theorem verdictCall_top (hn : PKseed.length = ps.sp.n) (hB : 160 + 2 * ps.sp.n ≤ B) (M : List UInt8) :
    TopCall ps PKseed (verdictCall P0 O PKseed ps M SIG PKroot) := by
  refine top_val hn hB ?_
  have o := (Spec.attempt_ok ps.wf (ps.valid (withHash P0 O)) (n_le ps) (M := M) (SKseed := []) (PKseed := PKseed)
    (PKroot := PKroot) hs).1
  exact (Spec.Attempt.lastP_length o (one_le_hp ps)).le

theorem verdictCall_stable (hn : PKseed.length = ps.sp.n) (hP : ¬ [0, 0, 0] <+: PKseed) (hB : 160 + 2 * ps.sp.n ≤ B)
    {M : List UInt8} (hO : ∀ q, q ≠ verdictCall P0 O PKseed ps M SIG PKroot → O' q = O q) :
    verdictCall P0 O' PKseed ps M SIG PKroot = verdictCall P0 O PKseed ps M SIG PKroot := by
  have hy := verdictCall_top (P0 := P0) (O := O) (PKroot := PKroot) hs hn hB M
  have hR : (Spec.slice SIG 0 ps.sp.n).length = ps.sp.n := by
    rw [Spec.slice_length (by rw [hs]; exact n_le_sigLen ps), Nat.sub_zero]
  have hd := hmsg_off (P0 := P0) (top_is ps) hy hO hP hn hR PKroot M
  exact congrArg (queryAt ps B PKseed (topPlace ps.sp)) (Spec.Attempt.attempt_last ps.wf (ps.valid (withHash P0 O))
    (n_le ps) hs (one_le_hp ps) hd fun x hx z => hashAt_off (top_is ps) hy hO hw hx z).symm

/-- The root that a verification computes is random. -/
theorem avg_verify (hn : PKseed.length = ps.sp.n) (hr : PKroot.length = ps.sp.n) (hP : ¬ [0, 0, 0] <+: PKseed)
    (hB : 160 + 2 * ps.sp.n ≤ B) (M : (Query B → Fin (256 ^ w)) → List UInt8)
    (hM : ∀ O O' y, TopCall ps PKseed y → (∀ q, q ≠ y → O' q = O q) → M O' = M O) :
    (avg fun O : Query B → Fin (256 ^ w) =>
      ind (Spec.verifyInternal ps.sp (ps.hf (withHash P0 O)) (M O) SIG PKseed PKroot = true)) =
      1 / 256 ^ ps.sp.n := by
  rw [← avg_headOf hw (number ps.sp.n PKroot), ← avg_star (fun O => verdictCall P0 O PKseed ps (M O) SIG PKroot)
    (fun O O' h => ?_) (fun e : Fin (256 ^ w) => ind (headOf ps.sp.n e = number ps.sp.n PKroot))]
  · refine congrArg avg (funext fun O => ind_congr ?_)
    rw [verify_call hw hs]
    refine ⟨fun h => ?_, fun h => by rw [h, toByte_number hr]⟩
    exact (number_toByte _).symm.trans (congrArg (number ps.sp.n) h)
  · rw [hM O O' _ (verdictCall_top hs hn hB _) h]
    exact verdictCall_stable hw hs hn hP hB h

end
end Fips205.Props
