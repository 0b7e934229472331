import Verif.Proofs.Spread
import Verif.Proofs.Values

/-!
# What the WOTS+ keys sign

A WOTS+ key signs a FORS public key or the root of a tree.  Each is one value of a hash function, at a place that nothing
else depends on that is computed for the choice of the keys.
-/

namespace Fips205.Spec

/-- The places of the values that WOTS+ keys sign. -/
def Signed (p : Params) (x : Place) : Prop :=
  (∃ t l, x = .forsRoots t l) ∨ ∃ j t, j + 1 < p.d ∧ x = .tree j t p.hp 0

/-- No value depends on the public key of a FORS key. -/
theorem argAt_roots (p : Params) (seed : Bytes) (v v' : Place → Bytes) (x : Place) :
    argAt p seed v x = argAt p seed (fun y => match y with
      | .forsRoots t l => v' (.forsRoots t l)
      | y => v y) x := by
  cases x with
  | wotsPrf | forsPrf | wotsPk | forsRoots => rfl
  | wotsHash j t l i s => cases s <;> rfl
  | tree j t k i =>
    cases k with
    | zero => rfl
    | succ k => cases k <;> rfl
  | forsTree t l k i => cases k <;> rfl

theorem rank_le {p : Params} (ha : p.a + 2 ≤ 16 + p.hp) {x : Place} (hx : x.Exists p) : x.rank p ≤ 16 + p.hp := by
  cases x with
  | wotsPrf | forsPrf | wotsPk => simp [Place.rank]
  | wotsHash j t l i s => have := hx.2.2.2.2; simp only [Place.rank]; omega
  | tree j t k i => have := hx.2.2.2.1; simp only [Place.rank]; omega
  | forsTree t l k i => have := hx.2.2.1; simp only [Place.rank]; omega
  | forsRoots => simp only [Place.rank]; omega

/-- What is hashed at a place depends on no value that is signed. -/
theorem argAt_signed {p : Params} (ha : p.a + 2 ≤ 16 + p.hp) {seed : Bytes} {v v' : Place → Bytes} {x : Place}
    (hx : x.Exists p) (h : ∀ y : Place, y.Exists p → y.rank p < x.rank p → ¬ Signed p y → v y = v' y) :
    argAt p seed v x = argAt p seed v' x := by
  rw [argAt_roots p seed v v']
  refine argAt_congr hx fun y hy hr => ?_
  have hle := rank_le ha hx
  have key : (∀ t l, y ≠ .forsRoots t l) → v y = v' y := fun hne => h y hy hr fun hs => by
    rcases hs with ⟨t, l, e⟩ | ⟨j, t, -, rfl⟩
    · exact hne t l e
    · simp only [Place.rank] at hr hle
      omega
  cases y with
  | forsRoots => rfl
  | _ => exact key nofun

end Fips205.Spec

namespace Fips205.Props
open Fips205 Fips205.Model Oracle Spec

variable {ps : ParamSet} {B w : Nat} {P0 : Spec.Prims} {O O' : Query B → Fin (256 ^ w)} {PKseed : List UInt8}

theorem a_le (ps : ParamSet) : ps.sp.a + 2 ≤ 16 + ps.sp.hp := by cases ps <;> decide

section
variable {y : Query B} {x0 : Place} (hx0 : x0.Exists ps.sp) (hs : Signed ps.sp x0) (hy : CallTo ps PKseed x0 y)
  (hO : ∀ q, q ≠ y → O' q = O q)
include hx0 hs hy hO

theorem value_signed (hw : ps.sp.n ≤ w) (SKseed : List UInt8) {x : Place} (hx : x.Exists ps.sp) (hn : ¬ Signed ps.sp x) :
    valueAt ps.sp (ps.hf (withHash P0 O')) SKseed PKseed x = valueAt ps.sp (ps.hf (withHash P0 O)) SKseed PKseed x := by
  have : ∀ r (y : Place), y.Exists ps.sp → ¬ Signed ps.sp y → y.rank ps.sp = r →
      valueAt ps.sp (ps.hf (withHash P0 O')) SKseed PKseed y = valueAt ps.sp (ps.hf (withHash P0 O)) SKseed PKseed y := by
    intro r
    induction r using Nat.strong_induction_on with
    | _ r ih =>
      intro y' hx hns hr
      have hne : y' ≠ x0 := by rintro rfl; exact hns hs
      rw [valueAt_eq ps.wf hx, valueAt_eq ps.wf hx, ← hashAt_off hx0 hy hO hw ⟨hx, hne⟩]
      exact congrArg _ (argAt_signed (a_le ps) hx fun z hz hlt hns' => ih _ (by omega) z hz hns' rfl)
  exact this _ x hx hn rfl

theorem arg_signed (hw : ps.sp.n ≤ w) (SKseed : List UInt8) {x : Place} (hx : x.Exists ps.sp) :
    argAt ps.sp SKseed (valueAt ps.sp (ps.hf (withHash P0 O')) SKseed PKseed) x =
      argAt ps.sp SKseed (valueAt ps.sp (ps.hf (withHash P0 O)) SKseed PKseed) x :=
  argAt_signed (a_le ps) hx fun _ hz _ hns => value_signed hx0 hs hy hO hw SKseed hz hns

theorem root_signed (hw : ps.sp.n ≤ w) (SKseed : List UInt8) :
    Spec.pkRoot ps.sp (ps.hf (withHash P0 O')) SKseed PKseed = Spec.pkRoot ps.sp (ps.hf (withHash P0 O)) SKseed PKseed := by
  refine value_signed hx0 hs hy hO hw SKseed (top_is ps) ?_
  rintro (⟨t, l, h⟩ | ⟨j, t, hj, h⟩)
  · cases h
  · rw [topPlace] at h
    injection h
    omega

omit hs in
theorem prfmsg_signed (hl : PKseed.length = ps.sp.n) {SKprf : List UInt8} (hk : SKprf.length = ps.sp.n)
    (hne : ps.family = .shake → SKprf ≠ PKseed) (opt M : List UInt8) :
    (ps.hf (withHash P0 O')).PRFmsg SKprf opt M = (ps.hf (withHash P0 O)).PRFmsg SKprf opt M := by
  cases hf : ps.family with
  | shake =>
    have h := (prims_off (P0 := P0) hx0 hy hO (X := SKprf ++ opt ++ M) fun rest h => ?_).2.2.2
    · simp only [ParamSet.hf, Spec.hashFns, hf, Spec.shakeFns, h]
    · rw [List.append_assoc] at h
      exact hne hf (List.append_inj h (hk.trans hl.symm)).1
  | sha2 =>
    have hb := n_le_blen ps
    have hb' : ps.sp.n < blen ps := by clear * -; cases ps <;> decide
    have key : ∀ (c : UInt8) (X : List UInt8), 0 ^^^ c ≠ 0 →
        shaOf ps (withHash P0 O') ((SKprf ++ List.replicate (blen ps - SKprf.length) 0).map (· ^^^ c) ++ X) =
        shaOf ps (withHash P0 O) ((SKprf ++ List.replicate (blen ps - SKprf.length) 0).map (· ^^^ c) ++ X) := by
      intro c X hc
      have h := prims_off (P0 := P0) hx0 hy hO
        (X := (SKprf ++ List.replicate (blen ps - SKprf.length) 0).map (· ^^^ c) ++ X) fun rest h => ?_
      · simp only [shaOf]
        split
        · simp only [Spec.sha256', h]
        · simp only [Spec.sha512', h]
      · rw [List.map_append, List.append_assoc] at h
        have h := (List.append_inj h (by rw [List.length_map, hk, hl])).2
        obtain ⟨k, hk'⟩ : ∃ k, blen ps - SKprf.length = k + 1 := ⟨blen ps - SKprf.length - 1, by omega⟩
        rw [hk', List.replicate_succ] at h
        exact hc (List.cons.inj h).1
    have h0 : ∀ P, (if SKprf.length ≤ blen ps then SKprf else shaOf ps P SKprf) = SKprf := fun P => if_pos (by omega)
    rw [sha2_PRFmsg hf, sha2_PRFmsg hf]
    simp only [Spec.hmac, h0]
    rw [key 0x36 _ (by decide), key 0x5c _ (by decide)]

theorem digest_signed (hw : ps.sp.n ≤ w) (hP : ¬ [0, 0, 0] <+: PKseed) (hl : PKseed.length = ps.sp.n) {SKprf : List UInt8}
    (hk : SKprf.length = ps.sp.n) (hne : ps.family = .shake → SKprf ≠ PKseed) (SKseed opt M : List UInt8) :
    ownDigest ps (withHash P0 O') SKseed SKprf PKseed opt M = ownDigest ps (withHash P0 O) SKseed SKprf PKseed opt M := by
  rw [ownDigest, ownDigest, root_signed hx0 hs hy hO hw, prfmsg_signed hx0 hy hO hl hk hne]
  exact hmsg_off hx0 hy hO hP hl ((ps.valid _).PRFmsg _ _ _) _ _

end

/-- The place of what is signed in layer `j`. -/
def msgPlace (p : Spec.Params) (d : Bytes) : Nat → Place
  | 0 => .forsRoots (digestTree p d) (digestLeaf p d)
  | j + 1 => .tree j (htTree p (digestTree p d) j) p.hp 0

theorem msgPlace_exists (ps : ParamSet) (d : Bytes) {j : Nat} (hj : j < ps.sp.d) : (msgPlace ps.sp d j).Exists ps.sp := by
  have W := ps.wf
  have h1 := digestTree_lt (p := ps.sp) d
  have h2 := digestLeaf_lt (p := ps.sp) d
  rw [W.hd] at h1 h2
  have h3 : ps.sp.h - ps.sp.hp = ps.sp.hp * (ps.sp.d - 1) := by rw [W.h_eq, Nat.mul_sub_one, Nat.mul_comm]
  rw [h3] at h1
  cases j with
  | zero => exact ⟨h1, h2⟩
  | succ j =>
    refine ⟨by omega, ?_, one_le_hp ps, le_rfl, Nat.two_pow_pos _⟩
    rw [htTree, Nat.div_lt_iff_lt_mul (Nat.two_pow_pos _), ← Nat.pow_add, ← Nat.mul_add,
      show ps.sp.d - 1 - j + j = ps.sp.d - 1 by omega]
    exact h1

theorem msgPlace_signed (p : Spec.Params) (d : Bytes) {j : Nat} (hj : j < p.d) : Signed p (msgPlace p d j) := by
  cases j with
  | zero => exact .inl ⟨_, _, rfl⟩
  | succ j => exact .inr ⟨_, _, hj, rfl⟩

/-- The first `n` bytes of a random value are random. -/
theorem avg_head {n : Nat} (hw : n ≤ w) (G : Fin (256 ^ n) → ℚ) : (avg fun e : Fin (256 ^ w) => G (headOf n e)) = avg G := by
  have : Nonempty (Fin (256 ^ (w - n))) := ⟨⟨0, Nat.pow_pos (by decide)⟩⟩
  rw [avg_equiv (glue hw), avg_prod]
  simp only [headOf_glue, avg_const]

/-- What the WOTS+ key of layer `j` signs in a signature with the digest `d`. -/
def msgOf (ps : ParamSet) (P : Spec.Prims) (SKseed PKseed d : Bytes) (j : Nat) : Bytes :=
  valueAt ps.sp (ps.hf P) SKseed PKseed (msgPlace ps.sp d j)

theorem arg_length (hw : ps.sp.n ≤ w) (SKseed d : List UInt8) {j : Nat} (hj : j < ps.sp.d) :
    (argAt ps.sp SKseed (valueAt ps.sp (ps.hf (withHash P0 O)) SKseed PKseed) (msgPlace ps.sp d j)).length ≤
      inputBound ps := by
  have hb := le_bound ps
  have hl : ∀ x : Place, x.Exists ps.sp →
      (valueAt ps.sp (ps.hf (withHash P0 O)) SKseed PKseed x).length = ps.sp.n := fun x hx => by
    rw [valueAt_eq ps.wf hx, hashAt_length hw]
  have hx := msgPlace_exists ps d hj
  cases j with
  | zero =>
    have hf : ∀ i < ps.sp.k, (valueAt ps.sp (ps.hf (withHash P0 O)) SKseed PKseed
        (.forsTree (digestTree ps.sp d) (digestLeaf ps.sp d) ps.sp.a i)).length = ps.sp.n := fun i hi =>
      hl _ ⟨hx.1, hx.2, le_rfl, by simpa using hi⟩
    rw [msgPlace, argAt, concat_length hf]
    exact hb.2.2.2
  | succ j =>
    have hp := one_le_hp ps
    have hn : ∀ i < 2, (valueAt ps.sp (ps.hf (withHash P0 O)) SKseed PKseed
        (.node j (htTree ps.sp (digestTree ps.sp d) j) (ps.sp.hp - 1) i)).length = ps.sp.n := by
      intro i hi
      refine hl _ (node_exists hx.1 hx.2.1 (by omega) ?_)
      rwa [show ps.sp.hp - (ps.sp.hp - 1) = 1 by omega]
    rw [msgPlace, argAt, List.length_append, hn _ (by decide), hn _ (by decide)]
    exact hb.2.1

/-- What a WOTS+ key signs is random. -/
theorem avg_msgOf (hw : ps.sp.n ≤ w) (hB : 160 + inputBound ps ≤ B) (hP : ¬ [0, 0, 0] <+: PKseed)
    (hl : PKseed.length = ps.sp.n) {SKprf : List UInt8} (hk : SKprf.length = ps.sp.n)
    (hne : ps.family = .shake → SKprf ≠ PKseed) (SKseed opt M : List UInt8) {j : Nat} (hj : j < ps.sp.d)
    (G : List UInt8 → ℚ) :
    (avg fun O : Query B → Fin (256 ^ w) => G (msgOf ps (withHash P0 O) SKseed PKseed
      (ownDigest ps (withHash P0 O) SKseed SKprf PKseed opt M) j)) =
      avg fun r : Fin (256 ^ ps.sp.n) => G (Spec.toByte r ps.sp.n) := by
  let dig := fun O : Query B → Fin (256 ^ w) => ownDigest ps (withHash P0 O) SKseed SKprf PKseed opt M
  let star := fun O : Query B → Fin (256 ^ w) => queryAt ps B PKseed (msgPlace ps.sp (dig O) j)
    (argAt ps.sp SKseed (valueAt ps.sp (ps.hf (withHash P0 O)) SKseed PKseed) (msgPlace ps.sp (dig O) j))
  rw [← avg_head hw fun r => G (Spec.toByte r ps.sp.n), ← Oracle.avg_star star (fun O O' h => ?_)
    fun e : Fin (256 ^ w) => G (Spec.toByte (headOf ps.sp.n e) ps.sp.n)]
  · refine congrArg avg (funext fun O => congrArg G ?_)
    rw [msgOf, valueAt_eq ps.wf (msgPlace_exists ps _ hj), hashAt_wide hw]
    rfl
  · have hx := msgPlace_exists ps (dig O) hj
    have hs := msgPlace_signed ps.sp (dig O) hj
    have hy : CallTo ps PKseed (msgPlace ps.sp (dig O) j) (star O) :=
      ⟨_, queryAt_val hl hB _ (arg_length hw SKseed _ hj)⟩
    have e1 : dig O' = dig O := digest_signed hx hs hy h hw hP hl hk hne SKseed opt M
    have e2 := arg_signed (P0 := P0) hx hs hy h hw SKseed hx
    change queryAt ps B PKseed (msgPlace ps.sp (dig O') j) (argAt _ _ _ (msgPlace ps.sp (dig O') j)) = _
    rw [e1, e2]

end Fips205.Props
