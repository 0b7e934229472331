import Verif.Proofs.OwnUnique

/-!
# A signature that is accepted for another key or message shows a foretold value

The first `n` bytes of a signature made with fresh random bytes were not known before.  A digest with them was computed
after the signature was; all that the verification hashes was hashed before the digest, or was foretold; and then the
digest is foretold.
-/

namespace Fips205.Spec.Attempt
open Fips205

variable {c : Attempt} {h : Place → Bytes → Bytes}

theorem layersP_length (hlen : ∀ x z, (h x z).length = c.p.n) (j : Nat) : ((c.layersP j).eval h).length = c.p.n := by
  cases j with
  | zero =>
    rw [layersP, forsP, Ask.eval_bind]
    exact hlen _ _
  | succ j =>
    rw [layersP, Ask.eval_bind, layerP_eval j _ rfl rfl]
    exact Ask.climb_length hlen _ _ _ (hlen _ _) _

theorem asked_mono {i j : Nat} (hij : i ≤ j) {q : Place × Bytes} (hq : q ∈ (c.layersP i).asked h) :
    q ∈ (c.layersP j).asked h := by
  induction j with
  | zero => rwa [Nat.le_zero.mp hij] at hq
  | succ j ih =>
    by_cases e : i = j + 1
    · rwa [e] at hq
    · rw [layersP]
      exact Ask.mem_left (ih (by omega))

end Fips205.Spec.Attempt

namespace Fips205.Props
open Fips205 Fips205.Model Fips205.Oracle

variable {ps : ParamSet} {B w : Nat}

/-! ## All was hashed before the digest -/

section
variable {S : Vector UInt8 ps.params.SIG_LEN} {O : Query B → Fin (256 ^ w)} {Z : List (Query B)} {n0 : Nat}
  (hw : 64 ≤ w) (hB : 160 + (ps.sp.len + ps.sp.k) * ps.sp.n ≤ B) (T : Tidy ps S O Z n0)

theorem toFinset_take {α : Type} [DecidableEq α] {Z : List α} (i : Nat) : ∀ y ∈ (Z.take i).toFinset, y ∈ Z := fun _ hy =>
  List.mem_of_mem_take (List.mem_toFinset.mp hy)

/-- A layer hashes the chains of its WOTS+ signature, compresses the ends, and goes on. -/
theorem layer_of {c : Spec.Attempt} {m : Nat} (o : c.Ok m) {j : Nat} (hj : j < c.p.d) (M : List UInt8)
    (h : Place → List UInt8 → List UInt8) :
    ∃ t l rest, (Place.wotsPk j t l).Exists c.p ∧ (c.layerP j M).asked h =
      (Ask.wots c.p j t l (c.vWots j) M).asked h ++ [(.wotsPk j t l, (Ask.wots c.p j t l (c.vWots j) M).eval h)] ++
        rest :=
  ⟨_, _, _, (Spec.Attempt.place_wotsPk o hj).1, Spec.Attempt.layerP_asked j M rfl rfl⟩

theorem attemptAt_wots (P : Spec.Prims) (seed δ : List UInt8) (S : Vector UInt8 ps.params.SIG_LEN) (j : Nat) :
    (attemptAt ps P seed δ S).vWots j = wotsOf ps S j := by
  funext i
  simp only [wotsOf, attemptAt, attemptBy, Spec.Attempt.vWots, Spec.Attempt.vLayer]

theorem layer_shape (P : Spec.Prims) (seed : List UInt8) {δ : List UInt8} (hδ : δ.length = ps.sp.m)
    (S : Vector UInt8 ps.params.SIG_LEN) {j : Nat} (hj : j < ps.sp.d) (M : List UInt8) (h : Place → List UInt8 → List UInt8) :
    ∃ t l rest, (Place.wotsPk j t l).Exists ps.sp ∧ ((attemptAt ps P seed δ S).layerP j M).asked h =
      (Ask.wots ps.sp j t l (wotsOf ps S j) M).asked h ++
        [(.wotsPk j t l, (Ask.wots ps.sp j t l (wotsOf ps S j) M).eval h)] ++ rest := by
  have o := attemptAt_ok P seed S hδ
  have := layer_of o (j := j) hj M h
  rw [attemptAt_wots] at this
  exact this

include hB T in
/-- What the verification hashes was hashed before `d`, if the root was. -/
theorem Tidy.before {d : Query B} (hd : n0 ≤ Z.idxOf d) {seed δ root : List UInt8} (hs : seed.length = ps.sp.n)
    (hδ : δ.length = ps.sp.m) (P : Spec.Prims)
    (hA : ∀ q ∈ ((attemptAt ps P seed δ S).layersP ps.sp.d).asked (hAt ps O seed), At ps Z seed q)
    (he : ((attemptAt ps P seed δ S).layersP ps.sp.d).eval (hAt ps O seed) = root)
    (hroot : ∀ x ∈ Z, Spec.toByte (headOf ps.sp.n (O x)) ps.sp.n = root → Z.idxOf x < Z.idxOf d) :
    ∀ q ∈ ((attemptAt ps P seed δ S).layersP ps.sp.d).asked (hAt ps O seed),
      Z.idxOf (pointAt ps B seed q) < Z.idxOf d := by
  have h2 := two_le_len ps
  have ok := attemptAt_ok (ps := ps) P seed S hδ
  refine Spec.Attempt.sorted_layersP (c := attemptAt ps P seed δ S) (hAt_length O seed) (T.places hB hs)
    (by omega) ok (show ps.sp.len ≤ ps.sp.len + ps.sp.k by omega) (show ps.sp.k ≤ ps.sp.len + ps.sp.k by omega) ?_ ps.sp.d
    (Nat.le_refl _) hA ?_
  · intro j hj hl q hq e
    have hj : j < ps.sp.d := hj
    by_contra hge
    have hge : Z.idxOf d ≤ Z.idxOf (pointAt ps B seed q) := Nat.le_of_not_lt hge
    have hqZ := (hA q (Spec.Attempt.asked_mono hj.le hq)).2.2
    obtain ⟨M, hM⟩ : ∃ M, M = ((attemptAt ps P seed δ S).layersP j).eval (hAt ps O seed) := ⟨_, rfl⟩
    rw [← hM] at hl e
    have hMn : M.length = ps.sp.n := hM ▸ Spec.Attempt.layersP_length (hAt_length O seed) j
    have hsub : ∀ q ∈ ((attemptAt ps P seed δ S).layerP j M).asked (hAt ps O seed), At ps Z seed q := fun q hq => by
      refine hA q (Spec.Attempt.asked_mono (i := j + 1) hj ?_)
      rw [Spec.Attempt.layersP]
      exact Ask.mem_right (hM ▸ hq)
    obtain ⟨t, l, rest, hp, ea⟩ := layer_shape P seed hδ S hj M (hAt ps O seed)
    rw [ea] at hl hsub
    obtain ⟨A, hAe⟩ : ∃ A, A = Ask.wots ps.sp j t l (wotsOf ps S j) M := ⟨_, rfl⟩
    rw [← hAe] at hl hsub
    obtain ⟨y, hye⟩ : ∃ y : Place × List UInt8, y = (.wotsPk j t l, A.eval (hAt ps O seed)) := ⟨_, rfl⟩
    rw [← hye] at hl hsub
    have hmem : ∀ q ∈ A.asked (hAt ps O seed), q ∈ A.asked (hAt ps O seed) ++ [y] ++ rest := fun q hq =>
      List.mem_append_left _ (List.mem_append_left _ hq)
    have hmy : y ∈ A.asked (hAt ps O seed) ++ [y] ++ rest :=
      List.mem_append_left _ (List.mem_append_right _ (List.mem_singleton_self _))
    have hy := hsub y hmy
    have hyl := hl y hmy
    have key : Enc ps S (Z.take (Z.idxOf (pointAt ps B seed q))).toFinset O (pointAt ps B seed y) M := by
      refine ⟨hMn, seed, j, t, l, hs, hp, fun q' hq' => ?_, by rw [hye, hAe]⟩
      rw [← hAe] at hq'
      exact List.mem_toFinset.mpr (mem_take_of_lt (hsub q' (hmem q' hq')).2.2 ((hl q' (hmem q' hq')).trans_le hge))
    refine T.enc _ hqZ (hd.trans hge) _ hy.2.2 (hyl.trans_le hge) ?_
    have hm := mem_pick (n := ps.sp.n) key fun u hu => T.enc_unique hB (toFinset_take _) key hu
    have e2 : number ps.sp.n M = headOf ps.sp.n (O (pointAt ps B seed q)) := e ▸ number_toByte _
    rw [← e2]
    exact hm
  · intro q hq e
    exact hroot _ (hA q hq).2.2 (e.trans he)

include hw hB T in
/-- The digest is foretold. -/
theorem Tidy.no_digest {d : Query B} (hdZ : d ∈ Z) (hd : n0 ≤ Z.idxOf d) {seed δ root M : List UInt8}
    (hs : seed.length = ps.sp.n) (hδ : δ.length = ps.sp.m) (P : Spec.Prims)
    (hA : ∀ q ∈ ((attemptAt ps P seed δ S).layersP ps.sp.d).asked (hAt ps O seed), At ps Z seed q)
    (he : ((attemptAt ps P seed δ S).layersP ps.sp.d).eval (hAt ps O seed) = root)
    (hroot : ∀ x ∈ Z, Spec.toByte (headOf ps.sp.n (O x)) ps.sp.n = root → Z.idxOf x < Z.idxOf d)
    (hst : Starts ps (S.toList.take ps.sp.n) (Z.take (Z.idxOf d)).toFinset O d seed root M) :
    δ.take ps.sp.n ≠ Spec.toByte (headOf ps.sp.n (O d)) ps.sp.n := by
  intro hv
  have hb := T.before hB hd hs hδ P hA he hroot
  have key : Dig ps S (Z.take (Z.idxOf d)).toFinset O d (δ.take ps.sp.n) := by
    refine ⟨δ, seed, root, M, rfl, hδ, hs, ?_, hst, ?_, ?_⟩
    · rw [← he]
      exact Spec.Attempt.layersP_length (c := attemptAt ps P seed δ S) (hAt_length O seed) _
    · rw [attemptAt_layersP P seed]
      exact fun q hq => List.mem_toFinset.mpr (mem_take_of_lt (hA q hq).2.2 (hb q hq))
    · rw [attemptAt_layersP P seed]
      exact he
  refine T.dig d hdZ hd ?_
  have hm := mem_pick (n := ps.sp.n) key fun u hu => T.dig_unique hw hB (toFinset_take _) key hu
  rwa [hv, number_toByte] at hm

end

end Fips205.Props
