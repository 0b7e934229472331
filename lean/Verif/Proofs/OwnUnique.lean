import Verif.Proofs.OwnParts

/-!
# If no value was foretold, the needed values are determined

A WOTS+ signature signs one value with a key, and a signature is accepted for one digest only; and what the
verification hashes was hashed before the digest.
-/

namespace Fips205.Props
open Fips205 Fips205.Model Fips205.Oracle

variable {ps : ParamSet} {B w : Nat}

/-- The input at a place begins with the seed and ends with what is hashed. -/
theorem callOf_input (ps : ParamSet) (seed : List UInt8) (x : Place) (z : List UInt8) :
    ∃ a, (callOf ps seed x z).input = seed ++ a ++ z := by
  simp only [callOf]
  split
  · exact ⟨_, rfl⟩
  · split
    · exact ⟨_, by rw [List.append_assoc seed]⟩
    · exact ⟨_, by rw [List.append_assoc seed]⟩

/-- A verification with the digest `δ`. -/
def attemptAt (ps : ParamSet) (P : Spec.Prims) (seed δ : List UInt8) (S : Vector UInt8 ps.params.SIG_LEN) :
    Spec.Attempt := { attemptBy ps (ps.hf P) δ S.toList with PKseed := seed }

theorem attemptAt_ok (P : Spec.Prims) (seed : List UInt8) {δ : List UInt8} (S : Vector UInt8 ps.params.SIG_LEN)
    (hδ : δ.length = ps.sp.m) : (attemptAt ps P seed δ S).Ok ps.sp.m := by
  have V := ps.valid P
  have o := (Spec.attempt_ok (hf := { ps.hf P with Hmsg := fun _ _ _ _ => δ }) ps.wf
    { V with Hmsg := fun _ _ _ _ => hδ } (n_le ps) (M := []) (SIG := S.toList) (SKseed := []) (PKseed := seed)
    (PKroot := []) (by rw [Vector.length_toList]; cases ps <;> rfl)).1
  exact ⟨o.wf, V, o.n_le, o.fors, o.ht, o.t_lt, o.l_lt⟩

theorem attemptAt_layersP (P : Spec.Prims) (seed δ : List UInt8) (S : Vector UInt8 ps.params.SIG_LEN) (j : Nat) :
    (attemptBy ps (ps.hf demoPrims) δ S.toList).layersP j = (attemptAt ps P seed δ S).layersP j := by
  apply Spec.Attempt.layersP_congr <;> rfl

section
variable {S : Vector UInt8 ps.params.SIG_LEN} {O : Query B → Fin (256 ^ w)} {Z : List (Query B)} {n0 : Nat}
  (hw : 64 ≤ w) (hB : 160 + (ps.sp.len + ps.sp.k) * ps.sp.n ≤ B)

/-- A hash at a place of the key with this seed, evaluated at some time. -/
def At (ps : ParamSet) (Z : List (Query B)) (seed : List UInt8) (q : Place × List UInt8) : Prop :=
  q.1.Exists ps.sp ∧ q.2.length ≤ (ps.sp.len + ps.sp.k) * ps.sp.n ∧ pointAt ps B seed q ∈ Z

include hB in
theorem pointAt_val {seed : List UInt8} (hs : seed.length = ps.sp.n) {q : Place × List UInt8}
    (hq : q.2.length ≤ (ps.sp.len + ps.sp.k) * ps.sp.n) : (pointAt ps B seed q).1 = callOf ps seed q.1 q.2 := by
  have := callOf_length (ps := ps) hs q.1 q.2
  rw [pointAt, Query.of, dif_pos (by omega)]

theorem hAt_length (f : Query B → Fin (256 ^ w)) (seed : List UInt8) (x : Place) (z : List UInt8) :
    (hAt ps f seed x z).length = ps.sp.n := Spec.toByte_length _ _

include hw in
theorem hAt_eq (P0 : Spec.Prims) (seed : List UInt8) : hashAt (ps.hf (withHash P0 O)) seed = hAt ps O seed := by
  have hn : ps.sp.n ≤ w := (n_le_32 ps).trans ((show 32 ≤ 64 by decide).trans hw)
  funext x z
  rw [hashAt_wide hn]
  rfl

/-- What a value is part of. -/
theorem startAt_eq {n : Nat} (r : Fin (256 ^ n)) {y : Query B} {a c : List UInt8}
    (h : y.1.input = a ++ Spec.toByte r n ++ c) : startAt n a.length y = r := by
  rw [startAt, h, List.append_assoc, List.drop_left, List.take_left' (Spec.toByte_length _ _), number_toByte]

theorem endAt_eq {n e : Nat} (r : Fin (256 ^ n)) {y : Query B} {a c : List UInt8}
    (h : y.1.input = a ++ Spec.toByte r n ++ c) (he : n + c.length = e) : endAt n e y = r := by
  rw [endAt, show y.1.input.length - e = a.length by
    rw [h, List.length_append, List.length_append, Spec.toByte_length]; omega]
  exact startAt_eq r h

theorem mem_windows_end {y : Query B} {j : Nat} (hj : j < ps.sp.len + ps.sp.k) :
    endAt ps.sp.n (ps.sp.n * (j + 1)) y ∈ windows ps y :=
  List.mem_append_right _ (List.mem_map.mpr ⟨j, List.mem_range.mpr hj, rfl⟩)

variable (T : Tidy ps S O Z n0)
include T

include hB in
theorem Tidy.places {seed : List UInt8} (hs : seed.length = ps.sp.n) : Ask.Late (hAt ps O seed)
    (fun q => Z.idxOf (pointAt ps B seed q)) ps.sp.n (ps.sp.len + ps.sp.k) (At ps Z seed) := by
  rintro q q' ⟨-, -, hq⟩ ⟨-, hl, hq'⟩ ⟨u, v, j, hz, hj, hv⟩
  obtain ⟨a, ha⟩ := callOf_input ps seed q'.1 q'.2
  refine T.late _ hq _ hq' ?_
  rw [← endAt_eq (headOf ps.sp.n (O (pointAt ps B seed q))) (y := pointAt ps B seed q') (a := seed ++ a ++ u) (c := v)
    (e := ps.sp.n * (j + 1)) ?_ ?_]
  · exact mem_windows_end hj
  · rw [pointAt_val hB hs hl, ha, hz]
    simp only [List.append_assoc]
    rfl
  · rw [hv, Nat.mul_succ, Nat.add_comm]

include hB in
theorem Tidy.placesInj {seed : List UInt8} (hs : seed.length = ps.sp.n) {q q' : Place × List UInt8}
    (hq : At ps Z seed q) (hq' : At ps Z seed q') (h : hAt ps O seed q.1 q.2 = hAt ps O seed q'.1 q'.2) : q = q' := by
  have e := T.inj _ hq.2.2 _ hq'.2.2 (toByte_inj h)
  have e := congrArg Subtype.val e
  rw [pointAt_val hB hs hq.2.1, pointAt_val hB hs hq'.2.1] at e
  obtain ⟨e1, e2⟩ := callOf_inj hq.1 hq'.1 e
  exact Prod.ext e1 e2

include hB in
/-- A WOTS+ signature signs one value with a key. -/
theorem Tidy.enc_unique {K : Finset (Query B)} (hK : ∀ y ∈ K, y ∈ Z) {y : Query B} {μ μ' : List UInt8}
    (h : Enc ps S K O y μ) (h' : Enc ps S K O y μ') : μ' = μ := by
  obtain ⟨hμ, seed, j, t, l, hs, hp, ha, hy⟩ := h
  obtain ⟨hμ', seed', j', t', l', hs', hp', ha', hy'⟩ := h'
  have h2 := two_le_len ps
  have b1 : ps.sp.len * ps.sp.n ≤ (ps.sp.len + ps.sp.k) * ps.sp.n := Nat.mul_le_mul_right _ (by omega)
  have b0 : ps.sp.n ≤ (ps.sp.len + ps.sp.k) * ps.sp.n := Nat.le_mul_of_pos_left _ (by omega)
  have o := attemptAt_ok (ps := ps) demoPrims [] (δ := List.replicate ps.sp.m 0) S (List.length_replicate ..)
  have hX : ∀ j, j < ps.sp.d → ∀ i < ps.sp.len, (wotsOf ps S j i).length = ps.sp.n := fun j hj i hi => o.wots_length hj hi
  have hl := (Ask.wots_len (hAt_length O seed) j t l (hX j hp.1) μ).trans b1
  have hl' := (Ask.wots_len (hAt_length O seed') j' t' l' (hX j' hp'.1) μ').trans b1
  have e := congrArg Subtype.val (hy.symm.trans hy')
  rw [pointAt_val hB hs hl, pointAt_val hB hs' hl'] at e
  obtain rfl : seed' = seed := by
    obtain ⟨a, h1⟩ := callOf_input ps seed (.wotsPk j t l) ((Ask.wots ps.sp j t l (wotsOf ps S j) μ).eval (hAt ps O seed))
    obtain ⟨a', h2⟩ := callOf_input ps seed' (.wotsPk j' t' l')
      ((Ask.wots ps.sp j' t' l' (wotsOf ps S j') μ').eval (hAt ps O seed'))
    have e := congrArg Call.input e
    rw [h1, h2, List.append_assoc, List.append_assoc] at e
    exact ((List.append_inj e (by rw [hs, hs'])).1).symm
  obtain ⟨e1, e2⟩ := callOf_inj hp hp' e
  injection e1 with e3 e4 e5
  subst e3 e4 e5
  have hA : ∀ μ, (∀ q ∈ (Ask.wots ps.sp j t l (wotsOf ps S j) μ).asked (hAt ps O seed'), pointAt ps B seed' q ∈ K) →
      ∀ q ∈ (Ask.wots ps.sp j t l (wotsOf ps S j) μ).asked (hAt ps O seed'), At ps Z seed' q := fun μ ha q hq =>
    ⟨(Ask.wots_only hp _ _).asked q hq, (Ask.Short.wots (hAt_length O seed') b0 j t l (hX j hp.1) μ) q hq, hK _ (ha q hq)⟩
  have hd := Ask.wots_unique (T.places hB hs) (by omega) (fun q q' h h' _ e => T.placesInj hB hs h h' e) (hX j hp.1)
    (hAt_length O seed') (hA μ ha) (hA μ' ha') e2 (fun M i => Nat.le_of_lt_succ (Model.wotsDigits_lt i))
  by_contra hne
  obtain ⟨i, hi, hlt⟩ := Spec.wotsDigits_dominate (n_le ps) hμ hμ' (Ne.symm hne)
  have := hd i hi
  omega

include hB in
/-- The verification of a digest that is accepted. -/
theorem Tidy.attempt_at {K : Finset (Query B)} (hK : ∀ y ∈ K, y ∈ Z) {seed δ : List UInt8} (hs : seed.length = ps.sp.n)
    (hδ : δ.length = ps.sp.m) (P : Spec.Prims)
    (ha : ∀ q ∈ ((attemptAt ps P seed δ S).layersP ps.sp.d).asked (hAt ps O seed), pointAt ps B seed q ∈ K) :
    ∀ q ∈ ((attemptAt ps P seed δ S).layersP ps.sp.d).asked (hAt ps O seed), At ps Z seed q := fun q hq => by
  have h2 := two_le_len ps
  have o := attemptAt_ok (ps := ps) P seed (δ := δ) S hδ
  exact ⟨(Spec.Attempt.only_layersP o (Nat.le_refl _)).asked q hq,
    Spec.Attempt.short_layersP (hAt_length O seed) (show 1 ≤ ps.sp.len by omega) h2.2 o (Nat.le_refl _) q hq,
    hK _ (ha q hq)⟩

include hw hB in
theorem Tidy.no_loop {P0 : Spec.Prims} {seed δ : List UInt8} (hs : seed.length = ps.sp.n) (hδ : δ.length = ps.sp.m)
    (hA : ∀ q ∈ ((attemptAt ps (withHash P0 O) seed δ S).layersP ps.sp.d).asked (hAt ps O seed), At ps Z seed q) :
    ¬ (attemptAt ps (withHash P0 O) seed δ S).Loop := by
  have h2 := two_le_len ps
  have hJ : 0 < ps.sp.len + ps.sp.k := by omega
  have ok := attemptAt_ok (ps := ps) (withHash P0 O) seed S hδ
  rintro ⟨j, hj, i, hi, s, s', h1, h2, h3, e⟩
  have hh := hAt_eq (ps := ps) (O := O) hw P0 seed
  have hmem := fun r h h' => hA _ (hh ▸ Spec.Attempt.asked_chain ok (j := j) (i := i) (s := r) hj hi h h')
  have hval : ∀ r, (attemptAt ps (withHash P0 O) seed δ S).vDigit j i ≤ r →
      hAt ps O seed (.wotsHash j (Spec.htTree ps.sp (attemptAt ps (withHash P0 O) seed δ S).t j)
        ((attemptAt ps (withHash P0 O) seed δ S).leaf j) i r) ((attemptAt ps (withHash P0 O) seed δ S).vChain j i r) =
      (attemptAt ps (withHash P0 O) seed δ S).vChain j i (r + 1) := fun r h => by
    rw [← hh]
    exact (Spec.Attempt.chain_value (c := attemptAt ps (withHash P0 O) seed δ S) j i (s := r) h).symm
  have h3 : s' ≤ 15 := h3
  have hlate := T.places hB hs
  have step : ∀ k, s + k < s' → Z.idxOf (pointAt ps B seed (.wotsHash j (Spec.htTree ps.sp
        (attemptAt ps (withHash P0 O) seed δ S).t j) ((attemptAt ps (withHash P0 O) seed δ S).leaf j) i s,
        (attemptAt ps (withHash P0 O) seed δ S).vChain j i s)) ≤
      Z.idxOf (pointAt ps B seed (.wotsHash j (Spec.htTree ps.sp
        (attemptAt ps (withHash P0 O) seed δ S).t j) ((attemptAt ps (withHash P0 O) seed δ S).leaf j) i (s + k),
        (attemptAt ps (withHash P0 O) seed δ S).vChain j i (s + k))) := by
    intro k
    induction k with
    | zero => exact fun _ => Nat.le_refl _
    | succ k ih =>
      intro hk
      have hk15 : s + k < Spec.w - 1 := by rw [Spec.w]; omega
      have hk15' : s + (k + 1) < Spec.w - 1 := by rw [Spec.w]; omega
      refine (ih (by omega)).trans (Nat.le_of_lt (hlate _ _ (hmem (s + k) (by omega) hk15)
        (hmem (s + (k + 1)) (by omega) hk15') ?_))
      exact (hval (s + k) (by omega)) ▸ Inside.self hJ _
  obtain ⟨k, rfl⟩ : ∃ k, s' = s + k + 1 := ⟨s' - s - 1, by omega⟩
  have hk15 : s + k < Spec.w - 1 := by rw [Spec.w]; omega
  have hs15 : s < Spec.w - 1 := by rw [Spec.w]; omega
  have h4 := step k (by omega)
  have h5 := hlate _ _ (hmem (s + k) (by omega) hk15) (hmem s h1 hs15)
    (((hval (s + k) (by omega)).trans e.symm) ▸ Inside.self hJ _)
  exact absurd (h4.trans_lt h5) (Nat.lt_irrefl _)

include hw hB in
theorem Tidy.no_clash {P0 : Spec.Prims} {seed δ δ' : List UInt8} (hs : seed.length = ps.sp.n)
    (hδ : δ.length = ps.sp.m) (hδ' : δ'.length = ps.sp.m)
    (hA : ∀ q ∈ ((attemptAt ps (withHash P0 O) seed δ S).layersP ps.sp.d).asked (hAt ps O seed), At ps Z seed q)
    (hA' : ∀ q ∈ ((attemptAt ps (withHash P0 O) seed δ' S).layersP ps.sp.d).asked (hAt ps O seed), At ps Z seed q) :
    ¬ (attemptAt ps (withHash P0 O) seed δ S).Clash (attemptAt ps (withHash P0 O) seed δ' S) := by
  rintro ⟨u, u', hu, hu', hne, e⟩
  have hh := hAt_eq (ps := ps) (O := O) hw P0 seed
  have ok := attemptAt_ok (ps := ps) (withHash P0 O) seed S hδ
  have ok' := attemptAt_ok (ps := ps) (withHash P0 O) seed S hδ'
  have m1 := hA _ (hh ▸ Spec.Attempt.asked_seen ok hu)
  have m2 := hA' _ (hh ▸ Spec.Attempt.asked_seen ok' hu')
  change hashAt (ps.hf (withHash P0 O)) seed _ _ = hashAt (ps.hf (withHash P0 O)) seed _ _ at e
  rw [hh] at e
  have := Prod.mk.inj (T.placesInj hB hs m1 m2 e)
  exact hne.elim (fun h => h this.1) fun h => h this.2

include hw in
/-- What the beginning of a digest shows. -/
theorem Tidy.starts_unique {K : Finset (Query B)} (hK : ∀ y ∈ K, y ∈ Z) {R : List UInt8} (hB' : 160 ≤ B)
    (hR : R.length = ps.sp.n) {y : Query B} {seed root M seed' root' M' : List UInt8} (hs : seed.length = ps.sp.n)
    (hs' : seed'.length = ps.sp.n) (hr : root.length = ps.sp.n) (hr' : root'.length = ps.sp.n)
    (h : Starts ps R K O y seed root M) (h' : Starts ps R K O y seed' root' M') :
    seed' = seed ∧ root' = root ∧ M' = M := by
  have key : R ++ seed ++ root ++ M = R ++ seed' ++ root' ++ M' → seed' = seed ∧ root' = root ∧ M' = M := by
    intro e
    rw [List.append_assoc, List.append_assoc, List.append_assoc, List.append_assoc] at e
    obtain ⟨e1, e2⟩ := List.append_inj (List.append_cancel_left e) (by rw [hs, hs'])
    obtain ⟨e2, e3⟩ := List.append_inj e2 (by rw [hr, hr'])
    exact ⟨e1.symm, e2.symm, e3.symm⟩
  unfold Starts at h h'
  obtain ⟨hl, h⟩ := h
  obtain ⟨hl', h'⟩ := h'
  cases hps : ps.family with
  | shake =>
    simp only [hps] at h h'
    have e := congrArg Subtype.val (h.symm.trans h')
    rw [Query.of, dif_pos hl, Query.of, dif_pos hl'] at e
    exact key (Call.mk.inj e).2
  | sha2 =>
    simp only [hps] at h h'
    have hn := n_le_32 ps
    have hh := hlen_le ps
    have hbl : ∀ (s : List UInt8) (v : Fin (256 ^ hlen ps)), s.length = ps.sp.n →
        (R ++ s ++ Spec.toByte v (hlen ps) ++ Spec.toByte 0 4).length ≤ B := fun s v hs => by
      simp only [List.length_append, Spec.toByte_length]
      omega
    have e := shaQ_inj (hbl _ _ hs) (hbl _ _ hs') (h.2.symm.trans h'.2)
    have e := List.append_cancel_right e
    obtain ⟨-, e2⟩ := List.append_inj e (by rw [List.length_append, List.length_append, hs, hs'])
    have e2 := toByte_inj e2
    have e3 := congrArg (fun v : Fin (256 ^ hlen ps) => (Spec.toByte v (hlen ps)).take ps.sp.n) e2
    simp only [toByte_headOf (hh.trans hw), List.take_take, Nat.min_eq_left (n_le_hlen ps)] at e3
    have e4 := T.inj _ (hK _ h.1) _ (hK _ h'.1) (head_of_take (Nat.le_refl _) e3)
    exact key (shaQ_inj hl hl' e4)

include hw hB in
/-- The signature is accepted for one digest. -/
theorem Tidy.dig_unique {K : Finset (Query B)} (hK : ∀ y ∈ K, y ∈ Z) {y : Query B} {u u' : List UInt8}
    (h : Dig ps S K O y u) (h' : Dig ps S K O y u') : u' = u := by
  obtain ⟨δ, seed, root, M, rfl, hδ, hs, hr, hst, ha, he⟩ := h
  obtain ⟨δ', seed', root', M', rfl, hδ', hs', hr', hst', ha', he'⟩ := h'
  have hR : (S.toList.take ps.sp.n).length = ps.sp.n := by
    rw [List.length_take, Vector.length_toList]
    refine Nat.min_eq_left ?_
    cases ps <;> decide
  obtain ⟨rfl, rfl, -⟩ := T.starts_unique hw hK (by omega) hR hs hs' hr hr' hst hst'
  rw [attemptAt_layersP (withHash demoPrims O) seed'] at ha he ha' he'
  have hA := T.attempt_at hB hK hs hδ (withHash demoPrims O) ha
  have hA' := T.attempt_at hB hK hs hδ' (withHash demoPrims O) ha'
  have ok := attemptAt_ok (ps := ps) (withHash demoPrims O) seed' S hδ
  have ok' := attemptAt_ok (ps := ps) (withHash demoPrims O) seed' S hδ'
  have hh := hAt_eq (ps := ps) (O := O) hw demoPrims seed'
  rw [← hh] at he he'
  have R : Spec.Attempt.Twin (attemptAt ps (withHash demoPrims O) seed' δ S)
      (attemptAt ps (withHash demoPrims O) seed' δ' S) ps.sp.m :=
    { ok := ok, ok' := ok', p := rfl, hf := rfl, seed := rfl, fors := rfl, ht := rfl,
      root := (Spec.Attempt.eval_layersP ok ps.sp.d).symm.trans
        (he.trans (he'.symm.trans (Spec.Attempt.eval_layersP ok' ps.sp.d))) }
  have n1 := T.no_clash hw hB hs hδ hδ' hA hA'
  have n2 := T.no_loop hw hB hs hδ hA
  exact (md_take hδ hδ' fun i hi => R.digits n1 n2 hi).symm

end

end Fips205.Props
