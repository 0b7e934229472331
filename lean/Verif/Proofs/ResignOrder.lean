import Verif.Proofs.ResignPoints

/-!
# Who presents a key and a signature for an unknown message has shown a foretold value

The digest that the verification computes begins after the signature was known: who begins it earlier shows the message,
or its pre-hash, or the random bytes, or does the same as the signer.  And then the digest is foretold.
-/

namespace Fips205.Props
open Fips205 Fips205.Model Fips205.Oracle

variable {ps : ParamSet} {L B w : Nat}

section
variable {S : Vector UInt8 ps.params.SIG_LEN} {O : Query B → Fin (256 ^ w)} {Z : List (Query B)} {n0 : Nat}
  (hw : 64 ≤ w) (hB : 160 + (ps.sp.len + ps.sp.k) * ps.sp.n ≤ B) (T : Tidy ps S O Z n0)

include hw hB T in
/-- No signature is accepted if the digest begins after it was known. -/
theorem Tidy.no_late (P0 : Spec.Prims) {seed root M : List UInt8} (hs : seed.length = ps.sp.n) (hr : root.length = ps.sp.n)
    (hM : 160 + M.length ≤ B)
    (hmsg : ∀ c ∈ hMsgLog (withHash P0 O) ps.family ps.row (S.toList.take ps.sp.n) seed root M, Query.of B c ∈ Z)
    (hA : ∀ q ∈ ((attemptAt ps (withHash P0 O) seed ((ps.hf (withHash P0 O)).Hmsg (S.toList.take ps.sp.n) seed root M)
      S).layersP ps.sp.d).asked (hAt ps O seed), At ps Z seed q)
    (he : ((attemptAt ps (withHash P0 O) seed ((ps.hf (withHash P0 O)).Hmsg (S.toList.take ps.sp.n) seed root M)
      S).layersP ps.sp.d).eval (hAt ps O seed) = root)
    (hlate : n0 ≤ Z.idxOf (Query.of B (msgCall ps (S.toList.take ps.sp.n ++ seed ++ root ++ M)))) : False := by
  have hR := sig_take_length (ps := ps) S
  have hn32 := n_le_32 ps
  have hnm := n_le_m ps
  have hhl := hlen_le ps
  have hnh := n_le_hlen ps
  have hnw : ps.sp.n ≤ w := hn32.trans (by omega)
  have hm0 : 0 < ps.sp.m := (n_pos ps).trans_le hnm
  have hl : ((S.toList.take ps.sp.n) ++ seed ++ root ++ M).length ≤ B := by
    simp only [List.length_append]; omega
  have hδ : ((ps.hf (withHash P0 O)).Hmsg (S.toList.take ps.sp.n) seed root M).length = ps.sp.m :=
    (ps.valid (withHash P0 O)).Hmsg _ _ _ _
  have key : ∀ a d : Query B, a ∈ Z → d ∈ Z → Z.idxOf a ≤ Z.idxOf d → n0 ≤ Z.idxOf d →
      a.1.input = S.toList.take ps.sp.n ++ seed ++ root ++ M →
      Starts ps (S.toList.take ps.sp.n) (Z.take (Z.idxOf d)).toFinset O d seed root M →
      ((ps.hf (withHash P0 O)).Hmsg (S.toList.take ps.sp.n) seed root M).take ps.sp.n =
        Spec.toByte (headOf ps.sp.n (O d)) ps.sp.n → False := by
    intro a d haZ hdZ had hd ha hst hδd
    refine T.no_digest hw hB hdZ hd hs hδ _ hA he (fun x hx e => ?_) hst hδd
    refine (T.late x hx a haZ ?_).trans_le had
    have := startAt_of hr ha
    rw [List.length_append, hR, hs, ← Nat.two_mul, ← e, number_toByte] at this
    rw [← this]
    exact mem_windows_two a
  cases hps : ps.family with
  | shake =>
    have hd : Query.of B ⟨.shake256, S.toList.take ps.sp.n ++ seed ++ root ++ M⟩ ∈ Z := hmsg _ (by
      rw [hps]; exact List.mem_singleton_self _)
    rw [msgCall, hps] at hlate
    refine key _ _ hd hd (Nat.le_refl _) hlate (by rw [of_val (B := B) hl])
      (by unfold Starts; rw [hps]; exact ⟨hl, rfl⟩) ?_
    have hmw : ps.sp.m ≤ w := (show ps.sp.m ≤ 64 by cases ps <;> decide).trans hw
    rw [hf_shake hps, toByte_headOf hnw]
    change (((withHash P0 O).shake256 (S.toList.take ps.sp.n ++ seed ++ root ++ M) ps.sp.m).toList).take _ = _
    rw [wide_shake hmw, List.take_take, Nat.min_eq_left hnm]
  | sha2 =>
    obtain ⟨N, hN, eN⟩ := hMsgLog_sha2 hps (withHash P0 O) (S.toList.take ps.sp.n) seed root M
    rw [eN] at hmsg
    have hsha : ∀ X, shaOf ps (withHash P0 O) X = Spec.toByte (headOf ps.sp.n (O (shaQ ps B X))) ps.sp.n ++
        ((Spec.toByte (O (shaQ ps B X)) w).take (hlen ps)).drop ps.sp.n := fun X => by
      rw [wide_sha hw, toByte_split hnh (hhl.trans hw)]
    rw [msgCall] at hlate
    simp only [hps] at hlate
    obtain ⟨X, hX⟩ : ∃ X, X = S.toList.take ps.sp.n ++ seed ++ root ++ M := ⟨_, rfl⟩
    rw [← hX] at hmsg hl hlate
    obtain ⟨Y, hY⟩ : ∃ Y, Y = S.toList.take ps.sp.n ++ seed ++ shaOf ps (withHash P0 O) X ++ Spec.toByte 0 4 := ⟨_, rfl⟩
    have hYl : Y.length ≤ B := by
      rw [hY]
      simp only [List.length_append, shaOf_length, Spec.toByte_length]
      omega
    have haZ : shaQ ps B X ∈ Z := hmsg _ List.mem_cons_self
    have hdZ : shaQ ps B Y ∈ Z := hmsg _ (List.mem_cons_of_mem _ (List.mem_map.mpr ⟨0, List.mem_range.mpr hN, by rw [hY]⟩))
    have had : Z.idxOf (shaQ ps B X) < Z.idxOf (shaQ ps B Y) := by
      refine T.late _ haZ _ hdZ ?_
      have := startAt_eq (headOf ps.sp.n (O (shaQ ps B X))) (y := shaQ ps B Y) (a := S.toList.take ps.sp.n ++ seed)
        (c := ((Spec.toByte (O (shaQ ps B X)) w).take (hlen ps)).drop ps.sp.n ++ Spec.toByte 0 4) (by
          rw [shaQ_val hYl, hY, hsha]; simp only [List.append_assoc])
      rw [List.length_append, hR, hs, ← Nat.two_mul] at this
      rw [← this]
      exact mem_windows_two _
    have hh0 : 0 < hlen ps := (n_pos ps).trans_le hnh
    have hlate : n0 ≤ Z.idxOf (shaQ ps B X) := hlate
    refine key _ _ haZ hdZ had.le (hlate.trans had.le) (by rw [shaQ_val hl, hX]) ?_ ?_
    · unfold Starts
      rw [hps, ← hX]
      exact ⟨hl, List.mem_toFinset.mpr (mem_take_of_lt haZ had), by rw [hY, wide_sha hw]⟩
    · rw [sha2_Hmsg hps, mgf1_take (shaOf_length _) hnh hh0 hnm hm0, ← hX, ← hY, hsha,
        List.take_left' (Spec.toByte_length _ _)]

end

/-! ## The digest does not begin before -/

theorem pad_byte {k : List UInt8} (hk : k.length = ps.sp.n) (c : UInt8) :
    (hmacPad (blen ps) k c)[3 * ps.sp.n]? = some c := by
  have h : 3 * ps.sp.n < blen ps := by cases ps <;> decide
  have hn := n_pos ps
  rw [hmacPad, List.getElem?_map, List.getElem?_append_right (by omega), List.getElem?_replicate_of_lt (by omega)]
  simp

/-- A formatted message begins with 0 or 1. -/
theorem str_kind (P : Spec.Prims) (x : SigRequest L) : ∃ c l, x.str P = c :: l ∧ c ≠ 0x36 ∧ c ≠ 0x5c := by
  unfold SigRequest.str
  split
  · exact ⟨0, _, rfl, by decide, by decide⟩
  · exact ⟨1, _, rfl, by decide, by decide⟩

section
variable {J : Job ps} {us : List (Fin (256 ^ w))} {K D : List (Query B)} (G : Unguessed J us K D) (o : J.Ok B)
  (hw : 64 ≤ w) {S : Vector UInt8 ps.params.SIG_LEN} {O : Query B → Fin (256 ^ w)} {Z : List (Query B)} {n0 : Nat}
  (T : Tidy ps S O Z n0)

include G o hw in
/-- A point with the message only is not one of the others. -/
theorem Unguessed.first {y : Query B} (hy : y.1.input = J.msg) {j : Nat} (hj : j < steps ps) (e : y = J.q B us j) :
    y = J.q B us 0 := by
  have e0 : (J.q B us 0).1.input = J.msg := by
    rw [J.q_val o]
    unfold Job.point
    split <;> rfl
  have same : ∀ a, startAt ps.sp.n a y = startAt ps.sp.n a (J.q B us 0) := fun a => by
    rw [startAt, startAt, hy, e0]
  have same' : ∀ a, endAt ps.sp.n a y = endAt ps.sp.n a (J.q B us 0) := fun a => by
    rw [endAt, endAt, same, hy, e0]
  have h1 : j = 1 → False := fun h => by
    subst h
    exact G.coin0 ((same _).symm.trans (e ▸ mark_coin o))
  have h2 : j = coinNo ps + 1 → False := fun h => by
    subst h
    exact G.randq 0 (Nat.zero_le _) ((same _).symm.trans (e ▸ mark_rand o))
  by_contra hne
  have h0 : j ≠ 0 := fun h => hne (h ▸ e)
  cases hps : ps.family with
  | shake =>
    simp only [coinNo, steps, hps] at h2 hj
    have : j ≠ 1 := h1
    have : j ≠ 1 + 1 := h2
    omega
  | sha2 =>
    simp only [coinNo, hps] at h2
    match j with
    | 0 => exact h0 rfl
    | 1 => exact h1 rfl
    | 2 => exact G.innerq hps 0 (by omega) ((same' _).symm.trans (e ▸ mark_inner hw o hps))
    | 3 => exact h2 rfl
    | j + 4 => exact G.seedq hps 0 (by omega) ((same _).symm.trans (e ▸ mark_seed hw o hps j))

include G o hw T in
/-- The digest begins after the signature was known, or the signer did the same. -/
theorem Unguessed.same (P0 : Spec.Prims)
    (hZ : ∀ y ∈ Z, Z.idxOf y < n0 → y ∈ D ∨ ∃ j < steps ps, y = J.q B us j)
    (hO : O (J.q B us 0) = nth us 0) {x : SigRequest L} (hx : x.msg = J.msg) (hc : x.ctx.length ≤ 255)
    {R seed root : List UInt8} (hR : R.length = ps.sp.n) (hs : seed.length = ps.sp.n) (hr : root.length = ps.sp.n)
    (hdum : Query.of B ⟨.shake256, R ++ seed ++ root⟩ ∈ D)
    (hpre : ∀ ph, x.ph = some ph → Query.of B ⟨ph.spec, x.msg⟩ ∈ Z)
    (haZ : Query.of B (msgCall ps (R ++ seed ++ root ++ x.str (withHash P0 O))) ∈ Z)
    (hlt : Z.idxOf (Query.of B (msgCall ps (R ++ seed ++ root ++ x.str (withHash P0 O)))) < n0) :
    R = randOf ps us ∧ seed = J.seed ∧ root = J.root ∧ x.str (withHash P0 O) = J.str us := by
  have hn32 := n_le_32 ps
  have hn := n_pos ps
  have hom := o.msg
  have hxl : (x.str (withHash P0 O)).length ≤ 332 + x.msg.length :=
    str_length (x := (⟨x.ph, x.ctx, x.msg, Nat.le_refl _⟩ : SigRequest x.msg.length)) hc
  obtain ⟨M, hM⟩ : ∃ M, M = x.str (withHash P0 O) := ⟨_, rfl⟩
  rw [← hM] at haZ hlt hxl ⊢
  have hl : (R ++ seed ++ root ++ M).length ≤ B := by
    simp only [List.length_append]
    rw [hx] at hxl
    omega
  obtain ⟨a, ha⟩ : ∃ a, a = Query.of B (msgCall ps (R ++ seed ++ root ++ M)) := ⟨_, rfl⟩
  rw [← ha] at haZ hlt
  have hav : a.1 = msgCall ps (R ++ seed ++ root ++ M) := ha ▸ of_val hl
  have hai : a.1.input = R ++ seed ++ root ++ M := by rw [hav]; rfl
  have h3 : (R ++ seed ++ root).length = 3 * ps.sp.n := by simp only [List.length_append]; omega
  have e0 : (J.q B us 0).1.input = J.msg := by
    rw [J.q_val o]
    unfold Job.point
    split <;> rfl
  -- not a point of the player, nor the pre-hash
  have main : a ∉ D ∧ a ≠ J.q B us 0 := by
    cases hph : x.ph with
    | none =>
      have hMe : M = Spec.pureMsg x.ctx x.msg := by rw [hM, SigRequest.str, hph]
      refine ⟨fun h => G.msg a h ?_, fun h => ?_⟩
      · rw [← hx]
        exact shown_pure h3 hc (by rw [hai, hMe])
      · have := congrArg List.length ((h ▸ hai : (J.q B us 0).1.input = _).symm.trans e0)
        rw [List.length_append, h3, hMe, ← hx] at this
        simp only [Spec.pureMsg, List.length_append, Spec.toByte_length] at this
        omega
    | some ph =>
      obtain ⟨p, hp⟩ : ∃ p, p = Query.of B ⟨ph.spec, x.msg⟩ := ⟨_, rfl⟩
      have hpZ : p ∈ Z := hp ▸ hpre ph hph
      have hpv : p.1 = ⟨ph.spec, x.msg⟩ := hp ▸ of_val (show x.msg.length ≤ B by rw [hx]; omega)
      have hpi : p.1.input = J.msg := by rw [hpv]; exact hx
      obtain ⟨r, e1, e2⟩ : ∃ r, (Spec.toByte (O p) w).take (phLen ph) = Spec.toByte (headOf ps.sp.n (O p)) ps.sp.n ++ r ∧
          ps.sp.n + r.length = phLen ph := by
        have h1 : ps.sp.n ≤ phLen ph := (n_le_32 ps).trans (by cases ph <;> decide)
        have h2 : phLen ph ≤ w := (phLen_le ph).trans hw
        refine ⟨_, (toByte_headOf h2 (O p)).symm.trans (toByte_split h1 h2 (O p)), ?_⟩
        rw [List.length_drop, List.length_take, Spec.toByte_length]
        omega
      have hMe : M = Spec.toByte 1 1 ++ Spec.toByte x.ctx.length 1 ++ x.ctx ++ Spec.oid ph.spec ++
          (Spec.toByte (headOf ps.sp.n (O p)) ps.sp.n ++ r) := by
        rw [← e1, hp, ← wide_preHash hw P0, hM, SigRequest.str, hph]
        rfl
      have hend : endAt ps.sp.n (phLen ph) a = headOf ps.sp.n (O p) :=
        endAt_eq _ (a := R ++ seed ++ root ++ (Spec.toByte 1 1 ++ Spec.toByte x.ctx.length 1 ++ x.ctx ++ Spec.oid ph.spec))
          (c := r) (by rw [hai, hMe]; simp only [List.append_assoc]) e2
      have hlate : Z.idxOf p < Z.idxOf a := by
        refine T.late p hpZ a haZ ?_
        rw [← hend]
        refine List.mem_append_left _ (List.mem_cons_of_mem _ (List.mem_cons_of_mem _ ?_))
        cases ph
        · exact List.mem_cons_self
        · exact List.mem_cons_of_mem _ List.mem_cons_self
        · exact List.mem_cons_self
        · exact List.mem_cons_of_mem _ List.mem_cons_self
      have hp0 : p = J.q B us 0 := by
        rcases hZ p hpZ (hlate.trans hlt) with h | ⟨j, hj, e⟩
        · refine absurd ?_ (G.msg p h)
          rw [← hpi]
          exact shown_all _ _
        · exact G.first o hw hpi hj e
      rw [hp0, hO] at hend
      refine ⟨fun h => ?_, fun h => ?_⟩
      · obtain ⟨h1, h2⟩ := G.pre a h
        cases ph
        · exact h1 hend
        · exact h2 hend
        · exact h1 hend
        · exact h2 hend
      · rw [h, hp0] at hlate
        exact Nat.lt_irrefl _ hlate
  obtain ⟨j, hj, e⟩ := (hZ a haZ hlt).resolve_left main.1
  have hdv : (Query.of B ⟨.shake256, R ++ seed ++ root⟩).1.input = R ++ seed ++ root := by
    rw [of_val (show (R ++ seed ++ root).length ≤ B by omega)]
  have hi : (J.point us j).input = R ++ seed ++ root ++ M := by rw [← J.q_val o, ← e, hai]
  have h2 : j = coinNo ps + 1 → R = randOf ps us ∧ seed = J.seed ∧ root = J.root ∧ M = J.str us := fun h => by
    subst h
    rw [point_msg, msgCall] at hi
    simp only [List.append_assoc] at hi
    have hRl : (randOf ps us).length = ps.sp.n := hd_length _ _ _
    obtain ⟨e1, hi⟩ := List.append_inj hi (hRl.trans hR.symm)
    obtain ⟨e2, hi⟩ := List.append_inj hi (o.seed.trans hs.symm)
    obtain ⟨e3, hi⟩ := List.append_inj hi (o.root.trans hr.symm)
    exact ⟨e1.symm, e2.symm, e3.symm, hi.symm⟩
  unfold Job.point at hi
  obtain ⟨c, l, hcl, hc1, hc2⟩ := str_kind (withHash P0 O) x
  rw [← hM] at hcl
  have hbyte : (R ++ seed ++ root ++ M)[3 * ps.sp.n]? = some c := by
    rw [List.getElem?_append_right (by omega), h3, Nat.sub_self, hcl]
    rfl
  cases hps : ps.family with
  | shake =>
    simp only [coinNo, steps, hps] at h2 hj hi
    match j with
    | 0 => exact absurd e main.2
    | 1 =>
      simp only [Job.pointShake, List.append_assoc] at hi
      obtain ⟨e1, hi⟩ := List.append_inj hi (o.k.trans hR.symm)
      obtain ⟨e2, hi⟩ := List.append_inj hi ((Spec.toByte_length _ _).trans hs.symm)
      refine absurd ?_ (G.coin _ hdum)
      have := startAt_eq J.v (y := Query.of B ⟨.shake256, R ++ seed ++ root⟩) (a := R) (c := root) (by rw [hdv, e2])
      rw [hR] at this
      rw [coinAt, hps]
      exact this
    | 2 => exact h2 rfl
    | j + 3 => omega
  | sha2 =>
    simp only [coinNo, hps] at h2 hi
    have hblen : 3 * ps.sp.n < blen ps := by cases ps <;> decide
    match j with
    | 0 => exact absurd e main.2
    | 1 =>
      refine absurd ?_ hc1
      rw [← hi, Job.pointSha2] at hbyte
      dsimp only at hbyte
      rw [List.append_assoc, List.getElem?_append_left (by rw [hmacPad_length o.k]; exact hblen), pad_byte o.k] at hbyte
      exact (Option.some.inj hbyte).symm
    | 2 =>
      refine absurd ?_ hc2
      rw [← hi, Job.pointSha2] at hbyte
      dsimp only at hbyte
      rw [List.getElem?_append_left (by rw [hmacPad_length o.k]; exact hblen), pad_byte o.k] at hbyte
      exact (Option.some.inj hbyte).symm
    | 3 => exact h2 rfl
    | j + 4 =>
      obtain ⟨r, e1, -⟩ := hd_split (n_le_hlen ps) ((hlen_le ps).trans hw) us 3
      simp only [Job.pointSha2, List.append_assoc, e1] at hi
      obtain ⟨-, hi⟩ := List.append_inj hi ((hd_length _ _ _).trans hR.symm)
      obtain ⟨-, hi⟩ := List.append_inj hi (o.seed.trans hs.symm)
      obtain ⟨e3, -⟩ := List.append_inj hi ((Spec.toByte_length _ _).trans hr.symm)
      refine absurd ?_ (G.seed hps _ hdum)
      have := startAt_eq (headOf ps.sp.n (nth us 3)) (y := Query.of B ⟨.shake256, R ++ seed ++ root⟩) (a := R ++ seed)
        (c := []) (by rw [hdv, e3, List.append_nil])
      rwa [List.length_append, hR, hs, ← Nat.two_mul] at this

end

end Fips205.Props
