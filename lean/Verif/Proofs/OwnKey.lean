import Verif.Proofs.OwnCore

/-!
# A fresh signature is accepted for one key and message

The points in the order of the game: those before the signature is made, those of `PRF_msg`, those of `H_msg`, the other
points of the signer, and the points after.
-/

namespace Fips205.Props
open Fips205 Fips205.Model Fips205.Oracle

variable {ps : ParamSet} {B w : Nat}

/-! ## The calls for a message with SHA-2 -/

theorem prfMsgLog_sha2 (hps : ps.family = .sha2) (P : Spec.Prims) (k o M : List UInt8) :
    prfMsgLog P ps.family ps.row k o M = [⟨msgAlg ps, hmacPad (blen ps) k 0x36 ++ o ++ M⟩,
      ⟨msgAlg ps, hmacPad (blen ps) k 0x5c ++ shaOf ps P (hmacPad (blen ps) k 0x36 ++ o ++ M)⟩] := by
  simp only [hps, prfMsgLog, msgAlg, blen, shaOf]
  split <;> rfl

theorem hMsgLog_sha2 (hps : ps.family = .sha2) (P : Spec.Prims) (R seed root M : List UInt8) :
    ∃ N, 0 < N ∧ hMsgLog P ps.family ps.row R seed root M = ⟨msgAlg ps, R ++ seed ++ root ++ M⟩ ::
      (List.range N).map fun c => ⟨msgAlg ps, R ++ seed ++ shaOf ps P (R ++ seed ++ root ++ M) ++ Spec.toByte c 4⟩ := by
  have h0 : 0 < ps.row.m := (n_pos ps).trans_le (n_le_m ps)
  simp only [hps, hMsgLog, msgAlg, shaOf]
  split
  · exact ⟨_, Nat.div_pos (by omega) (by decide), rfl⟩
  · exact ⟨_, Nat.div_pos (by omega) (by decide), rfl⟩

theorem prfMsg_sha2 (hps : ps.family = .sha2) (P : Spec.Prims) {k : List UInt8} (hk : k.length = ps.sp.n)
    (o M : List UInt8) : (ps.hf P).PRFmsg k o M = (shaOf ps P (hmacPad (blen ps) k 0x5c ++
      shaOf ps P (hmacPad (blen ps) k 0x36 ++ o ++ M))).take ps.sp.n := by
  have := n_le_blen ps
  rw [sha2_PRFmsg hps, Spec.trunc, Spec.hmac]
  simp only [if_pos (show k.length ≤ blen ps by omega)]
  rw [List.append_assoc]
  rfl

theorem hmacPad_length {k : List UInt8} (hk : k.length = ps.sp.n) (c : UInt8) : (hmacPad (blen ps) k c).length = blen ps := by
  have := n_le_blen ps
  rw [hmacPad, List.length_map, List.length_append, List.length_replicate]
  omega

/-! ## Positions -/

section
variable {α : Type} [DecidableEq α] {A C : List α} {x : α}

theorem mem_of_idxOf_lt (hx : x ∈ A ++ C) (h : (A ++ C).idxOf x < A.length) : x ∈ A := by
  have := (List.mem_take_iff_idxOf_lt hx).mpr h
  rwa [List.take_left'] at this
  rfl

theorem idxOf_lt_of_mem (hx : x ∈ A) : (A ++ C).idxOf x < A.length := by
  rw [List.idxOf_append_of_mem hx]
  exact List.idxOf_lt_length_of_mem hx

theorem le_idxOf_of_notMem (hx : x ∈ A ++ C) (h : x ∉ A) : A.length ≤ (A ++ C).idxOf x :=
  Nat.le_of_not_lt fun hl => h (mem_of_idxOf_lt hx hl)

end

/-! ## The points -/

/-- Where the random bytes of the signer are in the first call of `PRF_msg`. -/
def coinAt (ps : ParamSet) : Nat := match ps.family with
  | .shake => ps.sp.n
  | .sha2 => blen ps

theorem of_val {c : Call} (h : c.input.length ≤ B) : (Query.of B c).1 = c := by
  rw [Query.of, dif_pos h]

theorem mem_windows_zero (y : Query B) : startAt ps.sp.n 0 y ∈ windows ps y :=
  List.mem_append_left _ List.mem_cons_self

theorem mem_windows_two (y : Query B) : startAt ps.sp.n (2 * ps.sp.n) y ∈ windows ps y :=
  List.mem_append_left _ (List.mem_cons_of_mem _ List.mem_cons_self)

theorem mem_windows_hash (y : Query B) : endAt ps.sp.n (hlen ps) y ∈ windows ps y := by
  refine List.mem_append_left _ (List.mem_cons_of_mem _ (List.mem_cons_of_mem _ ?_))
  rw [hlen]
  split
  · exact List.mem_cons_self
  · exact List.mem_cons_of_mem _ List.mem_cons_self

theorem startAt_of {n : Nat} {y : Query B} {a r c : List UInt8} (hr : r.length = n) (h : y.1.input = a ++ r ++ c) :
    startAt n a.length y = number n r := by
  rw [startAt, h, List.append_assoc, List.drop_left, List.take_left' hr]

/-- The first bytes of a hash. -/
theorem toByte_split {n h : Nat} (hn : n ≤ h) (hh : h ≤ w) (e : Fin (256 ^ w)) :
    Spec.toByte (headOf h e) h = Spec.toByte (headOf n e) n ++ ((Spec.toByte e w).take h).drop n := by
  rw [toByte_headOf hh, toByte_headOf (hn.trans hh)]
  conv_lhs => rw [← List.take_append_drop n ((Spec.toByte e w).take h), List.take_take, Nat.min_eq_left hn]

section
variable {S : Vector UInt8 ps.params.SIG_LEN} {O : Query B → Fin (256 ^ w)} {Z : List (Query B)} {n0 : Nat}
  (hw : 64 ≤ w)

include hw in
/-- The first `n` bytes of the signature are the value at a point after the points before the signature. -/
theorem Tidy.prf_point (P0 : Spec.Prims) {Z1 Zr : List (Query B)} {k v M : List UInt8} (hk : k.length = ps.sp.n)
    (hv : v.length = ps.sp.n) (hl : blen ps + v.length + M.length ≤ B) (hB : 192 ≤ B)
    (T : Tidy ps S O (Z1 ++ ((prfMsgLog (withHash P0 O) ps.family ps.row k v M).map (Query.of B) ++ Zr)) n0)
    (hfresh : ∀ y ∈ Z1, startAt ps.sp.n (coinAt ps) y ≠ number ps.sp.n v) :
    ∃ r ∈ Z1 ++ ((prfMsgLog (withHash P0 O) ps.family ps.row k v M).map (Query.of B) ++ Zr),
      Spec.toByte (headOf ps.sp.n (O r)) ps.sp.n = (ps.hf (withHash P0 O)).PRFmsg k v M ∧
      Z1.length + (prfMsgLog (withHash P0 O) ps.family ps.row k v M).length ≤
        (Z1 ++ ((prfMsgLog (withHash P0 O) ps.family ps.row k v M).map (Query.of B) ++ Zr)).idxOf r + 1 ∧
      ∀ p ∈ (prfMsgLog (withHash P0 O) ps.family ps.row k v M).map (Query.of B),
        (Z1 ++ ((prfMsgLog (withHash P0 O) ps.family ps.row k v M).map (Query.of B) ++ Zr)).idxOf p ≤
          (Z1 ++ ((prfMsgLog (withHash P0 O) ps.family ps.row k v M).map (Query.of B) ++ Zr)).idxOf r := by
  have hn := n_le_blen ps
  have hnw : ps.sp.n ≤ w := (n_le_32 ps).trans (by omega)
  cases hps : ps.family with
  | shake =>
    have e : prfMsgLog (withHash P0 O) .shake ps.row k v M = [⟨.shake256, k ++ v ++ M⟩] := rfl
    rw [hps] at T
    rw [e] at T ⊢
    obtain ⟨r, hr⟩ : ∃ r : Query B, r = .of B ⟨.shake256, k ++ v ++ M⟩ := ⟨_, rfl⟩
    simp only [List.map_cons, List.map_nil, ← hr] at T ⊢
    have hrZ : r ∈ Z1 ++ ([r] ++ Zr) := List.mem_append_right _ (List.mem_append_left _ (List.mem_singleton_self _))
    have hval : r.1 = ⟨.shake256, k ++ v ++ M⟩ := by
      rw [hr]; exact of_val (by simp only [List.length_append]; omega)
    refine ⟨r, hrZ, ?_, ?_, fun p hp => by rw [List.mem_singleton.mp hp]⟩
    · rw [toByte_headOf hnw, hf_shake hps, hr, ← wide_shake (P0 := P0) hnw]
      rfl
    · have := le_idxOf_of_notMem hrZ fun h => hfresh r h (by
        rw [show coinAt ps = k.length by rw [coinAt, hps]; exact hk.symm]
        exact startAt_of hv (by rw [hval]))
      simpa using this
  | sha2 =>
    rw [← hps]
    rw [prfMsgLog_sha2 hps] at T ⊢
    rw [prfMsg_sha2 hps _ hk]
    obtain ⟨X, hX⟩ : ∃ X, X = hmacPad (blen ps) k 0x36 ++ v ++ M := ⟨_, rfl⟩
    rw [← hX] at T ⊢
    obtain ⟨Y, hY⟩ : ∃ Y, Y = hmacPad (blen ps) k 0x5c ++ shaOf ps (withHash P0 O) X := ⟨_, rfl⟩
    rw [← hY] at T ⊢
    obtain ⟨ri, hri⟩ : ∃ r : Query B, r = shaQ ps B X := ⟨_, rfl⟩
    obtain ⟨ro, hro⟩ : ∃ r : Query B, r = shaQ ps B Y := ⟨_, rfl⟩
    have hm : List.map (Query.of B) [⟨msgAlg ps, X⟩, ⟨msgAlg ps, Y⟩] = [ri, ro] := by rw [hri, hro]; rfl
    rw [hm] at T ⊢
    have hpl := fun c => hmacPad_length (ps := ps) hk c
    have hhl := hlen_le ps
    have hbl := blen_le ps
    have hXl : X.length ≤ B := by rw [hX]; simp only [List.length_append, hpl]; omega
    have hYl : Y.length ≤ B := by rw [hY]; simp only [List.length_append, hpl, shaOf_length]; omega
    have hiZ : ri ∈ Z1 ++ ([ri, ro] ++ Zr) := List.mem_append_right _ (List.mem_append_left _ List.mem_cons_self)
    have hoZ : ro ∈ Z1 ++ ([ri, ro] ++ Zr) :=
      List.mem_append_right _ (List.mem_append_left _ (List.mem_cons_of_mem _ List.mem_cons_self))
    have h1 := le_idxOf_of_notMem hiZ fun h => hfresh ri h (by
      rw [show coinAt ps = (hmacPad (blen ps) k 0x36).length by rw [coinAt, hps]; exact (hpl _).symm]
      exact startAt_of hv (by rw [hri, shaQ_val hXl, hX]))
    have h2 : (Z1 ++ ([ri, ro] ++ Zr)).idxOf ri < (Z1 ++ ([ri, ro] ++ Zr)).idxOf ro := by
      refine T.late _ hiZ _ hoZ ?_
      rw [← endAt_eq (headOf ps.sp.n (O ri)) (y := ro) (a := hmacPad (blen ps) k 0x5c)
        (c := ((Spec.toByte (O ri) w).take (hlen ps)).drop ps.sp.n) (e := hlen ps) ?_ ?_]
      · exact mem_windows_hash ro
      · rw [hro, shaQ_val hYl, hY, wide_sha hw, ← hri, List.append_assoc, ← toByte_split (n_le_hlen ps) (hhl.trans hw)]
      · have := n_le_hlen ps
        rw [List.length_drop, List.length_take, Spec.toByte_length]
        omega
    refine ⟨ro, hoZ, ?_, ?_, fun p hp => ?_⟩
    · rw [wide_sha hw, ← hro, toByte_split (n_le_hlen ps) (hhl.trans hw), List.take_left' (Spec.toByte_length _ _)]
    · simp only [List.length_cons, List.length_nil]
      omega
    · rcases List.mem_cons.mp hp with rfl | hp
      · exact h2.le
      · rw [List.mem_singleton.mp hp]

/-- The points in their order. -/
structure Order (Z1 Zp Zh Zl Z2 Z : List (Query B)) (n0 : Nat) : Prop where
  eq : Z = Z1 ++ (Zp ++ (Zh ++ (Zl ++ Z2)))
  len : n0 = Z1.length + (Zp.length + (Zh.length + Zl.length))

/-- The digest is after the points of the signer. -/
theorem Order.after {Z1 Zp Zh Zl Z2 : List (Query B)} (Q : Order Z1 Zp Zh Zl Z2 Z n0) {d : Query B} (hd : d ∈ Z)
    (h1 : d ∉ Z1) (h2 : d ∉ Zp) (h3 : d ∉ Zh) (h4 : d ∉ Zl) : n0 ≤ Z.idxOf d := by
  obtain ⟨e, e'⟩ := Q
  have e : Z = (Z1 ++ (Zp ++ (Zh ++ Zl))) ++ Z2 := by rw [e]; simp only [List.append_assoc]
  rw [e] at hd ⊢
  have := le_idxOf_of_notMem hd (by simp only [List.mem_append, not_or]; exact ⟨h1, h2, h3, h4⟩)
  simp only [List.length_append] at this
  omega

variable (hB : 160 + (ps.sp.len + ps.sp.k) * ps.sp.n ≤ B) (T : Tidy ps S O Z n0)

theorem sig_take_length (S : Vector UInt8 ps.params.SIG_LEN) : (S.toList.take ps.sp.n).length = ps.sp.n := by
  rw [List.length_take, Vector.length_toList]
  refine Nat.min_eq_left ?_
  cases ps <;> decide

include hw hB T in
/-- The end of the argument: the point where the digest begins is neither among those of the first digest, nor
elsewhere. -/
theorem Tidy.no_second {Z1 Zp Zh Zl Z2 : List (Query B)} (Q : Order Z1 Zp Zh Zl Z2 Z n0) {seed1 : List UInt8}
    (hs1 : seed1.length = ps.sp.n) {r : Query B} (hr : r ∈ Z)
    (hrR : Spec.toByte (headOf ps.sp.n (O r)) ps.sp.n = S.toList.take ps.sp.n)
    (hr1 : Z1.length + Zp.length ≤ Z.idxOf r + 1) (hp0 : 0 < Zp.length) (hrp : ∀ p ∈ Zp, Z.idxOf p ≤ Z.idxOf r)
    (hdum : Query.of B ⟨.shake256, seed1⟩ ∈ Z1) (hZl : ∀ y ∈ Zl, y.1.input = [] ∨ ∃ a, y.1.input = seed1 ++ a)
    {d a : Query B} (hdZ : d ∈ Z) (haZ : a ∈ Z) (had : Z.idxOf a ≤ Z.idxOf d)
    {dr seed δ root M : List UInt8} (hdR : d.1.input = S.toList.take ps.sp.n ++ dr) {ar a2 : List UInt8}
    (har : ar.length = 2 * ps.sp.n) (haR : a.1.input = ar ++ root ++ a2)
    (hs : seed.length = ps.sp.n) (hδ : δ.length = ps.sp.m) (P : Spec.Prims)
    (hA : ∀ q ∈ ((attemptAt ps P seed δ S).layersP ps.sp.d).asked (hAt ps O seed), At ps Z seed q)
    (he : ((attemptAt ps P seed δ S).layersP ps.sp.d).eval (hAt ps O seed) = root)
    (hst : Starts ps (S.toList.take ps.sp.n) (Z.take (Z.idxOf d)).toFinset O d seed root M)
    (hδd : δ.take ps.sp.n = Spec.toByte (headOf ps.sp.n (O d)) ps.sp.n) : d ∈ Zh := by
  by_contra hh
  have hR := sig_take_length (ps := ps) S
  have hn := n_pos ps
  have hn32 := n_le_32 ps
  have hroot : root.length = ps.sp.n := by
    rw [← he]
    exact Spec.Attempt.layersP_length (c := attemptAt ps P seed δ S) (hAt_length O seed) _
  have after : ∀ y ∈ Z, (∃ u, y.1.input = S.toList.take ps.sp.n ++ u) → Z.idxOf r < Z.idxOf y := by
    rintro y hy ⟨u, hu⟩
    refine T.late r hr y hy ?_
    have := startAt_eq (headOf ps.sp.n (O r)) (y := y) (a := []) (c := u) (by rw [hu, hrR]; rfl)
    rw [← this]
    exact mem_windows_zero y
  have hrd := after d hdZ ⟨dr, hdR⟩
  have hlt1 : ∀ y ∈ Z1, Z.idxOf y < Z1.length := fun y hy => by
    rw [Q.eq]; exact idxOf_lt_of_mem hy
  have h1 : d ∉ Z1 := fun h => by have := hlt1 d h; omega
  have h2 : d ∉ Zp := fun h => by have := hrp d h; omega
  have h4 : d ∉ Zl := fun h => by
    have hdl : d.1.input.length = ps.sp.n + dr.length := by rw [hdR, List.length_append, hR]
    rcases hZl d h with h0 | ⟨u, hu⟩
    · rw [h0, List.length_nil] at hdl
      omega
    · have e : seed1 = S.toList.take ps.sp.n := (List.append_inj (hu.symm.trans hdR) (by rw [hs1, hR])).1
      have hv : (Query.of B ⟨.shake256, seed1⟩).1 = ⟨.shake256, seed1⟩ := of_val (show seed1.length ≤ B by omega)
      have := after _ (Q.eq ▸ List.mem_append_left _ hdum) ⟨[], by rw [hv, ← e]; exact (List.append_nil _).symm⟩
      have := hlt1 _ hdum
      omega
  refine T.no_digest hw hB hdZ (Q.after hdZ h1 h2 hh h4) hs hδ P hA he (fun x hx e => ?_) hst hδd
  refine (T.late x hx a haZ ?_).trans_le had
  have := startAt_of hroot haR
  rw [har, ← e, number_toByte] at this
  rw [← this]
  exact mem_windows_two a

include hw hB T in
/-- A signature with fresh random bytes is accepted for one key and message. -/
theorem Tidy.own (P0 : Spec.Prims) {Z1 Zl Z2 : List (Query B)} {k v seed1 root1 M1 : List UInt8}
    (Q : Order Z1 ((prfMsgLog (withHash P0 O) ps.family ps.row k v M1).map (Query.of B))
      ((hMsgLog (withHash P0 O) ps.family ps.row (S.toList.take ps.sp.n) seed1 root1 M1).map (Query.of B)) Zl Z2 Z n0)
    (hk : k.length = ps.sp.n) (hv : v.length = ps.sp.n) (hM1 : 160 + M1.length ≤ B)
    (hfresh : ∀ y ∈ Z1, startAt ps.sp.n (coinAt ps) y ≠ number ps.sp.n v)
    (hprf : (ps.hf (withHash P0 O)).PRFmsg k v M1 = S.toList.take ps.sp.n)
    (hs1 : seed1.length = ps.sp.n) (hr1 : root1.length = ps.sp.n)
    (hdum : Query.of B ⟨.shake256, seed1⟩ ∈ Z1) (hZl : ∀ y ∈ Zl, y.1.input = [] ∨ ∃ a, y.1.input = seed1 ++ a)
    {seed root M : List UInt8} (hs : seed.length = ps.sp.n) (hr : root.length = ps.sp.n) (hM : 160 + M.length ≤ B)
    (hmsg : ∀ c ∈ hMsgLog (withHash P0 O) ps.family ps.row (S.toList.take ps.sp.n) seed root M, Query.of B c ∈ Z)
    (hA : ∀ q ∈ ((attemptAt ps (withHash P0 O) seed ((ps.hf (withHash P0 O)).Hmsg (S.toList.take ps.sp.n) seed root M)
      S).layersP ps.sp.d).asked (hAt ps O seed), At ps Z seed q)
    (he : ((attemptAt ps (withHash P0 O) seed ((ps.hf (withHash P0 O)).Hmsg (S.toList.take ps.sp.n) seed root M)
      S).layersP ps.sp.d).eval (hAt ps O seed) = root) : seed = seed1 ∧ root = root1 ∧ M = M1 := by
  have hR := sig_take_length (ps := ps) S
  have hn32 := n_le_32 ps
  have hnm := n_le_m ps
  have hbl := blen_le ps
  have hhl := hlen_le ps
  have hnh := n_le_hlen ps
  have hnw : ps.sp.n ≤ w := hn32.trans (by omega)
  have hm0 : 0 < ps.sp.m := (n_pos ps).trans_le hnm
  have hB192 : 192 ≤ B := by
    have : 32 ≤ (ps.sp.len + ps.sp.k) * ps.sp.n := by cases ps <;> decide
    omega
  have key : (S.toList.take ps.sp.n) ++ seed ++ root ++ M = (S.toList.take ps.sp.n) ++ seed1 ++ root1 ++ M1 →
      seed = seed1 ∧ root = root1 ∧ M = M1 := by
    intro e
    simp only [List.append_assoc] at e
    obtain ⟨e1, e2⟩ := List.append_inj (List.append_cancel_left e) (by rw [hs, hs1])
    obtain ⟨e2, e3⟩ := List.append_inj e2 (by rw [hr, hr1])
    exact ⟨e1, e2, e3⟩
  have hl : ((S.toList.take ps.sp.n) ++ seed ++ root ++ M).length ≤ B := by
    simp only [List.length_append]; omega
  have hl1 : ((S.toList.take ps.sp.n) ++ seed1 ++ root1 ++ M1).length ≤ B := by
    simp only [List.length_append]; omega
  have hδ : ((ps.hf (withHash P0 O)).Hmsg (S.toList.take ps.sp.n) seed root M).length = ps.sp.m :=
    (ps.valid (withHash P0 O)).Hmsg _ _ _ _
  obtain ⟨r, hrZ, hrR, hr1', hrp⟩ := Tidy.prf_point (S := S) (n0 := n0) hw P0 (Zr := _) hk hv (by omega) hB192
    (Q.eq ▸ T) hfresh
  rw [← Q.eq] at hrZ hr1' hrp
  rw [hprf] at hrR
  have hp0 : 0 < (prfMsgLog (withHash P0 O) ps.family ps.row k v M1).length := by
    cases hps : ps.family with
    | shake => exact Nat.one_pos
    | sha2 => rw [← hps, prfMsgLog_sha2 hps]; exact Nat.two_pos
  rw [← List.length_map (f := Query.of B)] at hr1' hp0
  cases hps : ps.family with
  | shake =>
    have hd : Query.of B ⟨.shake256, S.toList.take ps.sp.n ++ seed ++ root ++ M⟩ ∈ Z := hmsg _ (by
      rw [hps]; exact List.mem_singleton_self _)
    have hval := of_val (B := B) (c := ⟨.shake256, S.toList.take ps.sp.n ++ seed ++ root ++ M⟩) hl
    have := T.no_second hw hB Q hs1 hrZ hrR hr1' hp0 hrp hdum hZl hd hd (Nat.le_refl _) (dr := seed ++ root ++ M)
      (M := M) (by rw [hval]; simp only [List.append_assoc]) (ar := S.toList.take ps.sp.n ++ seed) (a2 := M)
      (by rw [List.length_append, hR, hs]; omega) (by rw [hval]) hs hδ (withHash P0 O) hA he
      (by unfold Starts; rw [hps]; exact ⟨hl, rfl⟩) (by
        have hmw : ps.sp.m ≤ w := (show ps.sp.m ≤ 64 by cases ps <;> decide).trans hw
        rw [hf_shake hps, toByte_headOf hnw]
        change (((withHash P0 O).shake256 (S.toList.take ps.sp.n ++ seed ++ root ++ M) ps.sp.m).toList).take _ = _
        rw [wide_shake hmw, List.take_take, Nat.min_eq_left hnm])
    rw [hps] at this
    have := congrArg Subtype.val (List.mem_singleton.mp this)
    rw [hval, of_val (B := B) hl1] at this
    exact key (Call.mk.inj this).2
  | sha2 =>
    obtain ⟨N, hN, eN⟩ := hMsgLog_sha2 hps (withHash P0 O) (S.toList.take ps.sp.n) seed root M
    obtain ⟨N1, hN1, eN1⟩ := hMsgLog_sha2 hps (withHash P0 O) (S.toList.take ps.sp.n) seed1 root1 M1
    rw [eN] at hmsg
    have hblk : ∀ (s X : List UInt8) (c : Nat), s.length = ps.sp.n →
        (S.toList.take ps.sp.n ++ s ++ shaOf ps (withHash P0 O) X ++ Spec.toByte c 4).length ≤ B := fun s X c hs => by
      simp only [List.length_append, shaOf_length, Spec.toByte_length]
      omega
    have hsha : ∀ X, shaOf ps (withHash P0 O) X = Spec.toByte (headOf ps.sp.n (O (shaQ ps B X))) ps.sp.n ++
        ((Spec.toByte (O (shaQ ps B X)) w).take (hlen ps)).drop ps.sp.n := fun X => by
      rw [wide_sha hw, toByte_split hnh (hhl.trans hw)]
    obtain ⟨X, hX⟩ : ∃ X, X = S.toList.take ps.sp.n ++ seed ++ root ++ M := ⟨_, rfl⟩
    obtain ⟨X1, hX1⟩ : ∃ X1, X1 = S.toList.take ps.sp.n ++ seed1 ++ root1 ++ M1 := ⟨_, rfl⟩
    rw [← hX] at hmsg hl
    rw [← hX1] at eN1 hl1
    obtain ⟨Y, hY⟩ : ∃ Y, Y = S.toList.take ps.sp.n ++ seed ++ shaOf ps (withHash P0 O) X ++ Spec.toByte 0 4 := ⟨_, rfl⟩
    have hYl : Y.length ≤ B := hY ▸ hblk _ _ _ hs
    have haZ : shaQ ps B X ∈ Z := hmsg _ List.mem_cons_self
    have hdZ : shaQ ps B Y ∈ Z := hmsg _ (List.mem_cons_of_mem _ (List.mem_map.mpr ⟨0, List.mem_range.mpr hN, by rw [hY]⟩))
    have had : Z.idxOf (shaQ ps B X) < Z.idxOf (shaQ ps B Y) := by
      refine T.late _ haZ _ hdZ ?_
      have := startAt_eq (headOf ps.sp.n (O (shaQ ps B X))) (y := shaQ ps B Y) (a := S.toList.take ps.sp.n ++ seed)
        (c := ((Spec.toByte (O (shaQ ps B X)) w).take (hlen ps)).drop ps.sp.n ++ Spec.toByte 0 4) (by
          rw [shaQ_val hYl, hY, hsha]; simp only [List.append_assoc])
      rw [List.length_append, hR, hs, ← Nat.two_mul] at this
      rw [← this]
      exact mem_windows_two _
    have hra : Z.idxOf r < Z.idxOf (shaQ ps B X) := by
      refine T.late r hrZ _ haZ ?_
      have := startAt_eq (headOf ps.sp.n (O r)) (y := shaQ ps B X) (a := []) (c := seed ++ root ++ M) (by
        rw [hrR, shaQ_val hl, hX]; simp only [List.append_assoc, List.nil_append])
      rw [← this]
      exact mem_windows_zero _
    have hst : Starts ps (S.toList.take ps.sp.n) (Z.take (Z.idxOf (shaQ ps B Y))).toFinset O (shaQ ps B Y) seed root M := by
      unfold Starts
      rw [hps, ← hX]
      exact ⟨hl, List.mem_toFinset.mpr (mem_take_of_lt haZ had), by rw [hY, wide_sha hw]⟩
    have hh0 : 0 < hlen ps := (n_pos ps).trans_le hnh
    have := T.no_second hw hB Q hs1 hrZ hrR hr1' hp0 hrp hdum hZl hdZ haZ had.le
      (dr := seed ++ shaOf ps (withHash P0 O) X ++ Spec.toByte 0 4) (M := M)
      (by rw [shaQ_val hYl, hY]; simp only [List.append_assoc]) (ar := S.toList.take ps.sp.n ++ seed) (a2 := M)
      (by rw [List.length_append, hR, hs]; omega) (by rw [shaQ_val hl, hX]) hs hδ (withHash P0 O) hA he hst (by
        rw [sha2_Hmsg hps, mgf1_take (shaOf_length _) hnh hh0 hnm hm0, ← hX, ← hY, hsha,
          List.take_left' (Spec.toByte_length _ _)])
    rw [eN1, List.map_cons] at this
    rcases List.mem_cons.mp this with e | e
    · have h1 : Z.idxOf (shaQ ps B Y) ≤ Z1.length +
          ((prfMsgLog (withHash P0 O) ps.family ps.row k v M1).map (Query.of B)).length := by
        have h2 : Z = (Z1 ++ (prfMsgLog (withHash P0 O) ps.family ps.row k v M1).map (Query.of B) ++
            [shaQ ps B Y]) ++ (((List.range N1).map fun c => (⟨msgAlg ps, S.toList.take ps.sp.n ++ seed1 ++
              shaOf ps (withHash P0 O) X1 ++ Spec.toByte c 4⟩ : Call)).map (Query.of B) ++ (Zl ++ Z2)) := by
          rw [Q.eq, eN1, List.map_cons, e]
          simp only [List.append_assoc, List.cons_append, List.nil_append]
        have h3 := idxOf_lt_of_mem (C := (((List.range N1).map fun c => (⟨msgAlg ps, S.toList.take ps.sp.n ++ seed1 ++
              shaOf ps (withHash P0 O) X1 ++ Spec.toByte c 4⟩ : Call)).map (Query.of B) ++ (Zl ++ Z2)))
              (List.mem_append_right (Z1 ++ (prfMsgLog (withHash P0 O) ps.family ps.row k v M1).map (Query.of B))
              (List.mem_singleton_self (shaQ ps B Y)))
        rw [← h2, List.length_append, List.length_append, List.length_singleton] at h3
        omega
      omega
    · obtain ⟨c, hc, e⟩ := List.mem_map.mp e
      obtain ⟨i, -, rfl⟩ := List.mem_map.mp hc
      have e := shaQ_inj (hblk seed1 X1 i hs1) hYl e
      rw [hY] at e
      obtain ⟨e, -⟩ := List.append_inj' e (by rw [Spec.toByte_length, Spec.toByte_length])
      obtain ⟨-, e2⟩ := List.append_inj e (by rw [List.length_append, List.length_append, hs, hs1])
      rw [hsha, hsha] at e2
      have e3 := (List.append_inj e2 (by rw [Spec.toByte_length, Spec.toByte_length])).1
      have h1Z : shaQ ps B X1 ∈ Z := by
        rw [Q.eq, eN1]
        exact List.mem_append_right _ (List.mem_append_right _ (List.mem_append_left _ List.mem_cons_self))
      have e4 := shaQ_inj hl1 hl (T.inj _ h1Z _ haZ (toByte_inj e3))
      exact key (by rw [← hX, ← hX1, e4])

end

end Fips205.Props
