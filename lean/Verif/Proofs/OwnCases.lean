import Verif.Proofs.OwnTree

/-!
# The chance of the claimant

If they win, the random bytes of the signer occurred in what was hashed before, or a value was foretold.
-/

namespace Fips205.Props
open Fips205 Fips205.Model Fips205.Oracle

variable {ps : ParamSet} {L B w : Nat} {b : Build}

theorem of_input {c : Call} {s : List UInt8} (h : ∃ a, c.input = s ++ a) :
    (Query.of B c).1.input = [] ∨ ∃ a, (Query.of B c).1.input = s ++ a := by
  rw [Query.of]
  split
  · exact .inr h
  · exact .inl rfl

theorem attemptAt_on (P : Spec.Prims) (pk : PublicKey ps.params) (S : Vector UInt8 ps.params.SIG_LEN) (M : List UInt8) :
    (attemptAt ps P pk.key.pk_seed.toList ((ps.hf P).Hmsg (S.toList.take ps.sp.n) pk.key.pk_seed.toList
      pk.key.pk_root.toList M) S).layersP ps.sp.d = (attemptOn P pk S M).layersP ps.sp.d := by
  rw [← slice_take]
  simp only [attemptOn, Spec.attempt, attemptAt, attemptBy]

/-- A player whose values were not foretold does not win. -/
theorem Played.lost (hw : 64 ≤ w) (hB : 160 + (ps.sp.len + ps.sp.k) * ps.sp.n ≤ B) (hL : 492 + L ≤ B) (P0 : Spec.Prims)
    {O : Query B → Fin (256 ^ w)} {v : Vector UInt8 ps.params.N} {before la lb : List Call} {o : OwnOutcome ps L}
    {S : Vector UInt8 ps.params.SIG_LEN} (p : Played (withHash P0 O) v before o S la lb)
    (T : Tidy ps S O ((la ++ lb).map (Query.of B)) la.length)
    (hfresh : ∀ c ∈ before, startAt ps.sp.n (coinAt ps) (.of B c) ≠ number ps.sp.n v.toList) : ¬ o.Won := by
  rintro ⟨hacc, hne⟩
  obtain ⟨⟨sk, l1, l2, l', hpk, hla, hb, hdum, hs⟩, ha, hc⟩ := p
  rw [ha] at hacc
  have hyc : o.y.ctx.length ≤ 255 ∧ Accept (withHash P0 O) o.pk' S (o.y.str (withHash P0 O)) := by
    rw [SigRequest.check] at hacc
    split at hacc
    · cases hacc
    · exact ⟨by omega, hacc⟩
  obtain ⟨hyc, hacc⟩ := hyc
  have hla' : la = before ++ (prfMsgLog (withHash P0 O) ps.family ps.row sk.key.sk_prf.toList v.toList
      (o.x.str (withHash P0 O)) ++ (hMsgLog (withHash P0 O) ps.family ps.row (S.toList.take ps.sp.n)
        sk.key.pk_seed.toList sk.key.pk_root.toList (o.x.str (withHash P0 O)) ++ l')) := by
    rw [hla, hs.eq, ← hb, List.append_assoc]
  have lx := str_length (P := withHash P0 O) hs.ctx
  have ly := str_length (P := withHash P0 O) hyc
  have hlb : ∀ c ∈ lb, Query.of B c ∈ (la ++ lb).map (Query.of B) := fun c hc =>
    List.mem_map_of_mem (List.mem_append_right _ hc)
  have hδ : ((ps.hf (withHash P0 O)).Hmsg (S.toList.take ps.sp.n) o.pk'.key.pk_seed.toList o.pk'.key.pk_root.toList
      (o.y.str (withHash P0 O))).length = ps.sp.m := (ps.valid (withHash P0 O)).Hmsg _ _ _ _
  obtain ⟨e1, e2, e3⟩ := T.own hw hB P0 (Z1 := before.map (Query.of B)) (Zl := l'.map (Query.of B))
    (Z2 := lb.map (Query.of B)) (k := sk.key.sk_prf.toList) (v := v.toList) (seed1 := sk.key.pk_seed.toList)
    (root1 := sk.key.pk_root.toList) (M1 := o.x.str (withHash P0 O))
    ⟨by rw [hla']; simp only [List.map_append, List.append_assoc],
      by rw [hla']; simp only [List.length_map, List.length_append]⟩
    (seed_length _) (seed_length _) (by omega)
    (fun y hy => by
      obtain ⟨c, hc, rfl⟩ := List.mem_map.mp hy
      exact hfresh c hc) hs.prf (seed_length _) (seed_length _)
    (List.mem_map_of_mem (by rw [← hb]; exact List.mem_append_left _ hdum))
    (fun y hy => by
      obtain ⟨c, hc, rfl⟩ := List.mem_map.mp hy
      exact of_input (hs.rest c hc))
    (seed := o.pk'.key.pk_seed.toList) (root := o.pk'.key.pk_root.toList) (M := o.y.str (withHash P0 O))
    (seed_length _) (seed_length _) (by omega)
    (fun c h => hlb c (hc.msg c (by rw [slice_take]; exact h)))
    (by
      refine Tidy.attempt_at (S := S) (K := ((la ++ lb).map (Query.of B)).toFinset) hB T (fun y hy => List.mem_toFinset.mp hy)
        (seed_length _) hδ (withHash P0 O) fun q hq => ?_
      rw [attemptAt_on, ← hAt_eq hw P0] at hq
      exact List.mem_toFinset.mpr (hlb _ (hc.asked q hq)))
    (by
      rw [attemptAt_on, ← hAt_eq hw P0]
      have h1 := ((Spec.attempt_accepts (o.y.str (withHash P0 O)) S.toList [] o.pk'.key.pk_seed.toList
        o.pk'.key.pk_root.toList).mp hacc).2
      exact (Spec.Attempt.eval_layersP (attemptOn_ok (withHash P0 O) o.pk' S (o.y.str (withHash P0 O))) ps.sp.d).trans h1)
  have hpk' : o.pk' = o.pk := by
    rw [hpk]
    refine PublicKey.encode_inj ?_
    rw [e1, e2]
    rfl
  have hne : o.y ≠ o.x := hne.resolve_left fun h => h hpk'
  obtain h | ⟨ph, h1, h2, h3, h4⟩ := str_inj hyc hs.ctx e3
  · exact hne h
  · have hx : ⟨ph.spec, o.x.msg⟩ ∈ la := by
      rw [hla, hs.eq, SigRequest.pre, h2]
      exact List.mem_append_right _ (List.mem_append_left _ (List.mem_singleton_self _))
    rw [wide_preHash hw, wide_preHash hw] at h4
    have h5 := T.inj _ (hlb _ (hc.pre ph h1)) _ (List.mem_map_of_mem (List.mem_append_left _ hx))
      (head_of_take ((n_le_32 ps).trans (by cases ph <;> decide)) h4)
    exact of_ne (o.y.short.trans (by omega)) (o.x.short.trans (by omega)) (fun e => h3 (Call.mk.inj e).2) h5

theorem avg_two_le {X Y : Type} [Fintype X] [Nonempty X] [Fintype Y] [Nonempty Y] {E F G : X → Y → Prop}
    (h : ∀ x y, E x y → F x y ∨ G x y) {a c : ℚ} (hF : ∀ y, (avg fun x => ind (F x y)) ≤ a)
    (hG : ∀ x, (avg fun y => ind (G x y)) ≤ c) : (avg fun p : X × Y => ind (E p.1 p.2)) ≤ a + c := by
  have key : ∀ p : X × Y, ind (E p.1 p.2) ≤ ind (F p.1 p.2) + ind (G p.1 p.2) := fun p =>
    (ind_mono (h p.1 p.2)).trans (ind_or_le _ _)
  refine (avg_mono key).trans ?_
  rw [avg_add]
  refine add_le_add ?_ ?_
  · rw [avg_prod, avg_comm]
    exact (avg_mono hF).trans (le_of_eq (avg_const _))
  · rw [avg_prod]
    exact (avg_mono hG).trans (le_of_eq (avg_const _))

/-- Who wins has seen the random bytes, or a foretold value. -/
theorem own_cases (hw : 64 ≤ w) (P0 : Spec.Prims) (hB : 160 + (ps.sp.len + ps.sp.k) * ps.sp.n ≤ B) (hL : 492 + L ≤ B)
    {Q : Nat} (A : Chooser ps L B w Q) (v : D ps) (O : Query B → Fin (256 ^ w))
    (h : ∃ o, A.outcome (withHash P0 O) O (toVec _ (Spec.toByte v ps.sp.n)) = some o ∧ o.Won) :
    v ∈ (A.before demoBuild P0 O).map (fun c => startAt ps.sp.n (coinAt ps) (.of B c)) ∨
    (A.tree demoBuild P0 (toVec _ (Spec.toByte v ps.sp.n))).Hit (fun c => Query.of B c.1) (headOf ps.sp.n) (parts ps)
      O ∅ := by
  obtain ⟨o, ho, hwon⟩ := h
  by_contra h
  rw [not_or] at h
  obtain ⟨la, lb, S, h1, h2⟩ := (run_chooser (b := demoBuild) hw P0 O (toVec _ (Spec.toByte v ps.sp.n)) A).2 o ho
  refine h2.lost hw hB hL P0 (tidy _ h.2 h1) (fun c hc e => h.1 ?_) hwon
  refine List.mem_map.mpr ⟨c, hc, e.trans ?_⟩
  rw [toVec_toList (by rw [Spec.toByte_length]; cases ps <;> rfl), number_toByte]

/-- The chance to win the game. -/
theorem own_le (hw : 64 ≤ w) (P0 : Spec.Prims) (hB : 160 + (ps.sp.len + ps.sp.k) * ps.sp.n ≤ B) (hL : 492 + L ≤ B)
    {Q : Nat} (A : Chooser ps L B w Q) {N : Nat} (hN : N = Q + signedMost ps + (verifyWork ps + 1)) :
    (avg fun vO : D ps × (Query B → Fin (256 ^ w)) =>
      ind (∃ o, A.outcome (withHash P0 vO.2) vO.2 (toVec _ (Spec.toByte vO.1 ps.sp.n)) = some o ∧ o.Won)) ≤
      N / 256 ^ ps.sp.n + (ps.sp.len + ps.sp.k + 6 : ℕ) * (N * (N + 1)) / (2 * 256 ^ ps.sp.n) := by
  have : Nonempty (Fin (256 ^ w)) := ⟨⟨0, Nat.pow_pos (by decide)⟩⟩
  have : Nonempty (D ps) := ⟨⟨0, Nat.pow_pos (by decide)⟩⟩
  have hn : ps.sp.n ≤ w := (n_le_32 ps).trans ((show 32 ≤ 64 by decide).trans hw)
  refine avg_two_le (own_cases hw P0 hB hL A) (fun O => ?_) fun v => ?_
  · refine (avg_mem_le _).trans ?_
    rw [List.length_map, Fintype.card_fin]
    push_cast
    refine div_le_div_of_nonneg_right ?_ (by positivity)
    have := before_length (b := demoBuild) P0 O A
    exact_mod_cast this.trans (by omega)
  · have := Tree.hit_le' (pr := fun c : Call × Option (Vector UInt8 ps.params.SIG_LEN) => Query.of B c.1)
      (h := headOf ps.sp.n) (parts := parts ps) (head_mem_le hn) parts_congr parts_length
      (A.tree demoBuild P0 (toVec _ (Spec.toByte v ps.sp.n))) N
      (fun O => (run_chooser (b := demoBuild) hw P0 O (toVec _ (Spec.toByte v ps.sp.n)) A).1.trans (le_of_eq hN.symm))
    rw [Fintype.card_fin] at this
    push_cast at this ⊢
    exact this

end Fips205.Props
