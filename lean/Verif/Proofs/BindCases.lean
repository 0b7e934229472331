import Verif.Proofs.BindTree
import Verif.Props.Unforgeable

/-!
# One signature accepted for two messages

First for all hash functions; then for random ones, where each of the cases is a rare event.
-/

namespace Fips205.Props
open Fips205 Fips205.Model Fips205.Oracle

variable {ps : ParamSet} {L B w : Nat} {b : Build}

theorem attemptOn_ok (P : Spec.Prims) (pk : PublicKey ps.params) (sig : Vector UInt8 ps.params.SIG_LEN)
    (M : List UInt8) : (attemptOn P pk sig M).Ok ps.sp.m :=
  (Spec.attempt_ok ps.wf (ps.valid P) (n_le ps) (by rw [Vector.length_toList]; cases ps <;> rfl)).1

/-- The verifier accepts a formatted message. -/
abbrev Accept (P : Spec.Prims) (pk : PublicKey ps.params) (sig : Vector UInt8 ps.params.SIG_LEN) (M : List UInt8) :
    Prop :=
  Spec.verifyInternal ps.sp (ps.hf P) M sig.toList pk.key.pk_seed.toList pk.key.pk_root.toList = true

/-- Two acceptances of one signature. -/
theorem attemptOn_twin {P : Spec.Prims} {pk : PublicKey ps.params} {sig : Vector UInt8 ps.params.SIG_LEN}
    {M M' : List UInt8} (h : Accept P pk sig M) (h' : Accept P pk sig M') :
    Spec.Attempt.Twin (attemptOn P pk sig M) (attemptOn P pk sig M') ps.sp.m :=
  { ok := attemptOn_ok .., ok' := attemptOn_ok .., p := rfl, hf := rfl, seed := rfl, fors := rfl, ht := rfl,
    root := by
      have e := ((Spec.attempt_accepts M sig.toList [] pk.key.pk_seed.toList pk.key.pk_root.toList).mp h).2
      have e' := ((Spec.attempt_accepts M' sig.toList [] pk.key.pk_seed.toList pk.key.pk_root.toList).mp h').2
      exact e.trans e'.symm }

/-- What an accepted signature for two messages shows. -/
theorem accepted_twice {P : Spec.Prims} {pk : PublicKey ps.params} {sig : Vector UInt8 ps.params.SIG_LEN}
    {M M' : List UInt8} (h : Accept P pk sig M) (h' : Accept P pk sig M') :
    (attemptOn P pk sig M).Clash (attemptOn P pk sig M') ∨ (attemptOn P pk sig M).Loop ∨
    ((attemptOn P pk sig M).t = (attemptOn P pk sig M').t ∧ (attemptOn P pk sig M).l = (attemptOn P pk sig M').l ∧
      (digestOf P pk sig M).take ps.sp.n = (digestOf P pk sig M').take ps.sp.n) := by
  by_cases h1 : (attemptOn P pk sig M).Clash (attemptOn P pk sig M')
  · exact .inl h1
  by_cases h2 : (attemptOn P pk sig M).Loop
  · exact .inr (.inl h2)
  have T := attemptOn_twin h h'
  obtain ⟨ht, hl⟩ := T.position h1 h2
  exact .inr (.inr ⟨ht, hl, md_take ((ps.valid P).Hmsg _ _ _ _) ((ps.valid P).Hmsg _ _ _ _) fun i hi => T.digits h1 h2 hi⟩)

/-- The last `n` bytes of what is hashed. -/
def tailOf (n : Nat) (y : Query B) : Fin (256 ^ n) := number n (y.1.input.drop (y.1.input.length - n))

theorem tailOf_call {PKseed : List UInt8} (hl : PKseed.length = ps.sp.n) (x : Place) {z : List UInt8}
    (hz : z.length = ps.sp.n) (hB : 160 + ps.sp.n ≤ B) :
    tailOf ps.sp.n (.of B (callOf ps PKseed x z)) = number ps.sp.n z := by
  have hlen := callOf_length (ps := ps) hl x z
  rw [tailOf, Query.of, dif_pos (by omega)]
  have key : ∀ a : List UInt8, (a ++ z).drop ((a ++ z).length - ps.sp.n) = z := fun a => by
    rw [List.length_append, hz, Nat.add_sub_cancel, List.drop_left]
  dsimp only
  congr 1
  simp only [callOf]
  split
  · exact key _
  · split <;> exact key _

theorem str_length {P : Spec.Prims} {x : SigRequest L} (hx : x.ctx.length ≤ 255) : (x.str P).length ≤ 332 + L := by
  obtain ⟨ph, ctx, msg, hs⟩ := x
  dsimp only at hx
  cases ph with
  | none =>
    simp only [SigRequest.str, Spec.pureMsg, List.length_append, Spec.toByte_length]
    omega
  | some ph =>
    have h1 : (Spec.preHash P msg ph.spec).length ≤ 64 := by
      cases ph <;> simp [Spec.preHash, Ph.spec]
    have h2 := oid_length ph
    simp only [SigRequest.str, phMsg, Spec.prehashMsg, List.length_append, Spec.toByte_length]
    omega

section
variable (hw : 64 ≤ w) (P0 : Spec.Prims) (O : Query B → Fin (256 ^ w)) {pk : PublicKey ps.params}
  {sig : Vector UInt8 ps.params.SIG_LEN} {l : List Call} (hB : 160 + (ps.sp.len + ps.sp.k) * ps.sp.n ≤ B)
include hw hB

theorem clash_collide {x y : SigRequest L} (cx : Covers (withHash P0 O) pk sig x l)
    (cy : Covers (withHash P0 O) pk sig y l)
    (h : (attemptOn (withHash P0 O) pk sig (x.str (withHash P0 O))).Clash
      (attemptOn (withHash P0 O) pk sig (y.str (withHash P0 O)))) :
    ∃ c ∈ l, ∃ c' ∈ l, Query.of B c ≠ Query.of B c' ∧
      headOf ps.sp.n (O (.of B c)) = headOf ps.sp.n (O (.of B c')) := by
  have hn : ps.sp.n ≤ w := (n_le_32 ps).trans ((show 32 ≤ 64 by decide).trans hw)
  obtain ⟨u, u', hu, hu', hne, e⟩ := h
  refine ⟨_, cx.places u hu, _, cy.places u' hu', ?_, ?_⟩
  · have h2 := two_le_len ps
    have hs : pk.key.pk_seed.toList.length = ps.sp.n := seed_length _
    have l1 := callOf_length (ps := ps) hs u ((attemptOn (withHash P0 O) pk sig (x.str (withHash P0 O))).seen u)
    have l2 := callOf_length (ps := ps) hs u' ((attemptOn (withHash P0 O) pk sig (y.str (withHash P0 O))).seen u')
    have b1 := Spec.Attempt.seen_length (attemptOn_ok ..) (show 1 ≤ ps.sp.len by omega) (show 1 ≤ ps.sp.k from h2.2) hu
    have b2 := Spec.Attempt.seen_length (attemptOn_ok ..) (show 1 ≤ ps.sp.len by omega) (show 1 ≤ ps.sp.k from h2.2) hu'
    refine of_ne (l1.trans ((Nat.add_le_add_left b1 _).trans hB)) (l2.trans ((Nat.add_le_add_left b2 _).trans hB))
      fun ec => ?_
    obtain ⟨e1, e2⟩ := callOf_inj hu.1 hu'.1 ec
    exact hne.elim (fun h => h e1) fun h => h e2
  · refine toByte_inj ?_
    rw [← hashAt_wide hn, ← hashAt_wide hn]
    exact e

theorem loop_unranked {x : SigRequest L} (cx : Covers (withHash P0 O) pk sig x l)
    (h : (attemptOn (withHash P0 O) pk sig (x.str (withHash P0 O))).Loop) :
    ¬ ∃ rank : Query B → ℕ, ∀ c c', c ∈ l → c' ∈ l → tailOf ps.sp.n (.of B c') = headOf ps.sp.n (O (.of B c)) →
      rank (.of B c) < rank (.of B c') := by
  have hn : ps.sp.n ≤ w := (n_le_32 ps).trans ((show 32 ≤ 64 by decide).trans hw)
  have h2 := two_le_len ps
  have hB' : 160 + ps.sp.n ≤ B := by
    have := Nat.le_mul_of_pos_left ps.sp.n (show 0 < ps.sp.len + ps.sp.k by omega)
    omega
  have hs : pk.key.pk_seed.toList.length = ps.sp.n := seed_length _
  rintro ⟨rank, hr⟩
  obtain ⟨j, hj, i, hi, s, s', h1, h2, h3, e⟩ := h
  have ok := attemptOn_ok (withHash P0 O) pk sig (x.str (withHash P0 O))
  have hmem := fun r (h : _ ≤ r) (h' : r < 15) => cx.places _ (Spec.Attempt.place_chain ok hj hi h h')
  have hval := fun r (h : _ ≤ r) => Spec.Attempt.chain_value (c := attemptOn (withHash P0 O) pk sig (x.str (withHash P0 O)))
    j i (s := r) h
  have hlen := fun r => ok.vChain_length hj hi r
  have h3 : s' ≤ 15 := h3
  have hhead : ∀ r, (attemptOn (withHash P0 O) pk sig (x.str (withHash P0 O))).vDigit j i ≤ r →
      headOf ps.sp.n (O (.of B (callOf ps pk.key.pk_seed.toList
        (.wotsHash j (Spec.htTree ps.sp (attemptOn (withHash P0 O) pk sig (x.str (withHash P0 O))).t j)
          ((attemptOn (withHash P0 O) pk sig (x.str (withHash P0 O))).leaf j) i r)
        ((attemptOn (withHash P0 O) pk sig (x.str (withHash P0 O))).vChain j i r)))) =
      number ps.sp.n ((attemptOn (withHash P0 O) pk sig (x.str (withHash P0 O))).vChain j i (r + 1)) := by
    intro r h
    rw [hval r h]
    change _ = number ps.sp.n (hashAt (ps.hf (withHash P0 O)) pk.key.pk_seed.toList _ _)
    rw [hashAt_wide hn, number_toByte]
    rfl
  have htail := fun r r' => tailOf_call (ps := ps) (B := B) hs
    (.wotsHash j (Spec.htTree ps.sp (attemptOn (withHash P0 O) pk sig (x.str (withHash P0 O))).t j)
      ((attemptOn (withHash P0 O) pk sig (x.str (withHash P0 O))).leaf j) i r') (hlen r) hB'
  have step : ∀ k, s + k < s' → rank (.of B (callOf ps pk.key.pk_seed.toList
        (.wotsHash j (Spec.htTree ps.sp (attemptOn (withHash P0 O) pk sig (x.str (withHash P0 O))).t j)
          ((attemptOn (withHash P0 O) pk sig (x.str (withHash P0 O))).leaf j) i s)
        ((attemptOn (withHash P0 O) pk sig (x.str (withHash P0 O))).vChain j i s))) ≤
      rank (.of B (callOf ps pk.key.pk_seed.toList
        (.wotsHash j (Spec.htTree ps.sp (attemptOn (withHash P0 O) pk sig (x.str (withHash P0 O))).t j)
          ((attemptOn (withHash P0 O) pk sig (x.str (withHash P0 O))).leaf j) i (s + k))
        ((attemptOn (withHash P0 O) pk sig (x.str (withHash P0 O))).vChain j i (s + k)))) := by
    intro k
    induction k with
    | zero => exact fun _ => Nat.le_refl _
    | succ k ih =>
      intro hk
      refine (ih (by omega)).trans (Nat.le_of_lt (hr _ _ (hmem (s + k) (by omega) (by omega))
        (hmem (s + (k + 1)) (by omega) (by omega)) ?_))
      exact (htail (s + (k + 1)) (s + (k + 1))).trans (hhead (s + k) (by omega)).symm
  obtain ⟨k, rfl⟩ : ∃ k, s' = s + k + 1 := ⟨s' - s - 1, by omega⟩
  have h4 := step k (by omega)
  have h5 := hr _ _ (hmem (s + k) (by omega) (by omega)) (hmem s h1 (by omega))
    ((htail s s).trans ((congrArg _ e).trans (hhead (s + k) (by omega)).symm))
  exact absurd (h4.trans_lt h5) (Nat.lt_irrefl _)

/-- If a signature is accepted for two requests, two calls collide, or the calls cannot be ranked. -/
theorem checked_twice (hL : 492 + L ≤ B) {x y : SigRequest L} (cx : Covers (withHash P0 O) pk sig x l)
    (cy : Covers (withHash P0 O) pk sig y l) (hx : x.check (withHash P0 O) pk sig = true)
    (hy : y.check (withHash P0 O) pk sig = true) (hne : x ≠ y) :
    (∃ c c', c ∈ l ∧ c' ∈ l ∧ Query.of B c ≠ Query.of B c' ∧
      headOf ps.sp.n (O (.of B c)) = headOf ps.sp.n (O (.of B c'))) ∨
    ¬ ∃ rank : Query B → ℕ, ∀ c c', c ∈ l → c' ∈ l → tailOf ps.sp.n (.of B c') = headOf ps.sp.n (O (.of B c)) →
      rank (.of B c) < rank (.of B c') := by
  have swap : (∃ c ∈ l, ∃ c' ∈ l, Query.of B c ≠ Query.of B c' ∧
      headOf ps.sp.n (O (.of B c)) = headOf ps.sp.n (O (.of B c'))) → ∃ c c', c ∈ l ∧ c' ∈ l ∧
      Query.of B c ≠ Query.of B c' ∧ headOf ps.sp.n (O (.of B c)) = headOf ps.sp.n (O (.of B c')) :=
    fun ⟨c, h1, c', h2, h3, h4⟩ => ⟨c, c', h1, h2, h3, h4⟩
  have hc : ∀ z : SigRequest L, z.check (withHash P0 O) pk sig = true → z.ctx.length ≤ 255 ∧
      Accept (withHash P0 O) pk sig (z.str (withHash P0 O)) := by
    intro z hz
    rw [SigRequest.check] at hz
    split at hz
    · cases hz
    · exact ⟨by omega, hz⟩
  obtain ⟨hxc, hx⟩ := hc x hx
  obtain ⟨hyc, hy⟩ := hc y hy
  by_cases hM : x.str (withHash P0 O) = y.str (withHash P0 O)
  · obtain h | ⟨ph, h1, h2, h3, h4⟩ := str_inj hxc hyc hM
    · exact absurd h hne
    · refine .inl (swap ⟨_, cx.pre ph h1, _, cy.pre ph h2, of_ne ?_ ?_ ?_, ?_⟩)
      · exact x.short.trans (by omega)
      · exact y.short.trans (by omega)
      · exact fun e => h3 (Call.mk.inj e).2
      · rw [wide_preHash hw, wide_preHash hw] at h4
        exact head_of_take ((n_le_32 ps).trans (by cases ph <;> decide)) h4
  · rcases accepted_twice hx hy with h | h | ⟨-, -, h⟩
    · exact .inl (swap (clash_collide hw P0 O hB cx cy h))
    · exact .inr (loop_unranked hw P0 O hB cx h)
    · have l1 := str_length (P := withHash P0 O) hxc
      have l2 := str_length (P := withHash P0 O) hyc
      have e : Spec.slice sig.toList 0 ps.sp.n = sig.toList.take ps.sp.n := by
        rw [Spec.slice, List.drop_zero, Nat.sub_zero]
      have hsl : (sig.toList.take ps.sp.n).length = ps.sp.n := by
        rw [List.length_take, Vector.length_toList]
        refine Nat.min_eq_left ?_
        cases ps <;> decide
      have := hmsg_collide hw hsl (seed_length pk.key.pk_seed) (seed_length pk.key.pk_root) (by omega) (by omega) hM h
      obtain ⟨c, h1, c', h2, h3, h4⟩ := this
      rw [← e] at h1 h2
      exact .inl ⟨c, c', cx.msg c h1, cy.msg c' h2, h3, h4⟩

end

/-- The chance to win the game. -/
theorem claim_le (hw : 64 ≤ w) (P0 : Spec.Prims) (hB : 160 + (ps.sp.len + ps.sp.k) * ps.sp.n ≤ B) (hL : 492 + L ≤ B)
    {Q : Nat} (A : Repudiator ps L B w Q) :
    (avg fun O : Query B → Fin (256 ^ w) => ind (A.outcome (withHash P0 O) O).Won) ≤
      (Q + 2 * (verifyWork ps + 1) : ℕ) ^ 2 / (2 * 256 ^ ps.sp.n) +
      (Q + 2 * (verifyWork ps + 1) : ℕ) * ((Q + 2 * (verifyWork ps + 1) : ℕ) + 1) / (2 * 256 ^ ps.sp.n) := by
  have : Nonempty (Fin (256 ^ w)) := ⟨⟨0, Nat.pow_pos (by decide)⟩⟩
  have hn : ps.sp.n ≤ w := (n_le_32 ps).trans ((show 32 ≤ 64 by decide).trans hw)
  let t : Tree Call (Fin (256 ^ w)) Panic (List UInt8) := A.tree demoBuild P0
  have ht : ∀ O : Query B → Fin (256 ^ w), (t.log fun c => O (.of B c)).length ≤ Q + 2 * (verifyWork ps + 1) ∧
      ((A.outcome (withHash P0 O) O).Won →
        (∃ c c', c ∈ (t.log fun c => O (.of B c)) ∧ c' ∈ (t.log fun c => O (.of B c)) ∧ Query.of B c ≠ Query.of B c' ∧
          headOf ps.sp.n (O (.of B c)) = headOf ps.sp.n (O (.of B c'))) ∨
        ¬ ∃ rank : Query B → ℕ, ∀ c c', c ∈ (t.log fun c => O (.of B c)) → c' ∈ (t.log fun c => O (.of B c)) →
          tailOf ps.sp.n (.of B c') = headOf ps.sp.n (O (.of B c)) → rank (.of B c) < rank (.of B c')) := by
    intro O
    obtain ⟨l, v, pk, sig, h1, h2, h3, h4, h5, h6⟩ := run_tree (b := demoBuild) hw P0 O A
    have e : (t.log fun c => O (.of B c)) = l := congrArg Prod.fst h1
    rw [e]
    refine ⟨h2, fun h => ?_⟩
    exact checked_twice hw P0 O hB hL h5 h6 (h3.symm.trans h.1) (h4.symm.trans h.2.1) h.2.2
  have hc := Tree.collide_le (pr := Query.of B) (h := headOf ps.sp.n) (head_mem_le hn) t _ fun O => (ht O).1
  have hr := Tree.rank_le (pr := Query.of B) (h := headOf ps.sp.n) (tl := tailOf ps.sp.n) (head_mem_le hn) t _
    fun O => (ht O).1
  rw [Fintype.card_fin] at hc hr
  push_cast at hc hr ⊢
  refine le_trans ?_ (add_le_add hc hr)
  rw [← avg_add]
  exact avg_mono fun O => (ind_mono (ht O).2).trans (ind_or_le _ _)

end Fips205.Props
