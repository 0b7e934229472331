import Verif.Proofs.ResignPlay

/-!
# The chance of the resigner

The values that the player asks for before the signature is made, and those at the points of the signer that depend on
the message, are drawn beforehand. If the player wins, one of them, the message or the random bytes were guessed.
-/

namespace Fips205.Props
open Fips205 Fips205.Model Fips205.Oracle

variable {ps : ParamSet} {L W B w Q Q' : Nat} {b : Build}

/-! ## What is guessed -/

section
variable {J : Job ps} {us : List (Fin (256 ^ w))}

/-- The random bytes are among these, if they are guessed. -/
def coinList (J : Job ps) (us : List (Fin (256 ^ w))) (D : List (Query B)) : List (Fin (256 ^ ps.sp.n)) :=
  startAt ps.sp.n (coinAt ps) (J.q B us 0) :: D.map (startAt ps.sp.n (coinAt ps))

/-- The pre-hash. -/
def preList (ps : ParamSet) (D : List (Query B)) : List (Fin (256 ^ ps.sp.n)) :=
  D.map (endAt ps.sp.n 32) ++ D.map (endAt ps.sp.n 64)

/-- The randomizer. -/
def randList (J : Job ps) (us : List (Fin (256 ^ w))) (K : List (Query B)) : List (Fin (256 ^ ps.sp.n)) :=
  (List.range (coinNo ps + 1)).map (fun j => startAt ps.sp.n 0 (J.q B us j)) ++ K.map (startAt ps.sp.n 0)

/-- The inner hash of HMAC. -/
def innerList (J : Job ps) (us : List (Fin (256 ^ w))) (D : List (Query B)) : List (Fin (256 ^ ps.sp.n)) :=
  (List.range 2).map (fun j => endAt ps.sp.n (hlen ps) (J.q B us j)) ++ D.map (endAt ps.sp.n (hlen ps))

/-- The hash that is expanded. -/
def seedList (J : Job ps) (us : List (Fin (256 ^ w))) (D : List (Query B)) : List (Fin (256 ^ ps.sp.n)) :=
  (List.range 4).map (fun j => startAt ps.sp.n (2 * ps.sp.n) (J.q B us j)) ++ D.map (startAt ps.sp.n (2 * ps.sp.n))

/-- One of the values is guessed. -/
def Guessed (J : Job ps) (us : List (Fin (256 ^ w))) (K D : List (Query B)) : Prop :=
  headOf ps.sp.n (nth us 0) ∈ preList ps D ∨ headOf ps.sp.n (nth us (coinNo ps)) ∈ randList J us K ∨
  ps.family = .sha2 ∧ (headOf ps.sp.n (nth us 1) ∈ innerList J us D ∨ headOf ps.sp.n (nth us 3) ∈ seedList J us D)

theorem unguessed_of {K D : List (Query B)} (h0 : ∀ y ∈ K, y ∈ D) (h1 : J.msg ∉ D.flatMap (shown ps.sp.n))
    (h2 : J.v ∉ coinList J us D) (h3 : ¬ Guessed J us K D) : Unguessed J us K D := by
  rw [Guessed, not_or, not_or] at h3
  obtain ⟨h3, h4, h5⟩ := h3
  have h5 : ∀ h : ps.family = .sha2, _ := fun h => not_or.mp (fun h' => h5 ⟨h, h'⟩)
  refine ⟨h0, fun y hy h => h1 (List.mem_flatMap.mpr ⟨y, hy, h⟩), fun y hy h => h2 ?_, fun h => h2 ?_,
    fun y hy => ⟨fun h => h3 ?_, fun h => h3 ?_⟩, fun y hy h => h4 ?_, fun j hj h => h4 ?_, fun hf y hy h => (h5 hf).1 ?_,
    fun hf j hj h => (h5 hf).1 ?_, fun hf y hy h => (h5 hf).2 ?_, fun hf j hj h => (h5 hf).2 ?_⟩
  · rw [← h]; exact List.mem_cons_of_mem _ (List.mem_map_of_mem hy)
  · rw [← h]; exact List.mem_cons_self
  · rw [← h]; exact List.mem_append_left _ (List.mem_map_of_mem hy)
  · rw [← h]; exact List.mem_append_right _ (List.mem_map_of_mem hy)
  · rw [← h]; exact List.mem_append_right _ (List.mem_map_of_mem hy)
  · rw [← h]
    exact List.mem_append_left _ (List.mem_map_of_mem (f := fun j => startAt ps.sp.n 0 (J.q B us j))
      (List.mem_range.mpr (Nat.lt_succ_of_le hj)))
  · rw [← h]; exact List.mem_append_right _ (List.mem_map_of_mem hy)
  · rw [← h]
    exact List.mem_append_left _ (List.mem_map_of_mem (f := fun j => endAt ps.sp.n (hlen ps) (J.q B us j))
      (List.mem_range.mpr hj))
  · rw [← h]; exact List.mem_append_right _ (List.mem_map_of_mem hy)
  · rw [← h]
    exact List.mem_append_left _ (List.mem_map_of_mem (f := fun j => startAt ps.sp.n (2 * ps.sp.n) (J.q B us j))
      (List.mem_range.mpr hj))

end

/-! ## Who wins has guessed -/

theorem ctx_of_signed {P : Spec.Prims} {v : Vector UInt8 ps.params.N} {x : SigRequest L}
    {r : Except String (PrivateKey ps.params)} {p : PrivateKey ps.params × Vector UInt8 ps.params.SIG_LEN}
    (h : ownSigned P v x r = some p) : x.ctx.length ≤ 255 := by
  by_contra hc
  unfold ownSigned at h
  split at h
  · cases h
  · rw [SigRequest.answer, if_pos (Nat.lt_of_not_le hc)] at h
    cases h

section
variable (P0 : Spec.Prims) (A : Drafter ps L W B w Q' Q) (i : Fin W) (v : D ps)

/-- The player wins, though no value was foretold. -/
def Drafter.Lucky (O : Query B → Fin (256 ^ w)) : Prop :=
  (∃ o, (A.draft O).outcome (withHash P0 O) O i (toVec _ (Spec.toByte v ps.sp.n)) = some o ∧ o.Won) ∧
  ¬ (A.full demoBuild P0 i v).Hit (fun c => Query.of B c.1) (headOf ps.sp.n) (parts ps) O ∅

/-- The points known before the signature is made, and the values at them. -/
noncomputable def Drafter.known (u : Fin Q → Fin (256 ^ w)) : Finset (Query B) × (Query B → Fin (256 ^ w)) :=
  Tree.feed (Query.of B) (A.tree demoBuild) Q ∅ (fun _ => ⟨0, Nat.pow_pos (by decide)⟩) u

/-- The points of the rest. -/
noncomputable def restLog (s : Finset (Query B) × (Query B → Fin (256 ^ w))) (a : Draft ps L W B w Q')
    (f : Query B → Fin (256 ^ w)) (R δ : List UInt8) : List (Query B) :=
  s.1.toList ++ (Tree.log (fun c => merge s.1 s.2 f (.of B c)) (a.rest demoBuild P0 R δ)).map (Query.of B)

theorem restLog_length (u : Fin Q → Fin (256 ^ w)) (f : Query B → Fin (256 ^ w)) (a : Draft ps L W B w Q') {R δ : List UInt8}
    (hR : R.length = ps.sp.n) (hδ : δ.length = ps.sp.m) :
    (restLog P0 (A.known u) a f R δ).length ≤ Q + (signMost ps + (Q' + 1)) := by
  have h1 := (Tree.feed_spec (pr := Query.of B) (A.tree demoBuild) Q ∅ (fun _ => ⟨0, Nat.pow_pos (by decide)⟩) u
    (fun f => by
      obtain ⟨l, h1, h2⟩ := run_drafter (b := demoBuild)
        (merge ∅ (fun _ => (⟨0, Nat.pow_pos (by decide)⟩ : Fin (256 ^ w))) f) A
      exact (congrArg List.length (congrArg Prod.fst h1)).trans_le h2)).2.1
  rw [Finset.card_empty, Nat.zero_add] at h1
  obtain ⟨l, h2, h3, -⟩ := run_rest (b := demoBuild) P0 (merge (A.known u).1 (A.known u).2 f) a hR hδ
  have e : Tree.log (fun c => merge (A.known u).1 (A.known u).2 f (.of B c)) (a.rest demoBuild P0 R δ) = l :=
    congrArg Prod.fst h2
  rw [restLog, e, List.length_append, List.length_map, Finset.length_toList]
  exact Nat.add_le_add h1 h3

theorem known_length (u : Fin Q → Fin (256 ^ w)) : (A.known u).1.toList.length ≤ Q := by
  have h1 := (Tree.feed_spec (pr := Query.of B) (A.tree demoBuild) Q ∅ (fun _ => ⟨0, Nat.pow_pos (by decide)⟩) u
    (fun f => by
      obtain ⟨l, h1, h2⟩ := run_drafter (b := demoBuild)
        (merge ∅ (fun _ => (⟨0, Nat.pow_pos (by decide)⟩ : Fin (256 ^ w))) f) A
      exact (congrArg List.length (congrArg Prod.fst h1)).trans_le h2)).2.1
  rw [Finset.card_empty, Nat.zero_add] at h1
  rw [Finset.length_toList]
  exact h1

/-- The values, with those at the points of the signer. -/
noncomputable def Drafter.drawn (u1 : Fin Q → Fin (256 ^ w)) (u2 : Fin (steps ps) → Fin (256 ^ w)) :
    Finset (Query B) × (Query B → Fin (256 ^ w)) :=
  Tree.feed (E := Panic) (Query.of B) (ladder ((A.draft (A.known u1).2).job i v).next (steps ps) []) (steps ps)
    (A.known u1).1 (A.known u1).2 u2

theorem lucky_guess (hw : 64 ≤ w) (hB : 160 + (ps.sp.len + ps.sp.k) * ps.sp.n ≤ B) (hL : 492 + L ≤ B)
    (u1 : Fin Q → Fin (256 ^ w)) (u2 : Fin (steps ps) → Fin (256 ^ w)) (f : Query B → Fin (256 ^ w))
    (h : A.Lucky P0 i v (merge (A.drawn i v u1 u2).1 (A.drawn i v u1 u2).2 f)) :
    ¬ Unguessed ((A.draft (A.known u1).2).job i v) (List.ofFn u2) (A.known u1).1.toList
      (restLog P0 (A.known u1) (A.draft (A.known u1).2) f (randOf ps (List.ofFn u2)) (resDig ps (List.ofFn u2))) := by
  intro G
  obtain ⟨⟨o, ho, hwon⟩, hhit⟩ := h
  obtain ⟨O, hO⟩ : ∃ O, O = merge (A.drawn i v u1 u2).1 (A.drawn i v u1 u2).2 f := ⟨_, rfl⟩
  rw [← hO] at ho hhit
  have s1 := Tree.feed_spec (pr := Query.of B) (A.tree demoBuild) Q ∅ (fun _ => ⟨0, Nat.pow_pos (by decide)⟩) u1
    (fun f => by
      obtain ⟨l, h1, h2⟩ := run_drafter (b := demoBuild)
        (merge ∅ (fun _ => (⟨0, Nat.pow_pos (by decide)⟩ : Fin (256 ^ w))) f) A
      exact (congrArg List.length (congrArg Prod.fst h1)).trans_le h2)
  have s2 := Tree.feed_spec (E := Panic) (pr := Query.of B) (ladder ((A.draft (A.known u1).2).job i v).next (steps ps) [])
    (steps ps) (A.known u1).1 (A.known u1).2 u2 (fun f => le_of_eq (ladder_length _ _ _ _))
  obtain ⟨-, -, -, s1⟩ := s1
  obtain ⟨s2, -, s3, -⟩ := s2
  have hK : ∀ y ∈ (A.known u1).1, O y = (A.known u1).2 y := fun y hy => by
    rw [hO, merge, if_pos (show y ∈ (A.drawn i v u1 u2).1 from s2 hy)]
    exact s3 y hy
  obtain ⟨-, e2, e3⟩ := s1 O hK
  have ha : A.draft O = A.draft (A.known u1).2 := by
    obtain ⟨_, h1, -⟩ := run_drafter (b := demoBuild) O A
    obtain ⟨_, h2, -⟩ := run_drafter (b := demoBuild) (A.known u1).2 A
    exact Except.ok.inj ((congrArg Prod.snd h1).symm.trans (e2.trans (congrArg Prod.snd h2)))
  obtain ⟨a, ea⟩ : ∃ a, a = A.draft (A.known u1).2 := ⟨_, rfl⟩
  rw [← ea] at ha G
  have hc : a.x.ctx.length ≤ 255 := by
    rw [Draft.outcome] at ho
    cases hs : ownSigned (withHash P0 O) (toVec _ (Spec.toByte v ps.sp.n)) ((A.draft O).x.request (A.draft O).c i)
      (decodeOf (withHash P0 O) (A.draft O).sk) with
    | none => rw [hs] at ho; cases ho
    | some p =>
      have := ctx_of_signed hs
      rw [ha] at this
      exact this
  have ok := job_ok hL a i v hc
  have r1 : ∀ j < steps ps, Query.of B (rung (a.job i v).next [] u2 j) = (a.job i v).q B (List.ofFn u2) j := fun j hj => by
    rw [rung_next _ _ hj]
    rfl
  have hD : ∀ y ∈ (A.known u1).1, y ∈ restLog P0 (A.known u1) a f (randOf ps (List.ofFn u2)) (resDig ps (List.ofFn u2)) :=
    fun y hy => List.mem_append_left _ (Finset.mem_toList.mpr hy)
  obtain ⟨l1, l2⟩ := ladder_feed (E := Panic) (pr := Query.of B) (a.job i v).next (steps ps) [] (A.known u1).1
    (A.known u1).2 u2
    (fun j hj h => by
      rw [r1 j hj] at h
      exact G.fresh hw ok j (hD _ h))
    (fun j k hjk hk => by
      rw [r1 j (hjk.trans hk), r1 k hk]
      exact G.distinct hw ok hjk hk)
  have ed : (Tree.feed (E := Panic) (Query.of B) (ladder (a.job i v).next (steps ps) []) (steps ps)
    (A.known u1).1 (A.known u1).2 u2) = A.drawn i v u1 u2 := by rw [Drafter.drawn, ← ea]
  rw [ed] at l1 l2
  have hu : ∀ j < steps ps, O ((a.job i v).q B (List.ofFn u2) j) = nth (List.ofFn u2) j := fun j hj => by
    obtain ⟨m1, m2⟩ := l1 ⟨j, hj⟩
    rw [r1 j hj] at m1 m2
    rw [hO, merge, if_pos m1, m2]
    exact (nth_ofFn u2 ⟨j, hj⟩).symm
  have same : ∀ y ∈ restLog P0 (A.known u1) a f (randOf ps (List.ofFn u2)) (resDig ps (List.ofFn u2)),
      merge (A.known u1).1 (A.known u1).2 f y = O y := fun y hy => by
    obtain ⟨m1, m2⟩ := l2 y fun j hj e => by
      rw [r1 j hj] at e
      exact G.fresh hw ok j (e ▸ hy)
    rw [hO, merge, merge]
    by_cases hy : y ∈ (A.known u1).1
    · rw [if_pos hy, if_pos (m1.mpr hy), m2]
    · rw [if_neg hy, if_neg (fun h => hy (m1.mp h))]
  have hlog := (Tree.same (f := fun c => merge (A.known u1).1 (A.known u1).2 f (.of B c)) (g := fun c => O (.of B c))
    (a.rest demoBuild P0 (randOf ps (List.ofFn u2)) (resDig ps (List.ofFn u2)))
    fun c hc => same _ (List.mem_append_right _ (List.mem_map_of_mem hc))).1
  rw [← ha] at G hu
  refine resign_lost (b := demoBuild) P0 O A i v hw hB hL u2 hu G (fun c hc => ?_) (fun c hc => ?_) hhit ho hwon
  · rw [ha]
    exact hD _ (e3 c hc)
  · rw [ha] at hc ⊢
    exact List.mem_append_right _ (List.mem_map_of_mem (hlog ▸ hc))

end

end Fips205.Props
