import Verif.Proofs.Feed
import Verif.Proofs.ResignTree
import Verif.Proofs.ResignOrder

/-!
# The resigner loses if nothing was guessed
-/

namespace Fips205.Props
open Fips205 Fips205.Model Fips205.Oracle

variable {ps : ParamSet} {L W B w Q Q' : Nat} {b : Build}

/-- The point after the values `us`. -/
def Job.next (J : Job ps) (us : List (Fin (256 ^ w))) : Call := J.point us us.length

theorem rung_next (J : Job ps) {k : Nat} (u : Fin k → Fin (256 ^ w)) {j : Nat} (hj : j < k) :
    rung J.next [] u j = J.point (List.ofFn u) j := by
  rw [rung, List.nil_append, Job.next, List.length_take, List.length_ofFn, Nat.min_eq_left hj.le, Job.point_take]

theorem nth_ofFn {k : Nat} (u : Fin k → Fin (256 ^ w)) (j : Fin k) : nth (List.ofFn u) j = u j := by
  rw [nth, List.getElem?_ofFn, dif_pos j.2]
  rfl

/-- The verification, when the signature is known. -/
def resignLast (b : Build) (P0 : Spec.Prims) (c : Choice L W) (i : Fin W)
    (r : Vector UInt8 ps.params.PK_LEN × SignMode × Vector UInt8 ps.params.SIG_LEN) :
    Tree (Call × Option (Vector UInt8 ps.params.SIG_LEN)) (Fin (256 ^ w)) Panic (List UInt8) :=
  Tree.rename (·, some r.2.2) (checkP (b := b) P0 (pkOf r.1) r.2.2 (r.2.1.request c i))

/-- From the rest of the signer on. -/
def Draft.restT (a : Draft ps L W B w Q') (b : Build) (P0 : Spec.Prims) (i : Fin W) (us : List (Fin (256 ^ w))) :
    Tree (Call × Option (Vector UInt8 ps.params.SIG_LEN)) (Fin (256 ^ w)) Panic (List UInt8) :=
  (Tree.rename (·, none) (a.rest b P0 (randOf ps us) (resDig ps us))).bind (resignLast b P0 a.c i)

/-- From the points that depend on the message on. -/
def Draft.tree (a : Draft ps L W B w Q') (b : Build) (P0 : Spec.Prims) (i : Fin W) (v : Fin (256 ^ ps.sp.n)) :
    Tree (Call × Option (Vector UInt8 ps.params.SIG_LEN)) (Fin (256 ^ w)) Panic (List UInt8) :=
  (Tree.rename (·, none) (ladder (a.job i v).next (steps ps) [])).bind (a.restT b P0 i)

/-- All that is hashed. -/
def Drafter.full (A : Drafter ps L W B w Q' Q) (b : Build) (P0 : Spec.Prims) (i : Fin W) (v : Fin (256 ^ ps.sp.n)) :
    Tree (Call × Option (Vector UInt8 ps.params.SIG_LEN)) (Fin (256 ^ w)) Panic (List UInt8) :=
  (Tree.rename (·, none) (A.tree b)).bind fun a => a.tree b P0 i v

/-- All that is hashed, at most. -/
def resignMost (ps : ParamSet) (Q Q' : Nat) : Nat := Q + steps ps + (signMost ps + (Q' + 1)) + (verifyWork ps + 1)

theorem exists_rungs {C V : Type} (X : List V → C) (g : C → V) : ∀ (k : Nat) (us : List V), ∃ u : Fin k → V,
    ∀ j : Fin k, g (rung X us u j) = u j
  | 0, _ => ⟨fun j => j.elim0, fun j => j.elim0⟩
  | k + 1, us => by
    obtain ⟨u, h⟩ := exists_rungs X g k (us ++ [g (X us)])
    refine ⟨Fin.cons (g (X us)) u, fun j => ?_⟩
    refine Fin.cases ?_ (fun j => ?_) j
    · rw [Fin.val_zero, rung_zero]
      rfl
    · rw [Fin.val_succ, rung_succ, Fin.cons_succ]
      exact h j

section
variable (P0 : Spec.Prims) (O : Query B → Fin (256 ^ w)) (A : Drafter ps L W B w Q' Q) (i : Fin W)
  (v : Fin (256 ^ ps.sp.n))

/-- What the player presents, if the values at the points of the signer are `us`. -/
def Drafter.shows (us : List (Fin (256 ^ w))) :
    Vector UInt8 ps.params.PK_LEN × SignMode × Vector UInt8 ps.params.SIG_LEN :=
  ((A.draft O).next (givenSig ps (withHash P0 O) (skOf (A.draft O).sk).key (randOf ps us) (resDig ps us))).final O

/-- All that is hashed, in order. -/
theorem run_full (hw : 64 ≤ w) (u : Fin (steps ps) → Fin (256 ^ w))
    (hu : ∀ j < steps ps, O (((A.draft O).job i v).q B (List.ofFn u) j) = nth (List.ofFn u) j) :
    let r := A.shows P0 O (List.ofFn u)
    ∃ LA LC lb : List Call,
      Tree.log (fun c => O (.of B c)) (A.tree b) = LA ∧ LA.length ≤ Q ∧
      Tree.log (fun c => O (.of B c)) ((A.draft O).rest b P0 (randOf ps (List.ofFn u)) (resDig ps (List.ofFn u))) = LC ∧
      LC.length ≤ signMost ps + (Q' + 1) ∧
      ⟨.shake256, r.2.2.toList.take ps.sp.n ++ r.1.toList⟩ ∈ LC ∧
      lb.length ≤ verifyWork ps + 1 ∧
      Covers (withHash P0 O) (pkOf r.1) r.2.2 (r.2.1.request (A.draft O).c i) lb ∧
      ((A.full b P0 i v).log fun c => O (.of B c.1)) =
        (LA ++ ((List.range (steps ps)).map (((A.draft O).job i v).point (List.ofFn u)) ++ LC)).map (·, none) ++
          lb.map (·, some r.2.2) := by
  obtain ⟨LA, h1, h2⟩ := run_drafter (b := b) O A
  obtain ⟨LC, h3, h4, h5⟩ := run_rest (b := b) P0 O (A.draft O) (randOf_length (List.ofFn u)) (resDig_length (List.ofFn u))
  obtain ⟨lb, vr, h6, h7, h8⟩ := run_checkP (b := b) hw P0 O (pkOf (A.shows P0 O (List.ofFn u)).1)
    (A.shows P0 O (List.ofFn u)).2.2 ((A.shows P0 O (List.ofFn u)).2.1.request (A.draft O).c i)
  have hr : ∀ j : Fin (steps ps), O (.of B (rung ((A.draft O).job i v).next [] u j)) = u j := fun j => by
    rw [rung_next _ _ j.2]
    exact (hu j j.2).trans (nth_ofFn u j)
  obtain ⟨h9, h10⟩ := ladder_run (E := Panic) ((A.draft O).job i v).next (fun c => O (.of B c)) (steps ps) [] u hr
  refine ⟨LA, LC, lb, congrArg Prod.fst h1, h2, congrArg Prod.fst h3, h4, h5, h7, h8, ?_⟩
  have eA : Tree.result (fun c : Call × Option (Vector UInt8 ps.params.SIG_LEN) => O (.of B c.1))
      (Tree.rename (·, none) (A.tree b)) = .ok (A.draft O) := (Tree.rename_result _ _ _).trans (congrArg Prod.snd h1)
  have lA : Tree.log (fun c : Call × Option (Vector UInt8 ps.params.SIG_LEN) => O (.of B c.1))
      (Tree.rename (·, none) (A.tree b)) = LA.map (·, none) :=
    (Tree.rename_log _ _ _).trans (congrArg _ (congrArg Prod.fst h1))
  have eB : Tree.result (fun c : Call × Option (Vector UInt8 ps.params.SIG_LEN) => O (.of B c.1))
      (Tree.rename (E := Panic) (·, none) (ladder ((A.draft O).job i v).next (steps ps) [])) = .ok (List.ofFn u) :=
    (Tree.rename_result _ _ _).trans h10
  have lB : Tree.log (fun c : Call × Option (Vector UInt8 ps.params.SIG_LEN) => O (.of B c.1))
      (Tree.rename (E := Panic) (·, none) (ladder ((A.draft O).job i v).next (steps ps) [])) =
        ((List.range (steps ps)).map (((A.draft O).job i v).point (List.ofFn u))).map (·, none) := by
    refine (Tree.rename_log _ _ _).trans (congrArg _ (h9.trans ?_))
    exact List.map_congr_left fun j hj => rung_next _ _ (List.mem_range.mp hj)
  have eC : Tree.result (fun c : Call × Option (Vector UInt8 ps.params.SIG_LEN) => O (.of B c.1))
      (Tree.rename (·, none) ((A.draft O).rest b P0 (randOf ps (List.ofFn u)) (resDig ps (List.ofFn u)))) =
        .ok (A.shows P0 O (List.ofFn u)) := (Tree.rename_result _ _ _).trans (congrArg Prod.snd h3)
  have lC : Tree.log (fun c : Call × Option (Vector UInt8 ps.params.SIG_LEN) => O (.of B c.1))
      (Tree.rename (·, none) ((A.draft O).rest b P0 (randOf ps (List.ofFn u)) (resDig ps (List.ofFn u)))) =
        LC.map (·, none) := (Tree.rename_log _ _ _).trans (congrArg _ (congrArg Prod.fst h3))
  have lD : Tree.log (fun c : Call × Option (Vector UInt8 ps.params.SIG_LEN) => O (.of B c.1))
      (resignLast b P0 (A.draft O).c i (A.shows P0 O (List.ofFn u))) =
        lb.map (·, some (A.shows P0 O (List.ofFn u)).2.2) :=
    (Tree.rename_log _ _ _).trans (congrArg _ (congrArg Prod.fst h6))
  rw [Drafter.full, Tree.log_bind, eA, lA]
  dsimp only
  rw [Draft.tree, Tree.log_bind, eB, lB]
  dsimp only
  rw [Draft.restT, Tree.log_bind, eC, lC]
  dsimp only
  rw [lD]
  simp only [List.map_append, List.append_assoc]

/-- How much is hashed. -/
theorem full_length (hw : 64 ≤ w) : ((A.full b P0 i v).log fun c => O (.of B c.1)).length ≤ resignMost ps Q Q' := by
  obtain ⟨u, hu⟩ := exists_rungs ((A.draft O).job i v).next (fun c => O (.of B c)) (steps ps) []
  obtain ⟨LA, LC, lb, -, h2, -, h4, -, h6, -, h8⟩ := run_full (b := b) P0 O A i v hw u (fun j hj => by
    have := hu ⟨j, hj⟩
    rw [rung_next _ _ hj] at this
    exact this.trans (nth_ofFn u ⟨j, hj⟩).symm)
  rw [h8, resignMost]
  simp only [List.length_append, List.length_map, List.length_range]
  omega

theorem msgCall_mem (P : Spec.Prims) (R seed root M : List UInt8) :
    msgCall ps (R ++ seed ++ root ++ M) ∈ hMsgLog P ps.family ps.row R seed root M := by
  cases hps : ps.family with
  | shake =>
    rw [msgCall, hps]
    exact List.mem_singleton_self _
  | sha2 =>
    obtain ⟨N, hN, eN⟩ := hMsgLog_sha2 hps P R seed root M
    rw [hps] at eN
    rw [eN, msgCall, hps]
    exact List.mem_cons_self

theorem pkOf_take (x : Vector UInt8 ps.params.PK_LEN) :
    (pkOf x).key.pk_seed.toList ++ (pkOf x).key.pk_root.toList = x.toList := by
  have h : ps.params.PK_LEN = ps.params.N + ps.params.N := by cases ps <;> rfl
  rw [pkOf, toVec_toList (by rw [List.length_take, Vector.length_toList]; omega),
    toVec_toList (by rw [List.length_drop, Vector.length_toList]; omega), List.take_append_drop]

attribute [-instance] Subtype.instBEq in
/-- The player loses. -/
theorem resign_lost (hw : 64 ≤ w) (hB : 160 + (ps.sp.len + ps.sp.k) * ps.sp.n ≤ B) (hL : 492 + L ≤ B)
    (u : Fin (steps ps) → Fin (256 ^ w))
    (hu : ∀ j < steps ps, O (((A.draft O).job i v).q B (List.ofFn u) j) = nth (List.ofFn u) j) {K D : List (Query B)}
    (G : Unguessed ((A.draft O).job i v) (List.ofFn u) K D)
    (hLA : ∀ c ∈ Tree.log (fun c => O (.of B c)) (A.tree b), Query.of B c ∈ D)
    (hLC : ∀ c ∈ Tree.log (fun c => O (.of B c)) ((A.draft O).rest b P0 (randOf ps (List.ofFn u))
      (resDig ps (List.ofFn u))), Query.of B c ∈ D)
    (hit : ¬ (A.full b P0 i v).Hit (fun c => Query.of B c.1) (headOf ps.sp.n) (parts ps) O ∅)
    {o : OwnOutcome ps L}
    (ho : (A.draft O).outcome (withHash P0 O) O i (toVec _ (Spec.toByte v ps.sp.n)) = some o) : ¬ o.Won := by
  rintro ⟨hacc, hne⟩
  obtain ⟨LA, LC, lb, h1, -, h3, -, hdum, -, hc, hl⟩ := run_full (b := b) P0 O A i v hw u hu
  rw [h1] at hLA
  rw [h3] at hLC
  rw [Draft.outcome] at ho
  cases hs : ownSigned (withHash P0 O) (toVec _ (Spec.toByte v ps.sp.n)) ((A.draft O).x.request (A.draft O).c i)
      (decodeOf (withHash P0 O) (A.draft O).sk) with
  | none => rw [hs] at ho; cases ho
  | some p =>
    obtain ⟨sk, sig⟩ := p
    rw [hs, Option.map_some] at ho
    have hxc : (A.draft O).x.ctx.length ≤ 255 := by
      by_contra h
      unfold ownSigned at hs
      split at hs
      · cases hs
      · rw [SigRequest.answer, if_pos (show 255 < ((A.draft O).x.request (A.draft O).c i).ctx.length by
          exact Nat.lt_of_not_le h)] at hs
        cases hs
    obtain ⟨rfl, rfl⟩ := signed_given hw P0 (A.draft O) i v hu hs
    have ho := Option.some.inj ho
    obtain ⟨r, hr⟩ : ∃ r, r = A.shows P0 O (List.ofFn u) := ⟨_, rfl⟩
    rw [← hr] at hdum hc hl
    obtain ⟨S, hS⟩ : ∃ S, S = r.2.2 := ⟨_, rfl⟩
    have T := tidy _ hit hl
    obtain ⟨Z, hZ⟩ : ∃ Z, Z = ((LA ++ ((List.range (steps ps)).map (((A.draft O).job i v).point (List.ofFn u)) ++ LC)) ++
      lb).map (Query.of B) := ⟨_, rfl⟩
    obtain ⟨n0, hn0⟩ : ∃ n0, n0 = (LA ++ ((List.range (steps ps)).map (((A.draft O).job i v).point (List.ofFn u)) ++
      LC)).length := ⟨_, rfl⟩
    have hlb : ∀ c ∈ lb, Query.of B c ∈ Z := fun c hc => hZ ▸ List.mem_map_of_mem (List.mem_append_right _ hc)
    have hin : ∀ y ∈ Z, Z.idxOf y < n0 → y ∈ D ∨ ∃ j < steps ps, y = ((A.draft O).job i v).q B (List.ofFn u) j := by
      intro y hy hlt
      have hy := (List.mem_take_iff_idxOf_lt hy).mpr hlt
      rw [hZ, hn0, ← List.map_take, List.take_left, List.map_append, List.map_append, List.map_map] at hy
      rcases List.mem_append.mp hy with hy | hy
      · obtain ⟨c, hc, rfl⟩ := List.mem_map.mp hy
        exact .inl (hLA c hc)
      · rcases List.mem_append.mp hy with hy | hy
        · obtain ⟨j, hj, rfl⟩ := List.mem_map.mp hy
          exact .inr ⟨j, List.mem_range.mp hj, rfl⟩
        · obtain ⟨c, hc, rfl⟩ := List.mem_map.mp hy
          exact .inl (hLC c hc)
    rw [← hZ, ← hn0, ← hS] at T
    rw [← hS] at hc hdum
    have eo : o = presented (withHash P0 O) (skOf (A.draft O).sk).get_public_key (A.draft O).x (A.draft O).c i r := by
      rw [← ho, hr]
      rfl
    rw [eo] at hacc hne
    have hacc : (r.2.1.request (A.draft O).c i).check (withHash P0 O) (pkOf r.1) S = true := hS ▸ hacc
    obtain ⟨y, hy⟩ : ∃ y, y = r.2.1.request (A.draft O).c i := ⟨_, rfl⟩
    rw [← hy] at hacc hc
    have hyc : y.ctx.length ≤ 255 ∧ Accept (withHash P0 O) (pkOf r.1) S (y.str (withHash P0 O)) := by
      rw [SigRequest.check] at hacc
      split at hacc
      · cases hacc
      · exact ⟨by omega, hacc⟩
    obtain ⟨hyc, hacc⟩ := hyc
    have ly := str_length (P := withHash P0 O) hyc
    have hδ : ((ps.hf (withHash P0 O)).Hmsg (S.toList.take ps.sp.n) (pkOf r.1).key.pk_seed.toList
        (pkOf r.1).key.pk_root.toList (y.str (withHash P0 O))).length = ps.sp.m := (ps.valid (withHash P0 O)).Hmsg _ _ _ _
    have hmsg : ∀ c ∈ hMsgLog (withHash P0 O) ps.family ps.row (S.toList.take ps.sp.n) (pkOf r.1).key.pk_seed.toList
        (pkOf r.1).key.pk_root.toList (y.str (withHash P0 O)), Query.of B c ∈ Z := fun c h =>
      hlb c (hc.msg c (by rw [slice_take]; exact h))
    by_cases hlate : n0 ≤ Z.idxOf (Query.of B (msgCall ps (S.toList.take ps.sp.n ++ (pkOf r.1).key.pk_seed.toList ++
        (pkOf r.1).key.pk_root.toList ++ y.str (withHash P0 O))))
    · refine T.no_late hw hB P0 (seed_length _) (seed_length _) (by omega) hmsg ?_ ?_ hlate
      · refine Tidy.attempt_at (S := S) (K := Z.toFinset) hB T (fun y hy => List.mem_toFinset.mp hy)
          (seed_length _) hδ (withHash P0 O) fun q hq => ?_
        rw [attemptAt_on, ← hAt_eq hw P0] at hq
        exact List.mem_toFinset.mpr (hlb _ (hc.asked q hq))
      · rw [attemptAt_on, ← hAt_eq hw P0]
        have h1 := ((Spec.attempt_accepts (y.str (withHash P0 O)) S.toList [] (pkOf r.1).key.pk_seed.toList
          (pkOf r.1).key.pk_root.toList).mp hacc).2
        exact (Spec.Attempt.eval_layersP (attemptOn_ok (withHash P0 O) (pkOf r.1) S (y.str (withHash P0 O))) ps.sp.d).trans h1
    · have e0 : O (((A.draft O).job i v).q B (List.ofFn u) 0) = nth (List.ofFn u) 0 :=
        hu 0 (by rw [steps]; split <;> omega)
      obtain ⟨-, e1, e2, e3⟩ := G.same (job_ok hL (A.draft O) i v hxc) hw T P0 hin e0 (x := y) (by rw [hy]; rfl) hyc
        (sig_take_length S) (seed_length _) (seed_length _)
        (by
          rw [List.append_assoc, pkOf_take]
          exact hLC _ hdum)
        (fun ph h => hlb _ (hc.pre ph h)) (hmsg _ (msgCall_mem _ _ _ _ _)) (Nat.lt_of_not_le hlate)
      have hpk : pkOf r.1 = (skOf (A.draft O).sk).get_public_key := by
        refine PublicKey.encode_inj ?_
        rw [e1, e2]
        rfl
      have hne : y ≠ (A.draft O).x.request (A.draft O).c i := hy ▸ hne.resolve_left fun h => h hpk
      have ex : ((A.draft O).x.request (A.draft O).c i).str (withHash P0 O) = ((A.draft O).job i v).str (List.ofFn u) :=
        job_str hw P0 hu rfl rfl rfl
      obtain h | ⟨ph, h1, h2, h3, h4⟩ := str_inj (P := withHash P0 O) hyc hxc (e3.trans ex.symm)
      · exact hne h
      · exact h3 (by rw [hy]; rfl)

end

end Fips205.Props
