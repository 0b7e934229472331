import Verif.Proofs.ResignCases

/-!
# The average over the values of the resigner's game
-/

namespace Fips205.Props
open Fips205 Fips205.Model Fips205.Oracle

variable {ps : ParamSet} {L W B w Q Q' : Nat} {b : Build}

/-! ## Averages in general -/

theorem avg_five_le {I V F G H : Type} [Fintype I] [Nonempty I] [Fintype V] [Nonempty V] [Fintype F] [Nonempty F]
    [Fintype G] [Nonempty G] [Fintype H] [Nonempty H] {E E1 E2 E3 : I → V → F → G → H → Prop}
    (h : ∀ i v x y z, E i v x y z → E1 i v x y z ∨ E2 i v x y z ∨ E3 i v x y z) {a c d : ℚ}
    (h1 : ∀ v x y z, (avg fun i => ind (E1 i v x y z)) ≤ a) (h2 : ∀ i x y z, (avg fun v => ind (E2 i v x y z)) ≤ c)
    (h3 : ∀ i v x z, (avg fun y => ind (E3 i v x y z)) ≤ d) :
    (avg fun i => avg fun v => avg fun x => avg fun y => avg fun z => ind (E i v x y z)) ≤ a + (c + d) := by
  have key : ∀ i v x y z, ind (E i v x y z) ≤ ind (E1 i v x y z) + (ind (E2 i v x y z) + ind (E3 i v x y z)) :=
    fun i v x y z => (ind_mono (h i v x y z)).trans ((ind_or_le _ _).trans (add_le_add_right (ind_or_le _ _) _))
  refine (avg_mono fun i => avg_mono fun v => avg_mono fun x => avg_mono fun y => avg_mono fun z => key i v x y z).trans ?_
  simp only [avg_add]
  refine add_le_add ?_ (add_le_add ?_ ?_)
  · have e : (avg fun i => avg fun v => avg fun x => avg fun y => avg fun z => ind (E1 i v x y z)) =
        avg fun p : V × F × G × H => avg fun i => ind (E1 i p.1 p.2.1 p.2.2.1 p.2.2.2) := by
      refine Eq.trans ?_ (avg_comm fun i (p : V × F × G × H) => ind (E1 i p.1 p.2.1 p.2.2.1 p.2.2.2))
      simp only [avg_prod]
    rw [e]
    exact (avg_mono fun p : V × F × G × H => h1 p.1 p.2.1 p.2.2.1 p.2.2.2).trans (le_of_eq (avg_const _))
  · refine (avg_mono fun i => ?_).trans (le_of_eq (avg_const c))
    have e : (avg fun v => avg fun x => avg fun y => avg fun z => ind (E2 i v x y z)) =
        avg fun p : F × G × H => avg fun v => ind (E2 i v p.1 p.2.1 p.2.2) := by
      refine Eq.trans ?_ (avg_comm fun v (p : F × G × H) => ind (E2 i v p.1 p.2.1 p.2.2))
      simp only [avg_prod]
    rw [e]
    exact (avg_mono fun p : F × G × H => h2 i p.1 p.2.1 p.2.2).trans (le_of_eq (avg_const _))
  · refine (avg_mono fun i => ?_).trans (le_of_eq (avg_const d))
    refine (avg_mono fun v => ?_).trans (le_of_eq (avg_const d))
    refine (avg_mono fun x => ?_).trans (le_of_eq (avg_const d))
    rw [avg_comm]
    exact (avg_mono fun z => h3 i v x z).trans (le_of_eq (avg_const d))

/-- Different things that are drawn are seldom in a list. -/
theorem avg_inj_le {α : Type} [Nonempty (Fin W)] (f : Fin W → α) (hf : ∀ i j, f i = f j → i = j) (l : List α) :
    (avg fun i => ind (f i ∈ l)) ≤ l.length / W := by
  classical
  have key : ∀ i, ind (f i ∈ l) ≤ ind (i ∈ l.filterMap fun x => if h : ∃ i, f i = x then some h.choose else none) := by
    refine fun i => ind_mono fun h => List.mem_filterMap.mpr ⟨_, h, ?_⟩
    have hex : ∃ j, f j = f i := ⟨i, rfl⟩
    rw [dif_pos hex]
    exact congrArg _ (hf _ _ hex.choose_spec)
  refine (avg_mono key).trans ((avg_mem_le _).trans ?_)
  rw [Fintype.card_fin]
  exact div_le_div_of_nonneg_right (Nat.cast_le.mpr (List.length_filterMap_le _ _)) (Nat.cast_nonneg _)

/-- A value that is drawn is seldom in a list that does not depend on it. -/
theorem avg_coord_le {n k M : Nat} (hn : n ≤ w) (j : Fin k) (F : (Fin k → Fin (256 ^ w)) → List (Fin (256 ^ n)))
    (hF : ∀ u d, F (Function.update u j d) = F u) (hM : ∀ u, (F u).length ≤ M) :
    (avg fun u => ind (headOf n (u j) ∈ F u)) ≤ M / 256 ^ n := by
  have : Nonempty (Fin (256 ^ w)) := ⟨⟨0, Nat.pow_pos (by decide)⟩⟩
  rw [avg_update j, avg_comm]
  refine (avg_mono fun u => ?_).trans (le_of_eq (avg_const _))
  simp only [hF, Function.update_self]
  refine (head_mem_le hn (F u)).trans ?_
  rw [Fintype.card_fin]
  push_cast
  exact div_le_div_of_nonneg_right (Nat.cast_le.mpr (hM u)) (by positivity)

/-! ## What the guesses depend on -/

theorem nth_update {k : Nat} (u : Fin k → Fin (256 ^ w)) {j : Fin k} (d : Fin (256 ^ w)) {i : Nat} (h : i ≠ j) :
    nth (List.ofFn (Function.update u j d)) i = nth (List.ofFn u) i := by
  rw [nth, nth, List.getElem?_ofFn, List.getElem?_ofFn]
  split
  · rw [Function.update_of_ne fun e => h (congrArg Fin.val e)]
  · rfl

theorem take_update {k : Nat} (u : Fin k → Fin (256 ^ w)) {j : Fin k} (d : Fin (256 ^ w)) {i : Nat} (h : i ≤ j) :
    (List.ofFn (Function.update u j d)).take i = (List.ofFn u).take i := by
  refine List.ext_getElem? fun m => ?_
  rw [List.getElem?_take, List.getElem?_take]
  split
  · rw [List.getElem?_ofFn, List.getElem?_ofFn]
    split
    · rw [Function.update_of_ne fun e => ?_]
      have := congrArg Fin.val e
      dsimp only at this
      omega
    · rfl
  · rfl

theorem q_update (J : Job ps) {k : Nat} (u : Fin k → Fin (256 ^ w)) {j : Fin k} (d : Fin (256 ^ w)) {i : Nat} (h : i ≤ j) :
    J.q B (List.ofFn (Function.update u j d)) i = J.q B (List.ofFn u) i :=
  congrArg (Query.of B) (Job.point_congr (take_update u d h))

theorem hd_congr {us us' : List (Fin (256 ^ w))} {i : Nat} (h : nth us i = nth us' i) (m : Nat) : hd m us i = hd m us' i := by
  rw [hd, hd, h]

theorem rand_update {k : Nat} (u : Fin k → Fin (256 ^ w)) {j : Fin k} (d : Fin (256 ^ w)) (h : coinNo ps ≠ j) :
    randOf ps (List.ofFn (Function.update u j d)) = randOf ps (List.ofFn u) := hd_congr (nth_update u d h) _

theorem dig_update_zero {k : Nat} (u : Fin k → Fin (256 ^ w)) {j : Fin k} (d : Fin (256 ^ w)) (h : j.1 = 0) :
    resDig ps (List.ofFn (Function.update u j d)) = resDig ps (List.ofFn u) := by
  rw [resDig, resDig]
  split
  · exact hd_congr (nth_update u d (by omega)) _
  · congr 1
    unfold Spec.concat
    exact List.flatMap_congr fun c _ => hd_congr (nth_update u d (by omega)) _

theorem dig_update_sha2 (hps : ps.family = .sha2) {k : Nat} (u : Fin k → Fin (256 ^ w)) {j : Fin k} (d : Fin (256 ^ w))
    (h : j.1 < 4) : resDig ps (List.ofFn (Function.update u j d)) = resDig ps (List.ofFn u) := by
  rw [resDig, resDig, hps]
  dsimp only
  congr 1
  unfold Spec.concat
  exact List.flatMap_congr fun c _ => hd_congr (nth_update u d (by omega)) _

/-! ## The guesses -/

section
variable (P0 : Spec.Prims) (s : Finset (Query B) × (Query B → Fin (256 ^ w))) (a : Draft ps L W B w Q')
  (f : Query B → Fin (256 ^ w))

/-- The points that may show a guess. -/
noncomputable def guessLog (u : Fin (steps ps) → Fin (256 ^ w)) : List (Query B) :=
  restLog P0 s a f (randOf ps (List.ofFn u)) (resDig ps (List.ofFn u))

theorem guess_le (hw : 64 ≤ w) (J : Job ps) {N : Nat} (hK : s.1.toList.length + 3 ≤ N)
    (hD : ∀ u, (guessLog P0 s a f u).length + 4 ≤ N) :
    (avg fun u : Fin (steps ps) → Fin (256 ^ w) => ind (Guessed J (List.ofFn u) s.1.toList (guessLog P0 s a f u))) ≤
      (5 * N : ℕ) / 256 ^ ps.sp.n := by
  have : Nonempty (Fin (256 ^ w)) := ⟨⟨0, Nat.pow_pos (by decide)⟩⟩
  have hn : ps.sp.n ≤ w := (n_le_32 ps).trans ((show 32 ≤ 64 by decide).trans hw)
  have h3 : 3 ≤ steps ps := by rw [steps]; split <;> omega
  have hc : coinNo ps < steps ps := by rw [coinNo]; split <;> omega
  have hc0 : coinNo ps ≠ 0 := by rw [coinNo]; split <;> omega
  have hc2 : coinNo ps ≤ 2 := by rw [coinNo]; split <;> omega
  have b1 := avg_coord_le (M := 2 * N) hn ⟨0, by omega⟩ (fun u => preList ps (guessLog P0 s a f u))
    (fun u d => by
      unfold guessLog
      rw [rand_update u d hc0, dig_update_zero u d rfl])
    (fun u => by
      rw [preList, List.length_append, List.length_map, List.length_map]
      have := hD u
      omega)
  have b2 := avg_coord_le (M := N) hn ⟨coinNo ps, hc⟩ (fun u => randList J (List.ofFn u) s.1.toList)
    (fun u d => by
      unfold randList
      congr 1
      refine List.map_congr_left fun j hj => ?_
      rw [q_update J u d (Nat.le_of_lt_succ (List.mem_range.mp hj))])
    (fun u => by
      rw [randList, List.length_append, List.length_map, List.length_map, List.length_range]
      omega)
  have nn : (0 : ℚ) ≤ N / 256 ^ ps.sp.n := by positivity
  have b3 : (avg fun u : Fin (steps ps) → Fin (256 ^ w) => ind (ps.family = .sha2 ∧
      (headOf ps.sp.n (nth (List.ofFn u) 1) ∈ innerList J (List.ofFn u) (guessLog P0 s a f u) ∨
       headOf ps.sp.n (nth (List.ofFn u) 3) ∈ seedList J (List.ofFn u) (guessLog P0 s a f u)))) ≤
      N / 256 ^ ps.sp.n + N / 256 ^ ps.sp.n := by
    cases hps : ps.family with
    | shake =>
      refine (avg_mono fun u => ?_).trans ((le_of_eq (avg_const 0)).trans (add_nonneg nn nn))
      rw [ind, if_neg]
      rintro ⟨h, -⟩
      cases h
    | sha2 =>
      have h4 : 4 ≤ steps ps := by rw [steps_sha2 hps]; omega
      have hc' : coinNo ps = 2 := by rw [coinNo, hps]
      have d1 := avg_coord_le (M := N) hn ⟨1, by omega⟩ (fun u => innerList J (List.ofFn u) (guessLog P0 s a f u))
        (fun u d => by
          have e : guessLog P0 s a f (Function.update u ⟨1, by omega⟩ d) = guessLog P0 s a f u := by
            unfold guessLog
            rw [rand_update u d (by rw [hc']; exact (by decide : (2 : Nat) ≠ 1)),
              dig_update_sha2 hps u d (by exact (by decide : (1 : Nat) < 4))]
          unfold innerList
          rw [e]
          congr 1
          refine List.map_congr_left fun j hj => ?_
          rw [q_update J u d (Nat.le_of_lt_succ (List.mem_range.mp hj))])
        (fun u => by
          rw [innerList, List.length_append, List.length_map, List.length_map, List.length_range]
          have := hD u
          omega)
      have d2 := avg_coord_le (M := N) hn ⟨3, by omega⟩ (fun u => seedList J (List.ofFn u) (guessLog P0 s a f u))
        (fun u d => by
          have e : guessLog P0 s a f (Function.update u ⟨3, by omega⟩ d) = guessLog P0 s a f u := by
            unfold guessLog
            rw [rand_update u d (by rw [hc']; exact (by decide : (2 : Nat) ≠ 3)),
              dig_update_sha2 hps u d (by exact (by decide : (3 : Nat) < 4))]
          unfold seedList
          rw [e]
          congr 1
          refine List.map_congr_left fun j hj => ?_
          rw [q_update J u d (Nat.le_of_lt_succ (List.mem_range.mp hj))])
        (fun u => by
          rw [seedList, List.length_append, List.length_map, List.length_map, List.length_range]
          have := hD u
          omega)
      have key : ∀ u : Fin (steps ps) → Fin (256 ^ w), ind (Spec.Family.sha2 = .sha2 ∧
          (headOf ps.sp.n (nth (List.ofFn u) 1) ∈ innerList J (List.ofFn u) (guessLog P0 s a f u) ∨
          headOf ps.sp.n (nth (List.ofFn u) 3) ∈ seedList J (List.ofFn u) (guessLog P0 s a f u))) ≤
        ind (headOf ps.sp.n (u ⟨1, by omega⟩) ∈ innerList J (List.ofFn u) (guessLog P0 s a f u)) +
        ind (headOf ps.sp.n (u ⟨3, by omega⟩) ∈ seedList J (List.ofFn u) (guessLog P0 s a f u)) := fun u => by
        refine (ind_mono fun h => ?_).trans (ind_or_le _ _)
        rw [← nth_ofFn u ⟨1, by omega⟩, ← nth_ofFn u ⟨3, by omega⟩]
        exact h.2
      refine (avg_mono key).trans ?_
      rw [avg_add]
      exact add_le_add d1 d2
  have key : ∀ u : Fin (steps ps) → Fin (256 ^ w), ind (Guessed J (List.ofFn u) s.1.toList (guessLog P0 s a f u)) ≤
      ind (headOf ps.sp.n (u ⟨0, by omega⟩) ∈ preList ps (guessLog P0 s a f u)) +
      (ind (headOf ps.sp.n (u ⟨coinNo ps, hc⟩) ∈ randList J (List.ofFn u) s.1.toList) +
      ind (ps.family = .sha2 ∧
        (headOf ps.sp.n (nth (List.ofFn u) 1) ∈ innerList J (List.ofFn u) (guessLog P0 s a f u) ∨
        headOf ps.sp.n (nth (List.ofFn u) 3) ∈ seedList J (List.ofFn u) (guessLog P0 s a f u)))) := fun u => by
    refine (ind_mono fun h => ?_).trans ((ind_or_le _ _).trans (add_le_add_right (ind_or_le _ _) _))
    rw [← nth_ofFn u ⟨0, by omega⟩, ← nth_ofFn u ⟨coinNo ps, hc⟩]
    exact h
  refine (avg_mono key).trans ?_
  rw [avg_add, avg_add]
  refine (add_le_add b1 (add_le_add b2 b3)).trans (le_of_eq ?_)
  push_cast
  ring

end

/-! ## The bound -/

theorem coinList_job (a : Draft ps L W B w Q') (i : Fin W) (v v' : D ps) (us : List (Fin (256 ^ w))) (D : List (Query B)) :
    coinList (a.job i v) us D = coinList (a.job i v') us D := by
  have e : (a.job i v).q B us 0 = (a.job i v').q B us 0 := by
    unfold Job.q Job.point
    split <;> rfl
  rw [coinList, coinList, e]

theorem shown_length (n : Nat) (l : List (Query B)) : (l.flatMap (shown n)).length = 2 * l.length := by
  induction l with
  | nil => rfl
  | cons y l ih =>
    rw [List.flatMap_cons, List.length_append, ih, List.length_cons]
    change 2 + _ = _
    omega

section
variable (P0 : Spec.Prims) (A : Drafter ps L W B w Q' Q)

theorem lucky_eq (i : Fin W) (v : D ps) : (avg fun O => ind (A.Lucky P0 i v O)) =
    avg fun u1 => avg fun u2 => avg fun f =>
      ind (A.Lucky P0 i v (merge (A.drawn i v u1 u2).1 (A.drawn i v u1 u2).2 f)) := by
  have : Nonempty (Fin (256 ^ w)) := ⟨⟨0, Nat.pow_pos (by decide)⟩⟩
  have e0 : (avg fun O => ind (A.Lucky P0 i v O)) =
      avg fun O => ind (A.Lucky P0 i v (merge ∅ (fun _ => ⟨0, Nat.pow_pos (by decide)⟩) O)) := by
    congr 1
  rw [e0]
  refine (avg_feed (pr := Query.of B) (fun O => ind (A.Lucky P0 i v O)) (A.tree demoBuild) Q ∅ _).trans ?_
  congr 1
  funext u1
  exact avg_feed (E := Panic) (pr := Query.of B) (fun O => ind (A.Lucky P0 i v O))
    (ladder ((A.draft (A.known u1).2).job i v).next (steps ps) []) (steps ps) (A.known u1).1 (A.known u1).2

theorem lucky_le (hw : 64 ≤ w) (hB : 160 + (ps.sp.len + ps.sp.k) * ps.sp.n ≤ B) (hL : 492 + L ≤ B) (hW : 0 < W) {N : Nat}
    (hN : N = resignMost ps Q Q') :
    (avg fun i => avg fun v => avg fun O => ind (A.Lucky P0 i v O)) ≤
      (2 * N : ℕ) / W + (N / 256 ^ ps.sp.n + (5 * N : ℕ) / 256 ^ ps.sp.n) := by
  have : Nonempty (Fin (256 ^ w)) := ⟨⟨0, Nat.pow_pos (by decide)⟩⟩
  have : Nonempty (D ps) := ⟨⟨0, Nat.pow_pos (by decide)⟩⟩
  have : Nonempty (Fin W) := ⟨⟨0, hW⟩⟩
  have h3 : 3 ≤ steps ps := by rw [steps]; split <;> omega
  have hD : ∀ u1 f u2, (guessLog P0 (A.known u1) (A.draft (A.known u1).2) f u2).length + 4 ≤ N := fun u1 f u2 => by
    have := restLog_length P0 A u1 f (A.draft (A.known u1).2) (randOf_length (List.ofFn u2)) (resDig_length (List.ofFn u2))
    rw [guessLog]
    rw [resignMost] at hN
    omega
  have hK : ∀ u1, (A.known u1).1.toList.length + 3 ≤ N := fun u1 => by
    have := known_length A u1
    rw [resignMost] at hN
    omega
  simp only [lucky_eq]
  refine avg_five_le
    (E1 := fun i _ u1 u2 f => (A.draft (A.known u1).2).c.msg i ∈
      (guessLog P0 (A.known u1) (A.draft (A.known u1).2) f u2).flatMap (shown ps.sp.n))
    (E2 := fun i v u1 u2 f => v ∈ coinList ((A.draft (A.known u1).2).job i ⟨0, Nat.pow_pos (by decide)⟩) (List.ofFn u2)
      (guessLog P0 (A.known u1) (A.draft (A.known u1).2) f u2))
    (E3 := fun i v u1 u2 f => Guessed ((A.draft (A.known u1).2).job i v) (List.ofFn u2) (A.known u1).1.toList
      (guessLog P0 (A.known u1) (A.draft (A.known u1).2) f u2)) ?_ ?_ ?_ ?_
  · intro i v u1 u2 f h
    have h := lucky_guess P0 A i v hw hB hL u1 u2 f h
    by_contra hne
    rw [not_or, not_or] at hne
    obtain ⟨h1, h2, h3⟩ := hne
    rw [coinList_job _ i _ v] at h2
    exact h (unguessed_of (fun y hy => List.mem_append_left _ hy) h1 h2 h3)
  · intro v u1 u2 f
    refine (avg_inj_le _ (A.draft (A.known u1).2).c.inj _).trans ?_
    refine div_le_div_of_nonneg_right (Nat.cast_le.mpr ?_) (Nat.cast_nonneg _)
    rw [shown_length]
    have := hD u1 f u2
    omega
  · intro i u1 u2 f
    refine (avg_mem_le _).trans ?_
    rw [Fintype.card_fin]
    push_cast
    refine div_le_div_of_nonneg_right (Nat.cast_le.mpr ?_) (by positivity)
    rw [coinList, List.length_cons, List.length_map]
    have := hD u1 f u2
    omega
  · intro i v u1 f
    exact guess_le P0 (A.known u1) (A.draft (A.known u1).2) f hw _ (hK u1) (hD u1 f)

/-- The chance to win the game. -/
theorem resign_le (hw : 64 ≤ w) (hB : 160 + (ps.sp.len + ps.sp.k) * ps.sp.n ≤ B) (hL : 492 + L ≤ B) (hW : 0 < W) {N : Nat}
    (hN : N = resignMost ps Q Q') :
    (avg fun ivO : Fin W × D ps × (Query B → Fin (256 ^ w)) =>
      ind (∃ o, (A.draft ivO.2.2).outcome (withHash P0 ivO.2.2) ivO.2.2 ivO.1 (toVec _ (Spec.toByte ivO.2.1 ps.sp.n)) =
        some o ∧ o.Won)) ≤
      (2 * N : ℕ) / W + (6 * N : ℕ) / 256 ^ ps.sp.n +
        (ps.sp.len + ps.sp.k + 6 : ℕ) * (N * (N + 1)) / (2 * 256 ^ ps.sp.n) := by
  have : Nonempty (Fin (256 ^ w)) := ⟨⟨0, Nat.pow_pos (by decide)⟩⟩
  have : Nonempty (D ps) := ⟨⟨0, Nat.pow_pos (by decide)⟩⟩
  have : Nonempty (Fin W) := ⟨⟨0, hW⟩⟩
  have hn : ps.sp.n ≤ w := (n_le_32 ps).trans ((show 32 ≤ 64 by decide).trans hw)
  have key : ∀ ivO : Fin W × D ps × (Query B → Fin (256 ^ w)),
      ind (∃ o, (A.draft ivO.2.2).outcome (withHash P0 ivO.2.2) ivO.2.2 ivO.1 (toVec _ (Spec.toByte ivO.2.1 ps.sp.n)) =
        some o ∧ o.Won) ≤ ind (A.Lucky P0 ivO.1 ivO.2.1 ivO.2.2) +
      ind ((A.full demoBuild P0 ivO.1 ivO.2.1).Hit (fun c => Query.of B c.1) (headOf ps.sp.n) (parts ps) ivO.2.2 ∅) :=
    fun ivO => (ind_mono fun h => by
      by_cases hh : (A.full demoBuild P0 ivO.1 ivO.2.1).Hit (fun c => Query.of B c.1) (headOf ps.sp.n) (parts ps) ivO.2.2 ∅
      · exact .inr hh
      · exact .inl ⟨h, hh⟩).trans (ind_or_le _ _)
  refine (avg_mono key).trans ?_
  rw [avg_add]
  refine add_le_add ?_ ?_
  · rw [avg_prod]
    simp only [avg_prod]
    refine (lucky_le P0 A hw hB hL hW hN).trans (le_of_eq ?_)
    push_cast
    ring
  · rw [avg_prod]
    simp only [avg_prod]
    have hb : ∀ i v, (avg fun O => ind ((A.full demoBuild P0 i v).Hit (fun c => Query.of B c.1) (headOf ps.sp.n) (parts ps)
        O ∅)) ≤ (ps.sp.len + ps.sp.k + 6 : ℕ) * (N * (N + 1)) / (2 * 256 ^ ps.sp.n) := fun i v => by
      have := Tree.hit_le' (pr := fun c : Call × Option (Vector UInt8 ps.params.SIG_LEN) => Query.of B c.1)
        (h := headOf ps.sp.n) (parts := parts ps) (head_mem_le hn) parts_congr parts_length
        (A.full demoBuild P0 i v) N (fun O => (full_length (b := demoBuild) P0 O A i v hw).trans (le_of_eq hN.symm))
      rw [Fintype.card_fin] at this
      push_cast at this ⊢
      exact this
    refine (avg_mono fun i => ?_).trans (le_of_eq (avg_const _))
    exact (avg_mono fun v => hb i v).trans (le_of_eq (avg_const _))

end

end Fips205.Props
