import Verif.Proofs.Sha2Play
import Verif.Props.Shake

/-!
# Forging when SHA-256 and SHA-512 are random (C69)

The counterpart of `C68` for the SHA2 parameter sets.  Nothing in the table of hash functions of the code is replaced:
`PRF_msg` is HMAC and `H_msg` is MGF1 of a hash, as the code computes them.  Take SHA-256 and SHA-512 to be random
functions, and `SK.seed` and `SK.prf` to be random.  Then no forger with at most `q` signatures, each hedged with random
bytes of their choice or not hedged, and `Q` evaluations of the functions forges with a probability of more than
`(Q + 1) / 2^level + (2 (Q + v) + 2 Q + N) / 256^n + (q^2 + N^2) / 256^hlen`, where `N = Q + 2 q + 2`: the last term is for
collisions.
-/

namespace Fips205.Props
open Fips205 Fips205.Model

variable {ps : ParamSet} {S : Finset (List UInt8)} {B w : Nat}

/-- What is left of the values drawn separately when the parts that matter are taken away. -/
abbrev Rest (ps : ParamSet) (S : Finset (List UInt8)) (B w : Nat) : Type :=
  (Query B → Fin (256 ^ (w - ps.sp.n))) × (D ps × S → Fin (256 ^ (w - hlen ps))) ×
    (D ps × S → Fin (256 ^ (w - hlen ps))) × (Yv ps → Fin (256 ^ (w - ps.sp.n)))

/-- The parts that matter: the values at places, the two functions of HMAC, the two of MGF1. -/
abbrev Main (ps : ParamSet) (S : Finset (List UInt8)) (B w : Nat) : Type :=
  (Query B → D ps) × ((D ps × S → Yv ps) × (Yv ps → D ps)) × ((D ps × S → Yv ps) × (D ps × Yv ps → Blk ps w))

/-- From the parts. -/
def partsEquiv2 (hn : ps.sp.n ≤ w) (hh : hlen ps ≤ w) : Rest ps S B w × Main ps S B w ≃
    (Query B → Fin (256 ^ w)) × (Pt ps S → Fin (256 ^ w)) where
  toFun ω := (fun y => glue hn (ω.2.1 y, ω.1.1 y),
    pieces hn hh ω.2.2.2.1 ω.1.2.1 ω.2.2.2.2 ω.2.2.1.1 ω.1.2.2.1 ω.2.2.1.2 ω.1.2.2.2)
  invFun x := ((fun y => ((glue hn).symm (x.1 y)).2, fun i => ((glue hh).symm (x.2 (.inl (.inl i)))).2,
      fun i => ((glue hh).symm (x.2 (.inr (.inl i)))).2, fun z => ((glue hn).symm (x.2 (.inr (.inr z)))).2),
    (fun y => ((glue hn).symm (x.1 y)).1, (fun i => ((glue hh).symm (x.2 (.inr (.inl i)))).1,
      fun z => ((glue hn).symm (x.2 (.inr (.inr z)))).1), (fun i => ((glue hh).symm (x.2 (.inl (.inl i)))).1,
      fun j c => x.2 (.inl (.inr (j, c))))))
  left_inv ω := by simp only [pieces, Equiv.symm_apply_apply]
  right_inv x := by
    refine Prod.ext ?_ (funext fun j => ?_)
    · simp only [Prod.mk.eta, Equiv.apply_symm_apply]
    · rcases j with (j | j) | (j | j) <;> simp only [pieces, Prod.mk.eta, Equiv.apply_symm_apply]

theorem avg_shuffle {a b c d e f g : Type} [Fintype a] [Fintype b] [Fintype c] [Fintype d] [Fintype e] [Fintype f]
    [Fintype g] (F : a → b → c → d → e → f → g → ℚ) :
    (Oracle.avg fun s => Oracle.avg fun t => Oracle.avg fun o => Oracle.avg fun p => Oracle.avg fun y => Oracle.avg fun h =>
      Oracle.avg fun x => F s t o p y h x) =
    Oracle.avg fun t => Oracle.avg fun y => Oracle.avg fun x => Oracle.avg fun s => Oracle.avg fun o => Oracle.avg fun h =>
      Oracle.avg fun p => F s t o p y h x := by
  let e : a × b × c × d × e × f × g ≃ b × e × g × a × c × f × d :=
    ⟨fun z => (z.2.1, z.2.2.2.2.1, z.2.2.2.2.2.2, z.1, z.2.2.1, z.2.2.2.2.2.1, z.2.2.2.1),
      fun z => (z.2.2.2.1, z.1, z.2.2.2.2.1, z.2.2.2.2.2.2, z.2.1, z.2.2.2.2.2.1, z.2.2.1), fun _ => rfl, fun _ => rfl⟩
  have h := Oracle.avg_equiv e fun z => F z.2.2.2.1 z.1 z.2.2.2.2.1 z.2.2.2.2.2.2 z.2.1 z.2.2.2.2.2.1 z.2.2.1
  simp only [Oracle.avg_prod] at h
  exact h.symm

/-- A hash rarely begins with the root. -/
theorem clash_le (root : List UInt8) :
    (Oracle.avg fun y : Yv ps => Oracle.ind (Clash root y)) ≤ 1 / 256 ^ ps.sp.n := by
  have : Nonempty (D ps) := ⟨⟨0, Nat.pow_pos (by decide)⟩⟩
  have : Nonempty (Fin (256 ^ (hlen ps - ps.sp.n))) := ⟨⟨0, Nat.pow_pos (by decide)⟩⟩
  rw [Oracle.avg_equiv (glue (n_le_hlen ps)), Oracle.avg_prod]
  have h : ∀ (d : D ps) t, Clash root (glue (n_le_hlen ps) (d, t)) → d ∈ [number ps.sp.n root] := by
    intro d t h
    rw [Clash, ← toByte_headOf (n_le_hlen ps), headOf_glue] at h
    rw [List.mem_singleton, ← h, number_toByte]
  refine (Oracle.avg_mono fun d => (Oracle.avg_mono fun t => Oracle.ind_mono (h d t)).trans
    (le_of_eq (Oracle.avg_const _))).trans ((Oracle.avg_mem_le _).trans (le_of_eq ?_))
  rw [Fintype.card_fin]
  push_cast
  simp

set_option synthInstance.maxSize 1000 in
/-- **C69** For the SHA2 parameter sets: take SHA-256 and SHA-512 to be random functions, with outputs of `w ≥ 64` bytes
of which the code uses the first 32 or 64, and `SK.seed` and `SK.prf` to be random.  Let `PK.seed` be anything but
`0…0`, `0x36…36` and `0x5c…5c` (otherwise the inputs composed for `H_msg` need not differ from those of the other
functions), and let the messages be not too long for the domain of the functions.  Then every forger, with the public
key, `q` signatures and `Q` values of the functions of their choice, forges with probability at most
`(Q + 1) / 2^coverLevel + (2 (Q + verifyCost) + (2 Q + N)) / 256^n + (q^2 + N^2) / 256^hlen`, where `N = Q + 2 q + 2` and
`hlen` is 32 for category 1 and 64 for the others. -/
theorem C69_sha2 (hps : ps.family = .sha2) (P0 : Spec.Prims) (pk_seed : Vector UInt8 ps.params.N) (b : Build)
    (S : Finset (List UInt8)) (hw : 64 ≤ w) (hS : ∀ M ∈ S, 160 + M.length ≤ B)
    (hB : 160 + (ps.sp.len + ps.sp.k) * ps.sp.n ≤ B)
    (hseed : ∀ c ∈ [0, 0x36, 0x5c], pk_seed.toList ≠ List.replicate ps.sp.n c) {q Q : Nat}
    (hq : q * (256 ^ ps.sp.n + Q) ≤ 2 ^ 64 * 256 ^ ps.sp.n) (A : PublicKey ps.params → FullForger ps S B w q Q) :
    prob (fun ω : (Fin (256 ^ ps.sp.n) × Fin (256 ^ ps.sp.n)) × (Query B → Fin (256 ^ w)) =>
      ∃ o, fullGame P0 pk_seed A ω.1.1 ω.1.2 ω.2 = (pure o : Exec b _) ∧ o.Forged) ≤
    (Q + 1) / 2 ^ coverLevel ps + (2 * (Q + ps.sp.verifyCost) + (2 * Q + (Q + 2 * q + 2))) / 256 ^ ps.sp.n +
      (q ^ 2 + (Q + 2 * q + 2) ^ 2) / 256 ^ hlen ps := by
  classical
  have hn : ps.sp.n ≤ w := (n_le_32 ps).trans ((show 32 ≤ 64 by decide).trans hw)
  have hh : hlen ps ≤ w := (hlen_le ps).trans hw
  have hB' : 192 ≤ B := by
    have : 32 ≤ (ps.sp.len + ps.sp.k) * ps.sp.n := by cases ps <;> decide
    omega
  have pos : ∀ j, Nonempty (Fin (256 ^ j)) := fun j => ⟨⟨0, Nat.pow_pos (by decide)⟩⟩
  have := pos ps.sp.n
  have := pos ps.sp.m
  have := pos (hlen ps)
  have := pos w
  have := pos (w - ps.sp.n)
  have := pos (w - hlen ps)
  obtain ⟨τ, _, _, e, he⟩ := split_blocks (ps := ps) hw
  let z : Vector UInt8 ps.params.N := toVec _ []
  let pk : D ps → (Query B → D ps) → PublicKey ps.params := fun s O => (pairOf P0 z pk_seed s O).1
  let sk : D ps → (Query B → D ps) → PrivateKey ps.params := fun s O => (pairOf P0 z pk_seed s O).2
  -- the game in which the functions of HMAC and MGF1 are separate
  let real : D ps → Rest ps S B w × Main ps S B w → Prop := fun s ω =>
    ((A (pk s ω.2.1)).player hn hh ω.2.1 ω.1.1 ω.1.2.1 (withHash P0 ω.2.1) (pk s ω.2.1) (sk s ω.2.1)
      (fun i => ω.2.2.1.2 (ω.2.2.1.1 i)) [] (Q + 2 * q + 2) (Nat.le_refl _)).real
      (Clash (pk s ω.2.1).key.pk_root.toList) ω.2.2.2.1 ω.2.2.2.2
  let keys : D ps → Rest ps S B w × Main ps S B w → List (D ps) := fun s ω =>
    (A (pk s ω.2.1)).keys2 hn hh ω.2.1 ω.1.1 ω.2.2.2.1 ω.1.2.1 ω.2.2.2.2 (withHash P0 ω.2.1) (pk s ω.2.1) (sk s ω.2.1)
      fun i => ω.2.2.1.2 (ω.2.2.1.1 i)
  have hstep : ∀ s k, (Oracle.avg fun O : Query B → Fin (256 ^ w) => Oracle.ind
      (∃ o, fullGame P0 pk_seed A s k O = (pure o : Exec b _) ∧ o.Forged)) ≤
      Oracle.avg fun ω : Rest ps S B w × Main ps S B w => Oracle.ind (real s ω) + Oracle.ind (k ∈ keys s ω) := by
    intro s k
    rw [avg_star2 hps hn P0 pk_seed hS hB' hseed s k]
    have e0 := Oracle.avg_prod fun x : (Query B → Fin (256 ^ w)) × (Pt ps S → Fin (256 ^ w)) => Oracle.ind
        (∃ o, fullGame P0 pk_seed A s k (star2 P0 pk_seed.toList s k x.1 x.2) = (pure o : Exec b _) ∧ o.Forged)
    dsimp only at e0
    rw [← e0, Oracle.avg_equiv (partsEquiv2 hn hh)]
    refine Oracle.avg_mono fun ω => ?_
    refine (Oracle.ind_mono ?_).trans (Oracle.ind_or_le _ _)
    rintro ⟨o, ho, hf⟩
    by_cases hk : k ∈ keys s ω
    · exact .inr hk
    · refine .inl ?_
      rw [fullGame_eq] at ho
      rw [← Exec.pure_inj ho] at hf
      have h1 := star2_pk hps hn hh P0 pk_seed hS hB' hseed s k ω.2.1 ω.1.1 ω.2.2.2.1 ω.1.2.1 ω.2.2.2.2 ω.2.2.1.1 ω.1.2.2.1
        ω.2.2.1.2 ω.1.2.2.2 z
      have h2 := star2_outcome hps hw hn hh P0 pk_seed hS hB' hseed s k ω.2.1 ω.1.1 ω.2.2.2.1 ω.1.2.1 ω.2.2.2.2 ω.2.2.1.1
        ω.1.2.2.1 ω.2.2.1.2 ω.1.2.2.2 e he z (A (pk s ω.2.1)) (Q + 2 * q + 2) (Nat.le_refl _) [] hk
      refine h2 ?_
      have hf : (fullOutcome P0 pk_seed A s k
        (starOf2 hn hh P0 pk_seed s k ω.2.1 ω.1.1 ω.2.2.2.1 ω.1.2.1 ω.2.2.2.2 ω.2.2.1.1 ω.1.2.2.1
        ω.2.2.1.2 ω.1.2.2.2)).Forged := hf
      rw [fullOutcome] at hf
      rw [h1] at hf
      exact hf
  rw [prob_eq, Oracle.avg_prod, Oracle.avg_prod]
  refine (Oracle.avg_mono fun s => Oracle.avg_mono fun k => hstep s k).trans ?_
  simp only [Oracle.avg_add]
  have hcard : (Fintype.card (Yv ps) : ℚ) = 256 ^ hlen ps := by
    rw [Fintype.card_fin]; push_cast; rfl
  let c : ℚ := (Q + 2 * q + 2 : ℕ) * ((Q + 2 * q + 2 : ℕ) / 256 ^ hlen ps + 1 / 256 ^ ps.sp.n)
  have h1 : (Oracle.avg fun s : D ps => Oracle.avg fun _ : D ps => Oracle.avg fun ω : Rest ps S B w × Main ps S B w =>
      Oracle.ind (real s ω)) ≤ ((Q + 1) / 2 ^ coverLevel ps + 2 * (Q + ps.sp.verifyCost) / 256 ^ ps.sp.n +
        q * q / 256 ^ hlen ps) + c := by
    simp only [Oracle.avg_const]
    -- the game in which `H_msg` is a function of its own
    let ideal : D ps → Rest ps S B w → (Query B → D ps) → (D ps × S → Yv ps) × (Yv ps → D ps) →
        (D ps × S → Yv ps) × (D ps × Yv ps → Blk ps w) → MsgHash ps S → (D ps × S → τ) → ℚ :=
      fun s t O p y H x => Oracle.ind (((A (pk s O)).wrap hn hh t.1 y.1 t.2.1 y.2 e x (pk s O) [] Q Q (Nat.le_refl _)
        (Nat.le_refl _)).outcome (withHash P0 O) (pk s O) (sk s O) O H (fun i => p.2 (p.1 i)) []).Forged
    have hreal : ∀ s, (Oracle.avg fun ω : Rest ps S B w × Main ps S B w => Oracle.ind (real s ω)) ≤
        (Oracle.avg fun t => Oracle.avg fun O => Oracle.avg fun p => Oracle.avg fun y => Oracle.avg fun H =>
          Oracle.avg fun x => ideal s t O p y H x) + c := by
      intro s
      rw [Oracle.avg_prod]
      have hc := Oracle.avg_const (α := Rest ps S B w) c
      rw [← hc, ← Oracle.avg_add]
      refine Oracle.avg_mono fun t => ?_
      rw [Oracle.avg_prod]
      have hc := Oracle.avg_const (α := Query B → D ps) c
      rw [← hc, ← Oracle.avg_add]
      refine Oracle.avg_mono fun O => ?_
      rw [Oracle.avg_prod]
      have hc := Oracle.avg_const (α := (D ps × S → Yv ps) × (Yv ps → D ps)) c
      rw [← hc, ← Oracle.avg_add]
      refine Oracle.avg_mono fun p => ?_
      have hex := clash_le (ps := ps) (pk s O).key.pk_root.toList
      have h := ((A (pk s O)).player hn hh O t.1 t.2.1 (withHash P0 O) (pk s O) (sk s O)
        (fun i => p.2 (p.1 i)) [] (Q + 2 * q + 2) (Nat.le_refl _)).le (Clash (pk s O).key.pk_root.toList) hex
      rw [hcard] at h
      rw [Oracle.avg_prod, Oracle.avg_prod]
      refine h.trans (le_of_eq ?_)
      refine congrArg (· + c) (congrArg Oracle.avg (funext fun Y => congrArg Oracle.avg (funext fun V => ?_)))
      rw [Oracle.avg_split e]
      refine congrArg Oracle.avg (funext fun H => congrArg Oracle.avg (funext fun x => Oracle.ind_congr ?_))
      exact player_ideal hn hh O t.1 Y t.2.1 V (withHash P0 O) (pk s O) (sk s O) (fun i => p.2 (p.1 i)) e he H x
        (A (pk s O)) [] (Q + 2 * q + 2) (Nat.le_refl _) [] Q Q (Nat.le_refl _) (Nat.le_refl _)
    refine (Oracle.avg_mono hreal).trans ?_
    rw [Oracle.avg_add, Oracle.avg_const]
    refine add_le_add_left ?_ c
    rw [avg_shuffle]
    refine (Oracle.avg_mono fun t => (Oracle.avg_mono fun y => (Oracle.avg_mono fun x => ?_).trans
      (le_of_eq (Oracle.avg_const _))).trans (le_of_eq (Oracle.avg_const _))).trans (le_of_eq (Oracle.avg_const _))
    have hopt := opt_le (S := S) P0 z pk_seed hB hq fun pk => (A pk).wrap hn hh t.1 y.1 t.2.1 y.2 e x pk [] Q Q
      (Nat.le_refl _) (Nat.le_refl _)
    refine le_trans ?_ (add_le_add_left hopt _)
    have hc := Oracle.avg_const (α := D ps) ((q : ℚ) * q / 256 ^ hlen ps)
    rw [← hc, ← Oracle.avg_add]
    refine Oracle.avg_mono fun s => ?_
    have hc := Oracle.avg_const (α := Query B → D ps) ((q : ℚ) * q / 256 ^ hlen ps)
    rw [← hc, ← Oracle.avg_add]
    refine Oracle.avg_mono fun O => ?_
    have hc := Oracle.avg_const (α := MsgHash ps S) ((q : ℚ) * q / 256 ^ hlen ps)
    rw [← hc, ← Oracle.avg_add]
    refine Oracle.avg_mono fun H => ?_
    rw [Oracle.avg_prod]
    have h2 := two_step (Z := Yv ps) (withHash P0 O) (pk s O) (sk s O) O H ((A (pk s O)).wrap hn hh t.1 y.1 t.2.1 y.2 e x
      (pk s O) [] Q Q (Nat.le_refl _) (Nat.le_refl _))
    rw [hcard] at h2
    exact h2
  have h2 : (Oracle.avg fun s : D ps => Oracle.avg fun k : D ps => Oracle.avg fun ω : Rest ps S B w × Main ps S B w =>
      Oracle.ind (k ∈ keys s ω)) ≤ 2 * Q / 256 ^ ps.sp.n := by
    refine (Oracle.avg_mono fun s => ?_).trans (le_of_eq (Oracle.avg_const _))
    rw [Oracle.avg_comm]
    refine (Oracle.avg_mono fun ω => ?_).trans (le_of_eq (Oracle.avg_const _))
    refine (Oracle.avg_mem_le (keys s ω)).trans ?_
    rw [Fintype.card_fin]
    push_cast
    refine div_le_div_of_nonneg_right ?_ (by positivity)
    exact_mod_cast keys2_length hn hh ω.2.1 ω.1.1 ω.2.2.2.1 ω.1.2.1 ω.2.2.2.2 (withHash P0 ω.2.1) (pk s ω.2.1) (sk s ω.2.1)
      (fun i => ω.2.2.1.2 (ω.2.2.1.1 i)) (A (pk s ω.2.1))
  refine (add_le_add h1 h2).trans (le_of_eq ?_)
  simp only [c]
  push_cast
  ring

/-- **C69** With a random `PK.seed`, as well as `SK.seed` and `SK.prf`: three values of it in `256^n` are left out. -/
theorem C69_random_seed (hps : ps.family = .sha2) (P0 : Spec.Prims) (b : Build) (S : Finset (List UInt8)) (hw : 64 ≤ w)
    (hS : ∀ M ∈ S, 160 + M.length ≤ B) (hB : 160 + (ps.sp.len + ps.sp.k) * ps.sp.n ≤ B) {q Q : Nat}
    (hq : q * (256 ^ ps.sp.n + Q) ≤ 2 ^ 64 * 256 ^ ps.sp.n) (A : PublicKey ps.params → FullForger ps S B w q Q) :
    prob (fun ω : Fin (256 ^ ps.sp.n) × (Fin (256 ^ ps.sp.n) × Fin (256 ^ ps.sp.n)) × (Query B → Fin (256 ^ w)) =>
      ∃ o, fullGame P0 (toVec _ (Spec.toByte ω.1 ps.sp.n)) A ω.2.1.1 ω.2.1.2 ω.2.2 = (pure o : Exec b _) ∧ o.Forged) ≤
    (Q + 1) / 2 ^ coverLevel ps + (2 * (Q + ps.sp.verifyCost) + (2 * Q + (Q + 2 * q + 2)) + 3) / 256 ^ ps.sp.n +
      (q ^ 2 + (Q + 2 * q + 2) ^ 2) / 256 ^ hlen ps := by
  have pos : ∀ j, Nonempty (Fin (256 ^ j)) := fun j => ⟨⟨0, Nat.pow_pos (by decide)⟩⟩
  have := pos ps.sp.n
  have := pos w
  let bad : List (D ps) := ([0, 0x36, 0x5c] : List UInt8).map fun c => number ps.sp.n (List.replicate ps.sp.n c)
  rw [prob_eq, Oracle.avg_prod]
  have hstep : ∀ x : D ps, (Oracle.avg fun ω : (D ps × D ps) × (Query B → Fin (256 ^ w)) => Oracle.ind
      (∃ o, fullGame P0 (toVec _ (Spec.toByte x ps.sp.n)) A ω.1.1 ω.1.2 ω.2 = (pure o : Exec b _) ∧ o.Forged)) ≤
      ((Q + 1) / 2 ^ coverLevel ps + (2 * (Q + ps.sp.verifyCost) + (2 * Q + (Q + 2 * q + 2))) / 256 ^ ps.sp.n +
      (q ^ 2 + (Q + 2 * q + 2) ^ 2) / 256 ^ hlen ps) + Oracle.ind (x ∈ bad) := by
    intro x
    by_cases hx : x ∈ bad
    · have h1 : Oracle.ind (x ∈ bad) = 1 := by simp [Oracle.ind, hx]
      rw [h1]
      refine ((Oracle.avg_mono fun ω => Oracle.ind_le_one _).trans (le_of_eq (Oracle.avg_const _))).trans ?_
      exact le_add_of_nonneg_left (by positivity)
    · refine le_trans ?_ (le_add_of_nonneg_right (Oracle.ind_nonneg _))
      rw [← prob_eq]
      refine C69_sha2 hps P0 _ b S hw hS hB (fun c hc h => hx ?_) hq A
      rw [toVec_toList ((Spec.toByte_length _ _).trans (N_eq ps))] at h
      refine List.mem_map.mpr ⟨c, hc, ?_⟩
      rw [← h, number_toByte]
  refine (Oracle.avg_mono hstep).trans ?_
  rw [Oracle.avg_add, Oracle.avg_const]
  have h := Oracle.avg_mem_le bad
  rw [Fintype.card_fin] at h
  have hl : bad.length = 3 := rfl
  rw [hl] at h
  push_cast at h
  refine (add_le_add_right h _).trans (le_of_eq ?_)
  ring

theorem two_n_le (ps : ParamSet) : 2 * ps.sp.n ≤ hlen ps := by cases ps <;> decide

/-- The bound in bits. -/
theorem sha2_bits (ps : ParamSet) {q Q t : Nat} (ht : 15 ≤ t) (htn : t ≤ 8 * ps.sp.n) (hqt : q ≤ 2 ^ t)
    (hQ : Q < 2 ^ t) :
    ((Q : ℚ) + 1) / 2 ^ coverLevel ps + (2 * (Q + ps.sp.verifyCost) + (2 * Q + (Q + 2 * q + 2))) / 256 ^ ps.sp.n +
      (q ^ 2 + (Q + 2 * q + 2) ^ 2) / 256 ^ hlen ps ≤ 29 * 2 ^ t / 2 ^ (8 * ps.sp.n) := by
  have hpow : 256 ^ ps.sp.n = 2 ^ (8 * ps.sp.n) := by rw [show 256 = 2 ^ 8 from rfl, ← Nat.pow_mul]
  have h15 : 2 ^ 15 ≤ 2 ^ t := Nat.pow_le_pow_right (by decide) ht
  have hcost : ps.sp.verifyCost ≤ 2 ^ t := (show ps.sp.verifyCost ≤ 2 ^ 15 by cases ps <;> decide).trans h15
  have hlev : 8 * ps.sp.n ≤ coverLevel ps + 1 := by cases ps <;> decide
  have e : (256 : ℚ) ^ ps.sp.n = 2 ^ (8 * ps.sp.n) := by exact_mod_cast hpow
  have hN : (0 : ℚ) < 2 ^ (8 * ps.sp.n) := by positivity
  have hL : (2 : ℚ) ^ (8 * ps.sp.n) ≤ 2 * 2 ^ coverLevel ps := by
    calc (2 : ℚ) ^ (8 * ps.sp.n) ≤ 2 ^ (coverLevel ps + 1) := pow_le_pow_right₀ (by norm_num) hlev
      _ = _ := by ring
  have a : (Q : ℚ) ≤ 2 ^ t := by exact_mod_cast hQ.le
  have c : (ps.sp.verifyCost : ℚ) ≤ 2 ^ t := by exact_mod_cast hcost
  have d : (q : ℚ) ≤ 2 ^ t := by exact_mod_cast hqt
  have f : (2 : ℚ) ≤ 2 ^ t := by exact_mod_cast (show 2 ≤ 2 ^ 15 by decide).trans h15
  have hT : (0 : ℚ) < 2 ^ t := by positivity
  have h1 : ((Q : ℚ) + 1) / 2 ^ coverLevel ps ≤ 2 * 2 ^ t / 2 ^ (8 * ps.sp.n) := by
    rw [div_le_div_iff₀ (by positivity) hN]
    have : (Q : ℚ) + 1 ≤ 2 ^ t := by exact_mod_cast hQ
    calc ((Q : ℚ) + 1) * 2 ^ (8 * ps.sp.n) ≤ 2 ^ t * (2 * 2 ^ coverLevel ps) :=
          mul_le_mul this hL hN.le (by positivity)
      _ = _ := by ring
  have h2 : (2 * ((Q : ℚ) + ps.sp.verifyCost) + (2 * Q + (Q + 2 * q + 2))) / 2 ^ (8 * ps.sp.n) ≤
      10 * 2 ^ t / 2 ^ (8 * ps.sp.n) := by
    refine div_le_div_of_nonneg_right ?_ hN.le
    linarith
  have h3 : ((q : ℚ) ^ 2 + (Q + 2 * q + 2) ^ 2) / 256 ^ hlen ps ≤ 17 * 2 ^ t / 2 ^ (8 * ps.sp.n) := by
    have hH : (2 : ℚ) ^ (8 * ps.sp.n) * 2 ^ (8 * ps.sp.n) ≤ 256 ^ hlen ps := by
      rw [← e, ← pow_add]
      exact pow_le_pow_right₀ (by norm_num) (by have := two_n_le ps; omega)
    have hTN : (2 : ℚ) ^ t ≤ 2 ^ (8 * ps.sp.n) := pow_le_pow_right₀ (by norm_num) htn
    have hnum : (q : ℚ) ^ 2 + (Q + 2 * q + 2) ^ 2 ≤ 17 * (2 ^ t * 2 ^ t) := by
      have h4 : (Q : ℚ) + 2 * q + 2 ≤ 4 * 2 ^ t := by linarith
      have h5 : (q : ℚ) ^ 2 ≤ (2 ^ t) ^ 2 := pow_le_pow_left₀ (Nat.cast_nonneg _) d 2
      have h6 : ((Q : ℚ) + 2 * q + 2) ^ 2 ≤ (4 * 2 ^ t) ^ 2 := pow_le_pow_left₀ (by positivity) h4 2
      linarith
    rw [div_le_div_iff₀ (by positivity) hN]
    calc ((q : ℚ) ^ 2 + (Q + 2 * q + 2) ^ 2) * 2 ^ (8 * ps.sp.n) ≤ 17 * (2 ^ t * 2 ^ t) * 2 ^ (8 * ps.sp.n) :=
          mul_le_mul_of_nonneg_right hnum hN.le
      _ = 17 * 2 ^ t * (2 ^ t * 2 ^ (8 * ps.sp.n)) := by ring
      _ ≤ 17 * 2 ^ t * (2 ^ (8 * ps.sp.n) * 2 ^ (8 * ps.sp.n)) := by
          refine mul_le_mul_of_nonneg_left ?_ (by positivity)
          exact mul_le_mul_of_nonneg_right hTN hN.le
      _ ≤ 17 * 2 ^ t * 256 ^ hlen ps := mul_le_mul_of_nonneg_left hH (by positivity)
  rw [e]
  refine (add_le_add (add_le_add h1 h2) h3).trans (le_of_eq ?_)
  ring

/-- **C69** In bits: up to `2^63` signatures and `2^t` evaluations give a chance of at most `2^(t + 5 - 8 n)`. -/
theorem C69_bits (hps : ps.family = .sha2) (P0 : Spec.Prims) (pk_seed : Vector UInt8 ps.params.N) (b : Build)
    (S : Finset (List UInt8)) (hw : 64 ≤ w) (hS : ∀ M ∈ S, 160 + M.length ≤ B)
    (hB : 160 + (ps.sp.len + ps.sp.k) * ps.sp.n ≤ B)
    (hseed : ∀ c ∈ [0, 0x36, 0x5c], pk_seed.toList ≠ List.replicate ps.sp.n c) {q Q t : Nat} (ht : 15 ≤ t)
    (htn : t ≤ 8 * ps.sp.n) (hq : q ≤ 2 ^ 63) (hqt : q ≤ 2 ^ t) (hQ : Q < 2 ^ t)
    (A : PublicKey ps.params → FullForger ps S B w q Q) :
    prob (fun ω : (Fin (256 ^ ps.sp.n) × Fin (256 ^ ps.sp.n)) × (Query B → Fin (256 ^ w)) =>
      ∃ o, fullGame P0 pk_seed A ω.1.1 ω.1.2 ω.2 = (pure o : Exec b _) ∧ o.Forged) ≤
    2 ^ (t + 5) / 2 ^ (8 * ps.sp.n) := by
  have hpow : 256 ^ ps.sp.n = 2 ^ (8 * ps.sp.n) := by rw [show 256 = 2 ^ 8 from rfl, ← Nat.pow_mul]
  have hQ' : Q ≤ 256 ^ ps.sp.n := by
    rw [hpow]; exact hQ.le.trans (Nat.pow_le_pow_right (by decide) htn)
  have hq' : q * (256 ^ ps.sp.n + Q) ≤ 2 ^ 64 * 256 ^ ps.sp.n := by
    calc q * (256 ^ ps.sp.n + Q) ≤ 2 ^ 63 * (256 ^ ps.sp.n + 256 ^ ps.sp.n) :=
          Nat.mul_le_mul hq (Nat.add_le_add_left hQ' _)
      _ = _ := by ring
  refine (C69_sha2 hps P0 pk_seed b S hw hS hB hseed hq' A).trans ((sha2_bits ps ht htn hqt hQ).trans ?_)
  refine div_le_div_of_nonneg_right ?_ (by positivity)
  have : (0 : ℚ) < 2 ^ t := by positivity
  rw [pow_add]
  linarith

/-! ## The hypotheses can be met, and the event can happen -/

/-- A forger who has a message signed, evaluates SHA-256, and presents the signature as one of another message. -/
def demoFull2 (ps : ParamSet) : FullForger ps demoSet 4000 64 1 1 :=
  .sign none ⟨[[1], [2, 3]], by decide, by decide⟩ fun
    | .ok sig => .call ⟨⟨.sha256, [7]⟩, by decide⟩ fun d =>
        if d.val = 0 then .forge (toVec _ []) ⟨[[4, 5, 6]], by decide, by decide⟩
        else .forge sig ⟨[[4, 5, 6]], by decide, by decide⟩
    | .error _ => .forge (toVec _ []) ⟨[[4, 5, 6]], by decide, by decide⟩

/-- The bound for this forger, if `PK.seed` consists of bytes `0xff`: `2^(20 - 8 n)`. -/
example (hps : ps.family = .sha2) (b : Build) :
    prob (fun ω : (Fin (256 ^ ps.sp.n) × Fin (256 ^ ps.sp.n)) × (Query 4000 → Fin (256 ^ 64)) =>
      ∃ o, fullGame demoPrims (Vector.replicate _ 0xff) (fun _ => demoFull2 ps) ω.1.1 ω.1.2 ω.2 = (pure o : Exec b _) ∧
        o.Forged) ≤
    2 ^ (15 + 5) / 2 ^ (8 * ps.sp.n) :=
  C69_bits hps demoPrims _ b demoSet (by decide) (by decide) (by cases ps <;> decide)
    (by cases ps <;> decide) (Nat.le_refl 15) (by cases ps <;> decide) (by decide) (by decide) (by decide) _

theorem const_sig2 (hps : ps.family = .sha2) (hw : 64 ≤ w) {P0 : Spec.Prims} {O : Query B → Fin (256 ^ w)}
    {x : Fin (256 ^ w)} (hO : ∀ y, O y = x) {sk : PrivateKey ps.params} (hk : Consistent (withHash P0 O) ps sk)
    (M M' : List UInt8) :
    Spec.verifyInternal ps.sp (ps.hf (withHash P0 O)) M' (sigVec ps (withHash P0 O) M sk.key sk.key.pk_seed).toList
      sk.key.pk_seed.toList sk.key.pk_root.toList = true := by
  have hc : ∀ X X', shaOf ps (withHash P0 O) X = shaOf ps (withHash P0 O) X' := fun X X' => by
    rw [wide_sha hw, wide_sha hw, hO, hO]
  generalize withHash P0 O = P at hc hk
  have hsame : sigVec ps P M sk.key sk.key.pk_seed = sigVec ps P M' sk.key sk.key.pk_seed := by
    have e : (ps.hf P).PRFmsg sk.key.sk_prf.toList sk.key.pk_seed.toList M =
        (ps.hf P).PRFmsg sk.key.sk_prf.toList sk.key.pk_seed.toList M' := by
      rw [sha2_PRFmsg hps, sha2_PRFmsg hps]
      exact congrArg (Spec.trunc _) (hc _ _)
    rw [sigVec, sigVec, Spec.signInternal, Spec.signInternal, e]
    refine congrArg (toVec _) (signWithR_msg _ _ ?_)
    rw [sha2_Hmsg hps, sha2_Hmsg hps, hc (_ ++ M) (_ ++ M')]
  have hroot : sk.key.pk_root.toList = Spec.pkRoot ps.sp (ps.hf P) sk.key.sk_seed.toList sk.key.pk_seed.toList := by
    rw [hk, rootVec_toList]
  have hv := Spec.signWithR_correct ps.wf (ps.valid P) ((ps.valid P).PRFmsg sk.key.sk_prf.toList sk.key.pk_seed.toList
    M') M' sk.key.sk_seed.toList sk.key.pk_seed.toList
  have hl := sigVec_toList (P := P) M' sk.key sk.key.pk_seed
  rw [Spec.signInternal, hroot] at hl
  rw [← hl, ← hroot, ← hsame] at hv
  exact hv

/-- It succeeds if the functions are constant (and not zero). -/
example (hps : ps.family = .sha2) (b : Build) (z : Vector UInt8 ps.params.N) (s k : Fin (256 ^ ps.sp.n))
    (O : Query 4000 → Fin (256 ^ 64)) (x : Fin (256 ^ 64)) (hx : x.val ≠ 0) (hO : ∀ y, O y = x) :
    ∃ o, fullGame demoPrims z (fun _ => demoFull2 ps) s k O = (pure o : Exec b _) ∧ o.Forged := by
  refine ⟨_, fullGame_eq _ _ _ _ _ _, ?_⟩
  obtain ⟨hcons, hpk⟩ := (widePair_generated demoPrims z s k O).consistent
  have hv := const_sig2 (P0 := demoPrims) hps (by decide) hO hcons [1, 2, 3] [4, 5, 6]
  rw [fullOutcome, ← hpk]
  simp only [demoFull2, FullForger.outcome, hO, hx, if_false]
  refine ⟨hv, ?_⟩
  intro h
  have h : ([4, 5, 6] : List UInt8) = [1, 2, 3] := congrArg Prod.snd (List.mem_singleton.mp h)
  exact absurd h (by decide)

end Fips205.Props
