import Verif.Proofs.Shake

/-!
# Forging when SHAKE256 is random (C68)

`C67` takes `F`, `H`, `T`, `PRF` to be random in their outputs, but puts an independent random function in the place of
`H_msg` and independent randomizers in the place of `PRF_msg`.  Here nothing in the table of hash functions of the code is
replaced: take SHAKE256 to be a random function, and `SK.seed` and `SK.prf` to be random.  Then no forger with at most
`q` signatures, each hedged with random bytes of their choice or not hedged, and `Q` evaluations of SHAKE256 forges with a
probability of more than `(Q + 1) / 2^level + (2 (Q + v) + Q + q + 2) / 256^n`.
-/

namespace Fips205.Props
open Fips205 Fips205.Model

variable {ps : ParamSet} {S : Finset (List UInt8)} {B w : Nat}

/-- The values drawn separately, in two parts each. -/
abbrev Parts (ps : ParamSet) (S : Finset (List UInt8)) (B w : Nat) : Type :=
  ((Query B → Fin (256 ^ (w - ps.sp.n))) × (D ps × S → Fin (256 ^ (w - ps.sp.m))) ×
    (D ps × S → Fin (256 ^ (w - ps.sp.n)))) × ((Query B → D ps) × MsgHash ps S × Randomizer ps S)

/-- From the parts. -/
def partsEquiv (hn : ps.sp.n ≤ w) (hm : ps.sp.m ≤ w) : Parts ps S B w ≃
    (Query B → Fin (256 ^ w)) × (D ps × S → Fin (256 ^ w)) × (D ps × S → Fin (256 ^ w)) where
  toFun ω := (fun y => glue hn (ω.2.1 y, ω.1.1 y), fun i => glue hm (ω.2.2.1 i, ω.1.2.1 i),
    fun i => glue hn (ω.2.2.2 i, ω.1.2.2 i))
  invFun x := ((fun y => ((glue hn).symm (x.1 y)).2, fun i => ((glue hm).symm (x.2.1 i)).2,
    fun i => ((glue hn).symm (x.2.2 i)).2), (fun y => ((glue hn).symm (x.1 y)).1, fun i => ((glue hm).symm (x.2.1 i)).1,
    fun i => ((glue hn).symm (x.2.2 i)).1))
  left_inv ω := by simp only [Equiv.symm_apply_apply]
  right_inv x := by simp only [Prod.mk.eta, Equiv.apply_symm_apply]

/-- For any `PK.seed`: a term for public keys that begin with an address is added. -/
theorem shake_le (hps : ps.family = .shake) (P0 : Spec.Prims) (pk_seed : Vector UInt8 ps.params.N) (b : Build)
    (S : Finset (List UInt8)) (hw : ps.sp.m ≤ w) (hS : ∀ M ∈ S, 3 * ps.sp.n + M.length ≤ B)
    (hB : 160 + (ps.sp.len + ps.sp.k) * ps.sp.n ≤ B) {q Q : Nat}
    (hq : q * (256 ^ ps.sp.n + Q) ≤ 2 ^ 64 * 256 ^ ps.sp.n) (A : PublicKey ps.params → FullForger ps S B w q Q) :
    prob (fun ω : (Fin (256 ^ ps.sp.n) × Fin (256 ^ ps.sp.n)) × (Query B → Fin (256 ^ w)) =>
      ∃ o, fullGame P0 pk_seed A ω.1.1 ω.1.2 ω.2 = (pure o : Exec b _) ∧ o.Forged) ≤
    (Q + 1) / 2 ^ coverLevel ps + (2 * (Q + ps.sp.verifyCost) + (Q + q + 2)) / 256 ^ ps.sp.n +
      Oracle.avg fun s : D ps => Oracle.avg fun O : Query B → D ps => Oracle.ind
        (¬ Clear ps pk_seed.toList (pairOf P0 (toVec _ []) pk_seed s O).1.key.pk_root.toList) := by
  classical
  have hn : ps.sp.n ≤ w := (n_le_m ps).trans hw
  have pos : ∀ j, Nonempty (Fin (256 ^ j)) := fun j => ⟨⟨0, Nat.pow_pos (by decide)⟩⟩
  have := pos ps.sp.n
  have := pos ps.sp.m
  have := pos w
  have := pos (w - ps.sp.n)
  have := pos (w - ps.sp.m)
  let z : Vector UInt8 ps.params.N := toVec _ []
  -- the other game
  let ideal : D ps → Parts ps S B w → Prop := fun s ω =>
    (((A (pairOf P0 z pk_seed s ω.2.1).1).opt hn hw ω.1.1 ω.1.2.1 (pairOf P0 z pk_seed s ω.2.1).1 Q Q (Nat.le_refl _)
      (Nat.le_refl _)).outcome (withHash P0 ω.2.1) (pairOf P0 z pk_seed s ω.2.1).1 (pairOf P0 z pk_seed s ω.2.1).2
      ω.2.1 ω.2.2.1 ω.2.2.2 []).Forged
  let keys : D ps → Parts ps S B w → List (D ps) := fun s ω =>
    number ps.sp.n pk_seed.toList :: (A (pairOf P0 z pk_seed s ω.2.1).1).keys hn hw ω.1.1 ω.1.2.1 (withHash P0 ω.2.1)
      (pairOf P0 z pk_seed s ω.2.1).1 (pairOf P0 z pk_seed s ω.2.1).2 ω.2.1 ω.2.2.1 ω.2.2.2
  let clear : D ps → (Query B → D ps) → Prop := fun s O =>
    Clear ps pk_seed.toList (pairOf P0 z pk_seed s O).1.key.pk_root.toList
  have hkeys : ∀ s ω, (keys s ω).length ≤ Q + q + 2 := fun s ω => by
    have := keys_length hn hw ω.1.1 ω.1.2.1 (withHash P0 ω.2.1) (pairOf P0 z pk_seed s ω.2.1).1
      (pairOf P0 z pk_seed s ω.2.1).2 ω.2.1 ω.2.2.1 ω.2.2.2 (A (pairOf P0 z pk_seed s ω.2.1).1)
    simp only [keys, List.length_cons]
    omega
  have hstep : ∀ s k, (Oracle.avg fun O : Query B → Fin (256 ^ w) => Oracle.ind
      (∃ o, fullGame P0 pk_seed A s k O = (pure o : Exec b _) ∧ o.Forged)) ≤
      Oracle.avg fun ω : Parts ps S B w => Oracle.ind (ideal s ω) + Oracle.ind (k ∈ keys s ω) +
        Oracle.ind (¬ clear s ω.2.1) := by
    intro s k
    rw [avg_star hn P0 pk_seed hS s k]
    have e := Oracle.avg_prod3
      fun x : (Query B → Fin (256 ^ w)) × (D ps × S → Fin (256 ^ w)) × (D ps × S → Fin (256 ^ w)) => Oracle.ind
        (∃ o, fullGame P0 pk_seed A s k (star P0 pk_seed.toList s k x.1 x.2.1 x.2.2) = (pure o : Exec b _) ∧ o.Forged)
    dsimp only at e
    rw [← e, Oracle.avg_equiv (partsEquiv hn hw)]
    refine Oracle.avg_mono fun ω => ?_
    refine (Oracle.ind_mono ?_).trans ((Oracle.ind_or_le _ _).trans (add_le_add_left (Oracle.ind_or_le _ _) _))
    rintro ⟨o, ho, hf⟩
    by_cases hc : clear s ω.2.1
    swap
    · exact .inr hc
    by_cases hk : k ∈ keys s ω
    · exact .inl (.inr hk)
    · refine .inl (.inl ?_)
      simp only [clear] at hc
      rw [pk_root_eq hn P0 pk_seed s ω.2.1 ω.1.1] at hc
      simp only [keys, List.mem_cons, not_or] at hk
      rw [fullGame_eq] at ho
      rw [← Exec.pure_inj ho] at hf
      have h1 := star_pk hps hn hw P0 pk_seed hS s k ω.2.1 ω.1.1 ω.2.2.1 ω.1.2.1 ω.2.2.2 ω.1.2.2 z
      have h2 := star_outcome hps hn hw P0 pk_seed hS s k hk.1 ω.2.1 ω.1.1 ω.2.2.1 ω.1.2.1 ω.2.2.2 ω.1.2.2 hc z
        (A (pairOf P0 z pk_seed s ω.2.1).1) Q Q (Nat.le_refl _) (Nat.le_refl _) [] hk.2
      have hf : (fullOutcome P0 pk_seed A s k
        (starOf hn hw P0 pk_seed s k ω.2.1 ω.1.1 ω.2.2.1 ω.1.2.1 ω.2.2.2 ω.1.2.2)).Forged := hf
      rw [fullOutcome] at hf
      rw [h1, h2] at hf
      exact hf
  rw [prob_eq, Oracle.avg_prod, Oracle.avg_prod]
  refine (Oracle.avg_mono fun s => Oracle.avg_mono fun k => hstep s k).trans ?_
  simp only [Oracle.avg_add]
  have h1 : (Oracle.avg fun s : D ps => Oracle.avg fun _ : D ps => Oracle.avg fun ω : Parts ps S B w =>
      Oracle.ind (ideal s ω)) ≤ (Q + 1) / 2 ^ coverLevel ps + 2 * (Q + ps.sp.verifyCost) / 256 ^ ps.sp.n := by
    simp only [Oracle.avg_const]
    simp only [Oracle.avg_prod (α := (Query B → Fin (256 ^ (w - ps.sp.n))) × (D ps × S → Fin (256 ^ (w - ps.sp.m))) ×
    (D ps × S → Fin (256 ^ (w - ps.sp.n))))]
    rw [Oracle.avg_comm]
    refine (Oracle.avg_mono fun τ => ?_).trans (le_of_eq (Oracle.avg_const _))
    have h := opt_le (S := S) P0 z pk_seed hB hq fun pk => (A pk).opt hn hw τ.1 τ.2.1 pk Q Q (Nat.le_refl _) (Nat.le_refl _)
    refine le_trans (le_of_eq ?_) h
    refine congrArg Oracle.avg (funext fun s => ?_)
    rw [Oracle.avg_prod]
    refine congrArg Oracle.avg (funext fun O => ?_)
    rw [Oracle.avg_prod]
  have h2 : (Oracle.avg fun s : D ps => Oracle.avg fun k : D ps => Oracle.avg fun ω : Parts ps S B w =>
      Oracle.ind (k ∈ keys s ω)) ≤ (Q + q + 2) / 256 ^ ps.sp.n := by
    refine (Oracle.avg_mono fun s => ?_).trans (le_of_eq (Oracle.avg_const _))
    rw [Oracle.avg_comm]
    refine (Oracle.avg_mono fun ω => ?_).trans (le_of_eq (Oracle.avg_const _))
    refine (Oracle.avg_mem_le (keys s ω)).trans ?_
    rw [Fintype.card_fin]
    push_cast
    refine div_le_div_of_nonneg_right ?_ (by positivity)
    exact_mod_cast hkeys s ω
  have h3 : (Oracle.avg fun s : D ps => Oracle.avg fun _ : D ps => Oracle.avg fun ω : Parts ps S B w =>
      Oracle.ind (¬ clear s ω.2.1)) ≤ Oracle.avg fun s : D ps => Oracle.avg fun O => Oracle.ind (¬ clear s O) := by
    simp only [Oracle.avg_const]
    simp only [Oracle.avg_prod (α := (Query B → Fin (256 ^ (w - ps.sp.n))) × (D ps × S → Fin (256 ^ (w - ps.sp.m))) ×
    (D ps × S → Fin (256 ^ (w - ps.sp.n)))), Oracle.avg_prod (α := Query B → D ps), Oracle.avg_const]
    exact le_rfl
  rw [add_div (2 * _), ← add_assoc]
  exact add_le_add (add_le_add h1 h2) h3

/-- **C68** For the SHAKE parameter sets: take SHAKE256 to be a random function, with outputs of `w ≥ m` bytes, and
`SK.seed` and `SK.prf` to be random.  Let `PK.seed` be anything that is not the beginning of an address of the key
(otherwise the inputs composed for `H_msg` need not differ from those of the other functions), and let the messages be
not too long for the domain of the function.  Then every forger, with the public key, `q` signatures and `Q` values of
the function of their choice, forges with probability at most
`(Q + 1) / 2^coverLevel + (2 (Q + verifyCost) + (Q + q + 2)) / 256^n`. -/
theorem C68_shake (hps : ps.family = .shake) (P0 : Spec.Prims) (pk_seed : Vector UInt8 ps.params.N) (b : Build)
    (S : Finset (List UInt8)) (hw : ps.sp.m ≤ w) (hS : ∀ M ∈ S, 3 * ps.sp.n + M.length ≤ B)
    (hB : 160 + (ps.sp.len + ps.sp.k) * ps.sp.n ≤ B)
    (hseed : ∀ x : Place, x.Exists ps.sp → x.adrs.take ps.sp.n ≠ pk_seed.toList) {q Q : Nat}
    (hq : q * (256 ^ ps.sp.n + Q) ≤ 2 ^ 64 * 256 ^ ps.sp.n) (A : PublicKey ps.params → FullForger ps S B w q Q) :
    prob (fun ω : (Fin (256 ^ ps.sp.n) × Fin (256 ^ ps.sp.n)) × (Query B → Fin (256 ^ w)) =>
      ∃ o, fullGame P0 pk_seed A ω.1.1 ω.1.2 ω.2 = (pure o : Exec b _) ∧ o.Forged) ≤
    (Q + 1) / 2 ^ coverLevel ps + (2 * (Q + ps.sp.verifyCost) + (Q + q + 2)) / 256 ^ ps.sp.n := by
  have : Nonempty (Fin (256 ^ ps.sp.n)) := ⟨⟨0, Nat.pow_pos (by decide)⟩⟩
  refine (shake_le hps P0 pk_seed b S hw hS hB hq A).trans (le_of_eq ?_)
  simp only [clear_of_seed (seed_length pk_seed) hseed, not_true_eq_false, Oracle.ind, if_false, Oracle.avg_const, add_zero]

theorem full_asked {P : Spec.Prims} {O : Query B → Fin (256 ^ w)} {pk : PublicKey ps.params} {sk : PrivateKey ps.params}
    {q Q : Nat} (A : FullForger ps S B w q Q) : ∀ asked, (A.outcome P O pk sk asked).asked.length ≤ asked.length + q := by
  induction A with
  | forge sig mp => exact fun asked => Nat.le_add_right _ _
  | sign rnd mp next ih =>
    intro asked
    rw [FullForger.outcome]
    have := ih (.ok (sigVec ps P mp.1.flatten sk.key (rnd.getD sk.key.pk_seed)))
      ((sigVec ps P mp.1.flatten sk.key (rnd.getD sk.key.pk_seed), mp.1.flatten) :: asked)
    rw [List.length_cons] at this
    omega
  | call y next ih => exact fun asked => ih _ asked

/-- **C68** The game runs to its end, whatever the functions, the seeds, the forger, the parameter set and the build are. -/
theorem C68_runs (P0 : Spec.Prims) (pk_seed : Vector UInt8 ps.params.N) (b : Build) {q Q : Nat}
    (A : PublicKey ps.params → FullForger ps S B w q Q) (s k : Fin (256 ^ ps.sp.n)) (O : Query B → Fin (256 ^ w)) :
    ∃ o, fullGame P0 pk_seed A s k O = (pure o : Exec b _) ∧ o.asked.length ≤ q :=
  ⟨_, fullGame_eq P0 pk_seed A s k O, (full_asked _ []).trans (by simp)⟩

/-- The bound in bits. -/
theorem shake_bits (ps : ParamSet) {q Q t : Nat} (ht : 15 ≤ t) (hqt : q ≤ 2 ^ t) (hQ : Q < 2 ^ t) :
    ((Q : ℚ) + 1) / 2 ^ coverLevel ps + (2 * (Q + ps.sp.verifyCost) + (Q + q + 2)) / 256 ^ ps.sp.n ≤
      2 ^ (t + 4) / 2 ^ (8 * ps.sp.n) := by
  have hpow : 256 ^ ps.sp.n = 2 ^ (8 * ps.sp.n) := by rw [show 256 = 2 ^ 8 from rfl, ← Nat.pow_mul]
  have h15 : 2 ^ 15 ≤ 2 ^ t := Nat.pow_le_pow_right (by decide) ht
  have hcost : ps.sp.verifyCost ≤ 2 ^ t := (show ps.sp.verifyCost ≤ 2 ^ 15 by cases ps <;> decide).trans h15
  have hlev : 8 * ps.sp.n ≤ coverLevel ps + 1 := by cases ps <;> decide
  have e : (256 : ℚ) ^ ps.sp.n = 2 ^ (8 * ps.sp.n) := by exact_mod_cast hpow
  have hN : (0 : ℚ) < 2 ^ (8 * ps.sp.n) := by positivity
  have hL : (2 : ℚ) ^ (8 * ps.sp.n) ≤ 2 * 2 ^ coverLevel ps := by
    calc (2 : ℚ) ^ (8 * ps.sp.n) ≤ 2 ^ (coverLevel ps + 1) := pow_le_pow_right₀ (by norm_num) hlev
      _ = _ := by ring
  have h1 : ((Q : ℚ) + 1) / 2 ^ coverLevel ps ≤ 2 * 2 ^ t / 2 ^ (8 * ps.sp.n) := by
    rw [div_le_div_iff₀ (by positivity) hN]
    have : (Q : ℚ) + 1 ≤ 2 ^ t := by exact_mod_cast hQ
    calc ((Q : ℚ) + 1) * 2 ^ (8 * ps.sp.n) ≤ 2 ^ t * (2 * 2 ^ coverLevel ps) :=
          mul_le_mul this hL hN.le (by positivity)
      _ = _ := by ring
  have h2 : (2 * ((Q : ℚ) + ps.sp.verifyCost) + (Q + q + 2)) / 2 ^ (8 * ps.sp.n) ≤ 7 * 2 ^ t / 2 ^ (8 * ps.sp.n) := by
    refine div_le_div_of_nonneg_right ?_ hN.le
    have a : (Q : ℚ) ≤ 2 ^ t := by exact_mod_cast hQ.le
    have c : (ps.sp.verifyCost : ℚ) ≤ 2 ^ t := by exact_mod_cast hcost
    have d : (q : ℚ) ≤ 2 ^ t := by exact_mod_cast hqt
    have f : (2 : ℚ) ≤ 2 ^ t := by exact_mod_cast (show 2 ≤ 2 ^ 15 by decide).trans h15
    linarith
  rw [e]
  refine (add_le_add h1 h2).trans ?_
  rw [← add_div]
  refine div_le_div_of_nonneg_right ?_ hN.le
  have : (0 : ℚ) < 2 ^ t := by positivity
  rw [pow_add]
  linarith

/-- **C68** In bits: up to `2^63` signatures and `2^t` evaluations give a chance of at most `2^(t + 4 - 8 n)`. -/
theorem C68_bits (hps : ps.family = .shake) (P0 : Spec.Prims) (pk_seed : Vector UInt8 ps.params.N) (b : Build)
    (S : Finset (List UInt8)) (hw : ps.sp.m ≤ w) (hS : ∀ M ∈ S, 3 * ps.sp.n + M.length ≤ B)
    (hB : 160 + (ps.sp.len + ps.sp.k) * ps.sp.n ≤ B)
    (hseed : ∀ x : Place, x.Exists ps.sp → x.adrs.take ps.sp.n ≠ pk_seed.toList) {q Q t : Nat} (ht : 15 ≤ t)
    (htn : t ≤ 8 * ps.sp.n) (hq : q ≤ 2 ^ 63) (hqt : q ≤ 2 ^ t) (hQ : Q < 2 ^ t)
    (A : PublicKey ps.params → FullForger ps S B w q Q) :
    prob (fun ω : (Fin (256 ^ ps.sp.n) × Fin (256 ^ ps.sp.n)) × (Query B → Fin (256 ^ w)) =>
      ∃ o, fullGame P0 pk_seed A ω.1.1 ω.1.2 ω.2 = (pure o : Exec b _) ∧ o.Forged) ≤
    2 ^ (t + 4) / 2 ^ (8 * ps.sp.n) := by
  have hpow : 256 ^ ps.sp.n = 2 ^ (8 * ps.sp.n) := by rw [show 256 = 2 ^ 8 from rfl, ← Nat.pow_mul]
  have hQ' : Q ≤ 256 ^ ps.sp.n := by
    rw [hpow]; exact hQ.le.trans (Nat.pow_le_pow_right (by decide) htn)
  have hq' : q * (256 ^ ps.sp.n + Q) ≤ 2 ^ 64 * 256 ^ ps.sp.n := by
    calc q * (256 ^ ps.sp.n + Q) ≤ 2 ^ 63 * (256 ^ ps.sp.n + 256 ^ ps.sp.n) :=
          Nat.mul_le_mul hq (Nat.add_le_add_left hQ' _)
      _ = _ := by ring
  exact (C68_shake hps P0 pk_seed b S hw hS hB hseed hq' A).trans (shake_bits ps ht hqt hQ)

/-! ## The hypotheses can be met, and the event can happen -/

/-- Addresses begin with the layer, of four bytes, and no key has `2^24` layers. -/
theorem seed_ok {pk_seed : Vector UInt8 ps.params.N} (h : pk_seed.toList.head? ≠ some 0) (x : Place)
    (hx : x.Exists ps.sp) : x.adrs.take ps.sp.n ≠ pk_seed.toList := by
  intro e
  refine h ?_
  rw [← e]
  have hd : ps.sp.d < 2 ^ 24 := by cases ps <;> decide
  have hn := n_pos ps
  have hbe : ∀ (j : Nat) (l : List UInt8), j < 2 ^ 24 → (Spec.toByte j 4 ++ l).head? = some 0 := by
    intro j l hj
    have h0 : j / 256 ^ 3 = 0 := Nat.div_eq_of_lt hj
    rw [List.head?_append_of_ne_nil _ (by rw [ne_eq, ← List.length_eq_zero_iff, Spec.toByte_length]; decide)]
    simp only [Spec.toByte, List.range_succ_eq_map, List.map_cons, List.head?_cons, h0]
    rfl
  rw [List.head?_take, if_neg hn.ne']
  cases x <;> simp only [Place.adrs, Place.adrs.be, List.append_assoc] <;>
    first | exact hbe 0 _ (by decide) | exact hbe _ _ (hx.1.trans hd)

/-- A forger who has a message signed, evaluates SHAKE256, and presents the signature as one of another message. -/
def demoFull (ps : ParamSet) : FullForger ps demoSet 4000 64 1 1 :=
  .sign none ⟨[[1], [2, 3]], by decide, by decide⟩ fun
    | .ok sig => .call ⟨⟨.shake256, [7]⟩, by decide⟩ fun d =>
        if d.val = 0 then .forge (toVec _ []) ⟨[[4, 5, 6]], by decide, by decide⟩
        else .forge sig ⟨[[4, 5, 6]], by decide, by decide⟩
    | .error _ => .forge (toVec _ []) ⟨[[4, 5, 6]], by decide, by decide⟩

/-- The bound for this forger, if `PK.seed` consists of bytes `0xff`: `2^(19 - 8 n)`. -/
example (hps : ps.family = .shake) (b : Build) :
    prob (fun ω : (Fin (256 ^ ps.sp.n) × Fin (256 ^ ps.sp.n)) × (Query 4000 → Fin (256 ^ 64)) =>
      ∃ o, fullGame demoPrims (Vector.replicate _ 0xff) (fun _ => demoFull ps) ω.1.1 ω.1.2 ω.2 = (pure o : Exec b _) ∧
        o.Forged) ≤
    2 ^ (15 + 4) / 2 ^ (8 * ps.sp.n) :=
  C68_bits hps demoPrims _ b demoSet (by cases ps <;> decide) (by cases ps <;> decide) (by cases ps <;> decide)
    (seed_ok (by cases ps <;> decide)) (Nat.le_refl 15) (by cases ps <;> decide) (by decide) (by decide) (by decide) _

theorem widePair_generated (P0 : Spec.Prims) (z : Vector UInt8 ps.params.N) (s k : D ps) (O : Query B → Fin (256 ^ w)) :
    Generated (withHash P0 O) (widePair P0 z s k O).1 (widePair P0 z s k O).2 :=
  .seeds (b := ⟨false, false, 64, by decide⟩) _ _ _ (exec_keygen_with_seeds _ _ _)

theorem const_sig (hps : ps.family = .shake) (hw : ps.sp.m ≤ w) {P0 : Spec.Prims} {O : Query B → Fin (256 ^ w)}
    {x : Fin (256 ^ w)} (hO : ∀ y, O y = x) {sk : PrivateKey ps.params} (hk : Consistent (withHash P0 O) ps sk)
    (M M' : List UInt8) :
    Spec.verifyInternal ps.sp (ps.hf (withHash P0 O)) M' (sigVec ps (withHash P0 O) M sk.key sk.key.pk_seed).toList
      sk.key.pk_seed.toList sk.key.pk_root.toList = true := by
  have hc : ∀ X j, j ≤ w → ((withHash P0 O).shake256 X j).toList = (Spec.toByte x w).take j := fun X j hj => by
    rw [wide_shake hj X, hO]
  generalize withHash P0 O = P at hc hk
  have hsame : sigVec ps P M sk.key sk.key.pk_seed = sigVec ps P M' sk.key sk.key.pk_seed := by
    have e : ∀ M, (ps.hf P).PRFmsg sk.key.sk_prf.toList sk.key.pk_seed.toList M = (Spec.toByte x w).take ps.sp.n :=
      fun M => by rw [hf_shake hps]; exact hc _ _ ((n_le_m ps).trans hw)
    rw [sigVec, sigVec, Spec.signInternal, Spec.signInternal, e, e]
    refine congrArg (toVec _) (signWithR_msg _ _ ?_)
    rw [hf_shake hps]
    exact (hc _ _ hw).trans (hc _ _ hw).symm
  have hroot : sk.key.pk_root.toList = Spec.pkRoot ps.sp (ps.hf P) sk.key.sk_seed.toList sk.key.pk_seed.toList := by
    rw [hk, rootVec_toList]
  have hv := Spec.signWithR_correct ps.wf (ps.valid P) ((ps.valid P).PRFmsg sk.key.sk_prf.toList sk.key.pk_seed.toList
    M') M' sk.key.sk_seed.toList sk.key.pk_seed.toList
  have hl := sigVec_toList (P := P) M' sk.key sk.key.pk_seed
  rw [Spec.signInternal, hroot] at hl
  rw [← hl, ← hroot, ← hsame] at hv
  exact hv

/-- It succeeds if SHAKE256 is constant (and not zero). -/
example (hps : ps.family = .shake) (b : Build) (z : Vector UInt8 ps.params.N) (s k : Fin (256 ^ ps.sp.n))
    (O : Query 4000 → Fin (256 ^ 64)) (x : Fin (256 ^ 64)) (hx : x.val ≠ 0) (hO : ∀ y, O y = x) :
    ∃ o, fullGame demoPrims z (fun _ => demoFull ps) s k O = (pure o : Exec b _) ∧ o.Forged := by
  refine ⟨_, fullGame_eq _ _ _ _ _ _, ?_⟩
  obtain ⟨hcons, hpk⟩ := (widePair_generated demoPrims z s k O).consistent
  have hv := const_sig (P0 := demoPrims) hps (by cases ps <;> decide) hO hcons [1, 2, 3] [4, 5, 6]
  rw [fullOutcome, ← hpk]
  simp only [demoFull, FullForger.outcome, hO, hx, if_false]
  refine ⟨hv, ?_⟩
  intro h
  have h : ([4, 5, 6] : List UInt8) = [1, 2, 3] := congrArg Prod.snd (List.mem_singleton.mp h)
  exact absurd h (by decide)

end Fips205.Props
