import Verif.Proofs.Full
import Verif.Proofs.Opt
import Verif.Proofs.Override

/-!
# The game with the code as it is, for the SHAKE parameter sets

The inputs that the code composes for `PRF_msg` and `H_msg` are different from each other and from those at places, so
these two functions are random functions of their own — unless the forger, or a randomizer, hits `SK.prf`.
-/

namespace Fips205.Props
open Fips205 Fips205.Model

variable {ps : ParamSet} {S : Finset (List UInt8)} {B w : Nat}

/-! ## The inputs -/

/-- A call of SHAKE256. -/
def shakeQ (B : Nat) (X : List UInt8) : Query B := .of B ⟨.shake256, X⟩

theorem shakeQ_val {X : List UInt8} (h : X.length ≤ B) : (shakeQ B X).1 = ⟨.shake256, X⟩ := by
  rw [shakeQ, Query.of, dif_pos h]

theorem shakeQ_inj {X Y : List UInt8} (hX : X.length ≤ B) (hY : Y.length ≤ B) (h : shakeQ B X = shakeQ B Y) : X = Y := by
  have h := congrArg Subtype.val h
  rw [shakeQ_val hX, shakeQ_val hY] at h
  exact (Call.mk.inj h).2

/-- The input of `PRF_msg`. -/
def prfIn (k : D ps) (i : D ps × S) : List UInt8 := Spec.toByte k ps.sp.n ++ Spec.toByte i.1 ps.sp.n ++ i.2.val

/-- The input of `H_msg`. -/
def msgIn (PKseed root : List UInt8) (i : D ps × S) : List UInt8 :=
  Spec.toByte i.1 ps.sp.n ++ PKseed ++ root ++ i.2.val

theorem prfIn_take (k : D ps) (i : D ps × S) : (prfIn k i).take ps.sp.n = Spec.toByte k ps.sp.n := by
  rw [prfIn, List.append_assoc, List.take_left' (Spec.toByte_length _ _)]

theorem msgIn_take (PKseed root : List UInt8) (i : D ps × S) :
    (msgIn PKseed root i).take ps.sp.n = Spec.toByte i.1 ps.sp.n := by
  rw [msgIn, List.append_assoc, List.append_assoc, List.take_left' (Spec.toByte_length _ _)]

theorem toByte_inj {n : Nat} {a b : Fin (256 ^ n)} (h : Spec.toByte a n = Spec.toByte b n) : a = b := by
  rw [← number_toByte a, h, number_toByte]

theorem prfIn_inj {k : D ps} {i j : D ps × S} (h : prfIn k i = prfIn k j) : i = j := by
  rw [prfIn, prfIn, List.append_assoc, List.append_assoc] at h
  obtain ⟨h1, h2⟩ := List.append_inj (List.append_cancel_left h) (by rw [Spec.toByte_length, Spec.toByte_length])
  exact Prod.ext (toByte_inj h1) (Subtype.ext h2)

theorem msgIn_inj {PKseed root : List UInt8} {i j : D ps × S} (h : msgIn PKseed root i = msgIn PKseed root j) : i = j := by
  rw [msgIn, msgIn, List.append_assoc, List.append_assoc, List.append_assoc, List.append_assoc] at h
  obtain ⟨h1, h2⟩ := List.append_inj h (by rw [Spec.toByte_length, Spec.toByte_length])
  exact Prod.ext (toByte_inj h1) (Subtype.ext (List.append_cancel_left (List.append_cancel_left h2)))

theorem prfIn_length (k : D ps) (i : D ps × S) (hS : ∀ M ∈ S, 3 * ps.sp.n + M.length ≤ B) : (prfIn k i).length ≤ B := by
  have := hS _ i.2.2
  simp only [prfIn, List.length_append, Spec.toByte_length]
  omega

theorem msgIn_length {PKseed root : List UInt8} (h1 : PKseed.length = ps.sp.n) (h2 : root.length = ps.sp.n)
    (i : D ps × S) (hS : ∀ M ∈ S, 3 * ps.sp.n + M.length ≤ B) : (msgIn PKseed root i).length ≤ B := by
  have := hS _ i.2.2
  simp only [msgIn, List.length_append, Spec.toByte_length]
  omega

/-- A call at a place of the key. -/
def IsPlace (ps : ParamSet) (PKseed : List UInt8) (y : Query B) : Prop :=
  ∃ x : Place, x.Exists ps.sp ∧ ∃ z, y = .of B (callOf ps PKseed x z)

theorem isPlace_input (hps : ps.family = .shake) {PKseed X : List UInt8} (hX : X.length ≤ B) (h0 : X ≠ [])
    (h : IsPlace ps PKseed (shakeQ B X)) : ∃ x : Place, x.Exists ps.sp ∧ ∃ z, X = PKseed ++ x.adrs ++ z := by
  obtain ⟨x, hx, z, h⟩ := h
  have h := congrArg (fun y : Query B => y.1.input) h
  rw [shakeQ_val hX, callOf, hps, Query.of] at h
  dsimp only at h
  split at h
  · exact ⟨x, hx, z, h⟩
  · exact absurd h h0

theorem n_pos (ps : ParamSet) : 0 < ps.sp.n := by cases ps <;> decide
theorem n_le_32 (ps : ParamSet) : ps.sp.n ≤ 32 := by cases ps <;> decide
theorem n_le_m (ps : ParamSet) : ps.sp.n ≤ ps.sp.m := by cases ps <;> decide

theorem ne_nil_of_take {X Y : List UInt8} {n : Nat} (h : X.take n = Y) (hY : Y.length = n) (hn : 0 < n) : X ≠ [] := by
  rintro rfl
  rw [List.take_nil] at h
  rw [← h] at hY
  exact absurd hY (by simpa using hn.ne)

theorem prf_not_place (hps : ps.family = .shake) {PKseed : List UInt8} (hl : PKseed.length = ps.sp.n)
    (hS : ∀ M ∈ S, 3 * ps.sp.n + M.length ≤ B) {k : D ps} (hk : k ≠ number ps.sp.n PKseed) (i : D ps × S) :
    ¬ IsPlace ps PKseed (shakeQ B (prfIn k i)) := by
  intro h
  obtain ⟨x, -, z, h⟩ := isPlace_input hps (prfIn_length k i hS)
    (ne_nil_of_take (prfIn_take k i) (Spec.toByte_length _ _) (n_pos ps)) h
  have h := congrArg (List.take ps.sp.n) h
  rw [prfIn_take, List.append_assoc, List.take_left' hl] at h
  exact hk (by rw [← h, number_toByte])

theorem sixteen_le_n (ps : ParamSet) : 16 ≤ ps.sp.n := by cases ps <;> decide

/-- The public key does not begin with an address of the key. -/
def Clear (ps : ParamSet) (PKseed root : List UInt8) : Prop :=
  ∀ x : Place, x.Exists ps.sp → x.adrs ≠ (PKseed ++ root).take 32

theorem clear_of_seed {PKseed : List UInt8} (hl : PKseed.length = ps.sp.n)
    (hseed : ∀ x : Place, x.Exists ps.sp → x.adrs.take ps.sp.n ≠ PKseed) (root : List UInt8) : Clear ps PKseed root := by
  intro x hx h
  refine hseed x hx ?_
  rw [h, List.take_take, Nat.min_eq_left (n_le_32 ps), List.take_left' hl]

theorem msg_not_place (hps : ps.family = .shake) {PKseed root : List UInt8} (hl : PKseed.length = ps.sp.n)
    (hr : root.length = ps.sp.n) (hS : ∀ M ∈ S, 3 * ps.sp.n + M.length ≤ B)
    (hc : Clear ps PKseed root) (i : D ps × S) :
    ¬ IsPlace ps PKseed (shakeQ B (msgIn PKseed root i)) := by
  intro h
  obtain ⟨x, hx, z, h⟩ := isPlace_input hps (msgIn_length hl hr i hS)
    (ne_nil_of_take (msgIn_take PKseed root i) (Spec.toByte_length _ _) (n_pos ps)) h
  rw [msgIn, List.append_assoc, List.append_assoc, List.append_assoc] at h
  have h := (List.append_inj h (by rw [Spec.toByte_length, hl])).2
  have h := congrArg (List.take 32) h
  have h16 := sixteen_le_n ps
  rw [← List.append_assoc, List.take_append_of_le_length (by rw [List.length_append, hl, hr]; omega),
    List.take_left' (adrs_length x)] at h
  exact hc x hx h.symm

/-! ## The random function with its values at these inputs drawn separately -/

/-- The inputs of `PRF_msg`. -/
def ptPrf (B : Nat) (PKseed : List UInt8) (k : D ps) (i : D ps × S) : Option (Query B) :=
  if k = number ps.sp.n PKseed then none else some (shakeQ B (prfIn k i))

/-- The inputs of `H_msg`, other than those at places. -/
noncomputable def ptMsg (B : Nat) (PKseed root : List UInt8) (k : D ps) (i : D ps × S) : Option (Query B) := by
  classical
  exact if i.1 = k ∨ IsPlace ps PKseed (shakeQ B (msgIn PKseed root i)) then none
    else some (shakeQ B (msgIn PKseed root i))

/-- The root of the key. -/
def rootBy (P0 : Spec.Prims) (PKseed : List UInt8) (s : D ps) (O : Query B → Fin (256 ^ w)) : List UInt8 :=
  Spec.pkRoot ps.sp (ps.hf (withHash P0 O)) (Spec.toByte s ps.sp.n) PKseed

/-- The function with the other values. -/
noncomputable def star (P0 : Spec.Prims) (PKseed : List UInt8) (s k : D ps) (O : Query B → Fin (256 ^ w))
    (H G : D ps × S → Fin (256 ^ w)) : Query B → Fin (256 ^ w) :=
  Oracle.over (ptPrf B PKseed k) (Oracle.over (ptMsg B PKseed (rootBy P0 PKseed s O) k) O H) G

theorem root_congr (hw : ps.sp.n ≤ w) {P0 : Spec.Prims} {PKseed : List UInt8} {s : D ps} {O O' : Query B → Fin (256 ^ w)}
    (h : ∀ y, IsPlace ps PKseed y → O y = O' y) : rootBy P0 PKseed s O = rootBy P0 PKseed s O' := by
  refine Agree.pkRoot (fun x hx z => ?_) ps.wf
  rw [hashAt_wide hw, hashAt_wide hw, h _ ⟨x, hx, z, rfl⟩]

theorem rootBy_length {P0 : Spec.Prims} {pk_seed : Vector UInt8 ps.params.N} {s : D ps} {O : Query B → Fin (256 ^ w)} :
    (rootBy P0 pk_seed.toList s O).length = ps.sp.n := by
  have h := rootVec_toList (P := withHash P0 O) (toVec ps.params.N (Spec.toByte s ps.sp.n)) pk_seed
  rw [toVec_toList ((Spec.toByte_length _ _).trans (N_eq ps))] at h
  rw [rootBy, ← h, Vector.length_toList, N_eq]

section
variable (hps : ps.family = .shake) (hw : ps.sp.n ≤ w) (P0 : Spec.Prims) (pk_seed : Vector UInt8 ps.params.N)
  (hS : ∀ M ∈ S, 3 * ps.sp.n + M.length ≤ B)
include hS

theorem ptPrf_inj (k : D ps) (i j : D ps × S) (y : Query B) (hi : ptPrf B pk_seed.toList k i = some y)
    (hj : ptPrf B pk_seed.toList k j = some y) : i = j := by
  rw [ptPrf] at hi hj
  split at hi
  · cases hi
  · rename_i hk
    rw [if_neg hk] at hj
    exact prfIn_inj (shakeQ_inj (prfIn_length k i hS) (prfIn_length k j hS)
      ((Option.some.inj hi).trans (Option.some.inj hj).symm))

theorem ptMsg_inj {root : List UInt8} (hr : root.length = ps.sp.n) (k : D ps) (i j : D ps × S) (y : Query B)
    (hi : ptMsg B pk_seed.toList root k i = some y) (hj : ptMsg B pk_seed.toList root k j = some y) : i = j := by
  rw [ptMsg] at hi hj
  split at hi
  · cases hi
  · split at hj
    · cases hj
    · have hl := seed_length pk_seed
      exact msgIn_inj (shakeQ_inj (msgIn_length hl hr i hS) (msgIn_length hl hr j hS)
        ((Option.some.inj hi).trans (Option.some.inj hj).symm))

include hps in
theorem ptPrf_off {k : D ps} {y : Query B} (hy : IsPlace ps pk_seed.toList y) (i : D ps × S) :
    ptPrf B pk_seed.toList k i ≠ some y := by
  rw [ptPrf]
  split
  · exact fun h => by cases h
  · rename_i hk
    intro h
    exact prf_not_place hps (seed_length pk_seed) hS hk i ((Option.some.inj h) ▸ hy)

omit hS in
theorem ptMsg_off {root : List UInt8} {k : D ps} {y : Query B}
    (hy : IsPlace ps pk_seed.toList y) (i : D ps × S) : ptMsg B pk_seed.toList root k i ≠ some y := by
  rw [ptMsg]
  split
  · exact fun h => by cases h
  · rename_i hn
    intro h
    exact hn (.inr ((Option.some.inj h) ▸ hy))

include hw in
theorem avg_star (s k : D ps) (f : (Query B → Fin (256 ^ w)) → ℚ) :
    Oracle.avg f = Oracle.avg fun O => Oracle.avg fun H : D ps × S → Fin (256 ^ w) =>
      Oracle.avg fun G : D ps × S → Fin (256 ^ w) => f (star P0 pk_seed.toList s k O H G) := by
  classical
  have : Nonempty (Fin (256 ^ w)) := ⟨⟨0, Nat.pow_pos (by decide)⟩⟩
  rw [Oracle.avg_over (fun _ => ptPrf B pk_seed.toList k) (fun _ => ptPrf_inj pk_seed hS k) (fun _ _ => rfl),
    Oracle.avg_comm]
  have h : ∀ G : D ps × S → Fin (256 ^ w), (Oracle.avg fun O => f (Oracle.over (ptPrf B pk_seed.toList k) O G)) =
      Oracle.avg fun O => Oracle.avg fun H : D ps × S → Fin (256 ^ w) => f (star P0 pk_seed.toList s k O H G) := by
    intro G
    rw [Oracle.avg_over (fun O => ptMsg B pk_seed.toList (rootBy P0 pk_seed.toList s O) k)
      (fun O => ptMsg_inj pk_seed hS rootBy_length k) (fun O H => ?_)]
    · rfl
    · rw [root_congr hw fun y hy => Oracle.over_off _ _ (ptMsg_off pk_seed hy)]
  simp only [h]
  rw [Oracle.avg_comm]
  refine congrArg Oracle.avg (funext fun O => ?_)
  rw [Oracle.avg_comm]

variable {P0 pk_seed} {s k : D ps} {O : Query B → Fin (256 ^ w)} {H G : D ps × S → Fin (256 ^ w)}

include hps in
theorem star_place {y : Query B} (hy : IsPlace ps pk_seed.toList y) : star P0 pk_seed.toList s k O H G y = O y := by
  rw [star, Oracle.over_off _ _ (ptPrf_off hps pk_seed hS hy),
    Oracle.over_off _ _ (ptMsg_off pk_seed hy)]

theorem star_prf (hk : k ≠ number ps.sp.n pk_seed.toList) (i : D ps × S) :
    star P0 pk_seed.toList s k O H G (shakeQ B (prfIn k i)) = G i := by
  rw [star]
  exact Oracle.over_at (ptPrf_inj pk_seed hS k) _ _ (by rw [ptPrf, if_neg hk])

theorem star_of_take {y : Query B} (hy : y.1.input.take ps.sp.n ≠ Spec.toByte k ps.sp.n) :
    star P0 pk_seed.toList s k O H G y =
      Oracle.over (ptMsg B pk_seed.toList (rootBy P0 pk_seed.toList s O) k) O H y := by
  rw [star, Oracle.over_off]
  intro i h
  rw [ptPrf] at h
  split at h
  · cases h
  · rw [← Option.some.inj h, shakeQ_val (prfIn_length k i hS), prfIn_take] at hy
    exact hy rfl

include hps in
theorem star_msg (hc : Clear ps pk_seed.toList (rootBy P0 pk_seed.toList s O)) {i : D ps × S} (hi : i.1 ≠ k) :
    star P0 pk_seed.toList s k O H G (shakeQ B (msgIn pk_seed.toList (rootBy P0 pk_seed.toList s O) i)) = H i := by
  rw [star_of_take hS]
  · exact Oracle.over_at (ptMsg_inj pk_seed hS rootBy_length k) _ _ (by
      rw [ptMsg, if_neg]
      exact fun h => h.elim hi (msg_not_place hps (seed_length pk_seed) rootBy_length hS hc i))
  · rw [shakeQ_val (msgIn_length (seed_length pk_seed) rootBy_length i hS), msgIn_take]
    exact fun h => hi (toByte_inj h)

theorem star_else {y : Query B} (hy : y.1.input.take ps.sp.n ≠ Spec.toByte k ps.sp.n)
    (h : ∀ i : D ps × S, y ≠ shakeQ B (msgIn pk_seed.toList (rootBy P0 pk_seed.toList s O) i)) :
    star P0 pk_seed.toList s k O H G y = O y := by
  rw [star_of_take hS hy, Oracle.over_off]
  intro i hi
  rw [ptMsg] at hi
  split at hi
  · cases hi
  · exact h i (Option.some.inj hi).symm

end

/-! ## The forger in the game of `Verif.Proofs.Opt` -/

/-- The input of `H_msg` that a call is for. -/
noncomputable def msgAt (S : Finset (List UInt8)) (pk : PublicKey ps.params) (y : Query B) : Option (D ps × S) := by
  classical
  exact if h : ∃ i : D ps × S, y = shakeQ B (msgIn pk.key.pk_seed.toList pk.key.pk_root.toList i) then some h.choose
    else none

theorem msgAt_some {pk : PublicKey ps.params} {y : Query B} {i : D ps × S} (h : msgAt S pk y = some i) :
    y = shakeQ B (msgIn pk.key.pk_seed.toList pk.key.pk_root.toList i) := by
  rw [msgAt] at h
  split at h
  · rename_i he
    rw [← Option.some.inj h]
    exact he.choose_spec
  · cases h

theorem msgAt_none {pk : PublicKey ps.params} {y : Query B} (h : msgAt S pk y = none) (i : D ps × S) :
    y ≠ shakeQ B (msgIn pk.key.pk_seed.toList pk.key.pk_root.toList i) := by
  rw [msgAt] at h
  split at h
  · cases h
  · rename_i he
    exact fun e => he ⟨i, e⟩

section
variable (hn : ps.sp.n ≤ w) (hm : ps.sp.m ≤ w) (τO : Query B → Fin (256 ^ (w - ps.sp.n)))
  (τH : D ps × S → Fin (256 ^ (w - ps.sp.m)))

/-- The forger: calls of `H_msg` are evaluations of it, and the rest of the values is `τO` and `τH`. -/
noncomputable def FullForger.opt (pk : PublicKey ps.params) : {q Q : Nat} → FullForger ps S B w q Q → (T Q' : Nat) →
    Q ≤ T → Q ≤ Q' → OptForger ps S B q T Q'
  | _, _, .forge sig mp, _, _, _, _ => .forge sig mp
  | _, _, .sign rnd mp next, T, Q', h, h' =>
    .sign (number ps.sp.n (rnd.getD pk.key.pk_seed).toList) mp fun r => (next r).opt pk T Q' h h'
  | _, _, .call _ _, 0, _, h, _ => absurd h (Nat.not_succ_le_zero _)
  | _, _, .call _ _, _ + 1, 0, _, h' => absurd h' (Nat.not_succ_le_zero _)
  | _, _, .call y next, T + 1, Q' + 1, h, h' =>
    match msgAt S pk y with
    | some i => .hash (toVec _ (Spec.toByte i.1 ps.sp.n)) ⟨[i.2.val], by simp, by simp⟩ fun d =>
      (next (glue hm (number ps.sp.m d.toList, τH i))).opt pk T (Q' + 1) (Nat.le_of_succ_le_succ h) (Nat.le_of_succ_le h')
    | none => .call y fun d =>
      (next (glue hn (d, τO y))).opt pk (T + 1) Q' (Nat.le_of_succ_le h) (Nat.le_of_succ_le_succ h')

/-- The values of `SK.prf` that would make a difference. -/
noncomputable def FullForger.keys (P : Spec.Prims) (pk : PublicKey ps.params) (sk : PrivateKey ps.params)
    (O : Query B → D ps) (H : MsgHash ps S) (G : Randomizer ps S) : {q Q : Nat} → FullForger ps S B w q Q → List (D ps)
  | _, _, .forge sig _ => [number ps.sp.n (sig.toList.take ps.sp.n)]
  | _, _, .sign rnd mp next =>
    G (number ps.sp.n (rnd.getD pk.key.pk_seed).toList, mp.msg) ::
      (next (.ok (ownSig P sk H (G (number ps.sp.n (rnd.getD pk.key.pk_seed).toList, mp.msg)) mp.1.flatten))).keys
        P pk sk O H G
  | _, _, .call y next =>
    number ps.sp.n (y.1.input.take ps.sp.n) ::
      (next (match msgAt S pk y with
        | some i => glue hm (H i, τH i)
        | none => glue hn (O y, τO y))).keys P pk sk O H G

theorem keys_length (P : Spec.Prims) (pk : PublicKey ps.params) (sk : PrivateKey ps.params) (O : Query B → D ps)
    (H : MsgHash ps S) (G : Randomizer ps S) {q Q : Nat} (A : FullForger ps S B w q Q) :
    (A.keys hn hm τO τH P pk sk O H G).length ≤ q + Q + 1 := by
  induction A with
  | forge sig mp => simp [FullForger.keys]
  | sign rnd mp next ih =>
    have := ih (.ok (ownSig P sk H (G (number ps.sp.n (rnd.getD pk.key.pk_seed).toList, mp.msg)) mp.1.flatten))
    simp only [FullForger.keys, List.length_cons]
    omega
  | call y next ih =>
    have := ih (match msgAt S pk y with
        | some i => glue hm (H i, τH i)
        | none => glue hn (O y, τO y))
    simp only [FullForger.keys, List.length_cons]
    omega

end

section
variable (hps : ps.family = .shake) (hn : ps.sp.n ≤ w) (hm : ps.sp.m ≤ w) (P0 : Spec.Prims)
  (pk_seed : Vector UInt8 ps.params.N) (hS : ∀ M ∈ S, 3 * ps.sp.n + M.length ≤ B)
  (s k : D ps) (hk : k ≠ number ps.sp.n pk_seed.toList)
  (O : Query B → D ps) (τO : Query B → Fin (256 ^ (w - ps.sp.n))) (H : MsgHash ps S)
  (τH : D ps × S → Fin (256 ^ (w - ps.sp.m))) (G : Randomizer ps S) (τG : D ps × S → Fin (256 ^ (w - ps.sp.n)))
  (hc : Clear ps pk_seed.toList (rootBy P0 pk_seed.toList s fun y => glue hn (O y, τO y)))

/-- The function of the game. -/
noncomputable abbrev starOf : Query B → Fin (256 ^ w) :=
  star P0 pk_seed.toList s k (fun y => glue hn (O y, τO y)) (fun i => glue hm (H i, τH i)) fun i => glue hn (G i, τG i)

theorem hf_shake (hps : ps.family = .shake) (P : Spec.Prims) : ps.hf P = Spec.shakeFns P ps.sp.n ps.sp.m := by
  rw [ParamSet.hf, hps]
  rfl

include hps hS in
theorem star_agree : Agree ps.sp pk_seed.toList (ps.hf (withHash P0 (starOf hn hm P0 pk_seed s k O τO H τH G τG)))
    (ParamSet.hfRandom ps (withHash P0 O) H) := by
  refine agree_of hn _ fun x hx z => ?_
  unfold starOf
  rw [star_place hps hS ⟨x, hx, z, rfl⟩, headOf_glue]

include hps hS in
/-- The root is that of the other game. -/
theorem star_root : rootBy P0 pk_seed.toList s (starOf hn hm P0 pk_seed s k O τO H τH G τG) =
    Spec.pkRoot ps.sp (ps.hf (withHash P0 O)) (Spec.toByte s ps.sp.n) pk_seed.toList := by
  have h1 := (star_agree hps hn hm P0 pk_seed hS s k O τO H τH G τG).pkRoot (SKseed := Spec.toByte s ps.sp.n) ps.wf
  rw [(hfRandom_same H).pkRoot] at h1
  exact h1

theorem widePair_pk {P0 : Spec.Prims} {pk_seed : Vector UInt8 ps.params.N} {s k : D ps} {O : Query B → Fin (256 ^ w)} :
    (widePair P0 pk_seed s k O).1 = pkFrom pk_seed (rootBy P0 pk_seed.toList s O) := by
  rw [widePair, keyPair, rootVec, toVec_toList ((Spec.toByte_length _ _).trans (N_eq ps))]
  rfl

theorem pairOf_root {P0 : Spec.Prims} {sk_prf pk_seed : Vector UInt8 ps.params.N} {s : D ps} {O : Query B → D ps} :
    (pairOf P0 sk_prf pk_seed s O).1 =
      pkFrom pk_seed (Spec.pkRoot ps.sp (ps.hf (withHash P0 O)) (Spec.toByte s ps.sp.n) pk_seed.toList) := by
  rw [pairOf, keyPair, rootVec, toVec_toList ((Spec.toByte_length _ _).trans (N_eq ps))]
  rfl

include hps hS in
theorem star_pk (sk_prf : Vector UInt8 ps.params.N) :
    (widePair P0 pk_seed s k (starOf hn hm P0 pk_seed s k O τO H τH G τG)).1 = (pairOf P0 sk_prf pk_seed s O).1 := by
  rw [widePair_pk, pairOf_root, star_root hps hn hm P0 pk_seed hS s k O τO H τH G τG]

theorem pk_root_eq (sk_prf : Vector UInt8 ps.params.N) : (pairOf P0 sk_prf pk_seed s O).1.key.pk_root.toList =
    rootBy P0 pk_seed.toList s (fun y => glue hn (O y, τO y)) := by
  have h : rootBy P0 pk_seed.toList s (fun y => glue hn (O y, τO y)) =
      Spec.pkRoot ps.sp (ps.hf (withHash P0 O)) (Spec.toByte s ps.sp.n) pk_seed.toList :=
    Agree.pkRoot (fun x hx z => by rw [hashAt_wide hn, hashAt_eq, headOf_glue]) ps.wf
  rw [pairOf_root, ← h]
  exact toVec_toList (rootBy_length.trans (N_eq ps))

include hps hS hc in
/-- `H_msg` is the random function. -/
theorem star_hmsg (sk_prf : Vector UInt8 ps.params.N) {R : List UInt8} (hR : R.length = ps.sp.n)
    (hRk : number ps.sp.n R ≠ k) (M : S) :
    (ps.hf (withHash P0 (starOf hn hm P0 pk_seed s k O τO H τH G τG))).Hmsg R pk_seed.toList
      (pairOf P0 sk_prf pk_seed s O).1.key.pk_root.toList M = digestBy H R M := by
  rw [pk_root_eq hn P0 pk_seed s O τO, hf_shake hps, digestBy_mem]
  change ((withHash P0 (starOf hn hm P0 pk_seed s k O τO H τH G τG)).shake256 _ ps.sp.m).toList = _
  rw [wide_shake hm, ← toByte_headOf hm]
  have e : (R ++ pk_seed.toList ++ rootBy P0 pk_seed.toList s (fun y => glue hn (O y, τO y)) ++ M.val) =
      msgIn pk_seed.toList (rootBy P0 pk_seed.toList s fun y => glue hn (O y, τO y)) (number ps.sp.n R, M) := by
    rw [msgIn, toByte_number hR]
  have h := star_msg (P0 := P0) (pk_seed := pk_seed) (s := s) (O := fun y => glue hn (O y, τO y))
    (H := fun i => glue hm (H i, τH i)) (G := fun i => glue hn (G i, τG i)) hps hS hc (i := (number ps.sp.n R, M)) hRk
  unfold starOf
  rw [e]
  unfold shakeQ at h
  rw [h, headOf_glue]

include hps hS hk hc in
/-- The signatures are those of the other game. -/
theorem star_sig (sk_prf : Vector UInt8 ps.params.N) (o : Vector UInt8 ps.params.N) (M : S)
    (hr : G (number ps.sp.n o.toList, M) ≠ k) :
    sigVec ps (withHash P0 (starOf hn hm P0 pk_seed s k O τO H τH G τG)) M
      (widePair P0 pk_seed s k (starOf hn hm P0 pk_seed s k O τO H τH G τG)).2.key o =
    ownSig (withHash P0 O) (pairOf P0 sk_prf pk_seed s O).2 H (G (number ps.sp.n o.toList, M)) M := by
  have hpk := star_pk hps hn hm P0 pk_seed hS s k O τO H τH G τG sk_prf
  have hA := star_agree hps hn hm P0 pk_seed hS s k O τO H τH G τG
  have hroot : (widePair P0 pk_seed s k (starOf hn hm P0 pk_seed s k O τO H τH G τG)).2.key.pk_root =
      (pairOf P0 sk_prf pk_seed s O).1.key.pk_root := congrArg (fun x => x.key.pk_root) hpk
  have hR : (ps.hf (withHash P0 (starOf hn hm P0 pk_seed s k O τO H τH G τG))).PRFmsg (Spec.toByte k ps.sp.n) o.toList M =
      Spec.toByte (G (number ps.sp.n o.toList, M)) ps.sp.n := by
    rw [hf_shake hps]
    change ((withHash P0 (starOf hn hm P0 pk_seed s k O τO H τH G τG)).shake256 _ ps.sp.n).toList = _
    rw [wide_shake hn, ← toByte_headOf hn]
    have e : Spec.toByte k ps.sp.n ++ o.toList ++ M.val = prfIn k (number ps.sp.n o.toList, M) := by
      rw [prfIn, toByte_number (seed_length o)]
    have h := star_prf (P0 := P0) (pk_seed := pk_seed) (s := s) (O := fun y => glue hn (O y, τO y))
      (H := fun i => glue hm (H i, τH i)) (G := fun i => glue hn (G i, τG i)) hS hk (number ps.sp.n o.toList, M)
    unfold starOf
    rw [e]
    unfold shakeQ at h
    rw [h, headOf_glue]
  have hkv : (widePair P0 pk_seed s k (starOf hn hm P0 pk_seed s k O τO H τH G τG)).2.key.sk_prf.toList =
      Spec.toByte k ps.sp.n := toVec_toList ((Spec.toByte_length _ _).trans (N_eq ps))
  rw [sigVec, Spec.signInternal, hroot, hkv, hR, ownSig]
  refine congrArg (toVec _) ?_
  refine hA.signWithR ps.wf (ps.valid _) (hfRandom_valid H) ?_
  exact star_hmsg hps hn hm P0 pk_seed hS s k O τO H τH G τG hc sk_prf (Spec.toByte_length _ _)
    (by rw [number_toByte]; exact hr) M

include hps hS hc in
/-- Verification is that of the other game. -/
theorem star_verify (sk_prf : Vector UInt8 ps.params.N) (sig : Vector UInt8 ps.params.SIG_LEN) (M : S)
    (hr : number ps.sp.n (sig.toList.take ps.sp.n) ≠ k) :
    Spec.verifyInternal ps.sp (ps.hf (withHash P0 (starOf hn hm P0 pk_seed s k O τO H τH G τG))) M sig.toList
      pk_seed.toList (pairOf P0 sk_prf pk_seed s O).1.key.pk_root.toList =
    Spec.verifyInternal ps.sp (ParamSet.hfRandom ps (withHash P0 O) H) M sig.toList pk_seed.toList
      (pairOf P0 sk_prf pk_seed s O).1.key.pk_root.toList := by
  have hA := star_agree hps hn hm P0 pk_seed hS s k O τO H τH G τG
  refine hA.verifyInternal ps.wf (ps.valid _) (hfRandom_valid H) (n_le ps) ?_
  have hs : Spec.slice sig.toList 0 ps.sp.n = sig.toList.take ps.sp.n := by
    rw [Spec.slice, List.drop_zero, Nat.sub_zero]
  rw [hs]
  refine star_hmsg hps hn hm P0 pk_seed hS s k O τO H τH G τG hc sk_prf ?_ hr M
  rw [List.length_take, Vector.length_toList]
  have : ps.sp.n ≤ ps.params.SIG_LEN := by cases ps <;> decide
  omega

include hps hS hk hc in
/-- The two games. -/
theorem star_outcome (sk_prf : Vector UInt8 ps.params.N) {q Q : Nat} (A : FullForger ps S B w q Q) :
    ∀ (T Q' : Nat) (hT : Q ≤ T) (hQ : Q ≤ Q') (asked : List (Vector UInt8 ps.params.SIG_LEN × List UInt8)),
    k ∉ A.keys hn hm τO τH (withHash P0 O) (pairOf P0 sk_prf pk_seed s O).1 (pairOf P0 sk_prf pk_seed s O).2 O H G →
    A.outcome (withHash P0 (starOf hn hm P0 pk_seed s k O τO H τH G τG)) (starOf hn hm P0 pk_seed s k O τO H τH G τG)
      (pairOf P0 sk_prf pk_seed s O).1 (widePair P0 pk_seed s k (starOf hn hm P0 pk_seed s k O τO H τH G τG)).2 asked =
    (A.opt hn hm τO τH (pairOf P0 sk_prf pk_seed s O).1 T Q' hT hQ).outcome (withHash P0 O)
      (pairOf P0 sk_prf pk_seed s O).1 (pairOf P0 sk_prf pk_seed s O).2 O H G asked := by
  induction A with
  | forge sig mp =>
    intro T Q' hT hQ asked h
    simp only [FullForger.keys, List.mem_singleton] at h
    have := star_verify hps hn hm P0 pk_seed hS s k O τO H τH G τG hc sk_prf sig mp.msg (Ne.symm h)
    simp only [FullForger.outcome, FullForger.opt, OptForger.outcome]
    exact congrArg (fun a => (⟨sig, mp.1.flatten, a, asked⟩ : Outcome ps)) this
  | sign rnd mp next ih =>
    intro T Q' hT hQ asked h
    simp only [FullForger.keys, List.mem_cons, not_or] at h
    have := star_sig hps hn hm P0 pk_seed hS s k hk O τO H τH G τG hc sk_prf (rnd.getD pk_seed) mp.msg (Ne.symm h.1)
    have this : sigVec ps (withHash P0 (starOf hn hm P0 pk_seed s k O τO H τH G τG)) mp.1.flatten
      (widePair P0 pk_seed s k (starOf hn hm P0 pk_seed s k O τO H τH G τG)).2.key (rnd.getD
        (widePair P0 pk_seed s k (starOf hn hm P0 pk_seed s k O τO H τH G τG)).2.key.pk_seed) =
      ownSig (withHash P0 O) (pairOf P0 sk_prf pk_seed s O).2 H (G (number ps.sp.n (rnd.getD
        (pairOf P0 sk_prf pk_seed s O).1.key.pk_seed).toList, mp.msg)) mp.1.flatten := this
    simp only [FullForger.outcome, FullForger.opt, OptForger.outcome]
    rw [this]
    exact ih _ T Q' hT hQ _ h.2
  | call y next ih =>
    intro T Q' hT hQ asked h
    cases T with
    | zero => exact absurd hT (Nat.not_succ_le_zero _)
    | succ T =>
    cases Q' with
    | zero => exact absurd hQ (Nat.not_succ_le_zero _)
    | succ Q' =>
    simp only [FullForger.keys, List.mem_cons, not_or] at h
    obtain ⟨h1, h2⟩ := h
    have hy : y.1.input.take ps.sp.n ≠ Spec.toByte k ps.sp.n := fun e => h1 (by rw [e, number_toByte])
    have hroot := pk_root_eq hn P0 pk_seed s O τO sk_prf
    simp only [FullForger.outcome, FullForger.opt]
    cases hi : msgAt S (pairOf P0 sk_prf pk_seed s O).1 y with
    | some i =>
      rw [hi] at h2
      have hyi := msgAt_some hi
      rw [hroot] at hyi
      have hik : i.1 ≠ k := by
        intro e
        refine hy ?_
        rw [hyi, shakeQ_val (msgIn_length (seed_length _) rootBy_length i hS), msgIn_take, e]
      have hv : starOf hn hm P0 pk_seed s k O τO H τH G τG y = glue hm (H i, τH i) := by
        rw [hyi]
        exact star_msg (P0 := P0) (pk_seed := pk_seed) (s := s) (O := fun y => glue hn (O y, τO y))
          (H := fun i => glue hm (H i, τH i)) (G := fun i => glue hn (G i, τG i)) hps hS hc hik
      have hd : number ps.sp.m (toVec ps.params.M (digestBy H (toVec ps.params.N (Spec.toByte i.1 ps.sp.n)).toList
          [i.2.val].flatten)).toList = H i := by
        rw [digestBy_vec, toVec_toList ((Spec.toByte_length _ _).trans (N_eq ps)), List.flatten_singleton, digestBy_mem,
          number_toByte, number_toByte]
      simp only [OptForger.outcome]
      rw [hv, hd]
      exact ih _ T (Q' + 1) _ _ asked h2
    | none =>
      rw [hi] at h2
      have hyi := msgAt_none hi
      rw [hroot] at hyi
      have hv : starOf hn hm P0 pk_seed s k O τO H τH G τG y = glue hn (O y, τO y) :=
        star_else (P0 := P0) (pk_seed := pk_seed) (s := s) (O := fun y => glue hn (O y, τO y))
          (H := fun i => glue hm (H i, τH i)) (G := fun i => glue hn (G i, τG i)) hS hy hyi
      simp only [OptForger.outcome]
      rw [hv]
      exact ih _ (T + 1) Q' _ _ asked h2

end

end Fips205.Props
