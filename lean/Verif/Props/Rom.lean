import Verif.Proofs.Rom
import Verif.Proofs.Congr

/-!
# Forging when the hash functions are random (C67)

`C66` leaves open how likely a forger is to break `F`, `H`, `T` or `PRF`.  Take these to be random functions of the
inputs that the code composes for them: then a forger who may evaluate them `Q` times does so with probability at most
`2 (Q + v) / 256^n`, where `v` is the number of evaluations of a verification.  Together: no forger with at most `q`
signatures, `T` evaluations of `H_msg` and `Q` evaluations of the hash functions forges with a probability of more than
`(T + 1) / 2^level + 2 (Q + v) / 256^n`.
-/

namespace Fips205.Props
open Fips205 Fips205.Model

variable {ps : ParamSet} {S : Finset (List UInt8)} {B : Nat}

/-! ## The forger in the game of the hash functions -/

/-- A program that asks for hashes, as a player with a limited number of evaluations. -/
def askStrat {α : Type} (ps : ParamSet) (B : Nat) (PKseed : List UInt8) :
    (f : Nat) → Ask α → Oracle.Strat (Query B) (D ps) (Option (List UInt8 × List UInt8)) (List UInt8) f
  | 0, _ => .done
  | _ + 1, .pure _ => .done
  | f + 1, .ask x z k => .ask (queryAt ps B PKseed x z) fun d => askStrat ps B PKseed f (k (Spec.toByte d ps.sp.n))

/-- The forger as a player, who verifies the forgery at the end. -/
def RomForger.strat (P0 : Spec.Prims) (PKseed : List UInt8) (H : MsgHash ps S) : {q T Q : Nat} →
    RomForger ps S B q T Q → (Fin q → Fin (256 ^ ps.sp.n)) →
    Oracle.Strat (Query B) (D ps) (Option (List UInt8 × List UInt8)) (List UInt8) (ps.sp.verifyCost + Q)
  | _, _, Q, .forge sig mp, _ => askStrat ps B PKseed (ps.sp.verifyCost + Q)
      ((Spec.attempt ps.sp (ParamSet.hfRandom ps P0 H) mp.1.flatten sig.toList [] [] []).layersP ps.sp.d)
  | _, _, _, .hash R mp next, ρ => (next (toVec _ (digestBy H R.toList mp.1.flatten))).strat P0 PKseed H ρ
  | _, _, _, .sign mp next, ρ =>
    .tell (some (Spec.toByte (ρ 0) ps.sp.n, digestBy H (Spec.toByte (ρ 0) ps.sp.n) mp.1.flatten)) fun w =>
      (next (.ok (toVec _ w))).strat P0 PKseed H (Fin.tail ρ)
  | _, _, _, .call y next, ρ => .ask y fun d => (next d).strat P0 PKseed H ρ

/-- The program of the verifier does not depend on the key. -/
theorem attempt_layersP (P P' : Spec.Prims) (H : MsgHash ps S) (M SIG s k r s' k' r' : List UInt8) (j : Nat) :
    (Spec.attempt ps.sp (ParamSet.hfRandom ps P H) M SIG s k r).layersP j =
      (Spec.attempt ps.sp (ParamSet.hfRandom ps P' H) M SIG s' k' r').layersP j := by
  simp only [Spec.attempt]
  apply Spec.Attempt.layersP_congr <;> rfl

theorem hashAt_random (P : Spec.Prims) (H : MsgHash ps S) (PKseed : List UInt8) (x : Place) (z : List UInt8) :
    hashAt (ParamSet.hfRandom ps P H) PKseed x z = hashAt (ps.hf P) PKseed x z := by
  unfold hashAt
  rfl

section
variable {P0 : Spec.Prims} {PKseed : List UInt8} (hl : PKseed.length = ps.sp.n) (hB : 160 + inputBound ps ≤ B)

/-- The function of the game. -/
noncomputable abbrev realO (V : Option (Slot ps) → D ps) (F : Query B → D ps) : Query B → D ps :=
  (romSys hl hB).real V F

theorem real_inp (V : Option (Slot ps) → D ps) (F : Query B → D ps) (x : Slot ps) :
    realO hl hB V F (queryAt ps B PKseed x.1 (argOf V x.1)) = V (some x) := by
  have h : (romSys hl hB).at? ((romSys hl hB).inp x V) = some x := (romSys hl hB).at_inp x V
  change (romSys hl hB).real V F ((romSys hl hB).inp x V) = _
  simp only [Oracle.Sys.real]
  rw [h]
  exact if_pos rfl

theorem real_ne (V : Option (Slot ps) → D ps) (F : Query B → D ps) (x : Slot ps) {z : List UInt8}
    (hz : z.length ≤ inputBound ps) (hne : z ≠ argOf V x.1) :
    realO hl hB V F (queryAt ps B PKseed x.1 z) = F (queryAt ps B PKseed x.1 z) := by
  have h : (romSys hl hB).at? (queryAt ps B PKseed x.1 z) = some x := placeOf_query hl hB x hz
  simp only [realO, Oracle.Sys.real]
  rw [h]
  exact if_neg fun e => hne (queryAt_inj hl hB x hz (argOf_length V x.1) e)

theorem askStrat_bad {α : Type} (V : Option (Slot ps) → D ps) (F : Query B → D ps) (u : Set Place) {x : Place}
    {z : List UInt8} (hb : (romSys hl hB).Bad V F u (queryAt ps B PKseed x z)) (h : Place → List UInt8 → List UInt8)
    (hh : ∀ x z, h x z = Spec.toByte (realO hl hB V F (queryAt ps B PKseed x z)) ps.sp.n) :
    ∀ (f : Nat) (a : Ask α), (x, z) ∈ a.asked h → (a.asked h).length ≤ f →
      (romSys hl hB).BadRun V F (askStrat ps B PKseed f a) u := by
  intro f
  induction f with
  | zero =>
    intro a hm hf
    rw [List.length_eq_zero_iff.mp (Nat.le_zero.mp hf)] at hm
    cases hm
  | succ f ih =>
    intro a hm hf
    cases a with
    | pure a => cases hm
    | ask x' z' k =>
      simp only [askStrat, Oracle.Sys.BadRun]
      rcases List.mem_cons.mp hm with e | hm
      · obtain ⟨rfl, rfl⟩ := Prod.mk.inj e
        exact .inl hb
      · refine .inr ?_
        have e := hh x' z'
        rw [realO] at e
        rw [← e]
        exact ih _ hm (Nat.le_of_succ_le_succ hf)

/-- The values of the key are those of the game. -/
theorem values_eq (V : Option (Slot ps) → D ps) (F : Query B → D ps) (H : MsgHash ps S) {x : Place}
    (hx : x.Exists ps.sp) :
    valueAt ps.sp (ParamSet.hfRandom ps (withHash P0 (realO hl hB V F)) H) (Spec.toByte (V none) ps.sp.n) PKseed x =
      bytesOf V x := by
  refine valueAt_unique ps.wf (fun x hx => ?_) hx
  change _ = hashAt (ps.hf (withHash P0 (realO hl hB V F))) PKseed x _
  rw [hashAt_eq, bytesOf_pos V hx]
  exact congrArg (fun d : D ps => Spec.toByte d ps.sp.n) (real_inp hl hB V F ⟨x, hx⟩).symm

end

section
variable {P0 : Spec.Prims} {sk : PrivateKey ps.params} (hl : sk.key.pk_seed.toList.length = ps.sp.n)
  (hB : 160 + inputBound ps ≤ B) {V : Option (Slot ps) → D ps} {F : Query B → D ps} {O : Query B → D ps}
  (hO : O = realO hl hB V F) (hs : sk.key.sk_seed.toList = Spec.toByte (V none) ps.sp.n)
include hO hs

/-- A signature is what the player is told. -/
theorem ownSig_view (H : MsgHash ps S) (r : Fin (256 ^ ps.sp.n)) (M : List UInt8) :
    ownSig (withHash P0 O) sk H r M =
      toVec _ (viewOf ps (some (Spec.toByte r ps.sp.n, digestBy H (Spec.toByte r ps.sp.n) M)) V) := by
  rw [ownSig, signWithR_eq ps.wf (hfRandom_valid H), hs, hO]
  refine congrArg (toVec _) ?_
  exact sigAt_told ps.wf (u := Set.univ) (Set.subset_univ _) fun x hx _ => values_eq hl hB V F H hx

/-- A forgery that breaks something shows in the game of the hash functions. -/
theorem forge_bad (H : MsgHash ps S) (o : Outcome ps) (u : Set Place)
    (hu : ∀ x ∈ u, ∃ e ∈ o.asked, ∃ j < ps.sp.k, place ps (sigDigest H e.1 e.2) j = x)
    (h : o.Breaks (withHash P0 O) sk H) (Q : Nat) :
    (romSys hl hB).BadRun V F (askStrat ps B sk.key.pk_seed.toList (ps.sp.verifyCost + Q)
      ((Spec.attempt ps.sp (ParamSet.hfRandom ps P0 H) o.msg o.sig.toList [] [] []).layersP ps.sp.d)) u := by
  have hlen : o.sig.toList.length = ps.sp.sigLen := by
    rw [Vector.length_toList]; cases ps <;> rfl
  have ok := (Spec.attempt_ok ps.wf (hfRandom_valid (P := withHash P0 O) H) (n_le ps) (M := o.msg)
    (SKseed := sk.key.sk_seed.toList) (PKseed := sk.key.pk_seed.toList) (PKroot := sk.key.pk_root.toList) hlen).1
  obtain ⟨h2, h1⟩ := two_le_len ps
  have hshow : ∃ x z, (Spec.attempt ps.sp (ParamSet.hfRandom ps (withHash P0 O) H) o.msg o.sig.toList
      sk.key.sk_seed.toList sk.key.pk_seed.toList sk.key.pk_root.toList).Shows u x z := by
    rcases h with h | ⟨i, hi, hs, hn⟩
    · exact Spec.Attempt.break_shows (Nat.le_of_succ_le h2) h1 ok h u
    · refine Spec.Attempt.fors_shows (Nat.le_of_succ_le h2) h1 ok hi ?_ ?_
      · rw [vSecret_disclosed _ H _ _ hi, hs]
        exact (hSecret_secretAt _ H _ _ i).symm
      · intro hm
        obtain ⟨e, he, j, hj, hp⟩ := hu _ hm
        exact hn e he j hj hp
  obtain ⟨x, z, hx, hz, hm, hv⟩ := hshow
  rw [attempt_layersP P0 (withHash P0 O) H o.msg o.sig.toList [] [] [] sk.key.sk_seed.toList sk.key.pk_seed.toList
    sk.key.pk_root.toList]
  have hcost : ((Spec.attempt ps.sp (ParamSet.hfRandom ps (withHash P0 O) H) o.msg o.sig.toList
      sk.key.sk_seed.toList sk.key.pk_seed.toList sk.key.pk_root.toList).layersP ps.sp.d |>.asked
      (hashAt (ParamSet.hfRandom ps (withHash P0 O) H) sk.key.pk_seed.toList)).length ≤ ps.sp.verifyCost + Q :=
    (Spec.Attempt.length_layersP ps.sp.d).trans (Nat.le_add_right ps.sp.verifyCost Q)
  refine askStrat_bad hl hB V F u (x := x) (z := z) ?_ (hashAt (ParamSet.hfRandom ps (withHash P0 O) H)
    sk.key.pk_seed.toList) (fun x z => ?_) _ _ hm hcost
  swap
  · rw [← hO, hashAt_random, hashAt_eq]
    rfl
  have hval : ∀ y : Place, y.Exists ps.sp → valueAt ps.sp (ParamSet.hfRandom ps (withHash P0 O) H)
      sk.key.sk_seed.toList sk.key.pk_seed.toList y = bytesOf V y := fun y hy => by
    rw [hs, hO]
    exact values_eq hl hB V F H hy
  have harg : argAt ps.sp sk.key.sk_seed.toList (valueAt ps.sp (ParamSet.hfRandom ps (withHash P0 O) H)
        sk.key.sk_seed.toList sk.key.pk_seed.toList) x = argOf V x := by
    rw [argOf, ← hs]
    exact argAt_congr hx fun y hy _ => hval y hy
  refine ⟨⟨x, hx⟩, placeOf_query hl hB ⟨x, hx⟩ hz, ?_⟩
  rcases hv with ⟨hne, heq⟩ | ⟨hh, heq⟩
  · refine .inl ?_
    have hne : z ≠ argOf V x := fun e => hne (e.trans harg.symm)
    rw [← real_ne hl hB V F ⟨x, hx⟩ hz hne, ← hO]
    have heq := heq.trans (hval x hx)
    change hashAt (ParamSet.hfRandom ps (withHash P0 O) H) sk.key.pk_seed.toList x z = _ at heq
    rw [hashAt_random, hashAt_eq, bytesOf_pos V hx] at heq
    have heq := congrArg (number ps.sp.n) heq
    rwa [number_toByte, number_toByte] at heq
  · refine .inr ⟨?_, ?_⟩
    · exact (hid_congr (u := u) (fun y hy _ => hval y hy) hx u).mp hh
    · rw [heq]
      exact congrArg (queryAt ps B sk.key.pk_seed.toList x) harg

/-- The game of the forger and that of the player. -/
theorem strat_bad (H : MsgHash ps S) (pk : PublicKey ps.params) {q T Q : Nat} (A : RomForger ps S B q T Q) :
    ∀ ρ asked (u : Set Place),
    (∀ x ∈ u, ∃ e ∈ asked, ∃ j < ps.sp.k, place ps (sigDigest H e.1 e.2) j = x) →
    ((A.run O).outcome (withHash P0 O) pk sk H ρ asked).Breaks (withHash P0 O) sk H →
    (romSys hl hB).BadRun V F (A.strat P0 sk.key.pk_seed.toList H ρ) u := by
  induction A with
  | @forge q T Q sig mp =>
    intro ρ asked u hu h
    exact forge_bad hl hB hO hs H _ u hu h Q
  | hash R mp next ih =>
    intro ρ asked u hu h
    exact ih _ ρ asked u hu h
  | sign mp next ih =>
    intro ρ asked u hu h
    simp only [RomForger.strat, Oracle.Sys.BadRun]
    simp only [RomForger.run, Forger.outcome] at h
    have hsig := ownSig_view (P0 := P0) hl hB hO hs H (ρ 0) mp.1.flatten
    rw [hsig] at h
    refine ih _ (Fin.tail ρ) _ _ ?_ h
    rintro x (hx | ⟨i, hi, rfl⟩)
    · obtain ⟨e, he, j, hj, hp⟩ := hu x hx
      exact ⟨e, List.mem_cons_of_mem _ he, j, hj, hp⟩
    · refine ⟨_, List.mem_cons_self, i, hi, ?_⟩
      rw [← hsig]
      have hd := ownSig_digest (P := withHash P0 O) sk H (ρ 0, mp.msg)
      have hd2 := digestBy_mem H (Spec.toByte (ρ 0) ps.sp.n) mp.msg
      rw [number_toByte] at hd2
      dsimp only [Pieces.msg] at hd hd2
      dsimp only
      rw [hd, ← hd2]
      rfl
  | call y next ih =>
    intro ρ asked u hu h
    simp only [RomForger.run] at h
    rw [hO] at h
    simp only [RomForger.strat, Oracle.Sys.BadRun]
    refine .inr (ih _ ρ asked u hu ?_)
    rw [hO]
    exact h

end

/-! ## The theorem -/

section
variable {P0 : Spec.Prims} {sk_prf pk_seed : Vector UInt8 ps.params.N}

theorem seed_length (v : Vector UInt8 ps.params.N) : v.toList.length = ps.sp.n :=
  (Vector.length_toList ..).trans (N_eq ps).symm

/-- The key pair of the game. -/
def pairOf (P0 : Spec.Prims) (sk_prf pk_seed : Vector UInt8 ps.params.N) (s : D ps) (O : Query B → D ps) :
    PublicKey ps.params × PrivateKey ps.params :=
  keyPair ps (withHash P0 O) (toVec ps.params.N (Spec.toByte s ps.sp.n)) sk_prf pk_seed

theorem skseed_eq (s : D ps) (O : Query B → D ps) :
    (pairOf P0 sk_prf pk_seed s O).2.key.sk_seed.toList = Spec.toByte s ps.sp.n :=
  toVec_toList ((Spec.toByte_length _ _).trans (N_eq ps))

/-- The outcome of the game. -/
def romOutcome {q T Q : Nat} (P0 : Spec.Prims) (sk_prf pk_seed : Vector UInt8 ps.params.N)
    (A : PublicKey ps.params → RomForger ps S B q T Q) (s : D ps) (O : Query B → D ps)
    (H : MsgHash ps S) (ρ : Fin q → Fin (256 ^ ps.sp.n)) : Outcome ps :=
  let k := pairOf P0 sk_prf pk_seed s O
  ((A k.1).run O).outcome (withHash P0 O) k.1 k.2 H ρ []

theorem romGame_eq {b : Build} {q T Q : Nat} (A : PublicKey ps.params → RomForger ps S B q T Q) (s : D ps)
    (O : Query B → D ps) (H : MsgHash ps S) (ρ : Fin q → Fin (256 ^ ps.sp.n)) :
    romGame P0 sk_prf pk_seed A s O H ρ = (pure (romOutcome P0 sk_prf pk_seed A s O H ρ) : Exec b _) := by
  rw [romGame, exec_keygen_with_seeds, pure_bind]
  exact attack_eq _ _ _ _ _ _

/-- The public key from its root. -/
def pkFrom (pk_seed : Vector UInt8 ps.params.N) (root : List UInt8) : PublicKey ps.params := ⟨⟨pk_seed, toVec _ root⟩⟩

theorem top_exists : (Place.node (ps.sp.d - 1) 0 ps.sp.hp 0).Exists ps.sp :=
  node_exists (by have := ps.wf.d_pos; omega) (Nat.two_pow_pos _) (Nat.le_refl _) (Nat.two_pow_pos _)

theorem pairOf_pk (hB : 160 + inputBound ps ≤ B) (V : Option (Slot ps) → D ps) (F : Query B → D ps) :
    (pairOf P0 sk_prf pk_seed (V none) (realO (seed_length pk_seed) hB V F)).1 = pkFrom pk_seed (viewOf ps none V) := by
  have h := values_eq (P0 := P0) (S := ∅) (seed_length pk_seed) hB V F (fun x => absurd x.2.2 (Finset.notMem_empty _))
    top_exists
  rw [valueAt_node] at h
  have hr : (rootVec ps (withHash P0 (realO (seed_length pk_seed) hB V F))
      (toVec ps.params.N (Spec.toByte (V none) ps.sp.n)) pk_seed) = toVec _ (viewOf ps none V) := by
    rw [rootVec, ← (hfRandom_same (S := ∅) fun x => absurd x.2.2 (Finset.notMem_empty _)).pkRoot,
      toVec_toList ((Spec.toByte_length _ _).trans (N_eq ps))]
    exact congrArg (toVec _) h
  exact congrArg (fun r => (⟨⟨pk_seed, r⟩⟩ : PublicKey ps.params)) hr

/-- The hash functions give little away. -/
theorem breaks_le (hB : 160 + inputBound ps ≤ B) {q T Q : Nat} (A : PublicKey ps.params → RomForger ps S B q T Q)
    (H : MsgHash ps S) (ρ : Fin q → Fin (256 ^ ps.sp.n)) :
    (Oracle.avg fun s : D ps => Oracle.avg fun O : Query B → D ps =>
      Oracle.ind ((romOutcome P0 sk_prf pk_seed A s O H ρ).Breaks (withHash P0 O) (pairOf P0 sk_prf pk_seed s O).2 H)) ≤
      2 * (Q + ps.sp.verifyCost) / 256 ^ ps.sp.n := by
  classical
  have : Nonempty (D ps) := ⟨⟨0, Nat.pow_pos (by decide)⟩⟩
  rw [(romSys (seed_length pk_seed) hB).avg_real
    (fun s O => Oracle.ind ((romOutcome P0 sk_prf pk_seed A s O H ρ).Breaks (withHash P0 O) (pairOf P0 sk_prf pk_seed s O).2 H))
    (fun s O x => number ps.sp.n (valueAt ps.sp (ParamSet.hfRandom ps (withHash P0 O) H) (Spec.toByte s ps.sp.n)
      pk_seed.toList x.1)) (fun V F => funext fun x => by
        rw [values_eq (seed_length pk_seed) hB V F H x.2, bytesOf_pos V x.2, number_toByte])]
  have h := (romSys (seed_length pk_seed) hB).badRun_le
    (.tell none fun root => (A (pkFrom pk_seed root)).strat P0 pk_seed.toList H ρ) ∅
  refine (Oracle.avg_mono fun V => Oracle.avg_mono fun F => Oracle.ind_mono fun hb => ?_).trans
    (h.trans (le_of_eq ?_))
  · simp only [Oracle.Sys.BadRun]
    refine strat_bad (P0 := P0) (sk := (pairOf P0 sk_prf pk_seed (V none) (realO (seed_length pk_seed) hB V F)).2)
      (seed_length pk_seed) hB rfl (skseed_eq _ _) H
      (pairOf P0 sk_prf pk_seed (V none) (realO (seed_length pk_seed) hB V F)).1 _ ρ [] ∅
      (fun x hx => absurd hx (Set.notMem_empty x)) ?_
    rw [romOutcome, pairOf_pk] at hb
    rw [pairOf_pk]
    exact hb
  · rw [Fintype.card_fin]
    push_cast
    ring

end

/-- **C67** Take the hash functions to be random in their first `n` bytes, `H_msg` to be a random function, the
randomizers and the secret seed to be random; `PK.seed`, `SK.prf` and the rest `P0` of the hash functions may be
anything.  Then every forger, with the public key, `q` signatures, `T` digests and `Q` hash values of their choice,
forges with probability at most `(T + 1) / 2^coverLevel + 2 (Q + verifyCost) / 256^n`. -/
theorem C67_random_functions (P0 : Spec.Prims) (sk_prf pk_seed : Vector UInt8 ps.params.N) (b : Build)
    (S : Finset (List UInt8)) (hB : 160 + (ps.sp.len + ps.sp.k) * ps.sp.n ≤ B) {q T Q : Nat}
    (hq : q * (256 ^ ps.sp.n + T) ≤ 2 ^ 64 * 256 ^ ps.sp.n) (A : PublicKey ps.params → RomForger ps S B q T Q) :
    prob (fun ω : (Fin (256 ^ ps.sp.n) × (Query B → Fin (256 ^ ps.sp.n))) ×
        (MsgHash ps S × (Fin q → Fin (256 ^ ps.sp.n))) =>
      ∃ o, romGame P0 sk_prf pk_seed A ω.1.1 ω.1.2 ω.2.1 ω.2.2 = (pure o : Exec b _) ∧ o.Forged) ≤
    (T + 1) / 2 ^ coverLevel ps + 2 * (Q + ps.sp.verifyCost) / 256 ^ ps.sp.n := by
  have : Nonempty (Fin (256 ^ ps.sp.n)) := ⟨⟨0, Nat.pow_pos (by decide)⟩⟩
  have : Nonempty (Fin (256 ^ ps.sp.m)) := ⟨⟨0, Nat.pow_pos (by decide)⟩⟩
  rw [prob_eq, Oracle.avg_prod]
  -- for each key and each choice of the hash functions, C66
  have h1 : ∀ k : Fin (256 ^ ps.sp.n) × (Query B → Fin (256 ^ ps.sp.n)),
      (Oracle.avg fun ω : MsgHash ps S × (Fin q → Fin (256 ^ ps.sp.n)) => Oracle.ind
        (∃ o, romGame P0 sk_prf pk_seed A k.1 k.2 ω.1 ω.2 = (pure o : Exec b _) ∧ o.Forged)) ≤
      (Oracle.avg fun ω : MsgHash ps S × (Fin q → Fin (256 ^ ps.sp.n)) => Oracle.ind
        ((romOutcome P0 sk_prf pk_seed A k.1 k.2 ω.1 ω.2).Breaks (withHash P0 k.2)
          (pairOf P0 sk_prf pk_seed k.1 k.2).2 ω.1)) + (T + 1) / 2 ^ coverLevel ps := by
    rintro ⟨s, O⟩
    have hk : Generated (withHash P0 O) (pairOf P0 sk_prf pk_seed s O).1 (pairOf P0 sk_prf pk_seed s O).2 :=
      .seeds (b := b) _ _ _ (exec_keygen_with_seeds _ _ _)
    have h := C66_random_function hk b S hq ((A (pairOf P0 sk_prf pk_seed s O).1).run O)
    rw [prob_eq, prob_eq] at h
    refine le_trans (Oracle.avg_mono fun ω => Oracle.ind_mono ?_) (h.trans (add_le_add_left
      (Oracle.avg_mono fun ω => Oracle.ind_mono ?_) _))
    · rintro ⟨o, ho, hf⟩
      refine ⟨o, ?_, hf⟩
      rw [romGame_eq] at ho
      rw [← ho]
      exact attack_eq _ _ _ _ _ _
    · rintro ⟨o, ho, -, hb⟩
      rw [attack_eq] at ho
      have ho := Exec.pure_inj ho
      subst ho
      exact hb
  refine (Oracle.avg_mono h1).trans ?_
  rw [Oracle.avg_add, Oracle.avg_const, add_comm]
  refine add_le_add_right ?_ _
  rw [Oracle.avg_comm]
  refine (Oracle.avg_mono fun ω => ?_).trans (le_of_eq (Oracle.avg_const _))
  rw [Oracle.avg_prod]
  exact breaks_le hB A ω.1 ω.2

/-- **C67** The game runs to its end, whatever the functions, the seeds, the forger and the build are. -/
theorem C67_runs (P0 : Spec.Prims) (sk_prf pk_seed : Vector UInt8 ps.params.N) (b : Build) {q T Q : Nat}
    (A : PublicKey ps.params → RomForger ps S B q T Q) (s : Fin (256 ^ ps.sp.n)) (O : Query B → Fin (256 ^ ps.sp.n))
    (H : MsgHash ps S) (ρ : Fin q → Fin (256 ^ ps.sp.n)) :
    ∃ o, romGame P0 sk_prf pk_seed A s O H ρ = (pure o : Exec b _) ∧ o.asked.length ≤ q := by
  have hk : Generated (withHash P0 O) (pairOf P0 sk_prf pk_seed s O).1 (pairOf P0 sk_prf pk_seed s O).2 :=
    .seeds (b := b) _ _ _ (exec_keygen_with_seeds _ _ _)
  obtain ⟨o, ho, hn, _⟩ := C66_attack_runs hk b H ((A (pairOf P0 sk_prf pk_seed s O).1).run O) ρ
  refine ⟨o, ?_, hn⟩
  rw [romGame_eq, ← ho]
  exact (attack_eq _ _ _ _ _ _).symm

/-- **C67** In bits: up to `2^63` signatures and `2^t` evaluations give a chance of at most `2^(t + 3 - 8 n)`. -/
theorem C67_bits (P0 : Spec.Prims) (sk_prf pk_seed : Vector UInt8 ps.params.N) (b : Build)
    (S : Finset (List UInt8)) (hB : 160 + (ps.sp.len + ps.sp.k) * ps.sp.n ≤ B) {q T Q t : Nat} (ht : 15 ≤ t)
    (htn : t ≤ 8 * ps.sp.n) (hq : q ≤ 2 ^ 63) (hT : T < 2 ^ t) (hQ : Q ≤ 2 ^ t)
    (A : PublicKey ps.params → RomForger ps S B q T Q) :
    prob (fun ω : (Fin (256 ^ ps.sp.n) × (Query B → Fin (256 ^ ps.sp.n))) ×
        (MsgHash ps S × (Fin q → Fin (256 ^ ps.sp.n))) =>
      ∃ o, romGame P0 sk_prf pk_seed A ω.1.1 ω.1.2 ω.2.1 ω.2.2 = (pure o : Exec b _) ∧ o.Forged) ≤
    2 ^ (t + 3) / 2 ^ (8 * ps.sp.n) := by
  have hpow : 256 ^ ps.sp.n = 2 ^ (8 * ps.sp.n) := by rw [show 256 = 2 ^ 8 from rfl, ← Nat.pow_mul]
  have hT' : T ≤ 256 ^ ps.sp.n := by
    rw [hpow]; exact hT.le.trans (Nat.pow_le_pow_right (by decide) htn)
  have hq' : q * (256 ^ ps.sp.n + T) ≤ 2 ^ 64 * 256 ^ ps.sp.n := by
    calc q * (256 ^ ps.sp.n + T) ≤ 2 ^ 63 * (256 ^ ps.sp.n + 256 ^ ps.sp.n) :=
          Nat.mul_le_mul hq (Nat.add_le_add_left hT' _)
      _ = _ := by ring
  refine (C67_random_functions P0 sk_prf pk_seed b S hB hq' A).trans ?_
  have hcost : ps.sp.verifyCost ≤ 2 ^ t :=
    (show ps.sp.verifyCost ≤ 2 ^ 15 by cases ps <;> decide).trans (Nat.pow_le_pow_right (by decide) ht)
  have hlev : 8 * ps.sp.n ≤ coverLevel ps + 1 := by cases ps <;> decide
  have e : (256 : ℚ) ^ ps.sp.n = 2 ^ (8 * ps.sp.n) := by exact_mod_cast hpow
  have hN : (0 : ℚ) < 2 ^ (8 * ps.sp.n) := by positivity
  have hL : (2 : ℚ) ^ (8 * ps.sp.n) ≤ 2 * 2 ^ coverLevel ps := by
    calc (2 : ℚ) ^ (8 * ps.sp.n) ≤ 2 ^ (coverLevel ps + 1) := pow_le_pow_right₀ (by norm_num) hlev
      _ = _ := by ring
  have h1 : ((T : ℚ) + 1) / 2 ^ coverLevel ps ≤ 2 * 2 ^ t / 2 ^ (8 * ps.sp.n) := by
    rw [div_le_div_iff₀ (by positivity) hN]
    have : (T : ℚ) + 1 ≤ 2 ^ t := by exact_mod_cast hT
    calc ((T : ℚ) + 1) * 2 ^ (8 * ps.sp.n) ≤ 2 ^ t * (2 * 2 ^ coverLevel ps) :=
          mul_le_mul this hL hN.le (by positivity)
      _ = _ := by ring
  have h2 : 2 * ((Q : ℚ) + ps.sp.verifyCost) / 2 ^ (8 * ps.sp.n) ≤ 4 * 2 ^ t / 2 ^ (8 * ps.sp.n) := by
    refine div_le_div_of_nonneg_right ?_ hN.le
    have a : (Q : ℚ) ≤ 2 ^ t := by exact_mod_cast hQ
    have c : (ps.sp.verifyCost : ℚ) ≤ 2 ^ t := by exact_mod_cast hcost
    linarith
  rw [e]
  refine (add_le_add h1 h2).trans ?_
  rw [← add_div]
  refine div_le_div_of_nonneg_right ?_ hN.le
  have : (0 : ℚ) < 2 ^ t := by positivity
  rw [pow_add]
  linarith

/-! ## The hypotheses can be met, and the event can happen -/

/-- A forger who has a message signed, evaluates a hash function and `H_msg`, and presents the signature as one of
another message. -/
def demoForger (ps : ParamSet) : RomForger ps demoSet 4000 1 1 1 :=
  .sign ⟨[[1], [2, 3]], by decide, by decide⟩ fun
    | .ok sig => .call ⟨⟨.sha256, [7]⟩, by decide⟩ fun d =>
      .hash (toVec _ (sig.toList.take ps.sp.n)) ⟨[[4, 5, 6]], by decide, by decide⟩ fun _ =>
        if d.val = 0 then .forge (toVec _ []) ⟨[[4, 5, 6]], by decide, by decide⟩
        else .forge sig ⟨[[4, 5, 6]], by decide, by decide⟩
    | .error _ => .forge (toVec _ []) ⟨[[4, 5, 6]], by decide, by decide⟩

/-- The bound for this forger: `2^(18 - 8 n)`. -/
example (ps : ParamSet) (b : Build) (z : Vector UInt8 ps.params.N) :
    prob (fun ω : (Fin (256 ^ ps.sp.n) × (Query 4000 → Fin (256 ^ ps.sp.n))) ×
        (MsgHash ps demoSet × (Fin 1 → Fin (256 ^ ps.sp.n))) =>
      ∃ o, romGame demoPrims z z (fun _ => demoForger ps) ω.1.1 ω.1.2 ω.2.1 ω.2.2 = (pure o : Exec b _) ∧ o.Forged) ≤
    2 ^ (15 + 3) / 2 ^ (8 * ps.sp.n) :=
  C67_bits demoPrims z z b demoSet (by cases ps <;> decide) (Nat.le_refl 15) (by cases ps <;> decide) (by decide)
    (by decide) (by decide) _

/-- It succeeds if the functions are constant (and not zero). -/
example (ps : ParamSet) (b : Build) (z : Vector UInt8 ps.params.N) (s : Fin (256 ^ ps.sp.n)) (d : Fin (256 ^ ps.sp.m))
    (x : Fin (256 ^ ps.sp.n)) (hx : x.val ≠ 0) (ρ : Fin 1 → Fin (256 ^ ps.sp.n)) :
    ∃ o, romGame demoPrims z z (fun _ => demoForger ps) s (fun _ => x) (fun _ => d) ρ = (pure o : Exec b _) ∧
      o.Forged := by
  have hk : Generated (withHash demoPrims fun _ : Query 4000 => x) (pairOf demoPrims z z s fun _ : Query 4000 => x).1
      (pairOf demoPrims z z s fun _ : Query 4000 => x).2 := .seeds (b := b) _ _ _ (exec_keygen_with_seeds _ _ _)
  obtain ⟨o, ho, hf, _⟩ := C66_collision_forges hk b (fun _ : Fin (256 ^ ps.sp.n) × demoSet => d) ρ
    ⟨[[1], [2, 3]], by decide, by decide⟩ ⟨[[4, 5, 6]], by decide, by decide⟩
    (fun h => absurd (congrArg Subtype.val h) (by decide)) rfl
  refine ⟨o, ?_, hf⟩
  rw [attack_eq] at ho
  rw [romGame_eq, ← ho]
  refine congrArg pure ?_
  rw [romOutcome]
  simp only [demoForger, RomForger.run, Forger.outcome, replay, hx, if_false]

end Fips205.Props
