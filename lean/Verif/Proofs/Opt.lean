import Verif.Props.Rom

/-!
# Randomizers that depend on the request

The game of `C67`, but the randomizer of a signature is a random function of the message and of a value the forger
chooses; a forger who repeats a request gets the same signature again.
-/

namespace Fips205.Props
open Fips205 Fips205.Model

/-- A forger as in `RomForger`, who chooses a value with each message. -/
inductive OptForger (ps : ParamSet) (S : Finset (List UInt8)) (B : Nat) : Nat → Nat → Nat → Type
  | forge {q T Q : Nat} (sig : Vector UInt8 ps.params.SIG_LEN) (mp : Pieces S) : OptForger ps S B q T Q
  | hash {q T Q : Nat} (R : Vector UInt8 ps.params.N) (mp : Pieces S)
      (next : Vector UInt8 ps.params.M → OptForger ps S B q T Q) : OptForger ps S B q (T + 1) Q
  | sign {q T Q : Nat} (o : Fin (256 ^ ps.sp.n)) (mp : Pieces S)
      (next : Except String (Vector UInt8 ps.params.SIG_LEN) → OptForger ps S B q T Q) : OptForger ps S B (q + 1) T Q
  | call {q T Q : Nat} (y : Query B) (next : Fin (256 ^ ps.sp.n) → OptForger ps S B q T Q) :
      OptForger ps S B q T (Q + 1)

variable {ps : ParamSet} {S : Finset (List UInt8)} {B : Nat}

/-- The randomizers, a function of the request. -/
abbrev Randomizer (ps : ParamSet) (S : Finset (List UInt8)) : Type :=
  Fin (256 ^ ps.sp.n) × S → Fin (256 ^ ps.sp.n)

/-- The outcome of the game. -/
def OptForger.outcome (P : Spec.Prims) (pk : PublicKey ps.params) (sk : PrivateKey ps.params)
    (O : Query B → Fin (256 ^ ps.sp.n)) (H : MsgHash ps S) (G : Randomizer ps S) :
    {q T Q : Nat} → OptForger ps S B q T Q → List (Vector UInt8 ps.params.SIG_LEN × List UInt8) → Outcome ps
  | _, _, _, .forge sig mp, asked =>
    { sig, msg := mp.1.flatten, asked
      accepted := Spec.verifyInternal ps.sp (ParamSet.hfRandom ps P H) mp.1.flatten sig.toList pk.key.pk_seed.toList
        pk.key.pk_root.toList }
  | _, _, _, .hash R mp next, asked =>
    (next (toVec _ (digestBy H R.toList mp.1.flatten))).outcome P pk sk O H G asked
  | _, _, _, .sign o mp next, asked =>
    (next (.ok (ownSig P sk H (G (o, mp.msg)) mp.1.flatten))).outcome P pk sk O H G
      ((ownSig P sk H (G (o, mp.msg)) mp.1.flatten, mp.1.flatten) :: asked)
  | _, _, _, .call y next, asked => (next (O y)).outcome P pk sk O H G asked

/-- The forger who remembers the signatures. -/
def OptForger.cached : {q T Q : Nat} → OptForger ps S B q T Q →
    List ((Fin (256 ^ ps.sp.n) × S) × Vector UInt8 ps.params.SIG_LEN) → (q' : Nat) → q ≤ q' → RomForger ps S B q' T Q
  | _, _, _, .forge sig mp, _, _, _ => .forge sig mp
  | _, _, _, .hash R mp next, c, q', h => .hash R mp fun d => (next d).cached c q' h
  | _, _, _, .call y next, c, q', h => .call y fun d => (next d).cached c q' h
  | _, _, _, .sign _ _ _, _, 0, h => absurd h (Nat.not_succ_le_zero _)
  | _, _, _, .sign o mp next, c, q' + 1, h =>
    match c.lookup (o, mp.msg) with
    | some sig => (next (.ok sig)).cached c (q' + 1) (Nat.le_of_succ_le h)
    | none => .sign mp fun
      | .ok sig => (next (.ok sig)).cached (((o, mp.msg), sig) :: c) q' (Nat.le_of_succ_le_succ h)
      | .error e => (next (.error e)).cached c q' (Nat.le_of_succ_le_succ h)

/-- The function with some values fixed. -/
def overlay (c : List ((Fin (256 ^ ps.sp.n) × S) × Fin (256 ^ ps.sp.n))) (G : Randomizer ps S) : Randomizer ps S :=
  fun i => (c.lookup i).getD (G i)

theorem overlay_cons (c : List ((Fin (256 ^ ps.sp.n) × S) × Fin (256 ^ ps.sp.n))) (G : Randomizer ps S)
    {i : Fin (256 ^ ps.sp.n) × S} (hi : c.lookup i = none) (d : Fin (256 ^ ps.sp.n)) :
    overlay c (Function.update G i d) = overlay ((i, d) :: c) G := by
  funext j
  simp only [overlay]
  by_cases h : j = i
  · subst h
    rw [hi, List.lookup_cons_self]
    simp
  · have e : ((j == i) : Bool) = false := by simpa using h
    rw [List.lookup_cons, e, Function.update_of_ne h]

theorem lookup_map {α β γ : Type} [BEq α] [LawfulBEq α] (c : List (α × β)) (f : α → β → γ) (a : α) :
    (c.map fun x => (x.1, f x.1 x.2)).lookup a = (c.lookup a).map (f a) := by
  induction c with
  | nil => rfl
  | cons x c ih =>
    rw [List.map_cons, List.lookup_cons, List.lookup_cons]
    cases h : (a == x.1)
    · exact ih
    · rw [eq_of_beq h]; rfl

theorem mem_of_lookup {α β : Type} [BEq α] [LawfulBEq α] {c : List (α × β)} {a : α} {b : β}
    (h : c.lookup a = some b) : (a, b) ∈ c := by
  induction c with
  | nil => cases h
  | cons x c ih =>
    rw [List.lookup_cons] at h
    cases e : (a == x.1) <;> rw [e] at h
    · exact List.mem_cons_of_mem _ (ih h)
    · have h := Option.some.inj h
      rw [eq_of_beq e, ← h]
      exact List.mem_cons_self

theorem forged_congr {o o' : Outcome ps} (h1 : o.sig = o'.sig) (h2 : o.msg = o'.msg) (h3 : o.accepted = o'.accepted)
    (h4 : ∀ e, e ∈ o.asked ↔ e ∈ o'.asked) : o.Forged ↔ o'.Forged := by
  rw [Outcome.Forged, Outcome.Forged, h1, h2, h3, h4]

/-- The two games. -/
theorem cached_avg (P : Spec.Prims) (pk : PublicKey ps.params) (sk : PrivateKey ps.params)
    (O : Query B → Fin (256 ^ ps.sp.n)) (H : MsgHash ps S) {q T Q : Nat} (A : OptForger ps S B q T Q) :
    ∀ (c : List ((Fin (256 ^ ps.sp.n) × S) × Fin (256 ^ ps.sp.n))) (q' : Nat) (hq : q ≤ q')
      (asked asked' : List (Vector UInt8 ps.params.SIG_LEN × List UInt8)), (∀ e, e ∈ asked ↔ e ∈ asked') →
      (∀ x ∈ c, (ownSig P sk H x.2 x.1.2, x.1.2.val) ∈ asked') →
    (Oracle.avg fun G : Randomizer ps S => Oracle.ind (A.outcome P pk sk O H (overlay c G) asked).Forged) =
      Oracle.avg fun ρ : Fin q' → Fin (256 ^ ps.sp.n) => Oracle.ind
        (((A.cached (c.map fun x => (x.1, ownSig P sk H x.2 x.1.2)) q' hq).run O).outcome P pk sk H ρ asked').Forged := by
  classical
  have : Nonempty (Fin (256 ^ ps.sp.n)) := ⟨⟨0, Nat.pow_pos (by decide)⟩⟩
  induction A with
  | forge sig mp =>
    intro c q' hq asked asked' h1 _
    simp only [OptForger.cached, RomForger.run, Forger.outcome, OptForger.outcome]
    rw [Oracle.avg_const, Oracle.avg_const]
    exact Oracle.ind_congr (forged_congr rfl rfl rfl h1)
  | hash R mp next ih =>
    intro c q' hq asked asked' h1 h2
    exact ih _ c q' hq asked asked' h1 h2
  | call y next ih =>
    intro c q' hq asked asked' h1 h2
    exact ih _ c q' hq asked asked' h1 h2
  | sign o mp next ih =>
    intro c q' hq asked asked' h1 h2
    cases q' with
    | zero => exact absurd hq (Nat.not_succ_le_zero _)
    | succ q' =>
      have hlook := lookup_map c (fun i r => ownSig P sk H r i.2) (o, mp.msg)
      simp only [OptForger.cached, OptForger.outcome]
      cases hl : c.lookup (o, mp.msg) with
      | some r =>
        rw [hl] at hlook
        have hG : ∀ G : Randomizer ps S, overlay c G (o, mp.msg) = r := fun G => by rw [overlay, hl]; rfl
        simp only [hG, hlook, Option.map_some]
        refine ih _ c (q' + 1) _ _ asked' ?_ h2
        intro e
        rw [List.mem_cons, ← h1]
        have := (h1 _).mpr (h2 _ (mem_of_lookup hl))
        refine ⟨?_, .inr⟩
        rintro (rfl | h)
        · exact this
        · exact h
      | none =>
        rw [hl] at hlook
        simp only [hlook, Option.map_none, RomForger.run, Forger.outcome]
        rw [Oracle.avg_update (o, mp.msg), Oracle.avg_cons]
        refine congrArg Oracle.avg (funext fun d => ?_)
        simp only [overlay_cons c _ hl, Fin.cons_zero, Fin.tail_cons]
        have hG : ∀ G : Randomizer ps S, overlay (((o, mp.msg), d) :: c) G (o, mp.msg) = d := fun G => by
          rw [overlay, List.lookup_cons_self]; rfl
        simp only [hG]
        refine ih _ (((o, mp.msg), d) :: c) q' _ _ _ ?_ ?_
        · intro e
          rw [List.mem_cons, List.mem_cons, h1]
        · intro x hx
          rcases List.mem_cons.mp hx with rfl | hx
          · exact List.mem_cons_self
          · exact List.mem_cons_of_mem _ (h2 x hx)

/-- The bound of `C67` for this game. -/
theorem opt_le (P0 : Spec.Prims) (sk_prf pk_seed : Vector UInt8 ps.params.N)
    (hB : 160 + (ps.sp.len + ps.sp.k) * ps.sp.n ≤ B) {q T Q : Nat}
    (hq : q * (256 ^ ps.sp.n + T) ≤ 2 ^ 64 * 256 ^ ps.sp.n) (A : PublicKey ps.params → OptForger ps S B q T Q) :
    (Oracle.avg fun s : D ps => Oracle.avg fun O : Query B → D ps => Oracle.avg fun H : MsgHash ps S =>
      Oracle.avg fun G : Randomizer ps S => Oracle.ind
        ((A (pairOf P0 sk_prf pk_seed s O).1).outcome (withHash P0 O) (pairOf P0 sk_prf pk_seed s O).1
          (pairOf P0 sk_prf pk_seed s O).2 O H G []).Forged) ≤
    (T + 1) / 2 ^ coverLevel ps + 2 * (Q + ps.sp.verifyCost) / 256 ^ ps.sp.n := by
  have h := C67_random_functions P0 sk_prf pk_seed ⟨false, false, 64, by decide⟩ S hB hq
    fun pk => (A pk).cached [] q (Nat.le_refl _)
  rw [prob_eq, Oracle.avg_prod, Oracle.avg_prod] at h
  refine le_trans (le_of_eq ?_) h
  refine congrArg Oracle.avg (funext fun s => congrArg Oracle.avg (funext fun O => ?_))
  rw [Oracle.avg_prod]
  refine congrArg Oracle.avg (funext fun H => ?_)
  have e := cached_avg (withHash P0 O) (pairOf P0 sk_prf pk_seed s O).1 (pairOf P0 sk_prf pk_seed s O).2 O H
    (A (pairOf P0 sk_prf pk_seed s O).1) [] q (Nat.le_refl _) [] [] (fun _ => Iff.rfl) (fun x hx => absurd hx List.not_mem_nil)
  refine e.trans (congrArg Oracle.avg (funext fun ρ => Oracle.ind_congr ?_))
  dsimp only
  rw [romGame_eq]
  refine ⟨fun hf => ⟨_, rfl, hf⟩, ?_⟩
  rintro ⟨o, ho, hf⟩
  rwa [← Exec.pure_inj ho] at hf

end Fips205.Props
