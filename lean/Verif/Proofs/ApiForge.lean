import Verif.Proofs.ApiRun
import Mathlib.Data.Set.Finite.List

/-!
# A forger against the API gives a forger against formatted messages

unless two messages with the same pre-hash are evaluated during the game.
-/

namespace Fips205.Props
open Fips205 Fips205.Model

variable {ps : ParamSet} {L B w : Nat} {b : Build}

/-! ## The reduction -/

/-- All strings of at most `n` bytes. -/
noncomputable def shortStrings (n : Nat) : Finset (List UInt8) := (List.finite_length_le UInt8 n).toFinset

theorem mem_shortStrings {n : Nat} {l : List UInt8} : l ∈ shortStrings n ↔ l.length ≤ n := by
  simp [shortStrings]

/-- The length of formatted messages. -/
abbrev strLen (L : Nat) : Nat := 332 + L

/-- The length of a pre-hash. -/
def phLen : Ph → Nat
  | .SHA256 | .SHAKE128 => 32
  | .SHA512 | .SHAKE256 => 64

theorem phLen_le (ph : Ph) : phLen ph ≤ 64 := by cases ph <;> decide

/-- The formatted message of a pure request. -/
def purePieces (x : SigRequest L) (hc : x.ctx.length ≤ 255) : Pieces (shortStrings (strLen L)) :=
  ⟨[[0], [UInt8.ofNat x.ctx.length], x.ctx, x.msg], by simp, mem_shortStrings.mpr (by
    have := x.short
    unfold strLen
    simp only [List.flatten_cons, List.flatten_nil, List.length_append, List.length_cons, List.length_nil]
    omega)⟩

/-- The formatted message of a pre-hash request, if the hash function answers `d`. -/
def hashPieces (x : SigRequest L) (hc : x.ctx.length ≤ 255) (ph : Ph) (d : Fin (256 ^ w)) :
    Pieces (shortStrings (strLen L)) :=
  ⟨[[1], [UInt8.ofNat x.ctx.length], x.ctx, Spec.oid ph.spec, (Spec.toByte d w).take (phLen ph)], by simp,
    mem_shortStrings.mpr (by
      have := phLen_le ph
      unfold strLen
      simp only [List.flatten_cons, List.flatten_nil, List.length_append, List.length_cons, List.length_nil, oid_length,
        List.length_take]
      omega)⟩

/-- No message. -/
def noPieces (L : Nat) : Pieces (shortStrings (strLen L)) := ⟨[], by simp, mem_shortStrings.mpr (by simp)⟩

/-- Format a request, with one call of a hash function, and continue. -/
def SigRequest.prep (hB : L ≤ B) (x : SigRequest L) (hc : x.ctx.length ≤ 255) {q Q : Nat}
    (next : Pieces (shortStrings (strLen L)) → FullForger ps (shortStrings (strLen L)) B w q Q) :
    FullForger ps (shortStrings (strLen L)) B w q (Q + 1) :=
  match x.ph with
  | none => .call ⟨⟨.sha256, []⟩, Nat.zero_le _⟩ fun _ => next (purePieces x hc)
  | some ph => .call ⟨⟨ph.spec, x.msg⟩, x.short.trans hB⟩ fun d => next (hashPieces x hc ph d)

/-- The forger against formatted messages. -/
def ApiForger.full (hB : L ≤ B) : {q Q : Nat} → ApiForger ps L B w q Q → (q' Q' : Nat) → q ≤ q' → Q + q + 1 ≤ Q' →
    FullForger ps (shortStrings (strLen L)) B w q' Q'
  | _, _, .forge _ _, _, 0, _, h2 => absurd h2 (Nat.not_succ_le_zero _)
  | _, _, .forge x sig, _, _ + 1, _, _ =>
    if hc : x.ctx.length ≤ 255 then x.prep hB hc fun mp => .forge sig mp else .forge sig (noPieces L)
  | _, _, .sign _ _ _ _, 0, _, h1, _ => absurd h1 (Nat.not_succ_le_zero _)
  | _, _, .sign _ _ _ _, _, 0, _, h2 => absurd h2 (Nat.not_succ_le_zero _)
  | _, _, .sign x hedged rnd next, q' + 1, Q' + 1, h1, h2 =>
    if hc : x.ctx.length ≤ 255 then
      match coins hedged rnd with
      | .error _ => (next (.error "Alg17: rng failed")).full hB (q' + 1) (Q' + 1) (by omega) (by omega)
      | .ok o => x.prep hB hc fun mp => .sign o mp fun r => (next r).full hB q' Q' (by omega) (by omega)
    else (next (.error "ctx must be less than 256 bytes")).full hB (q' + 1) (Q' + 1) (by omega) (by omega)
  | _, _, .call _ _, _, 0, _, h2 => absurd h2 (Nat.not_succ_le_zero _)
  | _, _, .call y next, q', Q' + 1, h1, h2 => .call y fun v => (next v).full hB q' Q' h1 (by omega)

theorem wide_preHash (hw : 64 ≤ w) (P0 : Spec.Prims) (O : Query B → Fin (256 ^ w)) (X : List UInt8) (ph : Ph) :
    Spec.preHash (withHash P0 O) X ph.spec = (Spec.toByte (O (.of B ⟨ph.spec, X⟩)) w).take (phLen ph) := by
  cases ph with
  | SHA256 =>
    have h := wide_sha256 (P0 := P0) (O := O) (j := 32) (by omega) (Nat.le_refl _) X
    rw [Spec.trunc, List.take_of_length_le (by simp [Spec.sha256'])] at h
    exact h
  | SHA512 =>
    have h := wide_sha512 (P0 := P0) (O := O) (j := 64) hw (Nat.le_refl _) X
    rw [Spec.trunc, List.take_of_length_le (by simp [Spec.sha512'])] at h
    exact h
  | SHAKE128 =>
    have hl := Spec.toByte_length (O (.of B ⟨.shake128, X⟩)) w
    change (toVec 32 _).toList = _
    rw [toVec_take (by rw [List.length_append, hl, List.length_drop, Vector.length_toList]; omega),
      List.take_append_of_le_length (by omega)]
    rfl
  | SHAKE256 => exact wide_shake hw X

section
variable (hB : L ≤ B) (hw : 64 ≤ w) (P0 : Spec.Prims) (O : Query B → Fin (256 ^ w)) (pk : PublicKey ps.params)
  (sk : PrivateKey ps.params)

include hw in
/-- Formatting is right. -/
theorem prep_outcome (x : SigRequest L) (hc : x.ctx.length ≤ 255) {q Q : Nat}
    (next : Pieces (shortStrings (strLen L)) → FullForger ps (shortStrings (strLen L)) B w q Q) :
    ∃ mp : Pieces (shortStrings (strLen L)), mp.1.flatten = x.str (withHash P0 O) ∧
      ∀ asked, (x.prep hB hc next).outcome (withHash P0 O) O pk sk asked =
        (next mp).outcome (withHash P0 O) O pk sk asked := by
  obtain ⟨ph, ctx, msg, hs⟩ := x
  cases ph with
  | none => exact ⟨purePieces ⟨none, ctx, msg, hs⟩ hc, pure_flatten _ _, fun _ => rfl⟩
  | some ph =>
    refine ⟨hashPieces ⟨some ph, ctx, msg, hs⟩ hc ph (O ⟨⟨ph.spec, msg⟩, hs.trans hB⟩), ?_, fun _ => rfl⟩
    have h := wide_preHash hw P0 O msg ph
    rw [Query.of, dif_pos (hs.trans hB)] at h
    refine (prehash_flatten _ _ _).trans ?_
    rw [← h]
    rfl

/-- A signature handed out, as one of a formatted message. -/
def asString (P : Spec.Prims) (e : SigRequest L × Vector UInt8 ps.params.SIG_LEN) :
    Vector UInt8 ps.params.SIG_LEN × List UInt8 := (e.2, e.1.str P)

include hw in
/-- The two forgers do the same. -/
theorem full_outcome {q Q : Nat} (A : ApiForger ps L B w q Q) : ∀ (q' Q' : Nat) (h1 : q ≤ q') (h2 : Q + q + 1 ≤ Q') asked,
    let o := A.outcome (withHash P0 O) O pk sk asked
    o.x.ctx.length ≤ 255 →
    (A.full hB q' Q' h1 h2).outcome (withHash P0 O) O pk sk (asked.map (asString (withHash P0 O))) =
      { sig := o.sig, msg := o.x.str (withHash P0 O), accepted := o.accepted,
        asked := o.asked.map (asString (withHash P0 O)) } := by
  induction A with
  | forge x sig =>
    intro q' Q' h1 h2 asked o hc
    obtain ⟨Q', rfl⟩ : ∃ n, Q' = n + 1 := ⟨Q' - 1, by omega⟩
    have hc : x.ctx.length ≤ 255 := hc
    rw [ApiForger.full, dif_pos hc]
    obtain ⟨mp, hmp, h⟩ := prep_outcome hB hw P0 O pk sk x hc (q := q') (Q := Q') fun mp => .forge sig mp
    rw [h, FullForger.outcome, hmp]
    simp only [o, ApiForger.outcome, SigRequest.check, if_neg (show ¬ 255 < x.ctx.length by omega)]
  | @sign q Q x hedged rnd next ih =>
    intro q' Q' h1 h2 asked o hc
    obtain ⟨Q', rfl⟩ : ∃ n, Q' = n + 1 := ⟨Q' - 1, by omega⟩
    obtain ⟨q', rfl⟩ : ∃ n, q' = n + 1 := ⟨q' - 1, by omega⟩
    have e : o = (next (x.answer (withHash P0 O) sk hedged rnd)).outcome (withHash P0 O) O pk sk
      (handed x (x.answer (withHash P0 O) sk hedged rnd) asked) := rfl
    by_cases hx : x.ctx.length ≤ 255
    · rw [ApiForger.full, dif_pos hx]
      cases hco : coins hedged rnd with
      | error u =>
        have ha : x.answer (withHash P0 O) sk hedged rnd = .error "Alg17: rng failed" := by
          rw [SigRequest.answer, if_neg (by omega), hco]
        rw [ha] at e
        rw [e] at hc ⊢
        exact ih _ (q' + 1) (Q' + 1) (by omega) (by omega) asked hc
      | ok r =>
        have ha : x.answer (withHash P0 O) sk hedged rnd =
            .ok (sigVec ps (withHash P0 O) (x.str (withHash P0 O)) sk.key (r.getD sk.key.pk_seed)) := by
          rw [SigRequest.answer, if_neg (by omega), hco]
        rw [ha] at e
        rw [e] at hc ⊢
        obtain ⟨mp, hmp, h⟩ := prep_outcome hB hw P0 O pk sk x hx (q := q' + 1) (Q := Q')
          fun mp => .sign r mp fun y => (next y).full hB q' Q' (by omega) (by omega)
        dsimp only
        rw [h, FullForger.outcome, hmp]
        exact ih _ q' Q' (by omega) (by omega) ((x, _) :: asked) hc
    · rw [ApiForger.full, dif_neg hx]
      have ha : x.answer (withHash P0 O) sk hedged rnd = .error "ctx must be less than 256 bytes" := by
        rw [SigRequest.answer, if_pos (by omega)]
      rw [ha] at e
      rw [e] at hc ⊢
      exact ih _ (q' + 1) (Q' + 1) (by omega) (by omega) asked hc
  | call y next ih =>
    intro q' Q' h1 h2 asked o hc
    obtain ⟨Q', rfl⟩ : ∃ n, Q' = n + 1 := ⟨Q' - 1, by omega⟩
    rw [ApiForger.full, FullForger.outcome]
    exact ih (O y) q' Q' h1 (by omega) asked hc

end

/-- The formatted message determines the request, or shows a collision. -/
theorem str_inj {P : Spec.Prims} {x y : SigRequest L} (hx : x.ctx.length ≤ 255) (hy : y.ctx.length ≤ 255)
    (h : x.str P = y.str P) : x = y ∨ ∃ ph, x.ph = some ph ∧ y.ph = some ph ∧ x.msg ≠ y.msg ∧
      Spec.preHash P x.msg ph.spec = Spec.preHash P y.msg ph.spec := by
  obtain ⟨ph, ctx, msg, hs⟩ := x
  obtain ⟨ph', ctx', msg', hs'⟩ := y
  cases ph with
  | none =>
    cases ph' with
    | none =>
      simp only [SigRequest.str, pureMsg_eq] at h
      obtain ⟨rfl, rfl⟩ := C16_pure_injective hx hy h
      exact .inl rfl
    | some ph' =>
      simp only [SigRequest.str, pureMsg_eq, phMsg_eq] at h
      exact absurd h (C16_pure_prehash_disjoint P ctx ctx' msg msg' ph')
  | some ph =>
    cases ph' with
    | none =>
      simp only [SigRequest.str, pureMsg_eq, phMsg_eq] at h
      exact absurd h.symm (C16_pure_prehash_disjoint P ctx' ctx msg' msg ph)
    | some ph' =>
      simp only [SigRequest.str, phMsg_eq] at h
      obtain ⟨rfl, rfl, hd⟩ := C17_prehash_injective hx hy h
      by_cases hm : msg = msg'
      · subst hm
        exact .inl rfl
      · exact .inr ⟨ph, rfl, rfl, hm, hd⟩

/-- A forgery is one of a formatted message, or two calls during the game collide. -/
theorem forged_cases (hB : L ≤ B) (hw : 64 ≤ w) {q Q : Nat} (P0 : Spec.Prims) (O : Query B → Fin (256 ^ w))
    (pk_seed : Vector UInt8 ps.params.N) (A : PublicKey ps.params → ApiForger ps L B w q Q) (s k : D ps)
    (h : (apiOutcome P0 O pk_seed A s k).Forged) {l : List Call}
    (hl : Known l (apiOutcome P0 O pk_seed A s k).asked ∧
      ((apiOutcome P0 O pk_seed A s k).x.ctx.length ≤ 255 → ∀ ph, (apiOutcome P0 O pk_seed A s k).x.ph = some ph →
          ⟨ph.spec, (apiOutcome P0 O pk_seed A s k).x.msg⟩ ∈ l)) :
    (fullOutcome P0 pk_seed (fun pk => (A pk).full hB q (Q + q + 1) le_rfl le_rfl) s k O).Forged ∨
    ∃ x ∈ l, ∃ y ∈ l, Query.of B x ≠ Query.of B y ∧ headOf 32 (O (.of B x)) = headOf 32 (O (.of B y)) := by
  obtain ⟨hacc, hnew⟩ := h
  have hc : (apiOutcome P0 O pk_seed A s k).x.ctx.length ≤ 255 := by
    by_contra hc
    have : ∀ {q Q : Nat} (A : ApiForger ps L B w q Q) (pk : PublicKey ps.params) sk asked,
        ¬ (A.outcome (withHash P0 O) O pk sk asked).x.ctx.length ≤ 255 →
        (A.outcome (withHash P0 O) O pk sk asked).accepted = false := by
      intro q Q A pk sk
      induction A with
      | forge x sig =>
        intro asked hc
        have hc : ¬ x.ctx.length ≤ 255 := hc
        rw [ApiForger.outcome]
        exact if_pos (by omega)
      | sign x hedged rnd next ih => exact fun asked hc => ih _ _ hc
      | call y next ih => exact fun asked hc => ih _ _ hc
    have := this _ _ _ _ hc
    rw [apiOutcome] at hacc
    rw [hacc] at this
    cases this
  have hfull := full_outcome hB hw P0 O (widePair P0 pk_seed s k O).1 (widePair P0 pk_seed s k O).2
    (A (widePair P0 pk_seed s k O).1) q (Q + q + 1) le_rfl le_rfl [] hc
  rw [List.map_nil] at hfull
  by_cases hin : ((apiOutcome P0 O pk_seed A s k).sig, (apiOutcome P0 O pk_seed A s k).x.str (withHash P0 O)) ∈
      (apiOutcome P0 O pk_seed A s k).asked.map (asString (withHash P0 O))
  · right
    obtain ⟨e, he, hee⟩ := List.mem_map.mp hin
    have h1 : e.2 = (apiOutcome P0 O pk_seed A s k).sig := congrArg Prod.fst hee
    have h2 : e.1.str (withHash P0 O) = (apiOutcome P0 O pk_seed A s k).x.str (withHash P0 O) := congrArg Prod.snd hee
    rcases str_inj (hl.1 e he).1 hc h2 with hx | ⟨ph, hp1, hp2, hne, hd⟩
    · refine absurd ?_ hnew
      rw [← hx, ← h1]
      exact he
    · refine ⟨_, (hl.1 e he).2 ph hp1, _, hl.2 hc ph hp2, ?_, ?_⟩
      · rw [Query.of, dif_pos (e.1.short.trans hB), Query.of,
          dif_pos ((apiOutcome P0 O pk_seed A s k).x.short.trans hB)]
        intro h
        exact hne (congrArg (fun y : Query B => y.1.input) h)
      · rw [wide_preHash hw, wide_preHash hw] at hd
        rw [headOf, headOf]
        have h32 : 32 ≤ phLen ph := by cases ph <;> decide
        have := congrArg (List.take 32) hd
        rw [List.take_take, List.take_take, Nat.min_eq_left h32] at this
        rw [this]
  · left
    rw [fullOutcome, hfull]
    exact ⟨hacc, hin⟩

end Fips205.Props
