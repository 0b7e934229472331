import Verif.Proofs.Hom
import Verif.Proofs.VisitHash
import Verif.Proofs.Cost

/-! # Recording the calls, or what an observer sees, does not change the run -/

namespace Fips205.Model
open Fips205

variable {b : Build}

/-- Forget the calls. -/
def LogExec.erase : RustHom (LogExec b) (Exec b) where
  app x := x.result
  map_pure _ := rfl
  map_bind x f := by
    obtain ⟨L, r⟩ := x
    cases r <;> rfl
  map_panic _ := rfl
  map_leak _ _ := rfl
  map_build := rfl

/-- Forget the observations. -/
def TraceExec.erase : RustHom (TraceExec b) (Exec b) where
  app x := x.result
  map_pure _ := rfl
  map_bind x f := by
    obtain ⟨L, r⟩ := x
    cases r <;> rfl
  map_panic _ := rfl
  map_leak _ _ := rfl
  map_build := rfl

@[simp] theorem LogExec.erase_recording (P : Spec.Prims) :
    LogExec.erase.crypto (recording P : Crypto (LogExec b)) = crypto P := rfl

@[simp] theorem TraceExec.erase_crypto (P : Spec.Prims) :
    TraceExec.erase.crypto (crypto P : Crypto (TraceExec b)) = crypto P := rfl

/-- The functions compute the right values while the calls are recorded. -/
theorem ParamSet.hashersErase (P : Spec.Prims) (ps : ParamSet) :
    HashersRefine (LogExec.erase (b := b) |>.hashers (HASHERS ps.params (recording P))) (ps.hf P) := by
  rw [RustHom.map_HASHERS, LogExec.erase_recording]
  exact ps.hashers P

/-- The value of a run, known from the run without recording. -/
theorem Visits.value {α : Type} {At : Place → Call → Prop} {S : Place → Prop} {Q Q' : α → Prop}
    {x : LogExec b α} (h : Visits At S Q x) {y : Exec b α} (e : LogExec.erase.app x = y)
    (hy : Returns y Q') : Visits At S (fun v => Q v ∧ Q' v) x := by
  obtain ⟨v, L, xs, rfl, h2, h3⟩ := h
  subst e
  obtain ⟨w, hw, hq⟩ := Exec.returns_iff.mp hy
  cases (Except.ok.inj hw : v = w)
  exact ⟨v, L, xs, rfl, ⟨h2, hq⟩, h3⟩

end Fips205.Model
