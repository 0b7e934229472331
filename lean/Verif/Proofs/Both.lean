import Verif.Proofs.Erase

/-!
# Executions with what an observer sees and with the calls of the hash functions

`Both b` records the two together, and that they agree; it maps to `TraceExec b` and to `LogExec b`.
-/

namespace Fips205.Model
open Fips205

/-- The hash function and the number of bytes hashed, if the observation is a call of a hash function. -/
def Leak.shape : Leak → Option (HashAlg × Nat)
  | .hash alg lens _ => some (alg, lens.sum)
  | .branch _ | .trip _ | .index _ | .range .. | .cmp .. => none

/-- The hash functions as the observer names them. -/
def _root_.Fips205.Spec.PreHash.alg : Spec.PreHash → HashAlg
  | .sha256 => .sha256
  | .sha512 => .sha512
  | .shake128 => .shake128
  | .shake256 => .shake256

/-- What an observer sees of a call. -/
def _root_.Fips205.Call.shape (c : Call) : HashAlg × Nat := (c.alg.alg, c.input.length)

/-- The calls the observer saw are those that were made. -/
def Agree (t : List Leak) (L : List Call) : Prop := t.filterMap Leak.shape = L.map Call.shape

theorem Agree.append {t t' : List Leak} {L L' : List Call} (h : Agree t L) (h' : Agree t' L') :
    Agree (t ++ t') (L ++ L') := by
  rw [Agree, List.filterMap_append, List.map_append, h, h']

theorem Agree.hashCalls {t : List Leak} {L : List Call} (h : Agree t L) : hashCalls t = L.length := by
  have e : ∀ t : List Leak, Model.hashCalls t = (t.filterMap Leak.shape).length := by
    intro t
    induction t with
    | nil => rfl
    | cons l t ih =>
      show Model.hashCalls ([l] ++ t) = (([l] ++ t).filterMap Leak.shape).length
      rw [hashCalls_append, ih, List.filterMap_append, List.length_append]
      cases l <;> rfl
  rw [e, h, List.length_map]

/-- Executions of the code in build `b` with the observations and the calls. -/
structure Both (b : Build) (α : Type) where
  trace : List Leak
  log : List Call
  result : Except Panic α
  agree : Agree trace log

namespace Both
variable {b : Build} {α β : Type}

instance : Monad (Both b) where
  pure v := ⟨[], [], .ok v, rfl⟩
  bind x f := match x.result with
    | .error e => ⟨x.trace, x.log, .error e, x.agree⟩
    | .ok v => ⟨x.trace ++ (f v).trace, x.log ++ (f v).log, (f v).result, x.agree.append (f v).agree⟩

/-- Record an observation; calls of hash functions are recorded by `Both.call`. -/
def see (e : Leak) : Both b Unit :=
  ⟨if e.isHash then [] else [e], [], .ok (), by cases e <;> rfl⟩

instance : Rust (Both b) where
  panic p := ⟨[], [], .error p, rfl⟩
  leak := see
  build := b

/-- Record a call. -/
def call (alg : Spec.PreHash) (x : List (List UInt8)) (n : Nat) (v : α) : Both b α :=
  ⟨[.hash alg.alg (x.map List.length) n], [⟨alg, x.flatten⟩], .ok v, by
    simp [Agree, Leak.shape, Call.shape, List.length_flatten]⟩

/-- The external hash crates computing the functions `P`. -/
def recording (P : Spec.Prims) : Crypto (Both b) where
  sha256 x := call .sha256 x 32 (P.sha256 x.flatten)
  sha512 x := call .sha512 x 64 (P.sha512 x.flatten)
  shake128 x n := call .shake128 x n (P.shake128 x.flatten n)
  shake256 x n := call .shake256 x n (P.shake256 x.flatten n)

/-- Forget the calls. -/
def toTrace : RustHom (Both b) (TraceExec b) where
  app x := (x.trace, x.result)
  map_pure _ := rfl
  map_bind x f := by
    obtain ⟨t, L, r, h⟩ := x
    cases r <;> rfl
  map_panic _ := rfl
  map_leak e h := by
    show ((if e.isHash then [] else [e], .ok ()) : List Leak × Except Panic Unit) = ([e], .ok ())
    rw [h]
    rfl
  map_build := rfl

/-- Forget the observations. -/
def toLog : RustHom (Both b) (LogExec b) where
  app x := (x.log, x.result)
  map_pure _ := rfl
  map_bind x f := by
    obtain ⟨t, L, r, h⟩ := x
    cases r <;> rfl
  map_panic _ := rfl
  map_leak _ _ := rfl
  map_build := rfl

@[simp] theorem toTrace_crypto (P : Spec.Prims) :
    toTrace.crypto (recording P : Crypto (Both b)) = crypto P := rfl

@[simp] theorem toLog_crypto (P : Spec.Prims) :
    toLog.crypto (recording P : Crypto (Both b)) = Model.recording P := rfl

end Both

/-- The two runs are two views of one. -/
def SameRun {b : Build} {α : Type} (x : TraceExec b α) (y : LogExec b α) : Prop :=
  Agree x.trace y.log ∧ x.result = y.result

theorem SameRun.of {b : Build} {α : Type} {x : TraceExec b α} {y : LogExec b α} (z : Both b α)
    (hx : Both.toTrace.app z = x) (hy : Both.toLog.app z = y) : SameRun x y := by
  subst hx hy
  exact ⟨z.agree, rfl⟩

end Fips205.Model
