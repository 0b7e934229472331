import Verif.Proofs.Api
import Verif.Proofs.Hom

/-! # Calls that wait for random bytes

`Thread b` runs a call of the API up to the points where it asks the random number generator for bytes;
there it stops and waits, and somebody else may run. Between two draws a call touches no memory that
other threads can change: `/repo/src` has no unsafe code (denied at `src/lib.rs:2`) and no interior
mutability, its statics are constant tables of functions (`src/lib.rs:472-480` and alike), and keys are
passed by shared reference. -/

namespace Fips205.Model
open Fips205

/-- A call in progress: it has ended, or it waits for the generator to fill `buf`. -/
inductive Thread (b : Build) (α : Type) where
  | done (r : Except Panic α)
  | draw {n : Nat} (buf : Vector UInt8 n) (k : Except Unit (Vector UInt8 n) → Thread b α)

namespace Thread

variable {b : Build} {α β : Type}

def bind : Thread b α → (α → Thread b β) → Thread b β
  | .done (.ok v), f => f v
  | .done (.error p), _ => .done (.error p)
  | .draw buf k, f => .draw buf fun a => (k a).bind f

instance : Monad (Thread b) where
  pure v := .done (.ok v)
  bind := Thread.bind

instance : Rust (Thread b) where
  panic p := .done (.error p)
  leak _ := .done (.ok ())
  build := b

theorem pure_eq (v : α) : (pure v : Thread b α) = .done (.ok v) := rfl

theorem bind_eq (x : Thread b α) (f : α → Thread b β) : x >>= f = x.bind f := rfl

theorem draw_bind {n : Nat} (buf : Vector UInt8 n) (k : Except Unit (Vector UInt8 n) → Thread b α)
    (f : α → Thread b β) : (.draw buf k : Thread b α) >>= f = .draw buf fun a => k a >>= f := rfl

instance : LawfulMonad (Thread b) := LawfulMonad.mk'
  (id_map := by
    intro α x
    change x.bind (fun v => .done (.ok (id v))) = x
    induction x with
    | done r => cases r <;> rfl
    | draw buf k ih =>
      rw [Thread.bind]
      congr 1
      exact funext ih)
  (pure_bind := fun _ _ => rfl)
  (bind_assoc := by
    intro α β γ x f g
    change (x.bind f).bind g = x.bind fun v => (f v).bind g
    induction x with
    | done r => cases r <;> rfl
    | draw buf k ih =>
      rw [Thread.bind, Thread.bind, Thread.bind]
      congr 1
      exact funext ih)

theorem leak_eq (e : Leak) : (leak e : Thread b Unit) = pure () := rfl

theorem emit_eq (tr : List Leak) : (emit tr : Thread b Unit) = pure () := by
  induction tr with
  | nil => rfl
  | cons e es ih => rw [emit, ih, leak_eq, pure_bind]

theorem returns_iff {x : Thread b α} {P : α → Prop} : Returns x P ↔ ∃ v, x = pure v ∧ P v := by
  constructor
  · rintro ⟨tr, v, h, hp⟩
    exact ⟨v, by rw [h, emit_eq, pure_bind], hp⟩
  · rintro ⟨v, h, hp⟩
    exact h ▸ Returns.pure hp

/-- The generator, seen from a thread. -/
def rng : Rng (Thread b) Unit where
  tryFill _ {_n} buf := .draw buf fun a => .done (.ok ((), a))

end Thread

variable {b : Build} {P : Spec.Prims} {ps : ParamSet} {σ : Type}

theorem thread_sign_serialize {mp : List (List UInt8)} (hmp : mp.length ≤ 5)
    (sk : SlhPrivateKey ps.params.N) (o : Vector UInt8 ps.params.N) :
    ∃ sig, (slh_sign_internal ps.params.A ps.params.D ps.params.H ps.params.HP
        (HASHERS ps.params (crypto P)) mp sk o : Thread b _) = pure (.ok sig) ∧
      (mapSerialize ps.params (.ok sig) : Thread b _) = pure (.ok (sigVec ps P mp.flatten sk o)) := by
  obtain ⟨r, h1, sig, rfl, hsig⟩ := Thread.returns_iff.mp
    (slh_sign_internal_returns ps.matches (ps.hashers P (m := Thread b)) hmp sk o)
  refine ⟨sig, h1, ?_⟩
  obtain ⟨v, h2, hv⟩ := Thread.returns_iff.mp
    (serialize_returns (m := Thread b) ps.matches sig ps.sizes.sig)
  have : v = sigVec ps P mp.flatten sk o := eq_toVec (hv.trans hsig)
  simp [mapSerialize, h2, this, Thread.leak_eq]

theorem thread_sign_with_rng {mp : List (List UInt8)} (hmp : mp.length ≤ 5)
    (sk : SlhPrivateKey ps.params.N) (rng : Rng (Thread b) σ) (s : σ) (hedged : Bool) :
    (do
      let (s, sig) ← slh_sign_with_rng ps.params.A ps.params.D ps.params.H ps.params.HP rng s
        (HASHERS ps.params (crypto P)) mp sk hedged
      let r ← mapSerialize ps.params sig
      pure (s, r) : Thread b _) =
    if hedged then do
      let d ← rng.tryFill s sk.pk_seed
      pure (d.1, signOutcome ps P mp.flatten sk d.2)
    else pure (s, .ok (sigVec ps P mp.flatten sk sk.pk_seed)) := by
  unfold slh_sign_with_rng
  simp only [Thread.leak_eq, pure_bind]
  cases hedged
  · obtain ⟨sig, h1, h2⟩ := thread_sign_serialize (b := b) (P := P) hmp sk sk.pk_seed
    simp [h1, h2]
  · simp only [if_true, bind_assoc]
    congr 1
    funext ⟨s', r⟩
    cases r with
    | error e => simp [mapSerialize, signOutcome, Thread.leak_eq]
    | ok o =>
      obtain ⟨sig, h1, h2⟩ := thread_sign_serialize (b := b) (P := P) hmp sk o
      simp [h1, h2, signOutcome]

/-- `try_sign_with_rng` -/
theorem thread_try_sign_with_rng (sk : PrivateKey ps.params) (rng : Rng (Thread b) σ) (s : σ)
    (msg ctx : List UInt8) (hedged : Bool) :
    sk.try_sign_with_rng (crypto P) rng s msg ctx hedged =
      if 255 < ctx.length then pure (s, .error "ctx must be less than 256 bytes")
      else if hedged then do
        let d ← rng.tryFill s sk.key.pk_seed
        pure (d.1, signOutcome ps P (Spec.pureMsg ctx msg) sk.key d.2)
      else pure (s, .ok (sigVec ps P (Spec.pureMsg ctx msg) sk.key sk.key.pk_seed)) := by
  unfold PrivateKey.try_sign_with_rng
  simp only [Thread.leak_eq, pure_bind, ctxError]
  split
  · rfl
  · rw [← pure_flatten]
    exact thread_sign_with_rng (by simp) sk.key rng s hedged

/-- `try_hash_sign_with_rng` -/
theorem thread_try_hash_sign_with_rng (sk : PrivateKey ps.params) (rng : Rng (Thread b) σ) (s : σ)
    (msg ctx : List UInt8) (ph : Ph) (hedged : Bool) :
    sk.try_hash_sign_with_rng (crypto P) rng s msg ctx ph hedged =
      if 255 < ctx.length then pure (s, .error "ctx must be less than 256 bytes")
      else if hedged then do
        let d ← rng.tryFill s sk.key.pk_seed
        pure (d.1, signOutcome ps P (phMsg P ctx msg ph) sk.key d.2)
      else pure (s, .ok (sigVec ps P (phMsg P ctx msg ph) sk.key sk.key.pk_seed)) := by
  unfold PrivateKey.try_hash_sign_with_rng
  simp only [Thread.leak_eq, pure_bind, ctxError]
  split
  · rfl
  · obtain ⟨⟨o, l, buf⟩, h1, h2, h3, h4⟩ := Thread.returns_iff.mp
      (hash_message_returns (m := Thread b) P msg ph (zeroBytes 64))
    simp only at h2 h3 h4
    have h5 : (slice buf.toList 0 l : Thread b _) = pure (Spec.preHash P msg ph.spec) := by
      rw [slice, Thread.leak_eq, pure_bind, if_pos ⟨by omega, by simpa using h3⟩, h4]
    rw [phMsg, ← h2, ← prehash_flatten, h1, pure_bind]
    dsimp only
    rw [h5, pure_bind]
    exact thread_sign_with_rng (by simp) sk.key rng s hedged

theorem thread_keygen_internal (a c d : Vector UInt8 ps.params.N) :
    (slh_keygen_internal ps.params.D ps.params.HP (HASHERS ps.params (crypto P)) a c d : Thread b _) =
      pure ((keyPair ps P a c d).2.key, (keyPair ps P a c d).1.key) := by
  obtain ⟨v, h, root, hroot, rfl⟩ := Thread.returns_iff.mp
    (slh_keygen_internal_returns ps.matches (ps.hashers P (m := Thread b)) a c d)
  rw [h, keyPair, rootVec, ← eq_toVec hroot]

/-- `try_keygen_with_rng` -/
theorem thread_try_keygen_with_rng (rng : Rng (Thread b) σ) (s : σ) :
    try_keygen_with_rng ps.params (crypto P) rng s = (do
      let d1 ← rng.tryFill s (zeroBytes _)
      match d1.2 with
      | .error _ => pure (d1.1, .error "Alg17: rng failed1")
      | .ok sk_seed => do
        let d2 ← rng.tryFill d1.1 (zeroBytes _)
        match d2.2 with
        | .error _ => pure (d2.1, .error "Alg17: rng failed2")
        | .ok sk_prf => do
          let d3 ← rng.tryFill d2.1 (zeroBytes _)
          match d3.2 with
          | .error _ => pure (d3.1, .error "Alg17: rng failed3")
          | .ok pk_seed => pure (d3.1, .ok (keyPair ps P sk_seed sk_prf pk_seed)) : Thread b _) := by
  unfold try_keygen_with_rng slh_keygen_with_rng
  simp only [Thread.leak_eq, pure_bind, bind_assoc]
  congr 1
  funext ⟨s1, r1⟩
  cases r1 with
  | error e => simp
  | ok a =>
    simp only [bind_assoc]
    congr 1
    funext ⟨s2, r2⟩
    cases r2 with
    | error e => simp
    | ok c =>
      simp only [bind_assoc]
      congr 1
      funext ⟨s3, r3⟩
      cases r3 with
      | error e => simp
      | ok d => simp [thread_keygen_internal, keyPair]

/-- A computation that draws nothing, as a call that has ended. -/
def Thread.lift : RustHom (Exec b) (Thread b) where
  app x := .done x
  map_pure _ := rfl
  map_bind x _ := by cases x <;> rfl
  map_panic _ := rfl
  map_leak _ _ := rfl
  map_build := rfl

theorem Thread.lift_crypto : Thread.lift.crypto (crypto P : Crypto (Exec b)) = crypto P := rfl

/-! ## Calls alone and among others -/

/-- What the generator answered to a draw. -/
abbrev Answer := (n : Nat) × Except Unit (Vector UInt8 n)

/-- The first of the answers, if it has the right length. -/
def deal (n : Nat) : List Answer → List Answer × Except Unit (Vector UInt8 n)
  | [] => ([], .error ())
  | ⟨n', a⟩ :: rest => if h : n' = n then (rest, h ▸ a) else (rest, .error ())

/-- A generator that deals given answers. -/
def dealer : Rng (Exec b) (List Answer) where
  tryFill t {n} _ := pure (deal n t)

theorem dealer_fill {n : Nat} (a : Except Unit (Vector UInt8 n)) (rest : List Answer)
    (buf : Vector UInt8 n) :
    (dealer.tryFill (⟨n, a⟩ :: rest) buf : Exec b _) = pure (rest, a) := by
  simp [dealer, deal]

/-- The thread `t` draws at most `n` times, and after answers `a` it is where `f` is that was dealt
`a`. -/
inductive Fits {b : Build} {α : Type} :
    Nat → Thread b (Unit × α) → (List Answer → Exec b (List Answer × α)) → Prop
  | done {n : Nat} {r : Except Panic (Unit × α)} {f : List Answer → Exec b (List Answer × α)}
      (h : ∀ t, f t = (show Exec b (Unit × α) from r) >>= fun v => pure (t, v.2)) : Fits n (.done r) f
  | draw {n l : Nat} {buf : Vector UInt8 l} {k : Except Unit (Vector UInt8 l) → Thread b (Unit × α)}
      {f : List Answer → Exec b (List Answer × α)}
      (h : ∀ a, Fits n (k a) fun t => f (⟨l, a⟩ :: t)) : Fits (n + 1) (.draw buf k) f

theorem Fits.map {α β : Type} {n : Nat} {t : Thread b (Unit × α)}
    {f : List Answer → Exec b (List Answer × α)} (h : Fits n t f) (p : α → β) :
    Fits n (t >>= fun x => pure (x.1, p x.2)) (fun u => f u >>= fun x => pure (x.1, p x.2)) := by
  induction h with
  | done h =>
    rename_i r f
    cases r with
    | error e => exact .done fun t => by rw [h]; rfl
    | ok v => exact .done fun t => by rw [h]; rfl
  | draw h ih =>
    rw [Thread.draw_bind]
    exact .draw ih

theorem Fits.ret {α : Type} {n : Nat} (v : α) :
    Fits n (pure ((), v) : Thread b (Unit × α)) fun t => pure (t, v) := .done fun _ => rfl

theorem Fits.of_exec {α β : Type} {n : Nat} (x : Exec b α) (p : α → β) :
    Fits n (Thread.lift.app x >>= fun v => pure ((), p v)) fun t => x >>= fun v => pure (t, p v) := by
  cases x with
  | error e => exact .done fun _ => rfl
  | ok v => exact .done fun _ => rfl

theorem fits_keygen : Fits 3 (try_keygen_with_rng ps.params (crypto P) (Thread.rng (b := b)) ())
    fun t => try_keygen_with_rng ps.params (crypto P) dealer t := by
  simp only [thread_try_keygen_with_rng, exec_try_keygen_with_rng]
  refine .draw fun a1 => ?_
  simp only [dealer_fill, pure_bind]
  cases a1 with
  | error _ => exact .ret _
  | ok x1 =>
    refine .draw fun a2 => ?_
    simp only [dealer_fill, pure_bind]
    cases a2 with
    | error _ => exact .ret _
    | ok x2 =>
      refine .draw fun a3 => ?_
      simp only [dealer_fill, pure_bind]
      cases a3 with
      | error _ => exact .ret _
      | ok x3 => exact .ret _

theorem fits_sign (sk : PrivateKey ps.params) (msg ctx : List UInt8) (hedged : Bool) :
    Fits (if hedged then 1 else 0)
      (sk.try_sign_with_rng (crypto P) (Thread.rng (b := b)) () msg ctx hedged)
      fun t => sk.try_sign_with_rng (crypto P) dealer t msg ctx hedged := by
  simp only [thread_try_sign_with_rng, exec_try_sign_with_rng]
  by_cases hc : 255 < ctx.length
  · simp only [if_pos hc]
    exact .ret _
  · simp only [if_neg hc]
    cases hedged with
    | false => exact .ret _
    | true =>
      refine .draw fun a => ?_
      simp only [dealer_fill, pure_bind, if_true]
      exact .ret _

theorem fits_hash_sign (sk : PrivateKey ps.params) (msg ctx : List UInt8) (ph : Ph) (hedged : Bool) :
    Fits (if hedged then 1 else 0)
      (sk.try_hash_sign_with_rng (crypto P) (Thread.rng (b := b)) () msg ctx ph hedged)
      fun t => sk.try_hash_sign_with_rng (crypto P) dealer t msg ctx ph hedged := by
  simp only [thread_try_hash_sign_with_rng, exec_try_hash_sign_with_rng]
  by_cases hc : 255 < ctx.length
  · simp only [if_pos hc]
    exact .ret _
  · simp only [if_neg hc]
    cases hedged with
    | false => exact .ret _
    | true =>
      refine .draw fun a => ?_
      simp only [dealer_fill, pure_bind, if_true]
      exact .ret _

end Fips205.Model
