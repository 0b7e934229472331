import Verif.Proofs.Hashers

/-!
# Executions with their leakage

`TraceExec b` records everything an observer of control flow and memory accesses sees.  `Rel Q x y`
relates two runs: the observer sees the same, and either both return, with values related by `Q`, or both
panic for the same reason.
-/

namespace Fips205.Model

/-- Executions of the code in build `b` with the observations made on the way. -/
def TraceExec (_b : Build) (α : Type) : Type := List Leak × Except Panic α

namespace TraceExec
variable {b : Build} {α β : Type}

/-- What the observer saw. -/
def trace (x : TraceExec b α) : List Leak := x.1

/-- How the execution ended. -/
def result (x : TraceExec b α) : Except Panic α := x.2

instance : Monad (TraceExec b) where
  pure v := ([], .ok v)
  bind x f := match x.2 with
    | .error e => (x.1, .error e)
    | .ok v => (x.1 ++ (f v).1, (f v).2)

instance : Rust (TraceExec b) where
  panic p := ([], .error p)
  leak e := ([e], .ok ())
  build := b

theorem bind_def (x : TraceExec b α) (f : α → TraceExec b β) : x >>= f = match x.2 with
    | .error e => (x.1, .error e)
    | .ok v => (x.1 ++ (f v).1, (f v).2) := rfl

theorem bind_ok {x : TraceExec b α} {t : List Leak} {v : α} (h : x = (t, .ok v))
    (f : α → TraceExec b β) : x >>= f = (t ++ (f v).1, (f v).2) := by
  rw [h]; rfl

theorem bind_error {x : TraceExec b α} {t : List Leak} {e : Panic} (h : x = (t, .error e))
    (f : α → TraceExec b β) : x >>= f = (t, .error e) := by
  rw [h]; rfl

theorem pure_def (v : α) : (pure v : TraceExec b α) = ([], .ok v) := rfl

instance : LawfulMonad (TraceExec b) := LawfulMonad.mk'
  (id_map := by
    rintro α ⟨t, r⟩
    cases r with
    | error e => rfl
    | ok v => exact Prod.ext (List.append_nil _) rfl)
  (pure_bind := fun _ _ => rfl)
  (bind_assoc := by
    rintro α β γ ⟨t, r⟩ f g
    cases r with
    | error e => rfl
    | ok v =>
      rw [bind_ok rfl, bind_ok rfl]
      generalize f v = y
      obtain ⟨t', r'⟩ := y
      cases r' with
      | error e => rfl
      | ok w => exact Prod.ext (List.append_assoc _ _ _) rfl)

theorem emit_eq (tr : List Leak) : (emit tr : TraceExec b Unit) = (tr, .ok ()) := by
  induction tr with
  | nil => rfl
  | cons e es ih => rw [emit, ih]; rfl

theorem returns_iff {x : TraceExec b α} {P : α → Prop} :
    Returns x P ↔ ∃ v, x.result = .ok v ∧ P v := by
  constructor
  · rintro ⟨tr, v, h, hp⟩
    rw [emit_eq] at h
    exact ⟨v, by rw [h]; rfl, hp⟩
  · rintro ⟨v, h, hp⟩
    refine ⟨x.trace, v, ?_, hp⟩
    rw [emit_eq]
    obtain ⟨t, r⟩ := x
    have h : r = .ok v := h
    rw [h]
    exact Prod.ext (List.append_nil _).symm rfl

end TraceExec

/-! ## Two runs -/

/-- How two executions end alike. -/
def RelR {α β : Type} (Q : α → β → Prop) : Except Panic α → Except Panic β → Prop
  | .ok v, .ok w => Q v w
  | .error e, .error e' => e = e'
  | _, _ => False

/-- The observer cannot tell `x` from `y`; results are related by `Q`. -/
def Rel {b : Build} {α β : Type} (Q : α → β → Prop) (x : TraceExec b α) (y : TraceExec b β) : Prop :=
  x.trace = y.trace ∧ RelR Q x.result y.result

namespace Rel
variable {b : Build} {α β γ δ σ τ : Type}

theorem pure {Q : α → β → Prop} {v : α} {w : β} (h : Q v w) :
    Rel Q (Pure.pure v : TraceExec b α) (Pure.pure w) := ⟨rfl, h⟩

theorem panic {Q : α → β → Prop} (p : Panic) :
    Rel Q (Rust.panic p : TraceExec b α) (Rust.panic p) := ⟨rfl, rfl⟩

theorem mono {Q Q' : α → β → Prop} {x : TraceExec b α} {y : TraceExec b β} (h : Rel Q x y)
    (hQ : ∀ v w, Q v w → Q' v w) : Rel Q' x y := by
  obtain ⟨t, r⟩ := x
  obtain ⟨t', r'⟩ := y
  refine ⟨h.1, ?_⟩
  have h2 : RelR Q r r' := h.2
  show RelR Q' r r'
  cases r <;> cases r' <;> first | exact h2 | exact hQ _ _ h2

theorem bind {Q : α → β → Prop} {Q' : γ → δ → Prop} {x : TraceExec b α} {y : TraceExec b β}
    {f : α → TraceExec b γ} {g : β → TraceExec b δ} (h : Rel Q x y)
    (hf : ∀ v w, Q v w → Rel Q' (f v) (g w)) : Rel Q' (x >>= f) (y >>= g) := by
  obtain ⟨t, r⟩ := x
  obtain ⟨t', r'⟩ := y
  have h1 : t = t' := h.1
  have h2 : RelR Q r r' := h.2
  subst h1
  cases r with
  | error e =>
    cases r' with
    | error e' => exact ⟨rfl, h2⟩
    | ok w => exact h2.elim
  | ok v =>
    cases r' with
    | error e' => exact h2.elim
    | ok w =>
      have := hf v w h2
      refine ⟨?_, this.2⟩
      show t ++ (f v).1 = t ++ (g w).1
      rw [show (f v).1 = (g w).1 from this.1]

theorem refl (x : TraceExec b α) : Rel (· = ·) x x := by
  obtain ⟨t, r⟩ := x
  refine ⟨rfl, ?_⟩
  show RelR _ r r
  cases r <;> rfl

/-- A computation on public data, done by both runs. -/
theorem same {Q : γ → δ → Prop} (x : TraceExec b α) {f : α → TraceExec b γ} {g : α → TraceExec b δ}
    (hf : ∀ v, Rel Q (f v) (g v)) : Rel Q (x >>= f) (x >>= g) :=
  (refl x).bind fun v _ h => h ▸ hf v

/-- The same, when it is known what the computation returns. -/
theorem same' {Q : γ → δ → Prop} {x : TraceExec b α} {P : α → Prop} (hx : Returns x P)
    {f : α → TraceExec b γ} {g : α → TraceExec b δ}
    (hf : ∀ v, P v → Rel Q (f v) (g v)) : Rel Q (x >>= f) (x >>= g) := by
  obtain ⟨v, hv, hP⟩ := TraceExec.returns_iff.mp hx
  obtain ⟨t, r⟩ := x
  have hv : r = .ok v := hv
  subst hv
  have := hf v hP
  refine ⟨?_, this.2⟩
  show t ++ (f v).1 = t ++ (g v).1
  rw [show (f v).1 = (g v).1 from this.1]

/-- Add what is known about the results of the runs. -/
theorem know {Q : α → β → Prop} {x : TraceExec b α} {y : TraceExec b β} (h : Rel Q x y)
    {P : α → Prop} {P' : β → Prop} (hx : Returns x P) (hy : Returns y P') :
    Rel (fun v w => Q v w ∧ P v ∧ P' w) x y := by
  obtain ⟨v, hv, hP⟩ := TraceExec.returns_iff.mp hx
  obtain ⟨w, hw, hP'⟩ := TraceExec.returns_iff.mp hy
  refine ⟨h.1, ?_⟩
  have h2 := h.2
  rw [hv, hw] at h2 ⊢
  exact ⟨h2, hP, hP'⟩

theorem leak {Q : γ → δ → Prop} {e : Leak} {f : Unit → TraceExec b γ} {g : Unit → TraceExec b δ}
    (hf : Rel Q (f ()) (g ())) : Rel Q (Rust.leak e >>= f) (Rust.leak e >>= g) :=
  same _ fun _ => hf

theorem leakEq {Q : γ → δ → Prop} {e e' : Leak} (he : e = e') {f : Unit → TraceExec b γ}
    {g : Unit → TraceExec b δ} (hf : Rel Q (f ()) (g ())) :
    Rel Q (Rust.leak e >>= f) (Rust.leak e' >>= g) :=
  he ▸ same _ fun _ => hf

theorem tail {Q : α → β → Prop} {x : TraceExec b α} {y : TraceExec b β}
    (h : Rel Q (x >>= Pure.pure) (y >>= Pure.pure)) : Rel Q x y := by
  simpa using h

/-! ## Arrays and slices -/

theorem vget {n : Nat} {v : Vector α n} {w : Vector β n} {i : Nat} {Q : γ → δ → Prop}
    {f : α → TraceExec b γ} {g : β → TraceExec b δ}
    (hf : ∀ h : i < n, Rel Q (f v[i]) (g w[i])) :
    Rel Q (Model.vget v i >>= f) (Model.vget w i >>= g) := by
  rw [Model.vget, Model.vget, bind_assoc, bind_assoc]
  refine leak ?_
  by_cases h : i < n
  · simpa [h] using hf h
  · simp only [h, dif_neg, not_false_iff]
    exact bind (panic _) fun _ _ (h : False) => h.elim

theorem vset {n : Nat} {v : Vector α n} {w : Vector β n} {i : Nat} {x : α} {y : β} {Q : γ → δ → Prop}
    {f : Vector α n → TraceExec b γ} {g : Vector β n → TraceExec b δ}
    (hf : ∀ h : i < n, Rel Q (f (v.set i x)) (g (w.set i y))) :
    Rel Q (Model.vset v i x >>= f) (Model.vset w i y >>= g) := by
  rw [Model.vset, Model.vset, bind_assoc, bind_assoc]
  refine leak ?_
  by_cases h : i < n
  · simpa [h] using hf h
  · simp only [h, dif_neg, not_false_iff]
    exact bind (panic _) fun _ _ (h : False) => h.elim

theorem slice {s : List α} {s' : List β} (hl : s.length = s'.length) {lo hi : Nat} {Q : γ → δ → Prop}
    {f : List α → TraceExec b γ} {g : List β → TraceExec b δ}
    (hf : ∀ t t', t.length = t'.length → Rel Q (f t) (g t')) :
    Rel Q (Model.slice s lo hi >>= f) (Model.slice s' lo hi >>= g) := by
  rw [Model.slice, Model.slice, bind_assoc, bind_assoc]
  refine leak ?_
  rw [← hl]
  split
  · rw [pure_bind, pure_bind]
    exact hf _ _ (by simp [hl])
  · exact bind (panic _) fun _ _ (h : False) => h.elim

theorem copyFromSlice {n : Nat} {s : List α} {s' : List β} (hl : s.length = s'.length)
    {Q : γ → δ → Prop} {f : Vector α n → TraceExec b γ} {g : Vector β n → TraceExec b δ}
    (hf : ∀ v w, Rel Q (f v) (g w)) :
    Rel Q (Model.copyFromSlice n s >>= f) (Model.copyFromSlice n s' >>= g) := by
  rw [Model.copyFromSlice, Model.copyFromSlice]
  by_cases h : s.length = n
  · rw [dif_pos h, dif_pos (hl ▸ h), pure_bind, pure_bind]
    exact hf _ _
  · rw [dif_neg h, dif_neg (hl ▸ h)]
    exact bind (panic _) fun _ _ (h : False) => h.elim

theorem writeSlice {n : Nat} {v : Vector α n} {w : Vector β n} {lo hi : Nat} {s : List α} {s' : List β}
    (hl : s.length = s'.length) {Q : γ → δ → Prop} {f : Vector α n → TraceExec b γ}
    {g : Vector β n → TraceExec b δ} (hf : ∀ v w, Rel Q (f v) (g w)) :
    Rel Q (Model.writeSlice v lo hi s >>= f) (Model.writeSlice w lo hi s' >>= g) := by
  rw [Model.writeSlice, Model.writeSlice, bind_assoc, bind_assoc]
  refine leak ?_
  by_cases h : lo ≤ hi ∧ hi ≤ n
  · rw [dif_pos h, dif_pos h]
    by_cases h' : s.length = hi - lo
    · rw [dif_pos h', dif_pos (hl ▸ h'), pure_bind, pure_bind]
      exact hf _ _
    · rw [dif_neg h', dif_neg (hl ▸ h')]
      exact bind (panic _) fun _ _ (h : False) => h.elim
  · rw [dif_neg h, dif_neg h]
    exact bind (panic _) fun _ _ (h : False) => h.elim

/-! ## Loops -/

theorem loopFrom {body : Nat → σ → TraceExec b σ} {body' : Nat → τ → TraceExec b τ}
    (I : Nat → σ → τ → Prop) :
    ∀ (c lo : Nat) (s : σ) (t : τ), I lo s t →
      (∀ i s t, lo ≤ i → i < lo + c → I i s t → Rel (I (i + 1)) (body i s) (body' i t)) →
      Rel (I (lo + c)) (Model.loopFrom body c lo s) (Model.loopFrom body' c lo t)
  | 0, _, _, _, h0, _ => pure h0
  | c + 1, lo, s, t, h0, hs => by
    refine (hs lo s t (Nat.le_refl _) (by omega) h0).bind fun s' t' h' => ?_
    have := loopFrom I c (lo + 1) s' t' h' fun i s t h1 h2 => hs i s t (by omega) (by omega)
    rwa [show lo + 1 + c = lo + (c + 1) by omega] at this

theorem forU32 {lo hi : UInt32} {s : σ} {t : τ} {body : UInt32 → σ → TraceExec b σ}
    {body' : UInt32 → τ → TraceExec b τ} (I : Nat → σ → τ → Prop) (h0 : I lo.toNat s t)
    (hs : ∀ (i : UInt32) s t, lo.toNat ≤ i.toNat → i.toNat < hi.toNat → I i.toNat s t →
      Rel (I (i.toNat + 1)) (body i s) (body' i t)) :
    Rel (I (max lo.toNat hi.toNat)) (Model.forU32 lo hi s body) (Model.forU32 lo hi t body') := by
  refine leak ?_
  have := loopFrom (body := fun i => body (UInt32.ofNat i)) (body' := fun i => body' (UInt32.ofNat i)) I
    (hi.toNat - lo.toNat) lo.toNat s t h0 fun i s t h1 h2 hI => by
      have hi' : (UInt32.ofNat i).toNat = i := by
        have := hi.toNat_lt
        rw [UInt32.toNat_ofNat', Nat.mod_eq_of_lt (by omega)]
      have := hs (UInt32.ofNat i) s t (by omega) (by omega) (by rwa [hi'])
      rwa [hi'] at this
  rwa [show lo.toNat + (hi.toNat - lo.toNat) = max lo.toNat hi.toNat by omega] at this

/-- A loop whose state is related in the same way throughout. -/
theorem forU32' {lo hi : UInt32} {s : σ} {t : τ} {body : UInt32 → σ → TraceExec b σ}
    {body' : UInt32 → τ → TraceExec b τ} (I : σ → τ → Prop) (h0 : I s t)
    (hs : ∀ (i : UInt32) s t, I s t → Rel I (body i s) (body' i t)) :
    Rel I (Model.forU32 lo hi s body) (Model.forU32 lo hi t body') :=
  forU32 (fun _ => I) h0 fun i s t _ _ => hs i s t

theorem loopFromE {ε : Type} {body : Nat → σ → TraceExec b (Except ε σ)}
    {body' : Nat → τ → TraceExec b (Except ε τ)} (I : Nat → σ → τ → Prop) :
    ∀ (c lo : Nat) (s : σ) (t : τ), I lo s t →
      (∀ i s t, lo ≤ i → i < lo + c → I i s t →
        Rel (fun r r' => ∃ s' t', r = .ok s' ∧ r' = .ok t' ∧ I (i + 1) s' t') (body i s) (body' i t)) →
      Rel (fun r r' => ∃ s' t', r = .ok s' ∧ r' = .ok t' ∧ I (lo + c) s' t')
        (Model.loopFromE body c lo s) (Model.loopFromE body' c lo t)
  | 0, _, s, t, h0, _ => pure ⟨s, t, rfl, rfl, h0⟩
  | c + 1, lo, s, t, h0, hs => by
    refine (hs lo s t (Nat.le_refl _) (by omega) h0).bind fun r r' hr => ?_
    obtain ⟨s', t', rfl, rfl, h'⟩ := hr
    have := loopFromE I c (lo + 1) s' t' h' fun i s t h1 h2 => hs i s t (by omega) (by omega)
    rw [show lo + 1 + c = lo + (c + 1) by omega] at this
    exact leak this

theorem forU32E {ε : Type} {lo hi : UInt32} {s : σ} {t : τ} {body : UInt32 → σ → TraceExec b (Except ε σ)}
    {body' : UInt32 → τ → TraceExec b (Except ε τ)} (I : Nat → σ → τ → Prop) (h0 : I lo.toNat s t)
    (hs : ∀ (i : UInt32) s t, lo.toNat ≤ i.toNat → i.toNat < hi.toNat → I i.toNat s t →
      Rel (fun r r' => ∃ s' t', r = .ok s' ∧ r' = .ok t' ∧ I (i.toNat + 1) s' t') (body i s) (body' i t)) :
    Rel (fun r r' => ∃ s' t', r = .ok s' ∧ r' = .ok t' ∧ I (max lo.toNat hi.toNat) s' t')
      (Model.forU32E lo hi s body) (Model.forU32E lo hi t body') := by
  refine leak ?_
  have := loopFromE (body := fun i => body (UInt32.ofNat i)) (body' := fun i => body' (UInt32.ofNat i)) I
    (hi.toNat - lo.toNat) lo.toNat s t h0 fun i s t h1 h2 hI => by
      have hi' : (UInt32.ofNat i).toNat = i := by
        have := hi.toNat_lt
        rw [UInt32.toNat_ofNat', Nat.mod_eq_of_lt (by omega)]
      have := hs (UInt32.ofNat i) s t (by omega) (by omega) (by rwa [hi'])
      rwa [hi'] at this
  rwa [show lo.toNat + (hi.toNat - lo.toNat) = max lo.toNat hi.toNat by omega] at this

theorem foldlM {ε : Type} {body : σ → ε → TraceExec b σ} {body' : τ → ε → TraceExec b τ}
    (I : σ → τ → Prop) (hs : ∀ x s t, I s t → Rel I (body s x) (body' t x)) :
    ∀ (xs : List ε) (s : σ) (t : τ), I s t → Rel I (xs.foldlM body s) (xs.foldlM body' t)
  | [], _, _, h0 => pure h0
  | x :: xs, s, t, h0 => by
    rw [List.foldlM_cons, List.foldlM_cons]
    exact (hs x s t h0).bind fun s' t' h' => foldlM I hs xs s' t' h'

/-- A loop over a public list. -/
theorem forEach {ε : Type} {xs : List ε} {s : σ} {t : τ} {body : ε → σ → TraceExec b σ}
    {body' : ε → τ → TraceExec b τ} (I : σ → τ → Prop) (h0 : I s t)
    (hs : ∀ x s t, I s t → Rel I (body x s) (body' x t)) :
    Rel I (Model.forEach xs s body) (Model.forEach xs t body') :=
  leak (foldlM I hs xs s t h0)

end Rel

end Fips205.Model
