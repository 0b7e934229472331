import Verif.Proofs.TraceApi

/-! # Observations of several calls in a row

The lemmas of `TraceApi` for single calls, with what is needed to continue: after two runs that look alike
the RNGs are still in related states. -/

namespace Fips205.Model
open Fips205

variable {b : Build} {α β γ δ σ τ : Type}

/-- As `traces_bind`, with a conclusion about the results. -/
theorem traces_bind_and {Q : α → β → Prop} {x : TraceExec b α} {y : TraceExec b β}
    {f : α → TraceExec b γ} {g : β → TraceExec b δ} (h : Rel Q x y) {r : γ} {r' : δ} {Z : Prop}
    (h1 : (x >>= f).result = .ok r) (h2 : (y >>= g).result = .ok r')
    (hf : ∀ v w, Q v w → x.result = .ok v → y.result = .ok w → (f v).result = .ok r →
      (g w).result = .ok r' → (f v).trace = (g w).trace ∧ Z) :
    (x >>= f).trace = (y >>= g).trace ∧ Z := by
  obtain ⟨t, v⟩ := x
  obtain ⟨t', w⟩ := y
  have e1 : t = t' := h.1
  have e2 : RelR Q v w := h.2
  subst e1
  cases v with
  | error e => cases h1
  | ok v =>
    cases w with
    | error e => cases h2
    | ok w =>
      obtain ⟨h3, h4⟩ := hf v w e2 rfl rfl h1 h2
      refine ⟨?_, h4⟩
      show t ++ (f v).trace = t ++ (g w).trace
      rw [h3]

/-- As `traces_bind_and`, when the first steps of the runs are already known to look alike. -/
theorem traces_bind_eq {x : TraceExec b α} {y : TraceExec b β}
    {f : α → TraceExec b γ} {g : β → TraceExec b δ} {r : γ} {r' : δ} {Z : Prop}
    (h1 : (x >>= f).result = .ok r) (h2 : (y >>= g).result = .ok r')
    (hf : ∀ v w, x.result = .ok v → y.result = .ok w → (f v).result = .ok r →
      (g w).result = .ok r' → x.trace = y.trace ∧ (f v).trace = (g w).trace ∧ Z) :
    (x >>= f).trace = (y >>= g).trace ∧ Z := by
  obtain ⟨v, hv, h3⟩ := bind_result h1
  obtain ⟨w, hw, h4⟩ := bind_result h2
  obtain ⟨h5, h6, h7⟩ := hf v w hv hw h3 h4
  obtain ⟨t, x⟩ := x
  obtain ⟨t', y⟩ := y
  obtain rfl : x = .ok v := hv
  obtain rfl : y = .ok w := hw
  obtain rfl : t = t' := h5
  refine ⟨?_, h7⟩
  show t ++ (f v).trace = t ++ (g w).trace
  rw [h6]

variable {P P' : Spec.Prims} {p : Params} {sp : Spec.Params} {hf : Spec.HashFns} {q : Nat}

/-! ## Key generation -/

theorem slh_keygen_with_rng_rel' {K LEN M N D HP : Nat} {hs hs' : Hashers (TraceExec b) K LEN M N}
    (R : HashersRel hs hs') {S : σ → τ → Prop} {rng : Rng (TraceExec b) σ} {rng' : Rng (TraceExec b) τ}
    (hr : AlikeRngs S rng rng') {s : σ} {t : τ} (h0 : S s t) :
    Rel (fun x y => S x.1 y.1 ∧ x.2.isOk = y.2.isOk) (slh_keygen_with_rng D HP rng s hs)
      (slh_keygen_with_rng D HP rng' t hs') := by
  unfold slh_keygen_with_rng
  refine (hr _ _ h0 _ _).bind ?_
  rintro ⟨s1, r1⟩ ⟨t1, u1⟩ ⟨h1, e1⟩
  cases r1 <;> cases u1 <;> cases e1
  · exact Rel.leak (Rel.pure ⟨h1, rfl⟩)
  refine Rel.leak ((hr _ _ h1 _ _).bind ?_)
  rintro ⟨s2, r2⟩ ⟨t2, u2⟩ ⟨h2, e2⟩
  cases r2 <;> cases u2 <;> cases e2
  · exact Rel.leak (Rel.pure ⟨h2, rfl⟩)
  refine Rel.leak ((hr _ _ h2 _ _).bind ?_)
  rintro ⟨s3, r3⟩ ⟨t3, u3⟩ ⟨h3, e3⟩
  cases r3 <;> cases u3 <;> cases e3
  · exact Rel.leak (Rel.pure ⟨h3, rfl⟩)
  refine Rel.leak ((slh_keygen_internal_rel R _ _ _ _ _ _).bind ?_)
  rintro ⟨a, c⟩ ⟨a', c'⟩ _
  exact Rel.pure ⟨h3, rfl⟩

theorem try_keygen_with_rng_rel' {S : σ → τ → Prop} {rng : Rng (TraceExec b) σ}
    {rng' : Rng (TraceExec b) τ} (hr : AlikeRngs S rng rng') {s : σ} {t : τ} (h0 : S s t) :
    Rel (fun x y => S x.1 y.1 ∧ x.2.isOk = y.2.isOk) (try_keygen_with_rng p (crypto P) rng s)
      (try_keygen_with_rng p (crypto P') rng' t) := by
  refine (slh_keygen_with_rng_rel' (HASHERS_rel P P' p) hr h0).bind ?_
  rintro ⟨s1, r1⟩ ⟨t1, u1⟩ ⟨h1, e1⟩
  cases r1 <;> cases u1 <;> cases e1
  · exact Rel.leak (Rel.pure ⟨h1, rfl⟩)
  · exact Rel.leak (Rel.pure ⟨h1, rfl⟩)

/-! ## Signing -/

/-- The end of all signing functions never reports an error, and does not touch the RNG. -/
theorem sign_end_ok (S : Sizes p sp)
    (F : HashersRefine (HASHERS p (crypto P) : Hashers (TraceExec b) _ _ _ _) hf)
    {mp : List (List UInt8)} (hmp : mp.length ≤ 5) (sk : SlhPrivateKey p.N)
    (o : Vector UInt8 p.N) {r : Except String (Vector UInt8 p.SIG_LEN)} {s s1 : σ}
    (hs : (do let u ← slh_sign_internal p.A p.D p.H p.HP (HASHERS p (crypto P)) mp sk o
              let r ← mapSerialize p u
              pure (s, r) : TraceExec b _).result = .ok (s1, r)) :
    s1 = s ∧ ∃ sig, r = .ok sig := by
  have h1 := sign_serialize_returns S F hmp sk o
  have h2 : Returns (do let u ← slh_sign_internal p.A p.D p.H p.HP (HASHERS p (crypto P)) mp sk o
                        let r ← mapSerialize p u
                        pure (s, r) : TraceExec b _) (fun v => v.1 = s ∧ ∃ sig, v.2 = .ok sig) := by
    have := h1.bind (f := fun r => pure (s, r)) (Q := fun v => v.1 = s ∧ ∃ sig, v.2 = .ok sig) (by
      rintro _ ⟨sig, rfl, -⟩
      exact Returns.pure ⟨rfl, sig, rfl⟩)
    rwa [bind_assoc] at this
  obtain ⟨v, hv, h3⟩ := TraceExec.returns_iff.mp h2
  rw [hs] at hv
  cases hv
  exact h3

theorem sign_with_rng_alike (S : Sizes p sp)
    (F : HashersRefine (HASHERS p (crypto P) : Hashers (TraceExec b) _ _ _ _) hf)
    (V : Spec.Valid hf sp.n q) {mp : List (List UInt8)} (hmp : mp.length ≤ 5)
    {sk sk' : SlhPrivateKey p.N} (h1 : sk.pk_seed = sk'.pk_seed) (h2 : sk.pk_root = sk'.pk_root)
    {T : σ → τ → Prop} {rng : Rng (TraceExec b) σ} {rng' : Rng (TraceExec b) τ}
    (hr : AlikeRngs T rng rng') {s s1 : σ} {t t1 : τ} (h0 : T s t) (hedged : Bool)
    {r r' : Except String (Vector UInt8 p.SIG_LEN)} (hrr : r.toOption = r'.toOption)
    (hs : (do let (s, u) ← slh_sign_with_rng p.A p.D p.H p.HP rng s (HASHERS p (crypto P)) mp sk hedged
              let r ← mapSerialize p u
              pure (s, r) : TraceExec b _).result = .ok (s1, r))
    (hs' : (do let (t, u) ← slh_sign_with_rng p.A p.D p.H p.HP rng' t (HASHERS p (crypto P)) mp sk' hedged
               let r ← mapSerialize p u
               pure (t, r) : TraceExec b _).result = .ok (t1, r')) :
    (do let (s, u) ← slh_sign_with_rng p.A p.D p.H p.HP rng s (HASHERS p (crypto P)) mp sk hedged
        let r ← mapSerialize p u
        pure (s, r) : TraceExec b _).trace =
    (do let (t, u) ← slh_sign_with_rng p.A p.D p.H p.HP rng' t (HASHERS p (crypto P)) mp sk' hedged
        let r ← mapSerialize p u
        pure (t, r) : TraceExec b _).trace ∧ T s1 t1 := by
  unfold slh_sign_with_rng at *
  cases hedged
  · simp only [bind_assoc, pure_bind, if_false, Bool.false_eq_true] at hs hs' ⊢
    refine traces_bind_and (Rel.refl _) hs hs' fun _ _ _ _ _ hs hs' => ?_
    obtain ⟨rfl, sig, rfl⟩ := sign_end_ok S F hmp _ _ hs
    obtain ⟨rfl, sig', rfl⟩ := sign_end_ok S F hmp _ _ hs'
    cases hrr
    exact ⟨sign_end_traces S F V hmp h1 h2 _ _ hs hs', h0⟩
  · simp only [bind_assoc, if_true] at hs hs' ⊢
    refine traces_bind_and (Rel.refl _) hs hs' fun _ _ _ _ _ hs hs' => ?_
    refine traces_bind_and (hr _ _ h0 _ _) hs hs' ?_
    rintro ⟨s2, r2⟩ ⟨t2, u2⟩ ⟨h2', e2⟩ _ _ hs hs'
    cases r2 with
    | error e =>
      cases u2 with
      | error e' =>
        simp only [pure_bind, mapSerialize] at hs hs' ⊢
        cases hs
        cases hs'
        exact ⟨rfl, h2'⟩
      | ok o' => cases e2
    | ok o =>
      cases u2 with
      | error e => cases e2
      | ok o' =>
        simp only [bind_assoc, pure_bind] at hs hs' ⊢
        refine traces_bind_and (Rel.refl _) hs hs' fun _ _ _ _ _ hs hs' => ?_
        obtain ⟨rfl, sig, rfl⟩ := sign_end_ok S F hmp _ _ hs
        obtain ⟨rfl, sig', rfl⟩ := sign_end_ok S F hmp _ _ hs'
        cases hrr
        exact ⟨sign_end_traces S F V hmp h1 h2 o o' hs hs', h2'⟩

theorem try_sign_alike (S : Sizes p sp)
    (F : HashersRefine (HASHERS p (crypto P) : Hashers (TraceExec b) _ _ _ _) hf)
    (V : Spec.Valid hf sp.n q) (msg ctx : List UInt8)
    {sk sk' : PrivateKey p} (h : sk.get_public_key = sk'.get_public_key)
    {T : σ → τ → Prop} {rng : Rng (TraceExec b) σ} {rng' : Rng (TraceExec b) τ}
    (hr : AlikeRngs T rng rng') {s s1 : σ} {t t1 : τ} (h0 : T s t) (hedged : Bool)
    {r r' : Except String (Vector UInt8 p.SIG_LEN)} (hrr : r.toOption = r'.toOption)
    (hs : (sk.try_sign_with_rng (crypto P) rng s msg ctx hedged).result = .ok (s1, r))
    (hs' : (sk'.try_sign_with_rng (crypto P) rng' t msg ctx hedged).result = .ok (t1, r')) :
    (sk.try_sign_with_rng (crypto P) rng s msg ctx hedged).trace =
      (sk'.try_sign_with_rng (crypto P) rng' t msg ctx hedged).trace ∧ T s1 t1 := by
  have h1 : sk.key.pk_seed = sk'.key.pk_seed := congrArg (fun k => k.key.pk_seed) h
  have h2 : sk.key.pk_root = sk'.key.pk_root := congrArg (fun k => k.key.pk_root) h
  unfold PrivateKey.try_sign_with_rng at *
  refine traces_bind_and (Rel.refl _) hs hs' fun _ _ _ _ _ hs hs' => ?_
  by_cases hc : 255 < ctx.length
  · rw [if_pos hc] at hs hs' ⊢
    rw [if_pos hc]
    cases hs
    cases hs'
    exact ⟨rfl, h0⟩
  · rw [if_neg hc] at hs hs' ⊢
    rw [if_neg hc]
    exact sign_with_rng_alike S F V (by simp) h1 h2 hr h0 hedged hrr hs hs'

theorem try_hash_sign_alike (S : Sizes p sp)
    (F : HashersRefine (HASHERS p (crypto P) : Hashers (TraceExec b) _ _ _ _) hf)
    (V : Spec.Valid hf sp.n q) (msg ctx : List UInt8) (ph : Ph)
    {sk sk' : PrivateKey p} (h : sk.get_public_key = sk'.get_public_key)
    {T : σ → τ → Prop} {rng : Rng (TraceExec b) σ} {rng' : Rng (TraceExec b) τ}
    (hr : AlikeRngs T rng rng') {s s1 : σ} {t t1 : τ} (h0 : T s t) (hedged : Bool)
    {r r' : Except String (Vector UInt8 p.SIG_LEN)} (hrr : r.toOption = r'.toOption)
    (hs : (sk.try_hash_sign_with_rng (crypto P) rng s msg ctx ph hedged).result = .ok (s1, r))
    (hs' : (sk'.try_hash_sign_with_rng (crypto P) rng' t msg ctx ph hedged).result = .ok (t1, r')) :
    (sk.try_hash_sign_with_rng (crypto P) rng s msg ctx ph hedged).trace =
      (sk'.try_hash_sign_with_rng (crypto P) rng' t msg ctx ph hedged).trace ∧ T s1 t1 := by
  have h1 : sk.key.pk_seed = sk'.key.pk_seed := congrArg (fun k => k.key.pk_seed) h
  have h2 : sk.key.pk_root = sk'.key.pk_root := congrArg (fun k => k.key.pk_root) h
  unfold PrivateKey.try_hash_sign_with_rng at *
  refine traces_bind_and (Rel.refl _) hs hs' fun _ _ _ _ _ hs hs' => ?_
  by_cases hc : 255 < ctx.length
  · rw [if_pos hc] at hs hs' ⊢
    rw [if_pos hc]
    cases hs
    cases hs'
    exact ⟨rfl, h0⟩
  · rw [if_neg hc] at hs hs' ⊢
    rw [if_neg hc]
    refine traces_bind_and (Rel.refl _) hs hs' ?_
    rintro ⟨o, l, d⟩ _ rfl _ _ hs hs'
    refine traces_bind_and (Rel.refl _) hs hs' ?_
    rintro d _ rfl _ _ hs hs'
    exact sign_with_rng_alike S F V (by simp) h1 h2 hr h0 hedged hrr hs hs'

/-! ## Encoding -/

theorem pk_into_bytes_rel (pk pk' : PublicKey p) :
    Rel (b := b) (fun _ _ => True) pk.into_bytes pk'.into_bytes := by
  unfold PublicKey.into_bytes
  refine Rel.same _ fun _ => Rel.writeSlice (by simp) fun _ _ => Rel.same _ fun _ => Rel.tail ?_
  exact Rel.writeSlice (by simp) fun _ _ => Rel.pure trivial

theorem sk_into_bytes_rel (sk sk' : PrivateKey p) :
    Rel (b := b) (fun _ _ => True) sk.into_bytes sk'.into_bytes := by
  unfold PrivateKey.into_bytes
  refine Rel.same _ fun _ => Rel.writeSlice (by simp) fun _ _ => ?_
  refine Rel.same _ fun _ => Rel.same _ fun _ => Rel.writeSlice (by simp) fun _ _ => ?_
  refine Rel.same _ fun _ => Rel.same _ fun _ => Rel.same _ fun _ => Rel.writeSlice (by simp) fun _ _ => ?_
  refine Rel.same _ fun _ => Rel.same _ fun _ => Rel.tail ?_
  exact Rel.writeSlice (by simp) fun _ _ => Rel.pure trivial

end Fips205.Model
