import Verif.Proofs.TraceSign
import Verif.Proofs.CostSign
import Verif.Proofs.Consistent

/-! # What an observer sees of the API functions, and how often they hash -/

namespace Fips205.Model
open Fips205

variable {b : Build} {σ τ α β γ δ : Type}

/-! ## Random number generators -/

/-- Two RNGs an observer cannot tell apart: as long as their states are related by `S`, they show the
same, and succeed or fail (or panic) alike.  The bytes they deliver may differ. -/
def AlikeRngs (S : σ → τ → Prop) (rng : Rng (TraceExec b) σ) (rng' : Rng (TraceExec b) τ) : Prop :=
  ∀ s t, S s t → ∀ {n : Nat} (v w : Vector UInt8 n),
    Rel (fun x y => S x.1 y.1 ∧ x.2.isOk = y.2.isOk) (rng.tryFill s v) (rng'.tryFill t w)

theorem dummyRng_alike (n : Nat) :
    AlikeRngs (fun s t => s.i = t.i) (dummyRng n : Rng (TraceExec b) _) (dummyRng n) := by
  rintro ⟨d, i⟩ ⟨d', _⟩ rfl k v w
  refine Rel.vget fun _ => Rel.copyFromSlice (by simp) fun _ _ => Rel.same _ fun j => Rel.pure ⟨rfl, rfl⟩

/-! ## Key generation -/

variable {P P' : Spec.Prims} {p : Params}

theorem slh_keygen_with_rng_rel {K LEN M N D HP : Nat} {hs hs' : Hashers (TraceExec b) K LEN M N}
    (R : HashersRel hs hs') {S : σ → τ → Prop} {rng : Rng (TraceExec b) σ} {rng' : Rng (TraceExec b) τ}
    (hr : AlikeRngs S rng rng') {s : σ} {t : τ} (h0 : S s t) :
    Rel (fun x y => x.2.isOk = y.2.isOk) (slh_keygen_with_rng D HP rng s hs)
      (slh_keygen_with_rng D HP rng' t hs') := by
  unfold slh_keygen_with_rng
  refine (hr _ _ h0 _ _).bind ?_
  rintro ⟨s1, r1⟩ ⟨t1, u1⟩ ⟨h1, e1⟩
  cases r1 <;> cases u1 <;> cases e1
  · exact Rel.leak (Rel.pure rfl)
  refine Rel.leak ((hr _ _ h1 _ _).bind ?_)
  rintro ⟨s2, r2⟩ ⟨t2, u2⟩ ⟨h2, e2⟩
  cases r2 <;> cases u2 <;> cases e2
  · exact Rel.leak (Rel.pure rfl)
  refine Rel.leak ((hr _ _ h2 _ _).bind ?_)
  rintro ⟨s3, r3⟩ ⟨t3, u3⟩ ⟨h3, e3⟩
  cases r3 <;> cases u3 <;> cases e3
  · exact Rel.leak (Rel.pure rfl)
  exact Rel.leak ((slh_keygen_internal_rel R _ _ _ _ _ _).bind fun _ _ _ => Rel.pure rfl)

theorem try_keygen_with_rng_rel {S : σ → τ → Prop} {rng : Rng (TraceExec b) σ}
    {rng' : Rng (TraceExec b) τ} (hr : AlikeRngs S rng rng') {s : σ} {t : τ} (h0 : S s t) :
    Rel (fun x y => x.2.isOk = y.2.isOk) (try_keygen_with_rng p (crypto P) rng s)
      (try_keygen_with_rng p (crypto P') rng' t) := by
  refine (slh_keygen_with_rng_rel (HASHERS_rel P P' p) hr h0).bind ?_
  rintro ⟨s1, r1⟩ ⟨t1, u1⟩ e1
  cases r1 <;> cases u1 <;> cases e1
  · exact Rel.leak (Rel.pure rfl)
  · exact Rel.leak (Rel.pure rfl)

theorem keygen_with_seeds_rel {n : Nat} (x y z x' y' z' : Vector UInt8 n) :
    Rel (b := b) Any (keygen_with_seeds p (crypto P) x y z) (keygen_with_seeds p (crypto P') x' y' z') := by
  unfold keygen_with_seeds
  refine (try_keygen_with_rng_rel (s := ⟨#v[x, y, z], 0⟩) (t := ⟨#v[x', y', z'], 0⟩) (dummyRng_alike n)
    rfl).bind ?_
  rintro ⟨s1, r1⟩ ⟨t1, u1⟩ e1
  cases r1 <;> cases u1 <;> cases e1
  · exact Rel.leak (Rel.panic _)
  · exact Rel.leak (Rel.pure trivial)

/-! ## Signing -/

/-- Traces of two sequences that start alike and return. -/
theorem traces_bind {Q : α → β → Prop} {x : TraceExec b α} {y : TraceExec b β}
    {f : α → TraceExec b γ} {g : β → TraceExec b δ} (h : Rel Q x y) {r : γ} {r' : δ}
    (h1 : (x >>= f).result = .ok r) (h2 : (y >>= g).result = .ok r')
    (hf : ∀ v w, Q v w → x.result = .ok v → y.result = .ok w → (f v).result = .ok r →
      (g w).result = .ok r' → (f v).trace = (g w).trace) :
    (x >>= f).trace = (y >>= g).trace := by
  obtain ⟨t, v⟩ := x
  obtain ⟨t', w⟩ := y
  have e1 : t = t' := h.1
  have e2 : RelR Q v w := h.2
  subst e1
  cases v with
  | error e => cases h1
  | ok v =>
    cases w with
    | error e => cases h2
    | ok w =>
      show t ++ (f v).trace = t ++ (g w).trace
      rw [hf v w e2 rfl rfl h1 h2]

variable {sp : Spec.Params} {hf : Spec.HashFns} {q : Nat}

/-- `slh_sign_internal` followed by serialisation. -/
theorem sign_serialize_rel (S : Sizes p sp) (R : HashersRel (b := b) (HASHERS p (crypto P)) (HASHERS p (crypto P)))
    (F : HashersRefine (HASHERS p (crypto P) : Hashers (TraceExec b) _ _ _ _) hf)
    (V : Spec.Valid hf sp.n q) {mp : List (List UInt8)} (hmp : mp.length ≤ 5)
    {sk sk' : SlhPrivateKey p.N} (h1 : sk.pk_seed = sk'.pk_seed) (h2 : sk.pk_root = sk'.pk_root)
    (o o' : Vector UInt8 p.N) {sig : Vector UInt8 p.SIG_LEN}
    (hs : ∃ u, (slh_sign_internal p.A p.D p.H p.HP (HASHERS p (crypto P)) mp sk o : TraceExec b _).result
        = .ok u ∧ (mapSerialize p u : TraceExec b _).result = .ok (.ok sig))
    (hs' : ∃ u, (slh_sign_internal p.A p.D p.H p.HP (HASHERS p (crypto P)) mp sk' o' : TraceExec b _).result
        = .ok u ∧ (mapSerialize p u : TraceExec b _).result = .ok (.ok sig)) :
    Rel (b := b) (· = ·) (slh_sign_internal p.A p.D p.H p.HP (HASHERS p (crypto P)) mp sk o)
      (slh_sign_internal p.A p.D p.H p.HP (HASHERS p (crypto P)) mp sk' o') := by
  have key : ∀ (sk : SlhPrivateKey p.N) (o : Vector UInt8 p.N),
      (∃ u, (slh_sign_internal p.A p.D p.H p.HP (HASHERS p (crypto P)) mp sk o : TraceExec b _).result
        = .ok u ∧ (mapSerialize p u : TraceExec b _).result = .ok (.ok sig)) →
      sig.toList = Spec.signInternal sp hf mp.flatten sk.sk_seed.toList sk.sk_prf.toList
        sk.pk_seed.toList sk.pk_root.toList o.toList := by
    rintro sk o ⟨u, hu, hv⟩
    obtain ⟨r, hr, sig', rfl, e⟩ := TraceExec.returns_iff.mp (sign_serialize_returns S F hmp sk o)
    rw [← e]
    have : (slh_sign_internal p.A p.D p.H p.HP (HASHERS p (crypto P)) mp sk o >>= mapSerialize p :
        TraceExec b _).result = .ok (.ok sig) := by
      generalize (slh_sign_internal p.A p.D p.H p.HP (HASHERS p (crypto P)) mp sk o : TraceExec b _) = x at *
      obtain ⟨t, x⟩ := x
      obtain rfl : x = .ok u := hu
      exact hv
    rw [this] at hr
    injection hr with hr
    injection hr with hr
    rw [hr]
  refine (slh_sign_internal_rel S.m R F V hmp h1 h2 o o' ((key sk o hs).symm.trans (key sk' o' hs'))).mono ?_
  rintro _ _ ⟨v, rfl, rfl⟩
  rfl

theorem bind_pure_result {x : TraceExec b α} {f : α → γ} {r : γ}
    (h : (x >>= fun v => pure (f v)).result = .ok r) : ∃ v, x.result = .ok v ∧ f v = r := by
  obtain ⟨t, x⟩ := x
  cases x with
  | error e => cases h
  | ok v => exact ⟨v, rfl, by injection h⟩

theorem bind_result {x : TraceExec b α} {f : α → TraceExec b γ} {r : γ}
    (h : (x >>= f).result = .ok r) : ∃ v, x.result = .ok v ∧ (f v).result = .ok r := by
  obtain ⟨t, x⟩ := x
  cases x with
  | error e => cases h
  | ok v => exact ⟨v, rfl, h⟩

/-- The common end of all signing functions. -/
theorem sign_end_traces (S : Sizes p sp)
    (F : HashersRefine (HASHERS p (crypto P) : Hashers (TraceExec b) _ _ _ _) hf)
    (V : Spec.Valid hf sp.n q) {mp : List (List UInt8)} (hmp : mp.length ≤ 5)
    {sk sk' : SlhPrivateKey p.N} (h1 : sk.pk_seed = sk'.pk_seed) (h2 : sk.pk_root = sk'.pk_root)
    (o o' : Vector UInt8 p.N) {sig : Vector UInt8 p.SIG_LEN} {s s1 : σ} {t t1 : τ}
    (hs : (do let u ← slh_sign_internal p.A p.D p.H p.HP (HASHERS p (crypto P)) mp sk o
              let r ← mapSerialize p u
              pure (s, r) : TraceExec b _).result = .ok (s1, .ok sig))
    (hs' : (do let u ← slh_sign_internal p.A p.D p.H p.HP (HASHERS p (crypto P)) mp sk' o'
               let r ← mapSerialize p u
               pure (t, r) : TraceExec b _).result = .ok (t1, .ok sig)) :
    (do let u ← slh_sign_internal p.A p.D p.H p.HP (HASHERS p (crypto P)) mp sk o
        let r ← mapSerialize p u
        pure (s, r) : TraceExec b _).trace =
    (do let u ← slh_sign_internal p.A p.D p.H p.HP (HASHERS p (crypto P)) mp sk' o'
        let r ← mapSerialize p u
        pure (t, r) : TraceExec b _).trace := by
  obtain ⟨u, hu, hm⟩ := bind_result hs
  obtain ⟨r, hr, e⟩ := bind_pure_result hm
  obtain ⟨u', hu', hm'⟩ := bind_result hs'
  obtain ⟨r', hr', e'⟩ := bind_pure_result hm'
  injection e with _ e
  injection e' with _ e'
  subst e e'
  refine Rel.left ((sign_serialize_rel S (HASHERS_rel P P p) F V hmp h1 h2 o o' ⟨u, hu, hr⟩
    ⟨u', hu', hr'⟩).bind (Q' := Any) ?_)
  rintro v _ rfl
  exact Rel.same _ fun _ => Rel.pure trivial
where
  Rel.left {α β : Type} {Q : α → β → Prop} {x : TraceExec b α} {y : TraceExec b β} (h : Rel Q x y) :
    x.trace = y.trace := h.1

theorem sign_with_rng_traces (S : Sizes p sp)
    (F : HashersRefine (HASHERS p (crypto P) : Hashers (TraceExec b) _ _ _ _) hf)
    (V : Spec.Valid hf sp.n q) {mp : List (List UInt8)} (hmp : mp.length ≤ 5)
    {sk sk' : SlhPrivateKey p.N} (h1 : sk.pk_seed = sk'.pk_seed) (h2 : sk.pk_root = sk'.pk_root)
    {T : σ → τ → Prop} {rng : Rng (TraceExec b) σ} {rng' : Rng (TraceExec b) τ}
    (hr : AlikeRngs T rng rng') {s s1 : σ} {t t1 : τ} (h0 : T s t) (hedged : Bool)
    {sig : Vector UInt8 p.SIG_LEN}
    (hs : (do let (s, u) ← slh_sign_with_rng p.A p.D p.H p.HP rng s (HASHERS p (crypto P)) mp sk hedged
              let r ← mapSerialize p u
              pure (s, r) : TraceExec b _).result = .ok (s1, .ok sig))
    (hs' : (do let (t, u) ← slh_sign_with_rng p.A p.D p.H p.HP rng' t (HASHERS p (crypto P)) mp sk' hedged
               let r ← mapSerialize p u
               pure (t, r) : TraceExec b _).result = .ok (t1, .ok sig)) :
    (do let (s, u) ← slh_sign_with_rng p.A p.D p.H p.HP rng s (HASHERS p (crypto P)) mp sk hedged
        let r ← mapSerialize p u
        pure (s, r) : TraceExec b _).trace =
    (do let (t, u) ← slh_sign_with_rng p.A p.D p.H p.HP rng' t (HASHERS p (crypto P)) mp sk' hedged
        let r ← mapSerialize p u
        pure (t, r) : TraceExec b _).trace := by
  unfold slh_sign_with_rng at *
  cases hedged
  · simp only [bind_assoc, pure_bind, if_false, Bool.false_eq_true] at hs hs' ⊢
    exact traces_bind (Rel.refl _) hs hs' fun _ _ _ _ _ hs hs' => sign_end_traces S F V hmp h1 h2 _ _ hs hs'
  · simp only [bind_assoc, if_true] at hs hs' ⊢
    refine traces_bind (Rel.refl _) hs hs' fun _ _ _ _ _ hs hs' => ?_
    refine traces_bind (hr _ _ h0 _ _) hs hs' ?_
    rintro ⟨s2, r2⟩ ⟨t2, u2⟩ ⟨h2', e2⟩ _ _ hs hs'
    cases r2 with
    | error e => cases hs
    | ok o =>
      cases u2 with
      | error e => cases e2
      | ok o' =>
        simp only [bind_assoc, pure_bind] at hs hs' ⊢
        exact traces_bind (Rel.refl _) hs hs' fun _ _ _ _ _ hs hs' =>
          sign_end_traces S F V hmp h1 h2 o o' hs hs'

theorem raw_sign_traces (S : Sizes p sp)
    (F : HashersRefine (HASHERS p (crypto P) : Hashers (TraceExec b) _ _ _ _) hf)
    (V : Spec.Valid hf sp.n q) (msg : List UInt8)
    {sk sk' : PrivateKey p} (h : sk.get_public_key = sk'.get_public_key)
    {T : σ → τ → Prop} {rng : Rng (TraceExec b) σ} {rng' : Rng (TraceExec b) τ}
    (hr : AlikeRngs T rng rng') {s s1 : σ} {t t1 : τ} (h0 : T s t) (hedged : Bool)
    {sig : Vector UInt8 p.SIG_LEN}
    (hs : (sk._test_only_raw_sign (crypto P) rng s msg hedged).result = .ok (s1, .ok sig))
    (hs' : (sk'._test_only_raw_sign (crypto P) rng' t msg hedged).result = .ok (t1, .ok sig)) :
    (sk._test_only_raw_sign (crypto P) rng s msg hedged).trace =
      (sk'._test_only_raw_sign (crypto P) rng' t msg hedged).trace := by
  have h1 : sk.key.pk_seed = sk'.key.pk_seed := congrArg (fun k => k.key.pk_seed) h
  have h2 : sk.key.pk_root = sk'.key.pk_root := congrArg (fun k => k.key.pk_root) h
  unfold PrivateKey._test_only_raw_sign at *
  refine traces_bind (Rel.refl _) hs hs' fun _ _ _ _ _ hs hs' => ?_
  cases hedged
  · simp only [if_false, Bool.false_eq_true] at hs hs' ⊢
    exact sign_end_traces S F V (by simp) h1 h2 _ _ hs hs'
  · simp only [if_true] at hs hs' ⊢
    refine traces_bind (hr _ _ h0 _ _) hs hs' ?_
    rintro ⟨s2, r2⟩ ⟨t2, u2⟩ ⟨h2', e2⟩ _ _ hs hs'
    cases r2 with
    | error e => cases hs
    | ok o =>
      cases u2 with
      | error e => cases e2
      | ok o' => exact traces_bind (Rel.refl _) hs hs' fun _ _ _ _ _ hs hs' =>
          sign_end_traces S F V (by simp) h1 h2 o o' hs hs'

theorem try_sign_traces (S : Sizes p sp)
    (F : HashersRefine (HASHERS p (crypto P) : Hashers (TraceExec b) _ _ _ _) hf)
    (V : Spec.Valid hf sp.n q) (msg ctx : List UInt8)
    {sk sk' : PrivateKey p} (h : sk.get_public_key = sk'.get_public_key)
    {T : σ → τ → Prop} {rng : Rng (TraceExec b) σ} {rng' : Rng (TraceExec b) τ}
    (hr : AlikeRngs T rng rng') {s s1 : σ} {t t1 : τ} (h0 : T s t) (hedged : Bool)
    {sig : Vector UInt8 p.SIG_LEN}
    (hs : (sk.try_sign_with_rng (crypto P) rng s msg ctx hedged).result = .ok (s1, .ok sig))
    (hs' : (sk'.try_sign_with_rng (crypto P) rng' t msg ctx hedged).result = .ok (t1, .ok sig)) :
    (sk.try_sign_with_rng (crypto P) rng s msg ctx hedged).trace =
      (sk'.try_sign_with_rng (crypto P) rng' t msg ctx hedged).trace := by
  have h1 : sk.key.pk_seed = sk'.key.pk_seed := congrArg (fun k => k.key.pk_seed) h
  have h2 : sk.key.pk_root = sk'.key.pk_root := congrArg (fun k => k.key.pk_root) h
  unfold PrivateKey.try_sign_with_rng at *
  refine traces_bind (Rel.refl _) hs hs' fun _ _ _ _ _ hs hs' => ?_
  by_cases hc : 255 < ctx.length
  · rw [if_pos hc, if_pos hc]
    rfl
  · rw [if_neg hc] at hs hs' ⊢
    rw [if_neg hc]
    exact sign_with_rng_traces S F V (by simp) h1 h2 hr h0 hedged hs hs'

theorem try_hash_sign_traces (S : Sizes p sp)
    (F : HashersRefine (HASHERS p (crypto P) : Hashers (TraceExec b) _ _ _ _) hf)
    (V : Spec.Valid hf sp.n q) (msg ctx : List UInt8) (ph : Ph)
    {sk sk' : PrivateKey p} (h : sk.get_public_key = sk'.get_public_key)
    {T : σ → τ → Prop} {rng : Rng (TraceExec b) σ} {rng' : Rng (TraceExec b) τ}
    (hr : AlikeRngs T rng rng') {s s1 : σ} {t t1 : τ} (h0 : T s t) (hedged : Bool)
    {sig : Vector UInt8 p.SIG_LEN}
    (hs : (sk.try_hash_sign_with_rng (crypto P) rng s msg ctx ph hedged).result = .ok (s1, .ok sig))
    (hs' : (sk'.try_hash_sign_with_rng (crypto P) rng' t msg ctx ph hedged).result = .ok (t1, .ok sig)) :
    (sk.try_hash_sign_with_rng (crypto P) rng s msg ctx ph hedged).trace =
      (sk'.try_hash_sign_with_rng (crypto P) rng' t msg ctx ph hedged).trace := by
  have h1 : sk.key.pk_seed = sk'.key.pk_seed := congrArg (fun k => k.key.pk_seed) h
  have h2 : sk.key.pk_root = sk'.key.pk_root := congrArg (fun k => k.key.pk_root) h
  unfold PrivateKey.try_hash_sign_with_rng at *
  refine traces_bind (Rel.refl _) hs hs' fun _ _ _ _ _ hs hs' => ?_
  by_cases hc : 255 < ctx.length
  · rw [if_pos hc, if_pos hc]
    rfl
  · rw [if_neg hc] at hs hs' ⊢
    rw [if_neg hc]
    refine traces_bind (Rel.refl _) hs hs' ?_
    rintro ⟨o, l, d⟩ _ rfl _ _ hs hs'
    refine traces_bind (Rel.refl _) hs hs' ?_
    rintro d _ rfl _ _ hs hs'
    exact sign_with_rng_traces S F V (by simp) h1 h2 hr h0 hedged hs hs'

/-! ## Decoding private keys -/

/-- Two accepted private keys with the same public half. -/
theorem sk_try_from_bytes_traces {v v' : Vector UInt8 p.SK_LEN} {sk sk' : PrivateKey p}
    (hk : sk.get_public_key = sk'.get_public_key)
    (h : (PrivateKey.try_from_bytes (crypto P) v : TraceExec b _).result = .ok (.ok sk))
    (h' : (PrivateKey.try_from_bytes (crypto P) v' : TraceExec b _).result = .ok (.ok sk')) :
    (PrivateKey.try_from_bytes (crypto P) v : TraceExec b _).trace =
      (PrivateKey.try_from_bytes (crypto P) v' : TraceExec b _).trace := by
  unfold PrivateKey.try_from_bytes at *
  have sl : ∀ lo hi, Rel (b := b) (fun x y => x.length = y.length) (slice v.toList lo hi)
      (slice v'.toList lo hi) := fun lo hi =>
    Rel.tail (Rel.slice (by simp) fun t t' ht => Rel.pure ht)
  have cp : ∀ x y : List UInt8, x.length = y.length →
      Rel (b := b) Any (copyFromSlice p.N x) (copyFromSlice p.N y) := fun x y hxy =>
    Rel.tail (Rel.copyFromSlice hxy fun _ _ => Rel.pure trivial)
  refine traces_bind (Rel.refl _) h h' fun q _ e _ _ h h' => ?_
  subst e
  refine traces_bind (sl _ _) h h' fun l l' e _ _ h h' => ?_
  refine traces_bind (cp _ _ e) h h' fun a a' _ _ _ h h' => ?_
  refine traces_bind (Rel.refl _) h h' fun q _ e _ _ h h' => ?_
  subst e
  refine traces_bind (Rel.refl _) h h' fun q _ e _ _ h h' => ?_
  subst e
  refine traces_bind (sl _ _) h h' fun l l' e _ _ h h' => ?_
  refine traces_bind (cp _ _ e) h h' fun c c' _ _ _ h h' => ?_
  refine traces_bind (Rel.refl _) h h' fun q _ e _ _ h h' => ?_
  subst e
  refine traces_bind (Rel.refl _) h h' fun q _ e _ _ h h' => ?_
  subst e
  refine traces_bind (Rel.refl _) h h' fun q _ e _ _ h h' => ?_
  subst e
  refine traces_bind (sl _ _) h h' fun l l' e _ _ h h' => ?_
  refine traces_bind (cp _ _ e) h h' fun d d' _ _ _ h h' => ?_
  refine traces_bind (Rel.refl _) h h' fun q _ e _ _ h h' => ?_
  subst e
  refine traces_bind (Rel.refl _) h h' fun q _ e _ _ h h' => ?_
  subst e
  refine traces_bind (sl _ _) h h' fun l l' e _ _ h h' => ?_
  refine traces_bind (cp _ _ e) h h' fun r r' _ _ _ h h' => ?_
  refine traces_bind (slh_keygen_internal_rel (HASHERS_rel P P p) _ _ _ _ _ _) h h' ?_
  rintro ⟨t, tp⟩ ⟨t', tp'⟩ _ _ _ h h'
  dsimp only at h h' ⊢
  have key : ∀ {t : SlhPrivateKey p.N} {a c d r : Vector UInt8 p.N} {sk : PrivateKey p},
      (do leak (.cmp t.pk_root.toList r.toList)
          if t.pk_root ≠ r then pure (.error "Corrupted key")
          else pure (.ok ({ key := { sk_seed := a, sk_prf := c, pk_seed := d, pk_root := r } } : PrivateKey p)) :
        TraceExec b (Except String (PrivateKey p))).result = .ok (.ok sk) →
      t.pk_root = r ∧ sk.key.pk_root = r := by
    intro t a c d r sk h
    by_cases e : t.pk_root = r
    · rw [if_neg (by simpa using e)] at h
      refine ⟨e, ?_⟩
      injection h with h
      injection h with h
      rw [← h]
    · rw [if_pos e] at h
      injection h with h
      cases h
  obtain ⟨e1, e2⟩ := key h
  obtain ⟨e1', e2'⟩ := key h'
  have e3 : r = r' := by
    rw [← e2, ← e2']
    exact congrArg (fun k => k.key.pk_root) hk
  rw [e1, e1', e3, if_neg (by simp), if_neg (by simp)]
  rfl

/-- The observer sees the same of both runs up to the last event. -/
def SameUpTo (e e' : Leak) (x : TraceExec b α) (y : TraceExec b β) : Prop :=
  ∃ T, x.trace = T ++ [e] ∧ y.trace = T ++ [e']

theorem SameUpTo.bind {Q : α → β → Prop} {x : TraceExec b α} {y : TraceExec b β}
    {f : α → TraceExec b γ} {g : β → TraceExec b δ} {e e' : Leak} (h : Rel Q x y)
    {X : α → Prop} {Y : β → Prop} (hx : Returns x X) (hy : Returns y Y)
    (hf : ∀ v w, Q v w → X v → Y w → SameUpTo e e' (f v) (g w)) :
    SameUpTo e e' (x >>= f) (y >>= g) := by
  obtain ⟨v, hv, hX⟩ := TraceExec.returns_iff.mp hx
  obtain ⟨w, hw, hY⟩ := TraceExec.returns_iff.mp hy
  obtain ⟨t, x⟩ := x
  obtain ⟨t', y⟩ := y
  obtain rfl : t = t' := h.1
  obtain rfl : x = .ok v := hv
  obtain rfl : y = .ok w := hw
  obtain ⟨T, h1, h2⟩ := hf v w h.2 hX hY
  refine ⟨t ++ T, ?_, ?_⟩
  · show t ++ (f v).trace = _
    rw [h1, List.append_assoc]
  · show t ++ (g w).trace = _
    rw [h2, List.append_assoc]

/-- What decoding a private key shows last: the comparison of the recomputed root with the stored one. -/
def decodeLeak (sp : Spec.Params) (hf : Spec.HashFns) (v : List UInt8) : Leak :=
  .cmp (Spec.pkRoot sp hf (Spec.slice v 0 sp.n) (Spec.slice v (2 * sp.n) (3 * sp.n)))
    (Spec.slice v (3 * sp.n) (4 * sp.n))

theorem sk_try_from_bytes_sameUpTo (S : Sizes p sp)
    (F : HashersRefine (HASHERS p (crypto P) : Hashers (TraceExec b) _ _ _ _) hf)
    (v v' : Vector UInt8 p.SK_LEN) :
    SameUpTo (b := b) (decodeLeak sp hf v.toList) (decodeLeak sp hf v'.toList)
      (PrivateKey.try_from_bytes (crypto P) v) (PrivateKey.try_from_bytes (crypto P) v') := by
  unfold PrivateKey.try_from_bytes
  have h := S.sk
  have hN := S.m.N_le
  have hn := S.m.n
  have e1 : p.SK_LEN / 4 = p.N := by omega
  have e2 : p.SK_LEN / 2 = 2 * p.N := by omega
  have e3 : 3 * p.SK_LEN / 4 = 3 * p.N := by omega
  have dv : ∀ x y, y ≠ 0 → Returns (divUsize x y : TraceExec b _) (· = x / y) := fun x y hy =>
    Returns.tail (Returns.divUsize hy (Returns.pure rfl))
  have ml : Returns (mulUsize 3 p.SK_LEN : TraceExec b _) (· = 3 * p.SK_LEN) :=
    Returns.tail (Returns.mulUsize (by omega) (Returns.pure rfl))
  have sl : ∀ lo hi, Rel (b := b) (fun x y => x.length = y.length) (slice v.toList lo hi)
      (slice v'.toList lo hi) := fun lo hi =>
    Rel.tail (Rel.slice (by simp) fun t t' ht => Rel.pure ht)
  have slr : ∀ (v : Vector UInt8 p.SK_LEN) lo hi, lo ≤ hi → hi ≤ p.SK_LEN →
      Returns (slice v.toList lo hi : TraceExec b _)
        (fun x => x = Spec.slice v.toList lo hi ∧ x.length = hi - lo) := fun v lo hi h1 h2 =>
    Returns.tail (Returns.slice h1 (by simpa using h2) (Returns.pure ⟨rfl, by simp; omega⟩))
  have cp : ∀ x y : List UInt8, x.length = y.length →
      Rel (b := b) Any (copyFromSlice p.N x) (copyFromSlice p.N y) := fun x y hxy =>
    Rel.tail (Rel.copyFromSlice hxy fun _ _ => Rel.pure trivial)
  have cpr : ∀ x : List UInt8, x.length = p.N →
      Returns (copyFromSlice p.N x : TraceExec b _) (fun w => w.toList = x) := fun x hx =>
    Returns.tail (Returns.copyFromSlice hx fun w hw => Returns.pure hw)
  refine SameUpTo.bind (Rel.refl _) (dv _ _ (by decide)) (dv _ _ (by decide)) ?_
  rintro _ _ - rfl rfl
  refine SameUpTo.bind (sl _ _) (slr _ _ _ (by omega) (by omega)) (slr _ _ _ (by omega) (by omega)) ?_
  rintro _ _ - ⟨rfl, l1⟩ ⟨rfl, l1'⟩
  refine SameUpTo.bind (cp _ _ (by omega)) (cpr _ (by omega)) (cpr _ (by omega)) ?_
  rintro a a' - ha ha'
  refine SameUpTo.bind (Rel.refl _) (dv _ _ (by decide)) (dv _ _ (by decide)) ?_
  rintro _ _ - rfl rfl
  refine SameUpTo.bind (Rel.refl _) (dv _ _ (by decide)) (dv _ _ (by decide)) ?_
  rintro _ _ - rfl rfl
  refine SameUpTo.bind (sl _ _) (slr _ _ _ (by omega) (by omega)) (slr _ _ _ (by omega) (by omega)) ?_
  rintro _ _ - ⟨rfl, l1⟩ ⟨rfl, l1'⟩
  refine SameUpTo.bind (cp _ _ (by omega)) (cpr _ (by omega)) (cpr _ (by omega)) ?_
  rintro c c' - - -
  refine SameUpTo.bind (Rel.refl _) (dv _ _ (by decide)) (dv _ _ (by decide)) ?_
  rintro _ _ - rfl rfl
  refine SameUpTo.bind (Rel.refl _) ml ml ?_
  rintro _ _ - rfl rfl
  refine SameUpTo.bind (Rel.refl _) (dv _ _ (by decide)) (dv _ _ (by decide)) ?_
  rintro _ _ - rfl rfl
  refine SameUpTo.bind (sl _ _) (slr _ _ _ (by omega) (by omega)) (slr _ _ _ (by omega) (by omega)) ?_
  rintro _ _ - ⟨rfl, l1⟩ ⟨rfl, l1'⟩
  refine SameUpTo.bind (cp _ _ (by omega)) (cpr _ (by omega)) (cpr _ (by omega)) ?_
  rintro d d' - hd hd'
  refine SameUpTo.bind (Rel.refl _) ml ml ?_
  rintro _ _ - rfl rfl
  refine SameUpTo.bind (Rel.refl _) (dv _ _ (by decide)) (dv _ _ (by decide)) ?_
  rintro _ _ - rfl rfl
  refine SameUpTo.bind (sl _ _) (slr _ _ _ (by omega) (by omega)) (slr _ _ _ (by omega) (by omega)) ?_
  rintro _ _ - ⟨rfl, l1⟩ ⟨rfl, l1'⟩
  refine SameUpTo.bind (cp _ _ (by omega)) (cpr _ (by omega)) (cpr _ (by omega)) ?_
  rintro r r' - hr hr'
  refine SameUpTo.bind (slh_keygen_internal_rel (HASHERS_rel P P p) _ _ _ _ _ _)
    (slh_keygen_internal_returns S.m F a c d) (slh_keygen_internal_returns S.m F a' c' d') ?_
  rintro _ _ - ⟨root, hroot, rfl⟩ ⟨root', hroot', rfl⟩
  have last : ∀ (e : Leak) (q : Prop) [Decidable q] (u w : Except String (PrivateKey p)),
      (do leak e; if q then pure u else pure w : TraceExec b _).trace = [e] := by
    intro e q _ u w
    by_cases hq : q
    · rw [if_pos hq]; rfl
    · rw [if_neg hq]; rfl
  have h4 : ∀ l, Spec.slice l (3 * p.N) p.SK_LEN = Spec.slice l (3 * p.N) (4 * p.N) := fun l => by rw [h]
  refine ⟨[], ?_, ?_⟩
  · refine (last _ _ _ _).trans ?_
    rw [decodeLeak, hn, hroot, ha, hd, hr, e1, e2, e3, h4, List.nil_append]
  · refine (last _ _ _ _).trans ?_
    rw [decodeLeak, hn, hroot', ha', hd', hr', e1, e2, e3, h4, List.nil_append]

/-! ## Counting hash calls -/

theorem serialize_cost (n : Nat) {A D HP K LEN N : Nat} (sig : SlhDsaSig A D HP K LEN N) :
    Cost 0 (fun _ => True) (sig.serialize n : TraceExec b _) := by
  unfold SlhDsaSig.serialize putChunk
  have h1 := sigLenExpr_cost (b := b)
  no_hash

theorem mapSerialize_cost (r : Except String (SlhDsaSig p.A p.D p.HP p.K p.LEN p.N)) :
    Cost 0 (fun _ => True) (mapSerialize p r : TraceExec b _) := by
  refine Cost.leak rfl ?_
  cases r with
  | error e => exact Cost.pure trivial
  | ok sig => exact Cost.free (serialize_cost _ _) fun _ => Cost.pure trivial

/-- An RNG that does not use the crate's hash functions. -/
def QuietRng (rng : Rng (TraceExec b) σ) : Prop :=
  ∀ s {n : Nat} (v : Vector UInt8 n), hashCalls (rng.tryFill s v).trace = 0

theorem QuietRng.cost {rng : Rng (TraceExec b) σ} (h : QuietRng rng) (s : σ) {n : Nat} (v : Vector UInt8 n) :
    Cost 0 (fun _ => True) (rng.tryFill s v) := ⟨Nat.le_of_eq (h s v), fun _ _ => trivial⟩

/-- Calls of verification. -/
def verifyCalls (p : Params) : Nat :=
  hMsgCalls p + (p.K * (1 + p.A) + 1 + p.D * (p.LEN * 15 + 1 + p.HP))

/-- Calls of signing. -/
def signCalls (p : Params) : Nat :=
  prfMsgCalls p + (hMsgCalls p + (p.K * (1 + (3 * 2 ^ p.A - 3 - p.A)) + (p.K * (1 + p.A) + 1 +
    (p.D * xmssSignCalls p.HP p.LEN + (p.D - 1) * (p.LEN * 15 + 1 + p.HP)))))

/-- Calls of key generation. -/
def keygenCalls (p : Params) : Nat := 2 ^ p.HP * (p.LEN * 16 + 2) - 1

variable (S : Sizes p sp) (hM : p.M ≤ 255)
include S hM

theorem verify_cost (pk : PublicKey p) (msg : List UInt8) (sig : Vector UInt8 p.SIG_LEN)
    (ctx : List UInt8) : Cost (b := b) (verifyCalls p) (fun _ => True) (pk.verify (crypto P) msg sig ctx) := by
  refine Cost.leak rfl (Cost.ite (fun _ => (Cost.pure trivial).le (Nat.zero_le _)) fun _ => ?_)
  exact Cost.free (deserialize_cost _ _ _ _ _ _ _) fun s =>
    slh_verify_internal_cost S.m (HASHERS_cost P p hM) _ _ _

theorem hash_verify_cost (pk : PublicKey p) (msg : List UInt8) (sig : Vector UInt8 p.SIG_LEN)
    (ctx : List UInt8) (ph : Ph) :
    Cost (b := b) (1 + verifyCalls p) (fun _ => True) (pk.hash_verify (crypto P) msg sig ctx ph) := by
  refine Cost.leak rfl (Cost.ite (fun _ => (Cost.pure trivial).le (Nat.zero_le _)) fun _ => ?_)
  refine Cost.free (deserialize_cost _ _ _ _ _ _ _) fun s =>
    Cost.bind (hash_message_cost P _ _ _) fun v _ => ?_
  obtain ⟨o, l, d⟩ := v
  exact Cost.free Cost.slice fun _ => slh_verify_internal_cost S.m (HASHERS_cost P p hM) _ _ _

theorem raw_verify_cost (pk : PublicKey p) (msg : List UInt8) (sig : Vector UInt8 p.SIG_LEN) :
    Cost (b := b) (verifyCalls p) (fun _ => True) (pk._test_only_raw_verify (crypto P) msg sig) := by
  refine Cost.free (deserialize_cost _ _ _ _ _ _ _) fun s => ?_
  exact Cost.bind (n' := 0) (slh_verify_internal_cost S.m (HASHERS_cost P p hM) _ _ _) fun _ _ =>
    Cost.pure trivial

theorem sign_end_cost (mp : List (List UInt8)) (sk : SlhPrivateKey p.N) (o : Vector UInt8 p.N) :
    Cost (b := b) (signCalls p) (fun _ => True)
      (slh_sign_internal p.A p.D p.H p.HP (HASHERS p (crypto P)) mp sk o) :=
  slh_sign_internal_cost S.m (HASHERS_cost P p hM) _ _ _

theorem sign_with_rng_cost {rng : Rng (TraceExec b) σ} (hr : QuietRng rng) (s : σ)
    (mp : List (List UInt8)) (sk : SlhPrivateKey p.N) (hedged : Bool) :
    Cost (b := b) (signCalls p) (fun _ => True)
      (slh_sign_with_rng p.A p.D p.H p.HP rng s (HASHERS p (crypto P)) mp sk hedged) := by
  unfold slh_sign_with_rng
  refine Cost.leak rfl (Cost.ite (fun _ => ?_) fun _ => ?_)
  · refine Cost.free (hr.cost _ _) fun ⟨s, r⟩ => Cost.leak rfl ?_
    cases r with
    | error e => exact (Cost.pure trivial).le (Nat.zero_le _)
    | ok o => exact Cost.bind (n' := 0) (sign_end_cost S hM _ _ _) fun _ _ => Cost.pure trivial
  · exact Cost.bind (n' := 0) (sign_end_cost S hM _ _ _) fun _ _ => Cost.pure trivial

theorem try_sign_cost {rng : Rng (TraceExec b) σ} (hr : QuietRng rng) (s : σ) (sk : PrivateKey p)
    (msg ctx : List UInt8) (hedged : Bool) :
    Cost (signCalls p) (fun _ => True) (sk.try_sign_with_rng (crypto P) rng s msg ctx hedged) := by
  refine Cost.leak rfl (Cost.ite (fun _ => (Cost.pure trivial).le (Nat.zero_le _)) fun _ => ?_)
  refine Cost.bind (n' := 0) (sign_with_rng_cost S hM hr _ _ _ _) fun v _ => ?_
  obtain ⟨s, u⟩ := v
  exact Cost.free (mapSerialize_cost _) fun _ => Cost.pure trivial

theorem try_hash_sign_cost {rng : Rng (TraceExec b) σ} (hr : QuietRng rng) (s : σ) (sk : PrivateKey p)
    (msg ctx : List UInt8) (ph : Ph) (hedged : Bool) :
    Cost (1 + signCalls p) (fun _ => True)
      (sk.try_hash_sign_with_rng (crypto P) rng s msg ctx ph hedged) := by
  refine Cost.leak rfl (Cost.ite (fun _ => (Cost.pure trivial).le (Nat.zero_le _)) fun _ => ?_)
  refine Cost.bind (hash_message_cost P _ _ _) fun v _ => ?_
  obtain ⟨o, l, d⟩ := v
  refine Cost.free Cost.slice fun _ => Cost.bind (n' := 0) (sign_with_rng_cost S hM hr _ _ _ _) fun v _ => ?_
  obtain ⟨s, u⟩ := v
  exact Cost.free (mapSerialize_cost _) fun _ => Cost.pure trivial

theorem try_keygen_cost {rng : Rng (TraceExec b) σ} (hr : QuietRng rng) (s : σ) :
    Cost (keygenCalls p) (fun _ => True) (try_keygen_with_rng p (crypto P) rng s) := by
  unfold try_keygen_with_rng slh_keygen_with_rng
  refine Cost.bind (n' := 0) (P := fun _ => True) ?_ fun v _ => ?_
  · refine Cost.free (hr.cost _ _) fun ⟨s, r⟩ => Cost.leak rfl ?_
    cases r with
    | error e => exact (Cost.pure trivial).le (Nat.zero_le _)
    | ok a =>
      refine Cost.free (hr.cost _ _) fun ⟨s, r⟩ => Cost.leak rfl ?_
      cases r with
      | error e => exact (Cost.pure trivial).le (Nat.zero_le _)
      | ok c =>
        refine Cost.free (hr.cost _ _) fun ⟨s, r⟩ => Cost.leak rfl ?_
        cases r with
        | error e => exact (Cost.pure trivial).le (Nat.zero_le _)
        | ok d =>
          exact Cost.bind (n' := 0) (slh_keygen_internal_cost S.m (HASHERS_cost P p hM) _ _ _)
            fun _ _ => Cost.pure trivial
  · obtain ⟨s, r⟩ := v
    refine Cost.leak rfl ?_
    cases r <;> exact Cost.pure trivial

theorem raw_sign_cost {rng : Rng (TraceExec b) σ} (hr : QuietRng rng) (s : σ) (sk : PrivateKey p)
    (msg : List UInt8) (hedged : Bool) :
    Cost (signCalls p) (fun _ => True) (sk._test_only_raw_sign (crypto P) rng s msg hedged) := by
  have key : ∀ (s : σ) o, Cost (b := b) (signCalls p) (fun _ => True) (do
      let sig ← slh_sign_internal p.A p.D p.H p.HP (HASHERS p (crypto P)) [msg] sk.key o
      let r ← mapSerialize p sig
      pure (s, r)) := fun s o =>
    Cost.bind (n' := 0) (sign_end_cost S hM _ _ _) fun _ _ =>
      Cost.free (mapSerialize_cost _) fun _ => Cost.pure trivial
  refine Cost.leak rfl (Cost.ite (fun _ => ?_) fun _ => key _ _)
  refine Cost.free (hr.cost _ _) fun ⟨s, r⟩ => Cost.leak rfl ?_
  cases r with
  | error e => exact (Cost.pure trivial).le (Nat.zero_le _)
  | ok o => exact key _ _

theorem keygen_with_seeds_cost {n : Nat} (x y z : Vector UInt8 n) :
    Cost (b := b) (keygenCalls p) (fun _ => True) (keygen_with_seeds p (crypto P) x y z) := by
  have hq : QuietRng (dummyRng n : Rng (TraceExec b) _) := by
    intro s k v
    have : Cost (b := b) 0 (fun _ => True) ((dummyRng n).tryFill s v) := by
      unfold dummyRng
      no_hash
    exact Nat.le_zero.mp this.1
  refine Cost.bind (n' := 0) (try_keygen_cost S hM hq _) fun v _ => ?_
  obtain ⟨s, r⟩ := v
  refine Cost.leak rfl ?_
  cases r with
  | error e => exact Cost.panic
  | ok kp => exact Cost.pure trivial

theorem sk_try_from_bytes_cost (v : Vector UInt8 p.SK_LEN) :
    Cost (b := b) (keygenCalls p) (fun _ => True) (PrivateKey.try_from_bytes (crypto P) v) := by
  unfold PrivateKey.try_from_bytes
  iterate 16 refine Cost.free (by no_hash) fun _ => ?_
  refine Cost.bind (n' := 0) (slh_keygen_internal_cost S.m (HASHERS_cost P p hM) _ _ _) fun v _ => ?_
  obtain ⟨t, _⟩ := v
  exact Cost.leak rfl (Cost.ite (fun _ => Cost.pure trivial) fun _ => Cost.pure trivial)

end Fips205.Model
