import Verif.Props.Histories
import Verif.Props.Traces
import Verif.Props.Ffi
import Verif.Proofs.TraceSession
import Verif.Proofs.Erase

/-! # What an observer sees of a whole session (C53)

C29, C30 and C44 are about single calls.  Here a program generates, encodes, decodes and clones keys and
signs with them, in any order; and the entry points for C, which do several of these steps in one call. -/

namespace Fips205.Props
open Fips205 Fips205.Model

variable {ps : ParamSet} {P P' : Spec.Prims} {b : Build} {σ τ : Type}

/-! ## Histories of calls -/

/-- What a program may show everyone: the public keys and the signatures. -/
structure Published (ps : ParamSet) where
  keys : List (PublicKey ps.params)
  made : List (Made ps)

def World.published (w : World ps) : Published ps :=
  ⟨w.privs.map (·.get_public_key), w.made⟩

/-- A history, with what is published after each call. -/
def outputs {m : Type → Type} [Rust m] (P : Spec.Prims) (rng : Rng m σ) (s : σ) (w : World ps) :
    List (Op ps) → m (σ × List (Published ps))
  | [] => pure (s, [])
  | op :: ops => do
    let (s, w) ← step P rng s w op
    let (s, vs) ← outputs P rng s w ops
    pure (s, w.published :: vs)

/-- The bytes are accepted as a private key. -/
def ValidKeyBytes (P : Spec.Prims) (ps : ParamSet) (v : Vector UInt8 ps.params.SK_LEN) : Prop :=
  ∃ sk : PrivateKey ps.params, ∀ b : Build, (PrivateKey.try_from_bytes (crypto P) v : Exec b _) = pure (.ok sk)

/-- Two calls that differ at most in secret inputs: the seeds of key generation, or the bytes of two
private keys that are both valid. -/
inductive SameCall (P : Spec.Prims) : Op ps → Op ps → Prop
  | same (op : Op ps) : SameCall P op op
  | seeds {n : Nat} (x y z x' y' z' : Vector UInt8 n) : SameCall P (.keygenSeeds x y z) (.keygenSeeds x' y' z')
  | keys {v v' : Vector UInt8 ps.params.SK_LEN} (h : ValidKeyBytes P ps v) (h' : ValidKeyBytes P ps v') :
      SameCall P (.decode v) (.decode v')

theorem map_step {m m' : Type → Type} [Rust m] [Rust m'] (φ : RustHom m m')
    (hφ : φ.crypto (crypto P) = crypto P) (rng : Rng m σ) (s : σ) (w : World ps) (op : Op ps) :
    φ.app (step P rng s w op) = step P (φ.rng rng) s w op := by
  cases op with
  | keygen =>
    simp only [step, φ.map_bind, φ.map_try_keygen_with_rng, hφ]
    congr 1; funext x; obtain ⟨s, r⟩ := x
    cases r <;> simp
  | keygenSeeds x y z =>
    simp only [step, φ.map_bind, φ.map_keygen_with_seeds, hφ]
    congr 1; funext x; simp
  | decode v =>
    simp only [step, φ.map_bind, φ.map_sk_try_from_bytes, hφ]
    congr 1; funext x
    cases x <;> simp
  | reencode i =>
    simp only [step]
    split
    · simp
    · simp only [φ.map_bind, φ.map_sk_into_bytes, φ.map_sk_try_from_bytes, hφ]
      congr 1; funext v; congr 1; funext x
      cases x <;> simp
  | clone i =>
    simp only [step]
    split <;> simp
  | sign i msg ctx hedged =>
    simp only [step]
    split
    · simp
    · simp only [φ.map_bind, φ.map_try_sign_with_rng, hφ]
      congr 1; funext x; obtain ⟨s, r⟩ := x
      cases r <;> simp
  | hashSign i msg ctx ph hedged =>
    simp only [step]
    split
    · simp
    · simp only [φ.map_bind, φ.map_try_hash_sign_with_rng, hφ]
      congr 1; funext x; obtain ⟨s, r⟩ := x
      cases r <;> simp

theorem step_good_traced {rng : Rng (TraceExec b) σ} {s s' : σ} {w w' : World ps} (h : w.Good P)
    (op : Op ps) (hs : (step P rng s w op).result = .ok (s', w')) : w'.Good P := by
  have e := map_step (TraceExec.erase (b := b)) (P := P) rfl rng s w op
  exact (step_good h op (e.symm.trans hs)).1

theorem getElem_published {w w' : World ps} (h : w.published.keys = w'.published.keys) (i : Nat) :
    (w.privs[i]? = none ∧ w'.privs[i]? = none) ∨ ∃ sk sk', w.privs[i]? = some sk ∧
      w'.privs[i]? = some sk' ∧ sk.get_public_key = sk'.get_public_key := by
  have h := congrArg (fun l => l[i]?) h
  simp only [World.published, List.getElem?_map] at h
  cases h1 : w.privs[i]? <;> cases h2 : w'.privs[i]? <;> rw [h1, h2] at h
  · exact .inl ⟨rfl, rfl⟩
  · cases h
  · cases h
  · exact .inr ⟨_, _, rfl, rfl, by injection h⟩

theorem last_key {w w' : World ps} {sk sk' : PrivateKey ps.params}
    (h : (w.privs ++ [sk]).map (·.get_public_key) = (w'.privs ++ [sk']).map (·.get_public_key)) :
    sk.get_public_key = sk'.get_public_key := by
  rw [List.map_append, List.map_append] at h
  have := (List.append_inj_right' h rfl)
  injection this

/-- The bytes of a consistent key are accepted, and decode to it. -/
theorem decode_encoded (sk : PrivateKey ps.params) (hc : Consistent P ps sk)
    {v : Vector UInt8 ps.params.SK_LEN} (hv : (sk.into_bytes : TraceExec b _).result = .ok v) :
    (PrivateKey.try_from_bytes (crypto P) v : TraceExec b _).result = .ok (.ok sk) := by
  obtain ⟨v', hv', h⟩ := TraceExec.returns_iff.mp (sk_into_bytes_returns (m := TraceExec b) ps.sizes sk)
  rw [hv] at hv'
  cases hv'
  obtain ⟨r, hr, sk', h1, h2⟩ := TraceExec.returns_iff.mp
    (sk_try_from_bytes_returns ps.sizes (ps.hashers P (m := TraceExec b)) v)
  obtain rfl : sk' = sk := PrivateKey.encode_inj (h1.trans h)
  refine hr.trans ?_
  rw [h2, if_pos (by rw [← rootVec_toList, ← show _ = _ from hc])]

theorem ValidKeyBytes.traced {v : Vector UInt8 ps.params.SK_LEN} (h : ValidKeyBytes P ps v) :
    ∃ sk, (PrivateKey.try_from_bytes (crypto P) v : TraceExec b _).result = .ok (.ok sk) := by
  obtain ⟨sk, h⟩ := h
  have e := (TraceExec.erase (b := b)).map_sk_try_from_bytes (p := ps.params) (crypto P) v
  exact ⟨sk, e.trans (h b)⟩

theorem SameCall.step {S : σ → τ → Prop} {rng : Rng (TraceExec b) σ} {rng' : Rng (TraceExec b) τ}
    (hr : AlikeRngs S rng rng') {s s1 : σ} {t t1 : τ} (h0 : S s t) {w w' w1 w1' : World ps}
    (hw : w.Good P) (hw' : w'.Good P) (hv : w.published = w'.published)
    {op op' : Op ps} (ho : SameCall P op op')
    (hs : (Props.step P rng s w op).result = .ok (s1, w1))
    (hs' : (Props.step P rng' t w' op').result = .ok (t1, w1'))
    (hv1 : w1.published = w1'.published) :
    (Props.step P rng s w op).trace = (Props.step P rng' t w' op').trace ∧ S s1 t1 := by
  have hkeys := congrArg Published.keys hv
  have hkeys1 := congrArg Published.keys hv1
  have hmade := congrArg Published.made hv
  have hmade1 := congrArg Published.made hv1
  have hseeds : ∀ {n : Nat} (x y z x' y' z' : Vector UInt8 n),
      (Props.step P rng s w (.keygenSeeds x y z)).result = .ok (s1, w1) →
      (Props.step P rng' t w' (.keygenSeeds x' y' z')).result = .ok (t1, w1') →
      (Props.step P rng s w (.keygenSeeds x y z)).trace =
        (Props.step P rng' t w' (.keygenSeeds x' y' z')).trace ∧ S s1 t1 := by
    intro n x y z x' y' z' hs hs'
    refine traces_bind_and (keygen_with_seeds_rel _ _ _ _ _ _) hs hs' ?_
    rintro ⟨pk, sk⟩ ⟨pk', sk'⟩ - - - hs hs'
    cases hs
    cases hs'
    exact ⟨rfl, h0⟩
  have hdecode : ∀ {v v' : Vector UInt8 ps.params.SK_LEN} {sk sk' : PrivateKey ps.params},
      (PrivateKey.try_from_bytes (crypto P) v : TraceExec b _).result = .ok (.ok sk) →
      (PrivateKey.try_from_bytes (crypto P) v' : TraceExec b _).result = .ok (.ok sk') →
      ∀ {f g}, (PrivateKey.try_from_bytes (crypto P) v >>= f : TraceExec b _).result = .ok (s1, w1) →
      (PrivateKey.try_from_bytes (crypto P) v' >>= g : TraceExec b _).result = .ok (t1, w1') →
      (f (.ok sk) = pure (s, w.add sk)) → (g (.ok sk') = pure (t, w'.add sk')) →
      (PrivateKey.try_from_bytes (crypto P) v >>= f : TraceExec b _).trace =
        (PrivateKey.try_from_bytes (crypto P) v' >>= g : TraceExec b _).trace ∧ S s1 t1 := by
    intro v v' sk sk' h1 h1' f g hs hs' hf hg
    refine traces_bind_eq hs hs' fun r r' h2 h2' hs hs' => ?_
    obtain rfl : r = .ok sk := by rw [h1] at h2; injection h2 with h2; exact h2.symm
    obtain rfl : r' = .ok sk' := by rw [h1'] at h2'; injection h2' with h2'; exact h2'.symm
    rw [hf] at hs ⊢
    rw [hg] at hs' ⊢
    cases hs
    cases hs'
    exact ⟨sk_try_from_bytes_traces (last_key hkeys1) h1 h1', rfl, h0⟩
  cases ho with
  | seeds x y z x' y' z' => exact hseeds x y z x' y' z' hs hs'
  | keys h h' =>
    obtain ⟨sk, h⟩ := h.traced (b := b)
    obtain ⟨sk', h'⟩ := h'.traced (b := b)
    exact hdecode h h' hs hs' rfl rfl
  | same =>
    cases op with
    | keygen =>
      refine traces_bind_and (try_keygen_with_rng_rel' hr h0) hs hs' ?_
      rintro ⟨s2, r⟩ ⟨t2, r'⟩ ⟨h2, e⟩ - - hs hs'
      cases r <;> cases r' <;> cases e <;> cases hs <;> cases hs' <;> exact ⟨rfl, h2⟩
    | keygenSeeds x y z => exact hseeds x y z x y z hs hs'
    | decode v =>
      refine traces_bind_and (Rel.refl _) hs hs' ?_
      rintro r _ rfl - - hs hs'
      cases r <;> cases hs <;> cases hs' <;> exact ⟨rfl, h0⟩
    | reencode i =>
      simp only [Props.step] at hs hs' ⊢
      rcases getElem_published hkeys i with ⟨h1, h2⟩ | ⟨sk, sk', h1, h2, hk⟩
      · rw [h1] at hs ⊢
        rw [h2] at hs' ⊢
        cases hs
        cases hs'
        exact ⟨rfl, h0⟩
      · rw [h1] at hs ⊢
        rw [h2] at hs' ⊢
        refine traces_bind_and (sk_into_bytes_rel _ _) hs hs' ?_
        rintro v v' - hv hv' hs hs'
        exact hdecode (decode_encoded sk (hw.privs _ (List.mem_of_getElem? h1)) hv)
          (decode_encoded sk' (hw'.privs _ (List.mem_of_getElem? h2)) hv') hs hs' rfl rfl
    | clone i =>
      simp only [Props.step] at hs hs' ⊢
      rcases getElem_published hkeys i with ⟨h1, h2⟩ | ⟨sk, sk', h1, h2, hk⟩ <;>
        rw [h1] at hs ⊢ <;> rw [h2] at hs' ⊢ <;> cases hs <;> cases hs' <;> exact ⟨rfl, h0⟩
    | sign i msg ctx hedged =>
      simp only [Props.step] at hs hs' ⊢
      rcases getElem_published hkeys i with ⟨h1, h2⟩ | ⟨sk, sk', h1, h2, hk⟩
      · rw [h1] at hs ⊢
        rw [h2] at hs' ⊢
        cases hs
        cases hs'
        exact ⟨rfl, h0⟩
      · rw [h1] at hs ⊢
        rw [h2] at hs' ⊢
        refine traces_bind_eq hs hs' ?_
        rintro ⟨s2, r⟩ ⟨t2, r'⟩ hx hy hs hs'
        have key : r.toOption = r'.toOption := by
          cases r <;> cases r' <;> cases hs <;> cases hs'
          · rfl
          · have h3 : w.made = w'.made ++ [_] := hmade1
            rw [show w.made = w'.made from hmade] at h3
            simp at h3
          · have h3 : w.made ++ [_] = w'.made := hmade1
            rw [show w.made = w'.made from hmade] at h3
            simp at h3
          · have h3 : w.made ++ [_] = w'.made ++ [_] := hmade1
            have := List.append_inj_right' h3 rfl
            injection this with this
            injection this with _ _ _ _ this
            rw [this]
        obtain ⟨h3, h4⟩ := try_sign_alike ps.sizes (ps.hashers P) (ps.valid P) msg ctx hk hr h0 hedged key
          hx hy
        refine ⟨h3, ?_⟩
        cases r <;> cases r' <;> cases key <;> cases hs <;> cases hs' <;> exact ⟨rfl, h4⟩
    | hashSign i msg ctx ph hedged =>
      simp only [Props.step] at hs hs' ⊢
      rcases getElem_published hkeys i with ⟨h1, h2⟩ | ⟨sk, sk', h1, h2, hk⟩
      · rw [h1] at hs ⊢
        rw [h2] at hs' ⊢
        cases hs
        cases hs'
        exact ⟨rfl, h0⟩
      · rw [h1] at hs ⊢
        rw [h2] at hs' ⊢
        refine traces_bind_eq hs hs' ?_
        rintro ⟨s2, r⟩ ⟨t2, r'⟩ hx hy hs hs'
        have key : r.toOption = r'.toOption := by
          cases r <;> cases r' <;> cases hs <;> cases hs'
          · rfl
          · have h3 : w.made = w'.made ++ [_] := hmade1
            rw [show w.made = w'.made from hmade] at h3
            simp at h3
          · have h3 : w.made ++ [_] = w'.made := hmade1
            rw [show w.made = w'.made from hmade] at h3
            simp at h3
          · have h3 : w.made ++ [_] = w'.made ++ [_] := hmade1
            have := List.append_inj_right' h3 rfl
            injection this with this
            injection this with _ _ _ _ this
            rw [this]
        obtain ⟨h3, h4⟩ := try_hash_sign_alike ps.sizes (ps.hashers P) (ps.valid P) msg ctx ph hk hr h0 hedged
          key hx hy
        refine ⟨h3, ?_⟩
        cases r <;> cases r' <;> cases key <;> cases hs <;> cases hs' <;> exact ⟨rfl, h4⟩

theorem trace_bind_pure {α β : Type} (y : TraceExec b α) (f : α → β) :
    (y >>= fun v => pure (f v)).trace = y.trace := by
  obtain ⟨u, y⟩ := y
  cases y
  · rfl
  · exact List.append_nil _

/-- `outputs` is `history`, seen from outside: the same observations and the same final state of the RNG. -/
theorem outputs_trace (rng : Rng (TraceExec b) σ) (s : σ) (w : World ps) (ops : List (Op ps)) :
    (outputs P rng s w ops).trace = (history P rng s w ops).trace := by
  induction ops generalizing s w with
  | nil => rfl
  | cons op ops ih =>
    simp only [outputs, history]
    generalize step P rng s w op = x
    obtain ⟨t, x⟩ := x
    cases x with
    | error e => rfl
    | ok v =>
      obtain ⟨s1, w1⟩ := v
      exact congrArg (t ++ ·) ((trace_bind_pure _ _).trans (ih s1 w1))

/-- **C53** Two runs of a program that makes the same calls, except that seeds, private keys it reads and
random bytes may differ, look alike if they publish the same keys and signatures after each call. -/
theorem C53_histories (S : σ → τ → Prop) (rng : Rng (TraceExec b) σ) (rng' : Rng (TraceExec b) τ)
    (hr : AlikeRngs S rng rng') (s s1 : σ) (t t1 : τ) (h0 : S s t) (ops ops' : List (Op ps))
    (ho : List.Forall₂ (SameCall P) ops ops') (vs : List (Published ps))
    (h : (outputs P rng s ⟨[], [], []⟩ ops).result = .ok (s1, vs))
    (h' : (outputs P rng' t ⟨[], [], []⟩ ops').result = .ok (t1, vs)) :
    (history P rng s (⟨[], [], []⟩ : World ps) ops).trace =
      (history P rng' t (⟨[], [], []⟩ : World ps) ops').trace := by
  have h00 : (⟨[], [], []⟩ : World ps).Good P := ⟨by simp, by simp, by simp⟩
  have key : ∀ (s : σ) (t : τ) (w w' : World ps) (vs : List (Published ps)), S s t → w.Good P → w'.Good P →
      w.published = w'.published → (outputs P rng s w ops).result = .ok (s1, vs) →
      (outputs P rng' t w' ops').result = .ok (t1, vs) →
      (outputs P rng s w ops).trace = (outputs P rng' t w' ops').trace ∧ True := by
    clear h h' h0 vs
    induction ho with
    | nil => intro s t w w' vs _ _ _ _ _ _; exact ⟨rfl, trivial⟩
    | cons h1 hrest ih =>
      intro s t w w' vs hS hw hw' hv h h'
      simp only [outputs] at h h' ⊢
      refine traces_bind_eq h h' ?_
      rintro ⟨s2, w2⟩ ⟨t2, w2'⟩ hx hy h h'
      obtain ⟨⟨s3, vs2⟩, h3, h4⟩ := bind_result h
      obtain ⟨⟨t3, vs2'⟩, h3', h4'⟩ := bind_result h'
      cases h4
      have h4' : (Except.ok (t3, w2'.published :: vs2') : Except Panic _) =
        .ok (t1, w2.published :: vs2) := h4'
      injection h4' with h4'
      injection h4' with e1 e2
      injection e2 with e2 e3
      subst e1 e3
      obtain ⟨h5, h6⟩ := h1.step hr hS hw hw' hv hx hy e2.symm
      refine ⟨h5, traces_bind_eq h h' ?_⟩
      rintro ⟨s4, vs4⟩ ⟨t4, vs4'⟩ hx4 hy4 _ _
      exact ⟨(ih _ _ _ _ _ h6 (step_good_traced hw _ hx) (step_good_traced hw' _ hy) e2.symm h3 h3').1,
        rfl, trivial⟩
  rw [← outputs_trace, ← outputs_trace]
  exact (key s t _ _ vs h0 h00 h00 rfl h h').1

/-- **C53** The observations made while a key is encoded do not depend on the key. -/
theorem C53_into_bytes (pk pk' : PublicKey ps.params) (sk sk' : PrivateKey ps.params) :
    (pk.into_bytes : TraceExec b _).trace = (pk'.into_bytes : TraceExec b _).trace ∧
    (sk.into_bytes : TraceExec b _).trace = (sk'.into_bytes : TraceExec b _).trace :=
  ⟨(pk_into_bytes_rel _ _).1, (sk_into_bytes_rel _ _).1⟩

/-! ## The C entry points -/

/-- **C53** The C entry point for key generation: what is seen depends on which pointers are null, and on
whether the operating system delivers random bytes. -/
theorem C53_c_keygen (S : σ → τ → Prop) (os : Rng (TraceExec b) σ) (os' : Rng (TraceExec b) τ)
    (hr : AlikeRngs S os os') (s : σ) (t : τ) (h0 : S s t)
    (pko pko' : Option (Vector UInt8 ffiSet.params.PK_LEN))
    (sko sko' : Option (Vector UInt8 ffiSet.params.SK_LEN))
    (hp : pko.isSome = pko'.isSome) (hk : sko.isSome = sko'.isSome) :
    (slh_dsa_sha2_128f_keygen (crypto P) os s pko sko).trace =
      (slh_dsa_sha2_128f_keygen (crypto P') os' t pko' sko').trace := by
  refine Rel.left (Q := fun _ _ => True) ?_
  cases pko <;> cases pko' <;> cases hp <;> cases sko <;> cases sko' <;> cases hk <;>
    try exact Rel.leak (Rel.pure trivial)
  refine Rel.leak ((try_keygen_with_rng_rel hr h0).bind ?_)
  rintro ⟨s1, r⟩ ⟨t1, r'⟩ e
  cases r <;> cases r' <;> cases e
  · exact Rel.leak (Rel.pure trivial)
  · exact Rel.leak ((pk_into_bytes_rel _ _).bind fun _ _ _ => (sk_into_bytes_rel _ _).bind fun _ _ _ =>
      Rel.pure trivial)
where
  Rel.left {α β : Type} {Q : α → β → Prop} {x : TraceExec b α} {y : TraceExec b β} (h : Rel Q x y) :
    x.trace = y.trace := h.1

/-- The second half of the bytes of a private key is the public key. -/
theorem publicHalf {v v' : Vector UInt8 ps.params.SK_LEN} {sk sk' : PrivateKey ps.params}
    (h : (PrivateKey.try_from_bytes (crypto P) v : TraceExec b _).result = .ok (.ok sk))
    (h' : (PrivateKey.try_from_bytes (crypto P) v' : TraceExec b _).result = .ok (.ok sk'))
    (e : v.toList.drop (2 * ps.sp.n) = v'.toList.drop (2 * ps.sp.n)) :
    sk.get_public_key = sk'.get_public_key := by
  have key : ∀ {v : Vector UInt8 ps.params.SK_LEN} {sk : PrivateKey ps.params},
      (PrivateKey.try_from_bytes (crypto P) v : TraceExec b _).result = .ok (.ok sk) →
      v.toList.drop (2 * ps.sp.n) = sk.key.pk_seed.toList ++ sk.key.pk_root.toList := by
    intro v sk h
    obtain ⟨r, hr, sk', h1, h2⟩ := TraceExec.returns_iff.mp
      (sk_try_from_bytes_returns ps.sizes (ps.hashers P (m := TraceExec b)) v)
    rw [h] at hr
    cases hr
    split at h2
    · cases h2
      rw [← h1, Spec.encodeSK, List.append_assoc, List.drop_left' (by
        have := ps.sizes.m.n
        simp only [List.length_append, Vector.length_toList]
        omega)]
    · cases h2
  have h3 := (key h).symm.trans (e.trans (key h'))
  obtain ⟨h4, h5⟩ := List.append_inj h3 (by simp)
  have h4 : sk.key.pk_seed = sk'.key.pk_seed := Vector.toList_inj.mp h4
  have h5 : sk.key.pk_root = sk'.key.pk_root := Vector.toList_inj.mp h5
  rw [PrivateKey.get_public_key, PrivateKey.get_public_key, h4, h5]

/-- **C53** The C entry point for signing: two calls on the same message, with private keys whose second
halves (the public keys) are the same, that return the same code and, on success, the same signature, look
alike.  (The code for a private key that was not accepted is excluded, see C44.) -/
theorem C53_c_sign (S : σ → τ → Prop) (os : Rng (TraceExec b) σ) (os' : Rng (TraceExec b) τ)
    (hr : AlikeRngs S os os') (s s1 : σ) (t t1 : τ) (h0 : S s t) (buf : Ptr) (len : Int)
    (k k' : Option (Vector UInt8 ffiSet.params.SK_LEN)) (hk : k.isSome = k'.isSome)
    (hpub : ∀ v v', k = some v → k' = some v' → v.toList.drop 32 = v'.toList.drop 32)
    (sig0 sig0' sig sig' : Option (Vector UInt8 ffiSet.params.SIG_LEN)) (h0s : sig0.isSome = sig0'.isSome)
    (code : UInt8) (hcode : code ≠ SLH_DSA_DESERIALIZATION_ERROR) (hsig : code = SLH_DSA_OK → sig = sig')
    (h : (slh_dsa_sha2_128f_sign (crypto P) os s buf len k sig0).result = .ok (.ret (s1, code, sig)))
    (h' : (slh_dsa_sha2_128f_sign (crypto P) os' t buf len k' sig0').result =
      .ok (.ret (t1, code, sig'))) :
    (slh_dsa_sha2_128f_sign (crypto P) os s buf len k sig0).trace =
      (slh_dsa_sha2_128f_sign (crypto P) os' t buf len k' sig0').trace := by
  refine And.left (b := True) ?_
  cases k with
  | none =>
    cases k' with
    | none => exact ⟨rfl, trivial⟩
    | some v' => cases hk
  | some v =>
  cases k' with
  | none => cases hk
  | some v' =>
  cases sig0 with
  | none =>
    cases sig0' with
    | none => exact ⟨rfl, trivial⟩
    | some v' => cases h0s
  | some x =>
  cases sig0' with
  | none => cases h0s
  | some x' =>
  have hpub := hpub v v' rfl rfl
  cases buf with
  | null => exact ⟨rfl, trivial⟩
  | «to» bytes =>
  unfold slh_dsa_sha2_128f_sign at h h' ⊢
  refine traces_bind_and (Rel.refl _) h h' fun _ _ _ _ _ h h' => ?_
  refine traces_bind_and (Rel.refl _) h h' fun _ _ _ _ _ h h' => ?_
  refine traces_bind_and (Rel.refl _) h h' ?_
  rintro n _ rfl - - h h'
  cases hm : fromRawParts (.to bytes) n with
  | ub => rw [hm] at h; cases h
  | ret message =>
    rw [hm] at h h'
    dsimp only at h h' ⊢
    refine traces_bind_eq h h' ?_
    intro r r' hx hy h h'
    cases r with
    | error e => cases h; exact absurd rfl hcode
    | ok sk =>
    cases r' with
    | error e => cases h'; exact absurd rfl hcode
    | ok sk' =>
      have hpk := publicHalf (ps := ffiSet) hx hy hpub
      refine ⟨sk_try_from_bytes_traces hpk hx hy, traces_bind_eq h h' fun _ _ _ _ h h' =>
        ⟨rfl, traces_bind_eq h h' ?_⟩⟩
      rintro ⟨s2, r⟩ ⟨t2, r'⟩ hx hy h h'
      have key : r.toOption = r'.toOption := by
        cases r <;> cases r'
        · rfl
        · cases h; cases h'
        · cases h; cases h'
        · cases h
          cases h'
          have := hsig rfl
          injection this with this
          exact congrArg some this
      obtain ⟨h3, h4⟩ := try_sign_alike ffiSet.sizes (ffiSet.hashers P) (ffiSet.valid P) message [] hpk hr h0
        true key hx hy
      refine ⟨h3, ?_, trivial⟩
      cases r <;> cases r' <;> cases key <;> rfl

/-! ## The hypotheses are met -/

/-- With a degenerate hash function the public key does not depend on the secrets, nor do signatures. -/
theorem zero_alike (ps : ParamSet) (x y x' y' z : Vector UInt8 ps.params.N) :
    (keyPair ps zeroPrims x y z).2.get_public_key = (keyPair ps zeroPrims x' y' z).2.get_public_key ∧
    ∀ M o o', sigVec ps zeroPrims M (keyPair ps zeroPrims x y z).2.key o =
      sigVec ps zeroPrims M (keyPair ps zeroPrims x' y' z).2.key o' := by
  have hroot : rootVec ps zeroPrims x z = rootVec ps zeroPrims x' z := by
    have : ∀ s : List UInt8, Spec.pkRoot ps.sp (ps.hf zeroPrims) s z.toList = List.replicate ps.sp.n 0 := by
      intro s
      have : ∀ z i A PK, Spec.xmssNode ps.sp (ps.hf zeroPrims) s i (z + 1) PK A =
        List.replicate ps.sp.n 0 := fun _ _ _ _ => zero_H ps _ _ _
      have hp : ps.sp.hp = ps.sp.hp - 1 + 1 := by cases ps <;> rfl
      rw [Spec.pkRoot, hp, this]
    rw [rootVec, rootVec, this, this]
  refine ⟨by simp only [keyPair, PrivateKey.get_public_key, hroot], fun M o o' => ?_⟩
  simp only [sigVec, Spec.signInternal, keyPair, hroot]
  congr 1
  rw [show (ps.hf zeroPrims).PRFmsg y.toList o.toList M = (ps.hf zeroPrims).PRFmsg y'.toList o'.toList M by
    cases ps <;> rfl]
  exact signWithR_congr (by intro pk a; cases ps <;> rfl) _ _ _ _

theorem outputs_result (P : Spec.Prims) (rng : Rng (TraceExec b) σ) (s : σ) (w : World ps)
    (ops : List (Op ps)) :
    (outputs P rng s w ops).result = outputs P (TraceExec.erase.rng rng) s w ops := by
  have : ∀ (s : σ) (w : World ps), (TraceExec.erase (b := b)).app (outputs P rng s w ops) =
      outputs P (TraceExec.erase.rng rng) s w ops := by
    induction ops with
    | nil => intro s w; rfl
    | cons op ops ih =>
      intro s w
      simp only [outputs, RustHom.map_bind, map_step (TraceExec.erase (b := b)) (P := P) rfl, ih,
        RustHom.map_pure]
  exact this s w

/-- Two runs with different seeds that meet the hypotheses of `C53_histories`: a key is generated, encoded
and decoded, and the copy signs. -/
example (ps : ParamSet) : ∃ (ops ops' : List (Op ps)) (vs : List (Published ps)),
    ops ≠ ops' ∧ List.Forall₂ (SameCall zeroPrims) ops ops' ∧ (∃ v ∈ vs, v.made.length = 2) ∧
    (outputs zeroPrims (demoRng.lift : Rng (TraceExec demoBuild) Nat) 0 ⟨[], [], []⟩ ops).result =
      .ok (1, vs) ∧
    (outputs zeroPrims (demoRng.lift : Rng (TraceExec demoBuild) Nat) 0 ⟨[], [], []⟩ ops').result =
      .ok (1, vs) := by
  let z : Vector UInt8 ps.params.N := Vector.replicate _ 0
  let o : Vector UInt8 ps.params.N := Vector.replicate _ 1
  let ops (x : Vector UInt8 ps.params.N) : List (Op ps) :=
    [.keygenSeeds x x z, .reencode 0, .sign 1 [1, 2] [3] true, .hashSign 0 [] [] .SHA512 false]
  let key (x : Vector UInt8 ps.params.N) := (keyPair ps zeroPrims x x z).2
  let made (x : Vector UInt8 ps.params.N) : List (Made ps) :=
    [⟨1, [1, 2], [3], none, sigVec ps zeroPrims (Spec.pureMsg [3] [1, 2]) (key x).key z⟩,
     ⟨0, [], [], some .SHA512, sigVec ps zeroPrims (phMsg zeroPrims [] [] .SHA512) (key x).key (key x).key.pk_seed⟩]
  let vs (x : Vector UInt8 ps.params.N) : List (Published ps) :=
    [⟨[(key x).get_public_key], []⟩, ⟨[(key x).get_public_key, (key x).get_public_key], []⟩,
     ⟨[(key x).get_public_key, (key x).get_public_key], (made x).take 1⟩,
     ⟨[(key x).get_public_key, (key x).get_public_key], made x⟩]
  have hrun : ∀ x, (outputs zeroPrims (demoRng.lift : Rng (TraceExec demoBuild) Nat) 0 ⟨[], [], []⟩
      (ops x)).result = .ok (1, vs x) := by
    intro x
    rw [outputs_result]
    obtain ⟨v, h1, h2⟩ := exec_sk_into_bytes (b := demoBuild) (key x)
    obtain ⟨sk, h3, h4⟩ := exec_sk_try_from_bytes (b := demoBuild) (P := zeroPrims) v
    obtain rfl : sk = key x := PrivateKey.encode_inj (h3.trans h2)
    rw [if_pos (show _ = _ from keyPair_consistent x x z)] at h4
    simp only [key] at h1 h4
    simp only [ops, outputs, step, exec_keygen_with_seeds, pure_bind, World.add, List.nil_append,
      List.getElem?_cons_zero, h1, h4, List.cons_append, List.getElem?_cons_succ, exec_try_sign_with_rng,
      exec_try_hash_sign_with_rng]
    rfl
  have hvs : vs o = vs z := by
    obtain ⟨h1, h2⟩ := zero_alike ps o o z z z
    simp only [vs, made, key, h1]
    rw [h2 _ z z, h2 _ _ (keyPair ps zeroPrims z z z).2.key.pk_seed]
  refine ⟨ops o, ops z, vs z, ?_, ?_, ⟨_, List.mem_cons_of_mem _ (List.mem_cons_of_mem _
    (List.mem_cons_of_mem _ List.mem_cons_self)), rfl⟩, hvs ▸ hrun o, hrun z⟩
  · intro h
    injection h with h
    injection h with _ h
    have h := congrArg Vector.toList h
    have hN : ps.params.N = ps.params.N - 1 + 1 := by cases ps <;> rfl
    simp only [z, o, Vector.toList_replicate] at h
    rw [hN, List.replicate_succ, List.replicate_succ] at h
    injection h with h
    cases h
  · exact .cons (.seeds ..) (.cons (.same _) (.cons (.same _) (.cons (.same _) .nil)))

/-- Two calls of the C entry point with different private keys that meet the hypotheses of `C53_c_sign`,
with RNGs that deliver different bytes. -/
theorem demo_c_sign : ∃ (v v' : Vector UInt8 ffiSet.params.SK_LEN) (sig : Vector UInt8 ffiSet.params.SIG_LEN),
    v ≠ v' ∧ v.toList.drop 32 = v'.toList.drop 32 ∧
    (slh_dsa_sha2_128f_sign (crypto zeroPrims) (demoRng.lift : Rng (TraceExec demoBuild) Nat) 5 (.to [1, 2])
      2 (some v) (some (zeroBytes _))).result = .ok (.ret (6, SLH_DSA_OK, some sig)) ∧
    (slh_dsa_sha2_128f_sign (crypto zeroPrims) (demoRng.lift : Rng (TraceExec demoBuild) Nat) 7 (.to [1, 2])
      2 (some v') (some (zeroBytes _))).result = .ok (.ret (8, SLH_DSA_OK, some sig)) := by
  let z : Vector UInt8 ffiSet.params.N := Vector.replicate _ 0
  let o : Vector UInt8 ffiSet.params.N := Vector.replicate _ 1
  have key : ∀ x : Vector UInt8 ffiSet.params.N, ∃ v : Vector UInt8 ffiSet.params.SK_LEN,
      v.toList = Spec.encodeSK x.toList x.toList z.toList (rootVec ffiSet zeroPrims x z).toList ∧
      ∀ s, (slh_dsa_sha2_128f_sign (crypto zeroPrims) (demoRng.lift : Rng (TraceExec demoBuild) Nat) s
        (.to [1, 2]) 2 (some v) (some (zeroBytes _))).result = .ok (.ret (s + 1, SLH_DSA_OK,
          some (sigVec ffiSet zeroPrims (Spec.pureMsg [] [1, 2]) (keyPair ffiSet zeroPrims x x z).2.key
            (Vector.replicate _ (UInt8.ofNat s))))) := by
    intro x
    obtain ⟨v, h1, h2⟩ := exec_sk_into_bytes (b := demoBuild) (ps := ffiSet) (keyPair ffiSet zeroPrims x x z).2
    obtain ⟨sk, h3, h4⟩ := exec_sk_try_from_bytes (b := demoBuild) (P := zeroPrims) v
    obtain rfl : sk = (keyPair ffiSet zeroPrims x x z).2 := PrivateKey.encode_inj (h3.trans h2)
    rw [if_pos (show _ = _ from keyPair_consistent x x z)] at h4
    refine ⟨v, h2, fun s => ?_⟩
    have e := (TraceExec.erase (b := demoBuild)).map_c_sign (crypto zeroPrims)
      (demoRng.lift : Rng (TraceExec demoBuild) Nat) s (.to [1, 2]) 2 (some v) (some (zeroBytes _))
    refine Eq.trans e ?_
    obtain ⟨sig, h5, h6⟩ := ((C35_sign (demoRng.lift : Rng (Exec demoBuild) Nat) s [1, 2] 2 (by decide)
      (by decide) (by decide) v (zeroBytes _)).2 _ h4).2 (s + 1) _ rfl
    refine Eq.trans h6 ?_
    rw [exec_try_sign_with_rng, if_neg (by simp), if_pos rfl] at h5
    have h5 := Exec.pure_inj h5
    injection h5 with _ h5
    injection h5 with h5
    rw [← h5]
    rfl
  obtain ⟨v, hv, h⟩ := key z
  obtain ⟨v', hv', h'⟩ := key o
  obtain ⟨h1, h2⟩ := zero_alike ffiSet o o z z z
  refine ⟨v, v', _, ?_, ?_, h 5, ?_⟩
  · rintro rfl
    have := hv.symm.trans hv'
    rw [Spec.encodeSK, Spec.encodeSK, List.append_assoc, List.append_assoc, List.append_assoc,
      List.append_assoc] at this
    have := (List.append_inj this (by simp)).1
    exact absurd this (by decide)
  · have hroot : rootVec ffiSet zeroPrims z z = rootVec ffiSet zeroPrims o z :=
      congrArg (fun k => k.key.pk_root) h1.symm
    rw [hv, hv', hroot, Spec.encodeSK, Spec.encodeSK, List.append_assoc, List.append_assoc (o.toList ++ _),
      List.drop_left' (by simp [z]; rfl), List.drop_left' (by simp [o]; rfl)]
  · rw [h' 7, h2]

end Fips205.Props
