import Verif.Proofs.FaultsRun
import Verif.Props.Keys

/-!
# Hash functions that err (C87)

The code runs with a hash unit that has a state and may give any answer of the right length to any call
(`HashUnit`): a processor that computes wrong, a hardware accelerator with faults, an attacker who disturbs the
computation.
-/

namespace Fips205.Props
open Fips205 Fips205.Model

variable {ps : ParamSet} {bd : Build} {τ σ : Type} (U : HashUnit τ)

/-! ## What the functions return, without the hash functions -/

/-- The three draws of a key generation: the state of the RNG after them, and the strings or the error. -/
def threeDraws (rng : PureRng σ) (n : Nat) (s : σ) :
    σ × Except String (Vector UInt8 n × Vector UInt8 n × Vector UInt8 n) :=
  match rng.fill s (zeroBytes n) with
  | (s, .error _) => (s, .error "Alg17: rng failed1")
  | (s, .ok a) =>
    match rng.fill s (zeroBytes n) with
    | (s, .error _) => (s, .error "Alg17: rng failed2")
    | (s, .ok b) =>
      match rng.fill s (zeroBytes n) with
      | (s, .error _) => (s, .error "Alg17: rng failed3")
      | (s, .ok c) => (s, .ok (a, b, c))

/-- Why signing gives up, if it does, and the state of the RNG after it. -/
def signRefusal {n : Nat} (rng : PureRng σ) (s : σ) (pk_seed : Vector UInt8 n) (ctx : List UInt8) (hedged : Bool) :
    σ × Option String :=
  if 255 < ctx.length then (s, some "ctx must be less than 256 bytes")
  else if hedged then
    match rng.fill s pk_seed with
    | (s, .error _) => (s, some "Alg17: rng failed")
    | (s, .ok _) => (s, none)
  else (s, none)

/-- A result that is the error `e`, or a signature if there is none. -/
def Refused {α : Type} (r : Except String α) : Option String → Prop
  | some e => r = .error e
  | none => ∃ sig, r = .ok sig

/-! ## Helpers -/

theorem keygen_ends (rng : PureRng σ) (s : σ) :
    Ends (try_keygen_with_rng ps.params U.crypto (rng.lift : Rng (UnitExec bd τ) σ) s) (fun v =>
      ∃ root : Vector UInt8 ps.params.N, v = ((threeDraws rng ps.params.N s).1,
        (threeDraws rng ps.params.N s).2.map fun d => (⟨⟨d.2.2, root⟩⟩, ⟨⟨d.1, d.2.1, d.2.2, root⟩⟩))) := by
  unfold try_keygen_with_rng slh_keygen_with_rng threeDraws
  rw [bind_assoc]
  refine (Ends.pure (v := rng.fill s (zeroBytes ps.params.N)) rfl).bind ?_
  rintro _ rfl
  generalize rng.fill s (zeroBytes ps.params.N) = x
  obtain ⟨s, _ | a⟩ := x
  · exact Ends.pure ⟨zeroBytes _, rfl⟩
  dsimp only
  rw [bind_assoc]
  refine Ends.leak ?_
  rw [bind_assoc]
  refine (Ends.pure (v := rng.fill s (zeroBytes ps.params.N)) rfl).bind ?_
  rintro _ rfl
  generalize rng.fill s (zeroBytes ps.params.N) = x
  obtain ⟨s, _ | b⟩ := x
  · exact Ends.pure ⟨zeroBytes _, rfl⟩
  dsimp only
  rw [bind_assoc]
  refine Ends.leak ?_
  rw [bind_assoc]
  refine (Ends.pure (v := rng.fill s (zeroBytes ps.params.N)) rfl).bind ?_
  rintro _ rfl
  generalize rng.fill s (zeroBytes ps.params.N) = x
  obtain ⟨s, _ | c⟩ := x
  · exact Ends.pure ⟨zeroBytes _, rfl⟩
  dsimp only
  rw [bind_assoc]
  refine Ends.leak ?_
  rw [bind_assoc]
  refine (slh_keygen_internal_ends ps.matches (ps.ends U) a b c).bind ?_
  rintro _ ⟨root, rfl⟩
  exact Ends.pure ⟨root, rfl⟩

theorem serialize_ends {r : Except String (SlhDsaSig ps.params.A ps.params.D ps.params.HP ps.params.K ps.params.LEN
    ps.params.N)} (h : ∃ sig, r = .ok sig) :
    Ends (mapSerialize ps.params r : UnitExec bd τ _) (fun v => ∃ sig, v = .ok sig) := by
  obtain ⟨sig, rfl⟩ := h
  unfold mapSerialize
  refine Ends.leak ?_
  dsimp only
  exact (Ends.of (serialize_returns ps.sizes.m sig ps.sizes.sig)).bind fun v _ => Ends.pure ⟨v, rfl⟩

theorem sign_ends {mp : List (List UInt8)} (hmp : mp.length ≤ 5) (sk : PrivateKey ps.params) (rng : PureRng σ) (s : σ)
    {ctx : List UInt8} (hc : ctx.length ≤ 255) (hedged : Bool) :
    Ends (do
      let (s, sig) ← slh_sign_with_rng ps.params.A ps.params.D ps.params.H ps.params.HP
        (rng.lift : Rng (UnitExec bd τ) σ) s (HASHERS ps.params U.crypto) mp sk.key hedged
      let r ← mapSerialize ps.params sig
      pure (s, r)) (fun v => v.1 = (signRefusal rng s sk.key.pk_seed ctx hedged).1 ∧
        Refused v.2 (signRefusal rng s sk.key.pk_seed ctx hedged).2) := by
  have key : ∀ (o : Vector UInt8 ps.params.N) (s : σ), Ends (do
      let sig ← slh_sign_internal ps.params.A ps.params.D ps.params.H ps.params.HP
        (HASHERS ps.params U.crypto : Hashers (UnitExec bd τ) _ _ _ _) mp sk.key o
      let r ← mapSerialize ps.params sig
      pure (s, r)) (fun v => v.1 = s ∧ ∃ sig, v.2 = .ok sig) := by
    intro o s
    refine (slh_sign_internal_ends ps.matches (ps.ends U) hmp sk.key o).bind fun r hr => ?_
    refine (serialize_ends hr).bind fun v hv => ?_
    exact Ends.pure ⟨rfl, hv⟩
  unfold slh_sign_with_rng signRefusal
  rw [if_neg (by omega), bind_assoc]
  refine Ends.leak ?_
  cases hedged
  · simp only [Bool.false_eq_true, if_false, bind_assoc, pure_bind]
    exact key _ _
  · simp only [if_true, bind_assoc]
    refine (Ends.pure (v := rng.fill s sk.key.pk_seed) rfl).bind ?_
    rintro _ rfl
    generalize rng.fill s sk.key.pk_seed = x
    obtain ⟨s, _ | a⟩ := x
    · exact Ends.pure ⟨rfl, rfl⟩
    · dsimp only
      refine Ends.leak ?_
      simp only [bind_assoc, pure_bind]
      exact key _ _

theorem decode_ends (bytes : Vector UInt8 ps.params.SK_LEN) :
    Ends (PrivateKey.try_from_bytes U.crypto bytes : UnitExec bd τ _) (fun r => ∃ sk : PrivateKey ps.params,
      Spec.encodeSK sk.key.sk_seed.toList sk.key.sk_prf.toList sk.key.pk_seed.toList
        sk.key.pk_root.toList = bytes.toList ∧ (r = .ok sk ∨ r = .error "Corrupted key")) := by
  have S := ps.sizes
  revert bytes
  generalize hE : (HASHERS ps.params U.crypto : Hashers (UnitExec bd τ) _ _ _ _) = hs
  have E : HashersEnd hs := hE ▸ ps.ends U
  intro bytes
  unfold PrivateKey.try_from_bytes
  rw [hE]
  have h := S.sk
  have hN := S.m.N_le
  have e1 : ps.params.SK_LEN / 4 = ps.params.N := by omega
  have e2 : ps.params.SK_LEN / 2 = 2 * ps.params.N := by omega
  have e3 : 3 * ps.params.SK_LEN / 4 = 3 * ps.params.N := by omega
  refine Ends.divUsize (by omega) ?_
  refine Ends.slice (by omega) (by simp; omega) ?_
  refine Ends.copyFromSlice (by simp; omega) fun a ha => ?_
  refine Ends.divUsize (by omega) ?_
  refine Ends.divUsize (by omega) ?_
  refine Ends.slice (by omega) (by simp; omega) ?_
  refine Ends.copyFromSlice (by simp; omega) fun b hb => ?_
  refine Ends.divUsize (by omega) ?_
  refine Ends.mulUsize (by omega) ?_
  refine Ends.divUsize (by omega) ?_
  refine Ends.slice (by omega) (by simp; omega) ?_
  refine Ends.copyFromSlice (by simp; omega) fun c hc => ?_
  refine Ends.mulUsize (by omega) ?_
  refine Ends.divUsize (by omega) ?_
  refine Ends.slice (by omega) (by simp) ?_
  refine Ends.copyFromSlice (by simp; omega) fun d hd => ?_
  refine (slh_keygen_internal_ends S.m E a b c).bind ?_
  rintro _ ⟨root, rfl⟩
  dsimp only
  refine Ends.leak ?_
  have hb' : Spec.encodeSK a.toList b.toList c.toList d.toList = bytes.toList := by
    rw [Spec.encodeSK, ha, hb, hc, hd]
    have s1 := Spec.slice_append_slice bytes.toList (a := 0) (b := ps.params.SK_LEN / 4)
      (c := ps.params.SK_LEN / 2) (by omega) (by omega)
    have s2 := Spec.slice_append_slice bytes.toList (a := 0) (b := ps.params.SK_LEN / 2)
      (c := 3 * ps.params.SK_LEN / 4) (by omega) (by omega)
    have s3 := Spec.slice_append_slice bytes.toList (a := 0) (b := 3 * ps.params.SK_LEN / 4)
      (c := ps.params.SK_LEN) (by omega) (by omega)
    have s4 := Spec.slice_all bytes.toList
    rw [Vector.length_toList] at s4
    exact (congrArg (· ++ _) ((congrArg (· ++ _) s1).trans s2)).trans (s3.trans s4)
  split
  · exact Ends.pure ⟨⟨⟨a, b, c, d⟩⟩, hb', .inr rfl⟩
  · exact Ends.pure ⟨⟨⟨a, b, c, d⟩⟩, hb', .inl rfl⟩

/-- The encoding of a private key, in all builds. -/
theorem into_bytes_all (sk : PrivateKey ps.params) (v : Vector UInt8 ps.params.SK_LEN)
    (hv : Spec.encodeSK sk.key.sk_seed.toList sk.key.sk_prf.toList sk.key.pk_seed.toList sk.key.pk_root.toList =
      v.toList) (b : Build) : (sk.into_bytes : Exec b _) = pure v := by
  obtain ⟨w, h1, h2⟩ := exec_sk_into_bytes (b := b) sk
  rw [h1, Vector.toList_inj.mp (h2.trans hv)]

/-- If `H` always gives the root, every signature is accepted. -/
theorem accepts_const {hf : Spec.HashFns} {PKroot : List UInt8} (hH : ∀ a c d, hf.H a c d = PKroot) (M SIG PKseed : List UInt8)
    (hl : SIG.length = ps.sp.sigLen) : Spec.verifyInternal ps.sp hf M SIG PKseed PKroot = true := by
  have hx : ∀ idx SIG M PKseed ADRS, Spec.xmssPkFromSig ps.sp hf idx SIG M PKseed ADRS = PKroot := by
    intro idx SIG M PKseed ADRS
    obtain ⟨z, hz⟩ : ∃ z, ps.sp.hp = z + 1 := ⟨ps.sp.hp - 1, by cases ps <;> decide⟩
    rw [Spec.xmssPkFromSig, Spec.climb, hz, List.range_succ, List.foldl_append]
    simp only [List.foldl_cons, List.foldl_nil]
    split <;> exact hH _ _ _
  have hr : ∀ left j M SIG idxTree idxLeaf,
      Spec.htRootFrom ps.sp hf PKseed (left + 1) j M SIG idxTree idxLeaf = PKroot := by
    intro left
    induction left with
    | zero => intro j M SIG t l; exact hx _ _ _ _ _
    | succ n ih => intro j M SIG t l; exact ih _ _ _ _ _
  obtain ⟨z, hz⟩ : ∃ z, ps.sp.d = z + 1 := ⟨ps.sp.d - 1, by cases ps <;> decide⟩
  rw [Spec.verifyInternal, if_neg (by simpa using hl)]
  simp only [Spec.htVerify, hz, hr]
  simp

/-- Hash functions that answer with one string, cut or padded to the length. -/
def answering (x : List UInt8) : Spec.Prims where
  sha256 _ := Vector.ofFn fun i => x.getD i 0
  sha512 _ := Vector.ofFn fun i => x.getD i 0
  shake128 _ _ := Vector.ofFn fun i => x.getD i 0
  shake256 _ _ := Vector.ofFn fun i => x.getD i 0

theorem answering_H {x : List UInt8} (hx : x.length = ps.sp.n) (a c d : List UInt8) :
    (ps.hf (answering x)).H a c d = x := by
  have key : ∀ k, ps.sp.n ≤ k → (List.ofFn fun i : Fin k => x.getD i 0).take ps.sp.n = x := by
    intro k hk
    apply List.ext_getElem
    · simp [hx, hk]
    · intro i h1 h2
      simp [h2]
  have h32 : ps.sp.n ≤ 32 := by cases ps <;> decide
  have key2 := key ps.sp.n (Nat.le_refl _)
  rw [List.take_of_length_le (by simp)] at key2
  unfold ParamSet.hf Spec.hashFns
  split
  · change (Vector.ofFn fun i : Fin ps.sp.n => x.getD i 0).toList = x
    rw [Vector.toList_ofFn, key2]
  · split
    · change (Vector.ofFn fun i : Fin 32 => x.getD i 0).toList.take ps.sp.n = x
      rw [Vector.toList_ofFn, key 32 h32]
    · change (Vector.ofFn fun i : Fin 64 => x.getD i 0).toList.take ps.sp.n = x
      rw [Vector.toList_ofFn, key 64 (h32.trans (by decide))]

/-- A run with the functions `P`, as a run with a unit. -/
def constHom : RustHom (Exec bd) (UnitExec bd τ) where
  app x := fun h => x.map fun v => (v, h)
  map_pure _ := rfl
  map_bind x f := by
    funext h
    change Except.map _ (x.bind f) = UnitExec.next _ (Except.map _ x)
    cases x <;> rfl
  map_panic _ := rfl
  map_leak _ _ := rfl
  map_build := rfl

/-! ## The properties -/

/-- **C87** Key generation with a unit that may err: the strings drawn, and the reports of an RNG that fails, are
the same as ever.  Only the root depends on the unit; it is the same in both keys.  No panic. -/
theorem C87_keygen (rng : PureRng σ) (s : σ) (h : τ) :
    ∃ (root : Vector UInt8 ps.params.N) (h' : τ),
      (try_keygen_with_rng ps.params U.crypto (rng.lift : Rng (UnitExec bd τ) σ) s) h =
        .ok (((threeDraws rng ps.params.N s).1, (threeDraws rng ps.params.N s).2.map fun d =>
          (⟨⟨d.2.2, root⟩⟩, ⟨⟨d.1, d.2.1, d.2.2, root⟩⟩)), h') := by
  obtain ⟨_, h', e, root, rfl⟩ := keygen_ends U (ps := ps) (bd := bd) rng s h
  exact ⟨root, h', e⟩

/-- **C87** Signing with a unit that may err returns a signature or a refusal, and which of the two (and which refusal)
does not depend on the unit: no error of the unit is ever reported, none leads to a panic. -/
theorem C87_sign (sk : PrivateKey ps.params) (rng : PureRng σ) (s : σ) (msg ctx : List UInt8) (hedged : Bool) (h : τ) :
    ∃ (r : Except String (Vector UInt8 ps.params.SIG_LEN)) (h' : τ),
      sk.try_sign_with_rng U.crypto (rng.lift : Rng (UnitExec bd τ) σ) s msg ctx hedged h =
        .ok (((signRefusal rng s sk.key.pk_seed ctx hedged).1, r), h') ∧
      Refused r (signRefusal rng s sk.key.pk_seed ctx hedged).2 := by
  suffices H : Ends (sk.try_sign_with_rng U.crypto (rng.lift : Rng (UnitExec bd τ) σ) s msg ctx hedged)
      (fun v => v.1 = (signRefusal rng s sk.key.pk_seed ctx hedged).1 ∧
        Refused v.2 (signRefusal rng s sk.key.pk_seed ctx hedged).2) by
    obtain ⟨⟨s', r⟩, h', e, rfl, h2⟩ := H h
    exact ⟨r, h', e, h2⟩
  unfold PrivateKey.try_sign_with_rng
  refine Ends.leak ?_
  by_cases hc : 255 < ctx.length
  · rw [if_pos hc]
    refine Ends.pure ?_
    rw [signRefusal, if_pos hc]
    exact ⟨rfl, rfl⟩
  · rw [if_neg hc]
    exact sign_ends U (by simp) sk rng s (by omega) hedged

/-- **C87** The same for pre-hash signing. -/
theorem C87_hash_sign (sk : PrivateKey ps.params) (rng : PureRng σ) (s : σ) (msg ctx : List UInt8) (ph : Ph)
    (hedged : Bool) (h : τ) :
    ∃ (r : Except String (Vector UInt8 ps.params.SIG_LEN)) (h' : τ),
      sk.try_hash_sign_with_rng U.crypto (rng.lift : Rng (UnitExec bd τ) σ) s msg ctx ph hedged h =
        .ok (((signRefusal rng s sk.key.pk_seed ctx hedged).1, r), h') ∧
      Refused r (signRefusal rng s sk.key.pk_seed ctx hedged).2 := by
  suffices H : Ends (sk.try_hash_sign_with_rng U.crypto (rng.lift : Rng (UnitExec bd τ) σ) s msg ctx ph hedged)
      (fun v => v.1 = (signRefusal rng s sk.key.pk_seed ctx hedged).1 ∧
        Refused v.2 (signRefusal rng s sk.key.pk_seed ctx hedged).2) by
    obtain ⟨⟨s', r⟩, h', e, rfl, h2⟩ := H h
    exact ⟨r, h', e, h2⟩
  unfold PrivateKey.try_hash_sign_with_rng
  refine Ends.leak ?_
  by_cases hc : 255 < ctx.length
  · rw [if_pos hc]
    refine Ends.pure ?_
    rw [signRefusal, if_pos hc]
    exact ⟨rfl, rfl⟩
  · rw [if_neg hc]
    refine (hash_message_ends U msg ph _).bind ?_
    rintro ⟨o, l, b⟩ hl
    refine Ends.slice (by omega) (by simpa using hl) ?_
    exact sign_ends U (by simp) sk rng s (by omega) hedged

/-- **C87** Verification with a unit that may err returns a Boolean, `false` for a context that is too long. -/
theorem C87_verify (pk : PublicKey ps.params) (msg ctx : List UInt8) (sig : Vector UInt8 ps.params.SIG_LEN) (ph : Ph)
    (h : τ) :
    (∃ v h', (pk.verify U.crypto msg sig ctx : UnitExec bd τ _) h = .ok (v, h') ∧ (255 < ctx.length → v = false)) ∧
    (∃ v h', (pk.hash_verify U.crypto msg sig ctx ph : UnitExec bd τ _) h = .ok (v, h') ∧
      (255 < ctx.length → v = false)) := by
  constructor
  · suffices H : Ends (pk.verify U.crypto msg sig ctx : UnitExec bd τ _) (fun v => 255 < ctx.length → v = false) from H h
    unfold PublicKey.verify
    refine Ends.leak ?_
    by_cases hc : 255 < ctx.length
    · rw [if_pos hc]
      exact Ends.pure fun _ => rfl
    · rw [if_neg hc]
      refine (Ends.of (deserialize_returns ps.sizes.m (by simpa using ps.sizes.sig))).bind fun s _ => ?_
      refine Ends.mono (P := fun _ => True) ?_ fun _ _ h => absurd h hc
      unfold slh_verify
      refine slh_verify_internal_ends ps.matches (ps.ends U) ?_ s pk.key
      simp only [List.length_cons, List.length_nil]
      decide
  · suffices H : Ends (pk.hash_verify U.crypto msg sig ctx ph : UnitExec bd τ _)
      (fun v => 255 < ctx.length → v = false) from H h
    unfold PublicKey.hash_verify
    refine Ends.leak ?_
    by_cases hc : 255 < ctx.length
    · rw [if_pos hc]
      exact Ends.pure fun _ => rfl
    · rw [if_neg hc]
      refine (Ends.of (deserialize_returns ps.sizes.m (by simpa using ps.sizes.sig))).bind fun s _ => ?_
      refine (hash_message_ends U msg ph _).bind ?_
      rintro ⟨o, l, b⟩ hl
      refine Ends.slice (by omega) (by simpa using hl) ?_
      refine Ends.mono (P := fun _ => True) ?_ fun _ _ h => absurd h hc
      unfold slh_verify
      refine slh_verify_internal_ends ps.matches (ps.ends U) ?_ s pk.key
      simp only [List.length_cons, List.length_nil]
      decide

/-- **C87** Decoding a private key with a unit that may err returns the key the bytes encode, or the report
that it is corrupted: no other key, no panic. -/
theorem C87_decode (v : Vector UInt8 ps.params.SK_LEN) (h : τ) :
    ∃ (sk : PrivateKey ps.params) (r : Except String (PrivateKey ps.params)) (h' : τ),
      (∀ b : Build, (sk.into_bytes : Exec b _) = pure v) ∧
      (PrivateKey.try_from_bytes U.crypto v : UnitExec bd τ _) h = .ok (r, h') ∧
      (r = .ok sk ∨ r = .error "Corrupted key") := by
  obtain ⟨r, h', e, sk, h1, h2⟩ := decode_ends U (ps := ps) (bd := bd) v h
  exact ⟨sk, r, h', into_bytes_all sk v h1, e, h2⟩

/-- **C87** A key made with a unit that erred, written out and read again with hash functions that work: it is
accepted exactly if its root is the right one, and then it signs for its public key. -/
theorem C87_reload (P : Spec.Prims) {rng : PureRng σ} {s s' : σ} {h h' : τ} {pk : PublicKey ps.params}
    {sk : PrivateKey ps.params}
    (hk : (try_keygen_with_rng ps.params U.crypto (rng.lift : Rng (UnitExec bd τ) σ) s) h = .ok ((s', .ok (pk, sk)), h')) :
    ∃ v, (∀ b : Build, (sk.into_bytes : Exec b _) = pure v) ∧
      ((∀ b : Build, (PrivateKey.try_from_bytes (crypto P) v : Exec b _) = pure (.ok sk)) ∧ SignsFor P sk pk ∧
          sk.key.pk_root.toList = Spec.pkRoot ps.sp (ps.hf P) sk.key.sk_seed.toList sk.key.pk_seed.toList ∨
        (∀ b : Build, (PrivateKey.try_from_bytes (crypto P) v : Exec b (Except _ (PrivateKey ps.params))) =
            pure (.error "Corrupted key")) ∧
          sk.key.pk_root.toList ≠ Spec.pkRoot ps.sp (ps.hf P) sk.key.sk_seed.toList sk.key.pk_seed.toList) := by
  have hpk : sk.get_public_key = pk := by
    obtain ⟨root, _, e⟩ := C87_keygen U (ps := ps) (bd := bd) rng s h
    rw [hk] at e
    have e := (Prod.mk.inj (Except.ok.inj e)).1
    have e := (Prod.mk.inj e).2
    generalize (threeDraws rng ps.params.N s).2 = d at e
    cases d with
    | error x => exact absurd e (by rintro ⟨⟩)
    | ok d =>
      obtain ⟨rfl, rfl⟩ := Prod.mk.inj (Except.ok.inj e)
      rfl
  obtain ⟨v, -, hv⟩ := exec_sk_into_bytes (b := bd) sk
  have hdec : ∀ b : Build, (PrivateKey.try_from_bytes (crypto P) v : Exec b _) =
      pure (if sk.key.pk_root = rootVec ps P sk.key.sk_seed sk.key.pk_seed then .ok sk else .error "Corrupted key") := by
    intro b
    obtain ⟨sk', h1, h2⟩ := exec_sk_try_from_bytes (P := P) (b := b) v
    obtain rfl := PrivateKey.encode_inj (h1.trans hv)
    exact h2
  refine ⟨v, into_bytes_all sk v hv.symm, ?_⟩
  rw [← rootVec_toList]
  by_cases hr : sk.key.pk_root = rootVec ps P sk.key.sk_seed sk.key.pk_seed
  · refine .inl ⟨fun b => by rw [hdec, if_pos hr], ?_, congrArg _ hr⟩
    rw [← hpk]
    exact Consistent.signsFor hr
  · exact .inr ⟨fun b => by rw [hdec, if_neg hr], fun h => hr (Vector.toList_inj.mp h)⟩

/-- The unit that computes the functions `P` and never errs. -/
def sound (P : Spec.Prims) : HashUnit τ where
  sha256 x h := (P.sha256 x.flatten, h)
  sha512 x h := (P.sha512 x.flatten, h)
  shake128 x n h := (P.shake128 x.flatten n, h)
  shake256 x n h := (P.shake256 x.flatten n, h)

theorem sound_crypto (P : Spec.Prims) :
    ((sound P : HashUnit τ).crypto : Crypto (UnitExec bd τ)) = constHom.crypto (crypto P) := rfl

/-- **C87** With a unit that never errs every function returns what it returns in the other properties, so these runs
extend theirs. -/
theorem C87_sound_unit (P : Spec.Prims) (rng : PureRng σ) (s : σ) (sk : PrivateKey ps.params) (pk : PublicKey ps.params)
    (msg ctx : List UInt8) (ph : Ph) (hedged : Bool) (sig : Vector UInt8 ps.params.SIG_LEN)
    (v : Vector UInt8 ps.params.SK_LEN) (h : τ) :
    try_keygen_with_rng ps.params (sound P).crypto (rng.lift : Rng (UnitExec bd τ) σ) s h =
      (try_keygen_with_rng ps.params (crypto P) (rng.lift : Rng (Exec bd) σ) s).map (·, h) ∧
    sk.try_sign_with_rng (sound P).crypto (rng.lift : Rng (UnitExec bd τ) σ) s msg ctx hedged h =
      (sk.try_sign_with_rng (crypto P) (rng.lift : Rng (Exec bd) σ) s msg ctx hedged).map (·, h) ∧
    sk.try_hash_sign_with_rng (sound P).crypto (rng.lift : Rng (UnitExec bd τ) σ) s msg ctx ph hedged h =
      (sk.try_hash_sign_with_rng (crypto P) (rng.lift : Rng (Exec bd) σ) s msg ctx ph hedged).map (·, h) ∧
    (pk.verify (sound P).crypto msg sig ctx : UnitExec bd τ _) h =
      (pk.verify (crypto P) msg sig ctx : Exec bd _).map (·, h) ∧
    (pk.hash_verify (sound P).crypto msg sig ctx ph : UnitExec bd τ _) h =
      (pk.hash_verify (crypto P) msg sig ctx ph : Exec bd _).map (·, h) ∧
    (PrivateKey.try_from_bytes (p := ps.params) (sound P).crypto v : UnitExec bd τ _) h =
      (PrivateKey.try_from_bytes (p := ps.params) (crypto P) v : Exec bd _).map (·, h) := by
  have hr : (rng.lift : Rng (UnitExec bd τ) σ) = constHom.rng (rng.lift : Rng (Exec bd) σ) := rfl
  rw [sound_crypto, hr]
  refine ⟨?_, ?_, ?_, ?_, ?_, ?_⟩
  · exact (congrFun (constHom.map_try_keygen_with_rng (p := ps.params) (crypto P) _ _) h).symm
  · exact (congrFun (constHom.map_try_sign_with_rng (crypto P) sk _ _ _ _ _) h).symm
  · exact (congrFun (constHom.map_try_hash_sign_with_rng (crypto P) sk _ _ _ _ _ _) h).symm
  · exact (congrFun (constHom.map_verify (crypto P) pk _ _ _) h).symm
  · exact (congrFun (constHom.map_hash_verify (crypto P) pk _ _ _ _) h).symm
  · exact (congrFun (constHom.map_sk_try_from_bytes (crypto P) v) h).symm

/-- **C87** The unit that always answers with the root of a public key makes `verify` and `hash_verify` accept whatever they
are given: a correct verdict needs hash functions that work. -/
theorem C87_verify_needs_hashes (pk : PublicKey ps.params) :
    ∃ U : HashUnit Unit, ∀ (bd : Build) (msg ctx : List UInt8) (sig : Vector UInt8 ps.params.SIG_LEN) (ph : Ph),
      ctx.length ≤ 255 →
      (pk.verify U.crypto msg sig ctx : UnitExec bd Unit _) () = .ok (true, ()) ∧
      (pk.hash_verify U.crypto msg sig ctx ph : UnitExec bd Unit _) () = .ok (true, ()) := by
  refine ⟨sound (answering pk.key.pk_root.toList), fun bd msg ctx sig ph hc => ?_⟩
  have hH := answering_H (ps := ps) (x := pk.key.pk_root.toList) (by rw [Vector.length_toList, ps.sizes.m.n])
  have hl : sig.toList.length = ps.sp.sigLen := by rw [Vector.length_toList, ps.sizes.sig]
  obtain ⟨-, -, -, h1, h2, -⟩ := C87_sound_unit (answering pk.key.pk_root.toList) (bd := bd) demoRng 0
    (demoKeys ps).2 pk msg ctx ph true sig (zeroBytes _) ()
  rw [h1, h2, exec_verify, exec_hash_verify, Spec.verify, Spec.hashVerify, if_neg (by omega), if_neg (by omega),
    accepts_const hH _ _ _ hl, accepts_const hH _ _ _ hl]
  exact ⟨rfl, rfl⟩

/-! ## A unit that errs once -/

/-- The unit counts its calls; the answer to call number `k` has its first byte inverted. -/
def glitch (P : Spec.Prims) (k : Nat) : HashUnit Nat where
  sha256 x h := (if h = k then (P.sha256 x.flatten).set 0 (~~~ (P.sha256 x.flatten)[0]) else P.sha256 x.flatten, h + 1)
  sha512 x h := (if h = k then (P.sha512 x.flatten).set 0 (~~~ (P.sha512 x.flatten)[0]) else P.sha512 x.flatten, h + 1)
  shake128 x n h := (if h = k then (P.shake128 x.flatten n).map (~~~ ·) else P.shake128 x.flatten n, h + 1)
  shake256 x n h := (if h = k then (P.shake256 x.flatten n).map (~~~ ·) else P.shake256 x.flatten n, h + 1)

/-- Signing with it succeeds, wherever the error falls. -/
example (k : Nat) (bd : Build) : ∃ sig h', (demoKeys ps).2.try_sign_with_rng (glitch demoPrims k).crypto
    (demoRng.lift : Rng (UnitExec bd Nat) Nat) 3 [104, 105] [9] true 0 = .ok ((4, .ok sig), h') := by
  obtain ⟨r, h', e, sig, rfl⟩ := C87_sign (glitch demoPrims k) (bd := bd) (demoKeys ps).2 demoRng 3 [104, 105] [9] true 0
  exact ⟨sig, h', e⟩

/-- Key generation with it gives a key; the hypothesis of `C87_reload` can be met. -/
example (k : Nat) (bd : Build) : ∃ pk sk h', (try_keygen_with_rng ps.params (glitch demoPrims k).crypto
    (demoRng.lift : Rng (UnitExec bd Nat) Nat) 0) 0 = .ok ((3, .ok (pk, sk)), h') := by
  obtain ⟨root, h', e⟩ := C87_keygen (glitch demoPrims k) (ps := ps) (bd := bd) demoRng 0 0
  exact ⟨_, _, h', e⟩

/-- Both cases of `C87_reload` occur: with a unit that answers zero only, the key has a root of zeros, which is
the right one for functions that answer zero, and not for functions that answer one. -/
example (bd : Build) : ∃ (pk : PublicKey ps.params) (sk : PrivateKey ps.params) (h' : Unit),
    (try_keygen_with_rng ps.params (sound (answering (List.replicate ps.sp.n 0))).crypto
      (demoRng.lift : Rng (UnitExec bd Unit) Nat) 0) () = .ok ((3, .ok (pk, sk)), h') ∧
    sk.key.pk_root.toList = List.replicate ps.sp.n 0 ∧
    Spec.pkRoot ps.sp (ps.hf (answering (List.replicate ps.sp.n 0))) sk.key.sk_seed.toList sk.key.pk_seed.toList =
      List.replicate ps.sp.n 0 ∧
    Spec.pkRoot ps.sp (ps.hf (answering (List.replicate ps.sp.n 1))) sk.key.sk_seed.toList sk.key.pk_seed.toList =
      List.replicate ps.sp.n 1 := by
  have hroot : ∀ x : List UInt8, x.length = ps.sp.n → ∀ a b, Spec.pkRoot ps.sp (ps.hf (answering x)) a b = x := by
    intro x hx a b
    obtain ⟨z, hz⟩ : ∃ z, ps.sp.hp = z + 1 := ⟨ps.sp.hp - 1, by cases ps <;> decide⟩
    rw [Spec.pkRoot, hz]
    exact answering_H hx _ _ _
  obtain ⟨h1, -⟩ := C87_sound_unit (ps := ps) (answering (List.replicate ps.sp.n 0)) (bd := bd) demoRng 0 (demoKeys ps).2
    (demoKeys ps).1 [] [] .SHA256 true (zeroBytes _) (zeroBytes _) ()
  rw [exec_try_keygen_with_rng] at h1
  refine ⟨_, _, (), h1.trans rfl, ?_, hroot _ (by simp) _ _, hroot _ (by simp) _ _⟩
  exact (rootVec_toList ..).trans (hroot _ (by simp) _ _)

end Fips205.Props
