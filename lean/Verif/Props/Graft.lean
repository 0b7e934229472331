import Verif.Proofs.FaultsGraft
import Verif.Props.Faults
import Verif.Props.Steps
import Verif.Props.Visits
import Verif.Proofs.OwnTree

/-!
# Errors of the hash unit that verification does not notice (C88)

`watching U P` is the hash unit `U` with a list of the calls that it answered otherwise than the functions `P` do.
-/

namespace Fips205.Props
open Fips205 Fips205.Model

variable {ps : ParamSet} {bd : Build} {τ σ : Type} {U : HashUnit τ} {P : Spec.Prims}

/-! ## Helpers -/

theorem HASHERS_unit (U : HashUnit τ) : (HASHERS ps.params U.crypto : Hashers (UnitExec bd τ) _ _ _ _) =
    (Program.toUnit U).hashers (HASHERS ps.params Program.crypto) := by
  rw [RustHom.map_HASHERS, Program.toUnit_crypto]

theorem HASHERS_log (P : Spec.Prims) : (HASHERS ps.params (recording P) : Hashers (LogExec bd) _ _ _ _) =
    (Program.toLog P).hashers (HASHERS ps.params Program.crypto) := by
  rw [RustHom.map_HASHERS, Program.toLog_crypto]

/-- The signature is accepted, if the unit made no error at the calls `verifyInternal` and `pkRoot` make. -/
def Grafted (U : HashUnit τ) (P : Spec.Prims) (sk : SlhPrivateKey ps.params.N) (M sig : List UInt8) : Prop :=
  (∀ c ∈ (Spec.Run.verifyInternal ps.sp (ps.hr P) M sig sk.pk_seed.toList sk.pk_root.toList).log, RightAt U P c) →
  (∀ c ∈ (Spec.Run.pkRoot ps.sp (ps.hr P) sk.sk_seed.toList sk.pk_seed.toList).log, RightAt U P c) →
  Spec.verifyInternal ps.sp (ps.hf P) M sig sk.pk_seed.toList sk.pk_root.toList = true

theorem sign_grafted {mp : List (List UInt8)} (hmp : mp.length ≤ 5) {sk : PrivateKey ps.params} (hc : Consistent P ps sk)
    (rng : PureRng σ) (s : σ) (hedged : Bool) :
    Ends (do
      let (s, sig) ← slh_sign_with_rng ps.params.A ps.params.D ps.params.H ps.params.HP
        (rng.lift : Rng (UnitExec bd τ) σ) s (HASHERS ps.params U.crypto) mp sk.key hedged
      let r ← mapSerialize ps.params sig
      pure (s, r)) (fun v => ∀ sig, v.2 = .ok sig → Grafted U P sk.key mp.flatten sig.toList) := by
  have key : ∀ (o : Vector UInt8 ps.params.N) (s : σ), Ends (do
      let sig ← slh_sign_internal ps.params.A ps.params.D ps.params.H ps.params.HP
        (HASHERS ps.params U.crypto : Hashers (UnitExec bd τ) _ _ _ _) mp sk.key o
      let r ← mapSerialize ps.params sig
      pure (s, r)) (fun v => ∀ sig, v.2 = .ok sig → Grafted U P sk.key mp.flatten sig.toList) := by
    intro o s
    have E := ps.ends (bd := bd) U
    have R := ps.hashersRun (b := bd) P
    rw [HASHERS_unit] at E
    rw [HASHERS_log] at R
    rw [HASHERS_unit]
    have hroot : sk.key.pk_root.toList = Spec.pkRoot ps.sp (ps.hr P).vals sk.key.sk_seed.toList sk.key.pk_seed.toList := by
      rw [ps.hr_vals, ← rootVec_toList]
      exact congrArg _ hc
    have V := ps.valid P
    rw [← ps.hr_vals] at V
    refine (slh_sign_internal_right ps.wf ps.matches R E V hmp sk.key hroot o).bind ?_
    rintro _ ⟨sig, rfl, hg⟩
    rw [ps.hr_vals] at hg
    unfold mapSerialize
    rw [bind_assoc]
    refine Ends.leak ?_
    dsimp only
    rw [bind_assoc]
    refine (Ends.of (serialize_returns ps.sizes.m sig ps.sizes.sig)).bind fun v hv => ?_
    rw [pure_bind]
    refine Ends.pure fun w hw => ?_
    obtain rfl := Except.ok.inj hw
    rw [hv]
    exact hg
  unfold slh_sign_with_rng
  rw [bind_assoc]
  refine Ends.leak ?_
  cases hedged
  · simp only [Bool.false_eq_true, if_false, bind_assoc, pure_bind]
    exact key _ _
  · simp only [if_true, bind_assoc]
    refine (Ends.pure (v := rng.fill s sk.key.pk_seed) rfl).bind ?_
    rintro _ rfl
    generalize rng.fill s sk.key.pk_seed = x
    obtain ⟨s, _ | a⟩ := x
    · exact Ends.pure (fun sig h => absurd h (by rintro ⟨⟩))
    · dsimp only
      refine Ends.leak ?_
      simp only [bind_assoc, pure_bind]
      exact key _ _

theorem hash_message_right (msg : List UInt8) (ph : Ph) (buf : Vector UInt8 64) :
    Ends (hash_message U.crypto msg ph buf : UnitExec bd τ _) (fun v => v.2.1 ≤ 64 ∧ (RightAt U P ⟨ph.spec, msg⟩ →
      v.1.toList = Spec.oid ph.spec ∧ (v.2.2.toList.drop 0).take (v.2.1 - 0) = Spec.preHash P msg ph.spec)) := by
  have h1 := (hash_message_makes (b := bd) P msg ph buf).value
    (LogExec.erase.map_hash_message _ msg ph buf) (hash_message_returns P msg ph buf)
  have h2 := hash_message_ends (bd := bd) U msg ph buf
  rw [← Program.toLog_crypto, ← RustHom.map_hash_message] at h1
  rw [← Program.toUnit_crypto, ← RustHom.map_hash_message] at h2 ⊢
  refine (Ends.right h1 h2).mono fun v hv => ⟨hv.1, fun hr => ?_⟩
  obtain ⟨-, h3, -, h4⟩ := hv.2 (by simpa using hr)
  exact ⟨h3, h4⟩

theorem encodeSK_slices {n : Nat} {A B C : List UInt8} (hA : A.length = n) (hB : B.length = n) (hC : C.length = n)
    (D : List UInt8) : Spec.slice (Spec.encodeSK A B C D) 0 n = A ∧
      Spec.slice (Spec.encodeSK A B C D) (2 * n) (3 * n) = C := by
  constructor
  · rw [Spec.encodeSK, List.append_assoc, List.append_assoc, ← hA]
    exact Spec.slice_zero_append _ _
  · have h3 := Spec.slice_append_right (A ++ B) C 0 C.length
    rw [Spec.slice_all, List.length_append, hA, hB, hC, show n + n + 0 = 2 * n by omega,
      show n + n + n = 3 * n by omega] at h3
    rw [Spec.encodeSK, Spec.slice_append_left _ (by simp only [List.length_append]; omega), h3]

/-- The bytes of a key that was decoded. -/
theorem decoded_bytes {v : Vector UInt8 ps.params.SK_LEN} {sk : PrivateKey ps.params}
    (hk : (PrivateKey.try_from_bytes (crypto P) v : Exec bd _) = pure (.ok sk)) :
    Spec.slice v.toList 0 ps.sp.n = sk.key.sk_seed.toList ∧
      Spec.slice v.toList (2 * ps.sp.n) (3 * ps.sp.n) = sk.key.pk_seed.toList := by
  obtain ⟨sk', h1, h2⟩ := exec_sk_try_from_bytes (P := P) (b := bd) v
  rw [hk] at h2
  have h2 := Exec.pure_inj h2
  split at h2
  · obtain rfl := Except.ok.inj h2
    have hn := ps.sizes.m.n
    rw [← h1]
    exact encodeSK_slices (by simp [hn]) (by simp [hn]) (by simp [hn]) _
  · cases h2

/-- What a key decoded with the right functions is. -/
theorem decoded {v : Vector UInt8 ps.params.SK_LEN} {sk : PrivateKey ps.params}
    (hk : (PrivateKey.try_from_bytes (crypto P) v : Exec bd _) = pure (.ok sk)) :
    Consistent P ps sk ∧ (PrivateKey.try_from_bytes (p := ps.params) (recording P) v : LogExec bd _).log =
      (Spec.Run.pkRoot ps.sp (ps.hr P) sk.key.sk_seed.toList sk.key.pk_seed.toList).log := by
  obtain ⟨sk', h1, h2⟩ := exec_sk_try_from_bytes (P := P) (b := bd) v
  rw [hk] at h2
  have h2 := Exec.pure_inj h2
  split at h2
  · next hc =>
    obtain rfl := Except.ok.inj h2
    refine ⟨hc, ?_⟩
    have e := decoded_bytes hk
    rw [sk_try_from_bytes_does (P := P) (b := bd) v, e.1, e.2]
  · cases h2

theorem try_sign_grafted {sk : PrivateKey ps.params} (hc : Consistent P ps sk) (rng : PureRng σ) (s : σ)
    (msg ctx : List UInt8) (hedged : Bool) :
    Ends (sk.try_sign_with_rng U.crypto (rng.lift : Rng (UnitExec bd τ) σ) s msg ctx hedged)
      (fun v => ∀ sig, v.2 = .ok sig → ctx.length ≤ 255 ∧ Grafted U P sk.key (Spec.pureMsg ctx msg) sig.toList) := by
  unfold PrivateKey.try_sign_with_rng
  refine Ends.leak ?_
  by_cases h : 255 < ctx.length
  · rw [if_pos h]
    exact Ends.pure fun sig e => absurd e (by rintro ⟨⟩)
  · rw [if_neg h, ← pure_flatten]
    exact (sign_grafted (by simp) hc rng s hedged).mono fun v hv sig e => ⟨by omega, hv sig e⟩

theorem try_hash_sign_grafted {sk : PrivateKey ps.params} (hc : Consistent P ps sk) (rng : PureRng σ) (s : σ)
    (msg ctx : List UInt8) (ph : Ph) (hedged : Bool) :
    Ends (sk.try_hash_sign_with_rng U.crypto (rng.lift : Rng (UnitExec bd τ) σ) s msg ctx ph hedged)
      (fun v => ∀ sig, v.2 = .ok sig → ctx.length ≤ 255 ∧ (RightAt U P ⟨ph.spec, msg⟩ →
        Grafted U P sk.key (phMsg P ctx msg ph) sig.toList)) := by
  unfold PrivateKey.try_hash_sign_with_rng
  refine Ends.leak ?_
  by_cases h : 255 < ctx.length
  · rw [if_pos h]
    exact Ends.pure fun sig e => absurd e (by rintro ⟨⟩)
  · rw [if_neg h]
    refine (hash_message_right (P := P) msg ph _).bind ?_
    rintro ⟨o, l, d⟩ ⟨hl, hr⟩
    refine Ends.slice (by omega) (by simpa using hl) ?_
    refine (sign_grafted (by simp) hc rng s hedged).mono fun v hv sig e => ⟨by omega, fun hr' => ?_⟩
    obtain ⟨h3, h4⟩ := hr hr'
    have := hv sig e
    simp only at h3 h4
    rwa [h3, h4, prehash_flatten] at this

/-! ## The properties -/

/-- **C88** Watching the unit changes nothing: the watched runs of signing are the runs of signing. -/
theorem C88_watching (U : HashUnit τ) (P : Spec.Prims) (sk : PrivateKey ps.params) (rng : PureRng σ) (s : σ)
    (msg ctx : List UInt8) (ph : Ph) (hedged : Bool) (h : τ) :
    (∃ r h' errors,
      sk.try_sign_with_rng (watching U P).crypto (rng.lift : Rng (UnitExec bd _) σ) s msg ctx hedged (h, []) =
        .ok (r, h', errors) ∧
      sk.try_sign_with_rng U.crypto (rng.lift : Rng (UnitExec bd τ) σ) s msg ctx hedged h = .ok (r, h')) ∧
    (∃ r h' errors,
      sk.try_hash_sign_with_rng (watching U P).crypto (rng.lift : Rng (UnitExec bd _) σ) s msg ctx ph hedged (h, []) =
        .ok (r, h', errors) ∧
      sk.try_hash_sign_with_rng U.crypto (rng.lift : Rng (UnitExec bd τ) σ) s msg ctx ph hedged h = .ok (r, h')) := by
  constructor
  · obtain ⟨r, ⟨h', errors⟩, e, -⟩ := C87_sign (watching U P) (bd := bd) sk rng s msg ctx hedged (h, [])
    refine ⟨_, h', errors, e, ?_⟩
    have e' := (Program.toUnit (watching U P)).map_try_sign_with_rng Program.crypto sk (rng.lift : Rng (Program bd) σ) s msg
      ctx hedged
    have e2 := (Program.watch _ ((congrFun e' _).trans e)).1
    exact (congrFun ((Program.toUnit U).map_try_sign_with_rng Program.crypto sk (rng.lift : Rng (Program bd) σ) s msg
      ctx hedged) _).symm.trans e2
  · obtain ⟨r, ⟨h', errors⟩, e, -⟩ := C87_hash_sign (watching U P) (bd := bd) sk rng s msg ctx ph hedged (h, [])
    refine ⟨_, h', errors, e, ?_⟩
    have e' := (Program.toUnit (watching U P)).map_try_hash_sign_with_rng Program.crypto sk (rng.lift : Rng (Program bd) σ) s
      msg ctx ph hedged
    have e2 := (Program.watch _ ((congrFun e' _).trans e)).1
    exact (congrFun ((Program.toUnit U).map_try_hash_sign_with_rng Program.crypto sk (rng.lift : Rng (Program bd) σ) s msg
      ctx ph hedged) _).symm.trans e2

/-- **C88** The key `sk` was read from the bytes `v`.  Signing with a unit that errs returned `sig`.  If none of the errors
was at a call that verification of `sig` makes, and none at a call that reading the key makes, the signature is accepted:
all other errors go unnoticed. -/
theorem C88_sign {v : Vector UInt8 ps.params.SK_LEN} {sk : PrivateKey ps.params} {rng : PureRng σ} {s s' : σ}
    {msg ctx : List UInt8} {hedged : Bool} {h h' : τ} {errors : List Call} {sig : Vector UInt8 ps.params.SIG_LEN}
    (hk : (PrivateKey.try_from_bytes (crypto P) v : Exec bd _) = pure (.ok sk))
    (hs : sk.try_sign_with_rng (watching U P).crypto (rng.lift : Rng (UnitExec bd _) σ) s msg ctx hedged (h, []) =
      .ok ((s', .ok sig), h', errors))
    (hv : ∀ c ∈ errors, c ∉ (sk.get_public_key.verify (recording P) msg sig ctx : LogExec bd Bool).log)
    (hd : ∀ c ∈ errors, c ∉ (PrivateKey.try_from_bytes (p := ps.params) (recording P) v : LogExec bd _).log) (b : Build) :
    (sk.get_public_key.verify (crypto P) msg sig ctx : Exec b _) = pure true := by
  obtain ⟨hc, hlog⟩ := decoded hk
  generalize hB : (fun c => c ∈ (sk.get_public_key.verify (recording P) msg sig ctx : LogExec bd Bool).log ∨
    c ∈ (PrivateKey.try_from_bytes (p := ps.params) (recording P) v : LogExec bd _).log) = B
  have hm := Program.mend (B := B) _ ((congrFun ((Program.toUnit (watching U P)).map_try_sign_with_rng Program.crypto sk
    (rng.lift : Rng (Program bd) σ) s msg ctx hedged) _).trans hs) (by
      rintro c hc' hb
      rw [← hB] at hb
      exact hb.elim (hv c hc') (hd c hc'))
  have hm := (congrFun ((Program.toUnit (mended U P B)).map_try_sign_with_rng Program.crypto sk
    (rng.lift : Rng (Program bd) σ) s msg ctx hedged) _).symm.trans hm
  obtain ⟨w, h2, e, hg⟩ := try_sign_grafted (U := mended U P B) (bd := bd) hc rng s msg ctx hedged h
  obtain ⟨rfl, -⟩ := Prod.mk.inj (Except.ok.inj (e.symm.trans hm))
  obtain ⟨hctx, hg⟩ := hg sig rfl
  rw [exec_verify, Spec.verify, if_neg (by omega)]
  refine congrArg _ (hg (fun c hc' => mended_right U P ?_) fun c hc' => mended_right U P ?_)
  · rw [← hB]
    left
    rw [verify_does, Spec.Run.verify, if_neg (by omega)]
    exact hc'
  · rw [← hB]
    right
    rwa [hlog]

/-- **C88** The same for pre-hash signing. -/
theorem C88_hash_sign {v : Vector UInt8 ps.params.SK_LEN} {sk : PrivateKey ps.params} {rng : PureRng σ} {s s' : σ}
    {msg ctx : List UInt8} {ph : Ph} {hedged : Bool} {h h' : τ} {errors : List Call}
    {sig : Vector UInt8 ps.params.SIG_LEN}
    (hk : (PrivateKey.try_from_bytes (crypto P) v : Exec bd _) = pure (.ok sk))
    (hs : sk.try_hash_sign_with_rng (watching U P).crypto (rng.lift : Rng (UnitExec bd _) σ) s msg ctx ph hedged (h, []) =
      .ok ((s', .ok sig), h', errors))
    (hv : ∀ c ∈ errors, c ∉ (sk.get_public_key.hash_verify (recording P) msg sig ctx ph : LogExec bd Bool).log)
    (hd : ∀ c ∈ errors, c ∉ (PrivateKey.try_from_bytes (p := ps.params) (recording P) v : LogExec bd _).log) (b : Build) :
    (sk.get_public_key.hash_verify (crypto P) msg sig ctx ph : Exec b _) = pure true := by
  obtain ⟨hc, hlog⟩ := decoded hk
  generalize hB : (fun c => c ∈ (sk.get_public_key.hash_verify (recording P) msg sig ctx ph : LogExec bd Bool).log ∨
    c ∈ (PrivateKey.try_from_bytes (p := ps.params) (recording P) v : LogExec bd _).log) = B
  have hm := Program.mend (B := B) _ ((congrFun ((Program.toUnit (watching U P)).map_try_hash_sign_with_rng Program.crypto sk
    (rng.lift : Rng (Program bd) σ) s msg ctx ph hedged) _).trans hs) (by
      rintro c hc' hb
      rw [← hB] at hb
      exact hb.elim (hv c hc') (hd c hc'))
  have hm := (congrFun ((Program.toUnit (mended U P B)).map_try_hash_sign_with_rng Program.crypto sk
    (rng.lift : Rng (Program bd) σ) s msg ctx ph hedged) _).symm.trans hm
  obtain ⟨w, h2, e, hg⟩ := try_hash_sign_grafted (U := mended U P B) (bd := bd) hc rng s msg ctx ph hedged h
  obtain ⟨rfl, -⟩ := Prod.mk.inj (Except.ok.inj (e.symm.trans hm))
  obtain ⟨hctx, hg⟩ := hg sig rfl
  have hlog2 : (sk.get_public_key.hash_verify (recording P) msg sig ctx ph : LogExec bd Bool).log =
      ⟨ph.spec, msg⟩ :: (Spec.Run.verifyInternal ps.sp (ps.hr P) (phMsg P ctx msg ph) sig.toList sk.key.pk_seed.toList
        sk.key.pk_root.toList).log := by
    rw [hash_verify_does, Spec.Run.hashVerify, if_neg (by omega)]
    rfl
  rw [exec_hash_verify, Spec.hashVerify, if_neg (by omega)]
  refine congrArg _ (hg (mended_right U P ?_) (fun c hc' => mended_right U P ?_) fun c hc' => mended_right U P ?_)
  · rw [← hB, hlog2]
    exact .inl (List.mem_cons_self ..)
  · rw [← hB, hlog2]
    exact .inl (List.mem_cons_of_mem _ hc')
  · rw [← hB]
    right
    rwa [hlog]

/-! ## Where errors go unnoticed -/

/-- The input of the call does not begin with the randomizer of the signature, and the call is not made for a node of the
tree at the top, nor for a node between the signature and the public key. -/
def Unseen (P : Spec.Prims) (sk : PrivateKey ps.params) (M : List UInt8) (sig : Vector UInt8 ps.params.SIG_LEN)
    (c : Call) : Prop :=
  ¬ Spec.slice sig.toList 0 ps.sp.n <+: c.input ∧
  ∀ x : Place, x.Exists ps.sp → CallAt ps.family ps.row sk.key.pk_seed.toList x c →
    ¬ x.InLayer (ps.sp.d - 1) ∧
    ¬ x.Climbed (Spec.attempt ps.sp (ps.hf P) M sig.toList [] sk.key.pk_seed.toList sk.key.pk_root.toList)
      (Spec.attempt ps.sp (ps.hf P) M sig.toList [] sk.key.pk_seed.toList sk.key.pk_root.toList).vDigit

theorem eachOnce_place {At : Place → Call → Prop} {S : Place → Prop} {l : List Call} (h : EachOnce At S l) {c : Call}
    (hc : c ∈ l) : ∃ x, S x ∧ At x c := by
  obtain ⟨xs, -, h1, h2⟩ := h
  have h3 : ∀ x ∈ xs, S x := fun x hx => (h1 x).mp hx
  clear h1
  induction h2 with
  | nil => cases hc
  | cons h _ ih =>
    rcases List.mem_cons.mp hc with rfl | hc
    · exact ⟨_, h3 _ (List.mem_cons_self ..), h⟩
    · exact ih hc fun x hx => h3 x (List.mem_cons_of_mem _ hx)

theorem hMsgLog_prefix {R a b M : List UInt8} {fam : Spec.Family} {r : Spec.Row} {c : Call}
    (hc : c ∈ hMsgLog P fam r R a b M) : R <+: c.input := by
  unfold hMsgLog at hc
  cases fam with
  | shake =>
    obtain rfl := List.mem_singleton.mp hc
    exact ⟨_, by simp only [List.append_assoc]; rfl⟩
  | sha2 =>
    simp only at hc
    split at hc
    all_goals
      rcases List.mem_cons.mp hc with rfl | hc
      · exact ⟨_, by simp only [List.append_assoc]; rfl⟩
      · obtain ⟨i, -, rfl⟩ := List.mem_map.mp hc
        exact ⟨_, by simp only [List.append_assoc]; rfl⟩

theorem verifyCalls_unseen {sk : PrivateKey ps.params} {M : List UInt8} {sig : Vector UInt8 ps.params.SIG_LEN}
    {L : List Call} (hL : VerifyCalls P sk.get_public_key M sig L) {c : Call} (hu : Unseen P sk M sig c) : c ∉ L := by
  intro hc
  obtain ⟨L', h1, rfl⟩ := hL
  rcases List.mem_append.mp hc with hc | hc
  · exact hu.1 (hMsgLog_prefix hc)
  · obtain ⟨x, hx, ha⟩ := eachOnce_place h1 hc
    exact (hu.2 x hx.1 ha).2 hx.2

theorem decode_unseen {v : Vector UInt8 ps.params.SK_LEN} {sk : PrivateKey ps.params} {M : List UInt8}
    {sig : Vector UInt8 ps.params.SIG_LEN} (hk : (PrivateKey.try_from_bytes (crypto P) v : Exec bd _) = pure (.ok sk))
    {c : Call} (hu : Unseen P sk M sig c) :
    c ∉ (PrivateKey.try_from_bytes (p := ps.params) (recording P) v : LogExec bd _).log := by
  intro hc
  obtain ⟨x, hx, ha⟩ := eachOnce_place (sk_try_from_bytes_run v) hc
  rw [(decoded_bytes hk).2] at ha
  exact (hu.2 x hx.1 ha).1 hx.2

/-- **C88** In terms of places: errors for nodes below the tree at the top that do not lie between the signature and the
public key, and errors in deriving the randomizer, go unnoticed. -/
theorem C88_places {v : Vector UInt8 ps.params.SK_LEN} {sk : PrivateKey ps.params} {rng : PureRng σ} {s s' : σ}
    {msg ctx : List UInt8} {hedged : Bool} {h h' : τ} {errors : List Call} {sig : Vector UInt8 ps.params.SIG_LEN}
    (hk : (PrivateKey.try_from_bytes (crypto P) v : Exec bd _) = pure (.ok sk))
    (hs : sk.try_sign_with_rng (watching U P).crypto (rng.lift : Rng (UnitExec bd _) σ) s msg ctx hedged (h, []) =
      .ok ((s', .ok sig), h', errors))
    (hu : ∀ c ∈ errors, Unseen P sk (Spec.pureMsg ctx msg) sig c) (b : Build) :
    (sk.get_public_key.verify (crypto P) msg sig ctx : Exec b _) = pure true := by
  refine C88_sign hk hs (fun c hc => ?_) (fun c hc => decode_unseen hk (hu c hc)) b
  have := C47_verify (b := bd) (P := P) sk.get_public_key msg ctx sig
  dsimp only at this
  split at this
  · exact verifyCalls_unseen this (hu c hc)
  · rw [this]
    exact List.not_mem_nil

theorem C88_hash_places {v : Vector UInt8 ps.params.SK_LEN} {sk : PrivateKey ps.params} {rng : PureRng σ} {s s' : σ}
    {msg ctx : List UInt8} {ph : Ph} {hedged : Bool} {h h' : τ} {errors : List Call}
    {sig : Vector UInt8 ps.params.SIG_LEN}
    (hk : (PrivateKey.try_from_bytes (crypto P) v : Exec bd _) = pure (.ok sk))
    (hs : sk.try_hash_sign_with_rng (watching U P).crypto (rng.lift : Rng (UnitExec bd _) σ) s msg ctx ph hedged (h, []) =
      .ok ((s', .ok sig), h', errors))
    (hu : ∀ c ∈ errors, c ≠ ⟨ph.spec, msg⟩ ∧ Unseen P sk (phMsg P ctx msg ph) sig c) (b : Build) :
    (sk.get_public_key.hash_verify (crypto P) msg sig ctx ph : Exec b _) = pure true := by
  refine C88_hash_sign hk hs (fun c hc => ?_) (fun c hc => decode_unseen hk (hu c hc).2) b
  have := C47_hash_verify (b := bd) (P := P) sk.get_public_key msg ctx ph sig
  dsimp only at this
  split at this
  · obtain ⟨L, h1, h2⟩ := this
    rw [h2, List.mem_cons, not_or]
    exact ⟨(hu c hc).1, verifyCalls_unseen h1 (hu c hc).2⟩
  · rw [this]
    exact List.not_mem_nil

/-- **C88** Such errors are: those in calls whose input begins neither with `PK.seed` nor with the randomizer (deriving the
randomizer among them), and, if the randomizer is not `PK.seed`, those at a place below the tree at the top that does not
lie between signature and public key, in particular at every secret value there. -/
theorem C88_unseen (sk : PrivateKey ps.params) (M : List UInt8) (sig : Vector UInt8 ps.params.SIG_LEN) (c : Call) :
    (¬ sk.key.pk_seed.toList <+: c.input → ¬ Spec.slice sig.toList 0 ps.sp.n <+: c.input → Unseen P sk M sig c) ∧
    (∀ x : Place, x.Exists ps.sp → CallAt ps.family ps.row sk.key.pk_seed.toList x c →
      Spec.slice sig.toList 0 ps.sp.n ≠ sk.key.pk_seed.toList →
      let a := Spec.attempt ps.sp (ps.hf P) M sig.toList [] sk.key.pk_seed.toList sk.key.pk_root.toList
      ((Unseen P sk M sig c ↔ ¬ x.InLayer (ps.sp.d - 1) ∧ ¬ x.Climbed a a.vDigit) ∧
       (x.kind = .PRF → ¬ x.InLayer (ps.sp.d - 1) → Unseen P sk M sig c))) := by
  refine ⟨fun h1 h2 => ⟨h2, fun x _ hx => ?_⟩, fun x hx ha hR => ?_⟩
  · obtain ⟨a, e⟩ := callAt_seed hx
    exact absurd ⟨a, e.symm⟩ h1
  · have hpre : ¬ Spec.slice sig.toList 0 ps.sp.n <+: c.input := by
      obtain ⟨a, e⟩ := callAt_seed ha
      rintro ⟨a', e'⟩
      refine hR (List.append_inj_left (e'.trans e) ?_)
      rw [Spec.slice, List.length_take, List.length_drop, Vector.length_toList, Vector.length_toList, ← ps.sizes.m.n]
      have := ps.sizes.sig
      have h1 : ps.sp.n ≤ ps.sp.sigLen := Nat.le_mul_of_pos_left _ (by omega)
      omega
    have hiff : ∀ a, (a = Spec.attempt ps.sp (ps.hf P) M sig.toList [] sk.key.pk_seed.toList sk.key.pk_root.toList) →
        (Unseen P sk M sig c ↔ ¬ x.InLayer (ps.sp.d - 1) ∧ ¬ x.Climbed a a.vDigit) := by
      rintro a rfl
      refine ⟨fun h => h.2 x hx ha, fun h => ⟨hpre, fun y hy hb => ?_⟩⟩
      obtain rfl := callAt_inj hx hy ha hb
      exact h
    refine ⟨hiff _ rfl, fun h1 h2 => (hiff _ rfl).mpr ⟨h2, ?_⟩⟩
    cases x with
    | wotsPrf => exact id
    | forsPrf => exact id
    | forsTree t l k i =>
      rw [Place.kind] at h1
      split at h1 <;> cases h1
    | _ => cases h1

/-! ## A unit that errs in deriving the randomizer -/

/-- The functions `demoPrims`, but `x0` only for inputs that begin with the byte 1 or `1 ^^^ 0x5c`. -/
def misled (x0 : UInt8) : Spec.Prims where
  sha256 x := if x.head? = some 1 ∨ x.head? = some 0x5d then .replicate _ x0 else demoPrims.sha256 x
  sha512 x := if x.head? = some 1 ∨ x.head? = some 0x5d then .replicate _ x0 else demoPrims.sha512 x
  shake128 x n := if x.head? = some 1 ∨ x.head? = some 0x5d then .replicate _ x0 else demoPrims.shake128 x n
  shake256 x n := if x.head? = some 1 ∨ x.head? = some 0x5d then .replicate _ x0 else demoPrims.shake256 x n

theorem misled_right {x0 : UInt8} {c : Call} (hc : ¬ (c.input.head? = some 1 ∨ c.input.head? = some 0x5d)) :
    RightAt (sound (misled x0) : HashUnit Unit) demoPrims c := by
  rintro q h rfl
  cases q <;> exact if_neg hc

theorem misled_randomizer (x0 : UInt8) (opt M : List UInt8) :
    (ps.hf (misled x0)).PRFmsg (demoKeys ps).2.key.sk_prf.toList opt M = List.replicate ps.sp.n x0 := by
  obtain ⟨n, hn⟩ : ∃ n, ps.params.N = n + 1 := ⟨ps.params.N - 1, by cases ps <;> decide⟩
  have hprf : (demoKeys ps).2.key.sk_prf.toList = List.replicate ps.params.N 1 := by
    simp [demoKeys, keyPair]
  have h32 : ps.params.N ≤ 32 := by cases ps <;> decide
  have hsp : ps.sp.n = ps.params.N := ps.sizes.m.n
  rw [hprf]
  unfold ParamSet.hf Spec.hashFns
  split
  · change ((misled x0).shake256 (List.replicate ps.params.N 1 ++ opt ++ M) ps.sp.n).toList = _
    rw [misled, hn]
    simp [List.replicate_succ]
  · have hpad : ∀ B : Nat, 32 ≤ B → ∀ h : List UInt8 → List UInt8, Spec.hmac h B (List.replicate ps.params.N 1) (opt ++ M) =
        h (0x5d :: ((List.replicate n 0x5d ++ List.replicate (B - ps.params.N) 0x5c) ++
          h (hmacPad B (List.replicate ps.params.N 1) 0x36 ++ (opt ++ M)))) := by
      intro B hB h
      unfold Spec.hmac
      simp only [List.length_replicate]
      rw [if_pos (by omega), hn]
      simp [hmacPad, List.replicate_succ, show (1 ^^^ 92 : UInt8) = 93 from rfl]
    have h256 : ∀ y, Spec.sha256' (misled x0) (0x5d :: y) = List.replicate 32 x0 := fun y => by simp [Spec.sha256', misled]
    have h512 : ∀ y, Spec.sha512' (misled x0) (0x5d :: y) = List.replicate 64 x0 := fun y => by simp [Spec.sha512', misled]
    split
    · change (Spec.hmac _ 64 _ _).take ps.sp.n = _
      rw [hpad 64 (by decide), h256, hsp, List.take_replicate, Nat.min_eq_left h32]
    · change (Spec.hmac _ 128 _ _).take ps.sp.n = _
      rw [hpad 128 (by decide), h512, hsp, List.take_replicate, Nat.min_eq_left (by omega)]

theorem slice_signInternal {hf : Spec.HashFns} {m : Nat} (V : Spec.Valid hf ps.sp.n m) (M a b c d o : List UInt8) :
    Spec.slice (Spec.signInternal ps.sp hf M a b c d o) 0 ps.sp.n = hf.PRFmsg b o M := by
  rw [Spec.signInternal, Spec.signWithR, List.append_assoc, ← V.PRFmsg b o M]
  exact Spec.slice_zero_append _ _

/-- Signing with it gives a signature that differs from the right one, and is accepted. -/
example (bd : Build) : ∃ (U : HashUnit Unit) (v : Vector UInt8 ps.params.SK_LEN) (sig : Vector UInt8 ps.params.SIG_LEN)
    (errors : List Call),
    (PrivateKey.try_from_bytes (crypto demoPrims) v : Exec bd _) = pure (.ok (demoKeys ps).2) ∧
    (demoKeys ps).2.try_sign_with_rng (watching U demoPrims).crypto (demoRng.lift : Rng (UnitExec bd _) Nat) 3 [104, 105]
      [9] false ((), []) = .ok ((3, .ok sig), (), errors) ∧
    (∀ c ∈ errors, Unseen demoPrims (demoKeys ps).2 (Spec.pureMsg [9] [104, 105]) sig c) ∧
    (demoKeys ps).2.try_sign_with_rng (crypto demoPrims) (demoRng.lift : Rng (Exec bd) Nat) 3 [104, 105] [9] false ≠
      pure (3, .ok sig) := by
  obtain ⟨n, hn⟩ : ∃ n, ps.sp.n = n + 1 := ⟨ps.sp.n - 1, by cases ps <;> decide⟩
  have hseed : (demoKeys ps).2.key.pk_seed.toList = List.replicate ps.params.N 2 := by
    simp [demoKeys, keyPair]
  generalize hsk : (demoKeys ps).2 = sk at *
  have hR : ∀ P, Spec.slice (sigVec ps P (Spec.pureMsg [9] [104, 105]) sk.key sk.key.pk_seed).toList 0 ps.sp.n =
      (ps.hf P).PRFmsg sk.key.sk_prf.toList sk.key.pk_seed.toList (Spec.pureMsg [9] [104, 105]) := by
    intro P
    rw [sigVec_toList]
    exact slice_signInternal (ps.valid P) ..
  obtain ⟨x0, h56, hx0⟩ : ∃ x0 : UInt8, (x0 = 5 ∨ x0 = 6) ∧ List.replicate ps.sp.n x0 ≠
      (ps.hf demoPrims).PRFmsg sk.key.sk_prf.toList sk.key.pk_seed.toList (Spec.pureMsg [9] [104, 105]) := by
    by_cases h : List.replicate ps.sp.n 5 =
        (ps.hf demoPrims).PRFmsg sk.key.sk_prf.toList sk.key.pk_seed.toList (Spec.pureMsg [9] [104, 105])
    · refine ⟨6, .inr rfl, ?_⟩
      rw [← h, hn, List.replicate_succ, List.replicate_succ]
      exact fun e => absurd (List.cons.inj e).1 (by decide)
    · exact ⟨5, .inl rfl, h⟩
  have hR' := hR (misled x0)
  rw [← hsk, misled_randomizer, hsk] at hR'
  obtain ⟨⟨r, h', errors, e1, e2⟩, -⟩ := C88_watching (bd := bd) (sound (misled x0) : HashUnit Unit) demoPrims sk demoRng 3
    [104, 105] [9] .SHA256 false ()
  have e3 := (C87_sound_unit (ps := ps) (misled x0) (bd := bd) demoRng 3 sk (demoKeys ps).1 [104, 105] [9] .SHA256 false
    (zeroBytes _) (zeroBytes _) ()).2.1
  rw [exec_try_sign_with_rng, if_neg (by decide), if_neg (by decide), e2] at e3
  obtain rfl := (Prod.mk.inj (Except.ok.inj e3)).1
  obtain ⟨v, -, hv⟩ := exec_sk_into_bytes (b := bd) sk
  refine ⟨sound (misled x0), v, _, errors, ?_, e1, fun c hc => ?_, fun e => ?_⟩
  · obtain ⟨sk', h1, h2⟩ := exec_sk_try_from_bytes (P := demoPrims) (b := bd) v
    obtain rfl := PrivateKey.encode_inj (h1.trans hv)
    rw [h2, if_pos]
    rw [← hsk]
    rfl
  · have hw := Program.watch_errors _ ((congrFun ((Program.toUnit (watching (sound (misled x0)) demoPrims)).map_try_sign_with_rng
      Program.crypto sk (demoRng.lift : Rng (Program bd) Nat) 3 [104, 105] [9] false) _).trans e1) c hc
    have hw : c.input.head? = some 1 ∨ c.input.head? = some 0x5d := by
      by_contra hne
      exact hw.elim (fun h => by cases h) fun h => h (misled_right hne)
    refine (C88_unseen sk _ _ c).1 ?_ ?_
    · rw [hseed, ← ps.sizes.m.n, hn]
      rintro ⟨y, hy⟩
      rw [← hy] at hw
      simp [List.replicate_succ] at hw
    · rw [hR', hn]
      rintro ⟨y, hy⟩
      rw [← hy] at hw
      rcases h56 with rfl | rfl <;> simp [List.replicate_succ] at hw
  · rw [exec_try_sign_with_rng, if_neg (by decide), if_neg (by decide)] at e
    have e := Except.ok.inj (Prod.mk.inj (Exec.pure_inj e)).2
    have h2 := hR demoPrims
    rw [e, hR'] at h2
    exact hx0 h2

end Fips205.Props
