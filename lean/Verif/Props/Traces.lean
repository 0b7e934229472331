import Verif.Props.Forgery
import Verif.Proofs.TraceApi

/-!
# What an observer of the running code sees, and how much work it does (C29–C31, C44–C46)

The observer of `Model.TraceExec` sees every branch outcome, loop trip count, array index, slice bound,
operand of a variable-time comparison, and the algorithm and lengths of every hash call, in order.
-/

namespace Fips205.Props
open Fips205 Fips205.Model

variable {ps : ParamSet} {P P' : Spec.Prims} {b : Build} {σ τ : Type}

/-! ## C29: key generation -/

/-- Whatever bytes the RNG delivers, and whatever the hash functions compute from them, an observer sees
the same. -/
theorem C29_try_keygen_with_rng (S : σ → τ → Prop) (rng : Rng (TraceExec b) σ) (rng' : Rng (TraceExec b) τ)
    (hr : AlikeRngs S rng rng') (s : σ) (t : τ) (h0 : S s t) :
    (try_keygen_with_rng ps.params (crypto P) rng s).trace =
      (try_keygen_with_rng ps.params (crypto P') rng' t).trace :=
  (try_keygen_with_rng_rel hr h0).1

theorem C29_keygen_with_seeds {n : Nat} (sk_seed sk_prf pk_seed sk_seed' sk_prf' pk_seed' : Vector UInt8 n) :
    (keygen_with_seeds ps.params (crypto P) sk_seed sk_prf pk_seed : TraceExec b _).trace =
      (keygen_with_seeds ps.params (crypto P') sk_seed' sk_prf' pk_seed' : TraceExec b _).trace :=
  (keygen_with_seeds_rel _ _ _ _ _ _).1

/-- Two different RNGs that are alike: one delivers zeros, the other its counter; both fail at the same
draw. -/
example : AlikeRngs (b := b) (fun (s t : Nat) => s = t)
    ((⟨fun s {n} _ => (s + 1, if s = 7 then .error () else .ok (Vector.replicate n 0))⟩ : PureRng Nat).lift)
    ((⟨fun s {n} _ => (s + 1, if s = 7 then .error () else .ok (Vector.replicate n (UInt8.ofNat s)))⟩ :
      PureRng Nat).lift) := by
  rintro s _ rfl n v w
  refine Rel.pure ⟨rfl, ?_⟩
  dsimp only
  split <;> rfl

/-- The observer does see a branch on a secret: such a program does not have the property. -/
example : ¬ ∀ x y : UInt8,
    (do leak (.branch (x == 0)); pure () : TraceExec b Unit).trace =
      (do leak (.branch (y == 0)); pure () : TraceExec b Unit).trace :=
  fun h => absurd (h 0 1) fun h => by cases h

/-! ## C30: signing -/

/-- Two runs with private keys that belong to the same public key, on the same message and context, that
return the same signature, look alike.  So what an observer sees is a function of public data. -/
theorem C30_try_sign_with_rng (S : σ → τ → Prop) (rng : Rng (TraceExec b) σ) (rng' : Rng (TraceExec b) τ)
    (hr : AlikeRngs S rng rng') (s s1 : σ) (t t1 : τ) (h0 : S s t) (sk sk' : PrivateKey ps.params)
    (hk : sk.get_public_key = sk'.get_public_key) (msg ctx : List UInt8) (hedged : Bool)
    (sig : Vector UInt8 ps.params.SIG_LEN)
    (h : (sk.try_sign_with_rng (crypto P) rng s msg ctx hedged).result = .ok (s1, .ok sig))
    (h' : (sk'.try_sign_with_rng (crypto P) rng' t msg ctx hedged).result = .ok (t1, .ok sig)) :
    (sk.try_sign_with_rng (crypto P) rng s msg ctx hedged).trace =
      (sk'.try_sign_with_rng (crypto P) rng' t msg ctx hedged).trace :=
  try_sign_traces ps.sizes (ps.hashers P) (ps.valid P) msg ctx hk hr h0 hedged h h'

theorem C30_try_hash_sign_with_rng (S : σ → τ → Prop) (rng : Rng (TraceExec b) σ)
    (rng' : Rng (TraceExec b) τ) (hr : AlikeRngs S rng rng') (s s1 : σ) (t t1 : τ) (h0 : S s t)
    (sk sk' : PrivateKey ps.params) (hk : sk.get_public_key = sk'.get_public_key)
    (msg ctx : List UInt8) (ph : Ph) (hedged : Bool) (sig : Vector UInt8 ps.params.SIG_LEN)
    (h : (sk.try_hash_sign_with_rng (crypto P) rng s msg ctx ph hedged).result = .ok (s1, .ok sig))
    (h' : (sk'.try_hash_sign_with_rng (crypto P) rng' t msg ctx ph hedged).result = .ok (t1, .ok sig)) :
    (sk.try_hash_sign_with_rng (crypto P) rng s msg ctx ph hedged).trace =
      (sk'.try_hash_sign_with_rng (crypto P) rng' t msg ctx ph hedged).trace :=
  try_hash_sign_traces ps.sizes (ps.hashers P) (ps.valid P) msg ctx ph hk hr h0 hedged h h'

theorem C30_raw_sign (S : σ → τ → Prop) (rng : Rng (TraceExec b) σ) (rng' : Rng (TraceExec b) τ)
    (hr : AlikeRngs S rng rng') (s s1 : σ) (t t1 : τ) (h0 : S s t) (sk sk' : PrivateKey ps.params)
    (hk : sk.get_public_key = sk'.get_public_key) (msg : List UInt8) (hedged : Bool)
    (sig : Vector UInt8 ps.params.SIG_LEN)
    (h : (sk._test_only_raw_sign (crypto P) rng s msg hedged).result = .ok (s1, .ok sig))
    (h' : (sk'._test_only_raw_sign (crypto P) rng' t msg hedged).result = .ok (t1, .ok sig)) :
    (sk._test_only_raw_sign (crypto P) rng s msg hedged).trace =
      (sk'._test_only_raw_sign (crypto P) rng' t msg hedged).trace :=
  raw_sign_traces ps.sizes (ps.hashers P) (ps.valid P) msg hk hr h0 hedged h h'

/-- If `PRF` does not depend on the secret seed, neither do signatures with a given randomizer. -/
theorem signWithR_congr {p : Spec.Params} {hf : Spec.HashFns} {sk sk' : List UInt8}
    (h : ∀ pk a, hf.PRF pk sk a = hf.PRF pk sk' a) (R M pk root : List UInt8) :
    Spec.signWithR p hf R M sk pk root = Spec.signWithR p hf R M sk' pk root := by
  have hw : ∀ M pk A, Spec.wotsSign p hf M sk pk A = Spec.wotsSign p hf M sk' pk A := fun M pk A => by
    simp only [Spec.wotsSign, h]
  have hx : ∀ z i pk A, Spec.xmssNode p hf sk i z pk A = Spec.xmssNode p hf sk' i z pk A := by
    intro z
    induction z with
    | zero => intro i pk A; simp only [Spec.xmssNode, Spec.wotsPKgen, h]
    | succ z ih => intro i pk A; simp only [Spec.xmssNode, ih]
  have hs : ∀ M i pk A, Spec.xmssSign p hf M sk i pk A = Spec.xmssSign p hf M sk' i pk A :=
    fun M i pk A => by simp only [Spec.xmssSign, hw, hx]
  have ht : ∀ left j M t l, Spec.htSignFrom p hf sk pk left j M t l =
      Spec.htSignFrom p hf sk' pk left j M t l := by
    intro left
    induction left with
    | zero => intros; rfl
    | succ left ih => intro j M t l; simp only [Spec.htSignFrom, hs, ih]
  have hg : ∀ pk A i, Spec.forsSKgen hf sk pk A i = Spec.forsSKgen hf sk' pk A i := fun pk A i => by
    simp only [Spec.forsSKgen, h]
  have hn : ∀ z i pk A, Spec.forsNode hf sk i z pk A = Spec.forsNode hf sk' i z pk A := by
    intro z
    induction z with
    | zero => intro i pk A; simp only [Spec.forsNode, hg]
    | succ z ih => intro i pk A; simp only [Spec.forsNode, ih]
  simp only [Spec.signWithR, Spec.htSign, ht, Spec.forsSign, hg, hn]

/-- The result of deterministic signing, with the observations. -/
theorem try_sign_result (rng : Rng (TraceExec b) σ) (s : σ) (sk : PrivateKey ps.params)
    (msg ctx : List UInt8) (hc : ctx.length ≤ 255) :
    (sk.try_sign_with_rng (crypto P) rng s msg ctx false).result =
      .ok (s, .ok (sigVec ps P (Spec.pureMsg ctx msg) sk.key sk.key.pk_seed)) := by
  have : Returns (sk.try_sign_with_rng (crypto P) rng s msg ctx false)
      (· = (s, .ok (sigVec ps P (Spec.pureMsg ctx msg) sk.key sk.key.pk_seed))) := by
    unfold PrivateKey.try_sign_with_rng slh_sign_with_rng
    refine Returns.leak ?_
    rw [if_neg (by omega)]
    simp only [bind_assoc, Bool.false_eq_true, if_false, pure_bind]
    refine Returns.leak ?_
    have := sign_serialize_returns ps.sizes (ps.hashers P (m := TraceExec b))
      (mp := [[0], [UInt8.ofNat ctx.length], ctx, msg]) (by simp) sk.key sk.key.pk_seed
    rw [pure_flatten] at this
    have := this.bind (f := fun r => pure (s, r)) (Q := (· = (s, .ok (sigVec ps P (Spec.pureMsg ctx msg)
        sk.key sk.key.pk_seed)))) (by
      rintro _ ⟨sig, rfl, hsig⟩
      exact Returns.pure (by rw [sigVec, ← hsig, toVec_toList_self]))
    rwa [bind_assoc] at this
  obtain ⟨v, hv, rfl⟩ := TraceExec.returns_iff.mp this
  exact hv

/-- The hypotheses of C30 are met by two different private keys (with a degenerate hash function). -/
example (ps : ParamSet) : ∃ (sk sk' : PrivateKey ps.params) (sig : Vector UInt8 ps.params.SIG_LEN),
    sk ≠ sk' ∧ Generated zeroPrims sk.get_public_key sk ∧ Generated zeroPrims sk'.get_public_key sk' ∧
    sk.get_public_key = sk'.get_public_key ∧
    (sk.try_sign_with_rng (crypto zeroPrims) (demoRng.lift : Rng (TraceExec demoBuild) Nat) 0 [1, 2] [3]
      false).result = .ok (0, .ok sig) ∧
    (sk'.try_sign_with_rng (crypto zeroPrims) (demoRng.lift : Rng (TraceExec demoBuild) Nat) 0 [1, 2] [3]
      false).result = .ok (0, .ok sig) := by
  let z : Vector UInt8 ps.params.N := Vector.replicate _ 0
  let o : Vector UInt8 ps.params.N := Vector.replicate _ 1
  have hroot : rootVec ps zeroPrims z z = rootVec ps zeroPrims o z := by
    have : ∀ s : List UInt8, Spec.pkRoot ps.sp (ps.hf zeroPrims) s z.toList = List.replicate ps.sp.n 0 := by
      intro s
      have : ∀ z i A PK, Spec.xmssNode ps.sp (ps.hf zeroPrims) s i (z + 1) PK A =
        List.replicate ps.sp.n 0 := fun _ _ _ _ => zero_H ps _ _ _
      have hp : ps.sp.hp = ps.sp.hp - 1 + 1 := by cases ps <;> rfl
      rw [Spec.pkRoot, hp, this]
    rw [rootVec, rootVec, this, this]
  refine ⟨(keyPair ps zeroPrims z z z).2, (keyPair ps zeroPrims o z z).2, _, ?_,
    .seeds (b := demoBuild) z z z (exec_keygen_with_seeds _ _ _),
    .seeds (b := demoBuild) o z z (exec_keygen_with_seeds _ _ _), ?_,
    try_sign_result _ _ _ _ _ (by simp), ?_⟩
  · intro h
    have h := congrArg (fun k => k.key.sk_seed.toList) h
    have hN : ps.params.N = ps.params.N - 1 + 1 := by cases ps <;> rfl
    simp only [keyPair, z, o, Vector.toList_replicate] at h
    rw [hN, List.replicate_succ, List.replicate_succ] at h
    injection h with h
    cases h
  · simp only [keyPair, PrivateKey.get_public_key, hroot]
  · rw [try_sign_result _ _ _ _ _ (by simp)]
    congr 3
    simp only [sigVec, Spec.signInternal, keyPair, hroot]
    congr 1
    exact signWithR_congr (by intro pk a; cases ps <;> rfl) _ _ _ _

/-! ## C44: decoding private keys -/

/-- Decoding two accepted private keys with the same public key looks alike. -/
theorem C44_sk_try_from_bytes (v v' : Vector UInt8 ps.params.SK_LEN) (sk sk' : PrivateKey ps.params)
    (hk : sk.get_public_key = sk'.get_public_key)
    (h : (PrivateKey.try_from_bytes (crypto P) v : TraceExec b _).result = .ok (.ok sk))
    (h' : (PrivateKey.try_from_bytes (crypto P) v' : TraceExec b _).result = .ok (.ok sk')) :
    (PrivateKey.try_from_bytes (crypto P) v : TraceExec b _).trace =
      (PrivateKey.try_from_bytes (crypto P) v' : TraceExec b _).trace :=
  sk_try_from_bytes_traces hk h h'

/-- What decoding any byte string shows, accepted or not: the same for all strings of the right length,
and last the comparison of the root recomputed from the two seeds with the stored root. -/
theorem C44_exact : ∃ T : List Leak, ∀ v : Vector UInt8 ps.params.SK_LEN,
    (PrivateKey.try_from_bytes (crypto P) v : TraceExec b (Except String (PrivateKey ps.params))).trace =
      T ++ [.cmp (Spec.pkRoot ps.sp (ps.hf P) (Spec.slice v.toList 0 ps.sp.n)
          (Spec.slice v.toList (2 * ps.sp.n) (3 * ps.sp.n)))
        (Spec.slice v.toList (3 * ps.sp.n) (4 * ps.sp.n))] := by
  refine ⟨(PrivateKey.try_from_bytes (crypto P) (zeroBytes _) :
    TraceExec b (Except String (PrivateKey ps.params))).trace.dropLast, fun v => ?_⟩
  obtain ⟨T, h1, h2⟩ := sk_try_from_bytes_sameUpTo ps.sizes (ps.hashers P (m := TraceExec b))
    v (zeroBytes _)
  rw [h1, h2, List.dropLast_concat, decodeLeak]

/-- The hypotheses of `C44_sk_try_from_bytes` are met by encodings of different private keys. -/
example (ps : ParamSet) : ∃ (v v' : Vector UInt8 ps.params.SK_LEN) (sk sk' : PrivateKey ps.params),
    sk ≠ sk' ∧ sk.get_public_key = sk'.get_public_key ∧
    (PrivateKey.try_from_bytes (crypto demoPrims) v : TraceExec demoBuild _).result = .ok (.ok sk) ∧
    (PrivateKey.try_from_bytes (crypto demoPrims) v' : TraceExec demoBuild _).result = .ok (.ok sk') := by
  let z : Vector UInt8 ps.params.N := Vector.replicate _ 0
  let o : Vector UInt8 ps.params.N := Vector.replicate _ 1
  have key : ∀ sk : PrivateKey ps.params, Consistent demoPrims ps sk → ∃ v : Vector UInt8 ps.params.SK_LEN,
      (PrivateKey.try_from_bytes (crypto demoPrims) v : TraceExec demoBuild _).result = .ok (.ok sk) := by
    intro sk hk
    obtain ⟨v, -, hv⟩ := TraceExec.returns_iff.mp (sk_into_bytes_returns (m := TraceExec demoBuild) ps.sizes sk)
    obtain ⟨r, hr, sk', h1, h2⟩ := TraceExec.returns_iff.mp
      (sk_try_from_bytes_returns ps.sizes (ps.hashers demoPrims (m := TraceExec demoBuild)) v)
    obtain rfl : sk' = sk := PrivateKey.encode_inj (h1.trans hv)
    refine ⟨v, hr.trans ?_⟩
    rw [h2, if_pos (by rw [← rootVec_toList, ← show _ = _ from hk])]
  obtain ⟨v, hv⟩ := key _ (keyPair_consistent z z z)
  obtain ⟨v', hv'⟩ := key _ (keyPair_consistent z o z)
  refine ⟨v, v', (keyPair ps demoPrims z z z).2, (keyPair ps demoPrims z o z).2, ?_, rfl, hv, hv'⟩
  intro h
  have h := congrArg (fun k => k.key.sk_prf.toList) h
  have hN : ps.params.N = ps.params.N - 1 + 1 := by cases ps <;> rfl
  simp only [keyPair, z, o, Vector.toList_replicate] at h
  rw [hN, List.replicate_succ, List.replicate_succ] at h
  injection h with h
  cases h

/-! ## C31, C45, C46: bounds on the work -/

/-- Hash computations of `H_msg` (11.1, 11.2): one with SHAKE; with SHA-2 one for the inner digest and
one for each block of MGF1 (32 bytes in category 1, 64 bytes in categories 3 and 5). -/
def hMsgWork (ps : ParamSet) : Nat :=
  match ps.family with
  | .shake => 1
  | .sha2 => if ps.sp.n = 16 then 1 + (ps.sp.m + 31) / 32 else 1 + (ps.sp.m + 63) / 64

/-- Hash computations of `PRF_msg`: one with SHAKE, two for HMAC. -/
def prfMsgWork (ps : ParamSet) : Nat :=
  match ps.family with
  | .shake => 1
  | .sha2 => 2

/-- Verification: the digest; for each of the `k` FORS trees the leaf and `a` levels, and the FORS public
key; for each of the `d` layers at most 15 steps of each WOTS+ chain, the WOTS+ public key, and `h'`
levels. -/
def verifyWork (ps : ParamSet) : Nat :=
  let p := ps.sp
  hMsgWork ps + (p.k * (1 + p.a) + 1) + p.d * (15 * p.len + 1 + p.hp)

/-- A full XMSS tree of height `z`: for each leaf `len` secrets with their chains and one compression,
then all inner nodes. -/
def treeWork (ps : ParamSet) (z : Nat) : Nat := 2 ^ z * (ps.sp.len * 16 + 1) + (2 ^ z - 1)

/-- A full FORS tree of height `z`. -/
def forsTreeWork (z : Nat) : Nat := 2 ^ z * 2 + (2 ^ z - 1)

/-- Signing: the randomizer, the digest; for each FORS tree the secret and the `a` nodes of the
authentication path; the FORS public key; for each layer the `h'` nodes of the authentication path, at
most 16 hashes for each WOTS+ chain; for each layer but the last the root of the tree from the
signature. -/
def signWork (ps : ParamSet) : Nat :=
  let p := ps.sp
  prfMsgWork ps + hMsgWork ps
    + p.k * (1 + ((List.range p.a).map forsTreeWork).sum)
    + (p.k * (1 + p.a) + 1)
    + p.d * (((List.range p.hp).map (treeWork ps)).sum + p.len * 16)
    + (p.d - 1) * (15 * p.len + 1 + p.hp)

/-- The twelve parameter sets. -/
def allSets : List ParamSet :=
  [.slh_dsa_sha2_128s, .slh_dsa_shake_128s, .slh_dsa_sha2_128f, .slh_dsa_shake_128f,
   .slh_dsa_sha2_192s, .slh_dsa_shake_192s, .slh_dsa_sha2_192f, .slh_dsa_shake_192f,
   .slh_dsa_sha2_256s, .slh_dsa_shake_256s, .slh_dsa_sha2_256f, .slh_dsa_shake_256f]

theorem verifyWork_eq (ps : ParamSet) : verifyCalls ps.params = verifyWork ps := by
  cases ps <;> rfl

theorem signWork_eq (ps : ParamSet) : signCalls ps.params = signWork ps := by
  cases ps <;> rfl

theorem keygenWork_eq (ps : ParamSet) : keygenCalls ps.params = treeWork ps ps.sp.hp := by
  cases ps <;> rfl

theorem M_le (ps : ParamSet) : ps.params.M ≤ 255 := by cases ps <;> decide

theorem C31_verify (pk : PublicKey ps.params) (msg ctx : List UInt8)
    (sig : Vector UInt8 ps.params.SIG_LEN) :
    hashCalls (pk.verify (crypto P) msg sig ctx : TraceExec b _).trace ≤ verifyWork ps := by
  rw [← verifyWork_eq]
  exact (verify_cost ps.sizes (M_le ps) pk msg sig ctx).1

theorem C31_hash_verify (pk : PublicKey ps.params) (msg ctx : List UInt8) (ph : Ph)
    (sig : Vector UInt8 ps.params.SIG_LEN) :
    hashCalls (pk.hash_verify (crypto P) msg sig ctx ph : TraceExec b _).trace ≤ 1 + verifyWork ps := by
  rw [← verifyWork_eq]
  exact (hash_verify_cost ps.sizes (M_le ps) pk msg sig ctx ph).1

theorem C31_raw_verify (pk : PublicKey ps.params) (msg : List UInt8)
    (sig : Vector UInt8 ps.params.SIG_LEN) :
    hashCalls (pk._test_only_raw_verify (crypto P) msg sig : TraceExec b _).trace ≤ verifyWork ps := by
  rw [← verifyWork_eq]
  exact (raw_verify_cost ps.sizes (M_le ps) pk msg sig).1

/-- The bounds in numbers. -/
example : allSets.map verifyWork =
    [3930, 3929, 11873, 11871, 5683, 5682, 17218, 17217, 8445, 8444, 17523, 17522] := by decide

example : allSets.map signWork =
    [2189364, 2189362, 116220, 116217, 3771857, 3771855, 185323, 185321, 3287897, 3287895,
     361916, 361914] := by decide

example : (allSets.map fun ps => treeWork ps ps.sp.hp) =
    [287743, 287743, 4495, 4495, 418815, 418815, 6543, 6543, 274943, 274943, 17183, 17183] := by decide

theorem C45_try_sign_with_rng (rng : Rng (TraceExec b) σ) (hr : QuietRng rng) (s : σ)
    (sk : PrivateKey ps.params) (msg ctx : List UInt8) (hedged : Bool) :
    hashCalls (sk.try_sign_with_rng (crypto P) rng s msg ctx hedged).trace ≤ signWork ps := by
  rw [← signWork_eq]
  exact (try_sign_cost ps.sizes (M_le ps) hr s sk msg ctx hedged).1

theorem C45_try_hash_sign_with_rng (rng : Rng (TraceExec b) σ) (hr : QuietRng rng) (s : σ)
    (sk : PrivateKey ps.params) (msg ctx : List UInt8) (ph : Ph) (hedged : Bool) :
    hashCalls (sk.try_hash_sign_with_rng (crypto P) rng s msg ctx ph hedged).trace ≤ 1 + signWork ps := by
  rw [← signWork_eq]
  exact (try_hash_sign_cost ps.sizes (M_le ps) hr s sk msg ctx ph hedged).1

theorem C45_raw_sign (rng : Rng (TraceExec b) σ) (hr : QuietRng rng) (s : σ)
    (sk : PrivateKey ps.params) (msg : List UInt8) (hedged : Bool) :
    hashCalls (sk._test_only_raw_sign (crypto P) rng s msg hedged).trace ≤ signWork ps := by
  rw [← signWork_eq]
  exact (raw_sign_cost ps.sizes (M_le ps) hr s sk msg hedged).1

/-- RNGs that only deliver bytes meet the hypothesis of C45. -/
example (r : PureRng σ) : QuietRng (r.lift : Rng (TraceExec b) σ) := fun _ _ _ => rfl

theorem C46_try_keygen_with_rng (rng : Rng (TraceExec b) σ) (hr : QuietRng rng) (s : σ) :
    hashCalls (try_keygen_with_rng ps.params (crypto P) rng s).trace ≤ treeWork ps ps.sp.hp := by
  rw [← keygenWork_eq]
  exact (try_keygen_cost ps.sizes (M_le ps) hr s).1

theorem C46_keygen_with_seeds {n : Nat} (sk_seed sk_prf pk_seed : Vector UInt8 n) :
    hashCalls (keygen_with_seeds ps.params (crypto P) sk_seed sk_prf pk_seed : TraceExec b _).trace ≤
      treeWork ps ps.sp.hp := by
  rw [← keygenWork_eq]
  exact (keygen_with_seeds_cost ps.sizes (M_le ps) _ _ _).1

theorem C46_sk_try_from_bytes (v : Vector UInt8 ps.params.SK_LEN) :
    hashCalls (PrivateKey.try_from_bytes (crypto P) v : TraceExec b _).trace ≤ treeWork ps ps.sp.hp := by
  rw [← keygenWork_eq]
  exact (sk_try_from_bytes_cost ps.sizes (M_le ps) v).1

end Fips205.Props
