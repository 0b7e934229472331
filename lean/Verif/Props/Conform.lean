import Mathlib.Data.Nat.Digits.Defs
import Verif.Props.Keys

/-! # Conformance to FIPS 205: C18–C22, C24, C38 -/

namespace Fips205.Props
open Fips205 Fips205.Model

variable {P : Spec.Prims} {ps : ParamSet} {σ : Type}

/-- **C18** Key generation is Algorithm 21: it draws `SK.seed`, `SK.prf` and `PK.seed`, and the bytes of
the two keys are those of Algorithm 18 on these seeds. -/
theorem C18_keygen_conforms {b : Build} {rng : Rng (Exec b) σ} {s s' : σ} {pk : PublicKey ps.params}
    {sk : PrivateKey ps.params}
    (h : try_keygen_with_rng ps.params (crypto P) rng s = pure (s', .ok (pk, sk))) :
    ∃ s1 s2 sk_seed sk_prf pk_seed,
      rng.tryFill s (zeroBytes ps.params.N) = pure (s1, .ok sk_seed) ∧
      rng.tryFill s1 (zeroBytes ps.params.N) = pure (s2, .ok sk_prf) ∧
      rng.tryFill s2 (zeroBytes ps.params.N) = pure (s', .ok pk_seed) ∧
      ∃ skb pkb, (∀ b' : Build, (sk.into_bytes : Exec b' _) = pure skb ∧
          (pk.into_bytes : Exec b' _) = pure pkb) ∧
        (skb.toList, pkb.toList) =
          Spec.keygenInternal ps.sp (ps.hf P) sk_seed.toList sk_prf.toList pk_seed.toList := by
  obtain ⟨s1, s2, x, y, z, h1, h2, h3, he⟩ := try_keygen_ok h
  refine ⟨s1, s2, x, y, z, h1, h2, h3, ?_⟩
  rw [keyPair, Prod.mk.injEq] at he
  obtain ⟨rfl, rfl⟩ := he
  obtain ⟨skb, _, hs⟩ := exec_sk_into_bytes (b := demoBuild) (keyPair ps P x y z).2
  obtain ⟨pkb, _, hp⟩ := exec_pk_into_bytes (b := demoBuild) (keyPair ps P x y z).1
  refine ⟨skb, pkb, fun b' => ⟨?_, ?_⟩, ?_⟩
  · obtain ⟨v, h1, h2⟩ := exec_sk_into_bytes (b := b') (keyPair ps P x y z).2
    rw [← Vector.toList_inj.mp (h2.trans hs.symm)]
    exact h1
  · obtain ⟨v, h1, h2⟩ := exec_pk_into_bytes (b := b') (keyPair ps P x y z).1
    rw [← Vector.toList_inj.mp (h2.trans hp.symm)]
    exact h1
  · rw [hs, hp]
    simp only [keyPair, rootVec_toList, Spec.keygenInternal]

example (ps : ParamSet) (b : Build) : ∃ s' pk sk,
    try_keygen_with_rng ps.params (crypto demoPrims) (demoRng.lift : Rng (Exec b) Nat) 0 =
      pure (s', .ok (pk, sk)) := ⟨_, _, _, demo_keygen ps b⟩

/-- **C18** for seeded key generation. -/
theorem C18_seeded_keygen_conforms (sk_seed sk_prf pk_seed : Vector UInt8 ps.params.N) (b : Build) :
    ∃ pk sk, (keygen_with_seeds ps.params (crypto P) sk_seed sk_prf pk_seed : Exec b _) =
        pure (pk, sk) ∧
      ∃ skb pkb, (sk.into_bytes : Exec b _) = pure skb ∧ (pk.into_bytes : Exec b _) = pure pkb ∧
        (skb.toList, pkb.toList) =
          Spec.keygenInternal ps.sp (ps.hf P) sk_seed.toList sk_prf.toList pk_seed.toList := by
  refine ⟨_, _, exec_keygen_with_seeds _ _ _, ?_⟩
  obtain ⟨skb, h1, hs⟩ := exec_sk_into_bytes (b := b) (keyPair ps P sk_seed sk_prf pk_seed).2
  obtain ⟨pkb, h2, hp⟩ := exec_pk_into_bytes (b := b) (keyPair ps P sk_seed sk_prf pk_seed).1
  refine ⟨skb, pkb, h1, h2, ?_⟩
  rw [hs, hp]
  simp only [keyPair, rootVec_toList, Spec.keygenInternal]

/-- The randomness a successful signing call used: the bytes of its draw, or `PK.seed` when
deterministic (the RNG state then does not change). -/
def UsedRandomness {b : Build} (sk : PrivateKey ps.params) (rng : Rng (Exec b) σ) (s s' : σ)
    (hedged : Bool) (rnd : Vector UInt8 ps.params.N) : Prop :=
  if hedged then rng.tryFill s sk.key.pk_seed = pure (s', .ok rnd)
  else s' = s ∧ rnd = sk.key.pk_seed

/-- **C19** A pure signature is the output of Algorithm 22. -/
theorem C19_sign_conforms {b : Build} {sk : PrivateKey ps.params} {rng : Rng (Exec b) σ} {s s' : σ}
    {msg ctx : List UInt8} {hedged : Bool} {sig : Vector UInt8 ps.params.SIG_LEN}
    (h : sk.try_sign_with_rng (crypto P) rng s msg ctx hedged = pure (s', .ok sig)) :
    ∃ rnd, UsedRandomness sk rng s s' hedged rnd ∧
      Spec.sign ps.sp (ps.hf P) msg ctx sk.key.sk_seed.toList sk.key.sk_prf.toList
        sk.key.pk_seed.toList sk.key.pk_root.toList rnd.toList = some sig.toList := by
  obtain ⟨hc, o, ho, rfl⟩ := try_sign_ok h
  refine ⟨o, ho, ?_⟩
  rw [Spec.sign, if_neg (by omega), sigVec_toList]

/-- **C19** A pre-hash signature is the output of Algorithm 23. -/
theorem C19_hash_sign_conforms {b : Build} {sk : PrivateKey ps.params} {rng : Rng (Exec b) σ}
    {s s' : σ} {msg ctx : List UInt8} {ph : Ph} {hedged : Bool} {sig : Vector UInt8 ps.params.SIG_LEN}
    (h : sk.try_hash_sign_with_rng (crypto P) rng s msg ctx ph hedged = pure (s', .ok sig)) :
    ∃ rnd, UsedRandomness sk rng s s' hedged rnd ∧
      Spec.hashSign ps.sp (ps.hf P) (Spec.oid ph.spec) (Spec.preHash P msg ph.spec) ctx
        sk.key.sk_seed.toList sk.key.sk_prf.toList sk.key.pk_seed.toList sk.key.pk_root.toList
        rnd.toList = some sig.toList := by
  obtain ⟨hc, o, ho, rfl⟩ := try_hash_sign_ok h
  refine ⟨o, ho, ?_⟩
  rw [Spec.hashSign, if_neg (by omega), sigVec_toList, phMsg]

/-- **C19** (completeness) Deterministic signing succeeds exactly when the standard's algorithm does. -/
theorem C19_deterministic_sign_iff {b : Build} (sk : PrivateKey ps.params) (rng : Rng (Exec b) σ)
    (s : σ) (msg ctx : List UInt8) (sig : Vector UInt8 ps.params.SIG_LEN) :
    sk.try_sign_with_rng (crypto P) rng s msg ctx false = pure (s, .ok sig) ↔
      Spec.sign ps.sp (ps.hf P) msg ctx sk.key.sk_seed.toList sk.key.sk_prf.toList
        sk.key.pk_seed.toList sk.key.pk_root.toList sk.key.pk_seed.toList = some sig.toList := by
  constructor
  · intro h
    obtain ⟨rnd, ⟨_, rfl⟩, h⟩ := C19_sign_conforms h
    exact h
  · intro h
    rw [Spec.sign] at h
    split at h
    · cases h
    · rw [exec_try_sign_with_rng, if_neg (by omega)]
      have : sig = sigVec ps P (Spec.pureMsg ctx msg) sk.key sk.key.pk_seed :=
        eq_toVec (Option.some.inj h).symm
      rw [this]
      exact if_neg (by decide)

/-- **C19** (completeness) If the random bytes can be had, signing, hedged or not, succeeds exactly when the standard's
algorithms do, and with their output. -/
theorem C19_sign_iff {b : Build} {sk : PrivateKey ps.params} {rng : Rng (Exec b) σ} {s s' : σ} {hedged : Bool}
    {rnd : Vector UInt8 ps.params.N} (hr : UsedRandomness sk rng s s' hedged rnd) (msg ctx : List UInt8) (ph : Ph)
    (sig : Vector UInt8 ps.params.SIG_LEN) :
    (sk.try_sign_with_rng (crypto P) rng s msg ctx hedged = pure (s', .ok sig) ↔
      Spec.sign ps.sp (ps.hf P) msg ctx sk.key.sk_seed.toList sk.key.sk_prf.toList
        sk.key.pk_seed.toList sk.key.pk_root.toList rnd.toList = some sig.toList) ∧
    (sk.try_hash_sign_with_rng (crypto P) rng s msg ctx ph hedged = pure (s', .ok sig) ↔
      Spec.hashSign ps.sp (ps.hf P) (Spec.oid ph.spec) (Spec.preHash P msg ph.spec) ctx
        sk.key.sk_seed.toList sk.key.sk_prf.toList sk.key.pk_seed.toList sk.key.pk_root.toList
        rnd.toList = some sig.toList) := by
  have huniq : ∀ rnd', UsedRandomness sk rng s s' hedged rnd' → rnd' = rnd := fun rnd' h => by
    unfold UsedRandomness at h hr
    split at h
    · rw [if_pos (by assumption)] at hr
      rw [hr] at h
      exact (Except.ok.inj (Prod.mk.inj (Except.ok.inj h)).2).symm
    · rw [if_neg (by assumption)] at hr
      rw [h.2, hr.2]
  refine ⟨⟨fun h => ?_, fun h => ?_⟩, fun h => ?_, fun h => ?_⟩
  · obtain ⟨rnd', h1, h⟩ := C19_sign_conforms h
    rwa [huniq rnd' h1] at h
  · rw [Spec.sign] at h
    split at h
    · cases h
    · rw [exec_try_sign_with_rng, if_neg (by omega)]
      have e : sig = sigVec ps P (Spec.pureMsg ctx msg) sk.key rnd := eq_toVec (Option.some.inj h).symm
      unfold UsedRandomness at hr
      cases hedged with
      | true =>
        rw [if_pos rfl] at hr
        rw [if_pos rfl, hr, e]
        rfl
      | false =>
        rw [if_neg (by decide)] at hr
        rw [if_neg (by decide), e, hr.1, hr.2]
  · obtain ⟨rnd', h1, h⟩ := C19_hash_sign_conforms h
    rwa [huniq rnd' h1] at h
  · rw [Spec.hashSign] at h
    split at h
    · cases h
    · rw [exec_try_hash_sign_with_rng, if_neg (by omega)]
      have e : sig = sigVec ps P (phMsg P ctx msg ph) sk.key rnd := eq_toVec (Option.some.inj h).symm
      unfold UsedRandomness at hr
      cases hedged with
      | true =>
        rw [if_pos rfl] at hr
        rw [if_pos rfl, hr, e]
        rfl
      | false =>
        rw [if_neg (by decide)] at hr
        rw [if_neg (by decide), e, hr.1, hr.2]

example (ps : ParamSet) (b : Build) (hedged : Bool) : ∃ s' sig,
    (demoKeys ps).2.try_sign_with_rng (crypto demoPrims) (demoRng.lift : Rng (Exec b) Nat) 3
      [104, 105] [9] hedged = pure (s', .ok sig) := demo_sign ps b hedged

/-- **C20** Verification returns the boolean of Algorithms 24 and 25. -/
theorem C20_verify_conforms {b : Build} (pk : PublicKey ps.params) (msg ctx : List UInt8)
    (sig : Vector UInt8 ps.params.SIG_LEN) (ph : Ph) :
    pk.verify (crypto P) msg sig ctx = (pure (Spec.verify ps.sp (ps.hf P) msg sig.toList ctx
      pk.key.pk_seed.toList pk.key.pk_root.toList) : Exec b _) ∧
    pk.hash_verify (crypto P) msg sig ctx ph = (pure (Spec.hashVerify ps.sp (ps.hf P)
      (Spec.oid ph.spec) (Spec.preHash P msg ph.spec) sig.toList ctx pk.key.pk_seed.toList
      pk.key.pk_root.toList) : Exec b _) :=
  ⟨exec_verify _ _ _ _, exec_hash_verify _ _ _ _ _⟩

/-- **C21** The hash functions each parameter set selects compute the constructions of section 11 for
its family and row of Table 2, without panicking.  Messages come in at most five parts and keys of
`PRF_msg` have at most 64 bytes, as everywhere in the API. -/
theorem C21_hash_constructions (P : Spec.Prims) (ps : ParamSet) (b : Build) :
    let hs : Hashers (Exec b) _ _ _ _ := HASHERS ps.params (crypto P)
    let hf := Spec.hashFns P ps.family (Spec.table2 ps.size)
    (∀ r pk_seed pk_root ms, ms.length ≤ 5 → ∃ v, hs.h_msg r pk_seed pk_root ms = pure v ∧
      v.toList = hf.Hmsg r pk_seed pk_root ms.flatten) ∧
    (∀ pk_seed sk_seed adrs, ∃ v, hs.prf pk_seed sk_seed adrs = pure v ∧
      v.toList = hf.PRF pk_seed sk_seed adrs.bytes32) ∧
    (∀ sk_prf opt_rand ms, sk_prf.length ≤ 64 → ms.length ≤ 5 →
      ∃ v, hs.prf_msg sk_prf opt_rand ms = pure v ∧ v.toList = hf.PRFmsg sk_prf opt_rand ms.flatten) ∧
    (∀ pk_seed adrs m1, ∃ v, hs.f pk_seed adrs m1 = pure v ∧
      v.toList = hf.F pk_seed adrs.bytes32 m1) ∧
    (∀ pk_seed adrs m1 m2, ∃ v, hs.h pk_seed adrs m1 m2 = pure v ∧
      v.toList = hf.H pk_seed adrs.bytes32 (m1 ++ m2)) ∧
    (∀ pk_seed adrs ml, ∃ v, hs.t_l pk_seed adrs ml = pure v ∧
      v.toList = hf.T pk_seed adrs.bytes32 (ml.toList.flatMap Vector.toList)) ∧
    (∀ pk_seed adrs ml, ∃ v, hs.t_len pk_seed adrs ml = pure v ∧
      v.toList = hf.T pk_seed adrs.bytes32 (ml.toList.flatMap Vector.toList)) ∧
    (∀ adrs : Adrs, ∃ v, (adrs.to_32_bytes : Exec b _) = pure v ∧ v.toList =
      adrs.f0.toList ++ adrs.f1.toList ++ adrs.f2.toList ++ adrs.f3.toList ++ adrs.f4.toList ++
        adrs.f5.toList ++ adrs.f6.toList ++ adrs.f7.toList) := by
  have R := ps.hashers P (m := Exec b)
  refine ⟨fun _ _ _ _ h => Exec.returns_iff.mp (R.h_msg _ _ _ _ h),
    fun _ _ _ => Exec.returns_iff.mp (R.prf _ _ _),
    fun _ _ _ h h' => Exec.returns_iff.mp (R.prf_msg _ _ _ h h'),
    fun _ _ _ => Exec.returns_iff.mp (R.f _ _ _), fun _ _ _ _ => Exec.returns_iff.mp (R.h _ _ _ _),
    fun _ _ _ => Exec.returns_iff.mp (R.t_l _ _ _), fun _ _ _ => Exec.returns_iff.mp (R.t_len _ _ _),
    fun a => Exec.returns_iff.mp (to_32_bytes_returns a)⟩

example : ([[0], [1], [2], [3], [4]] : List (List UInt8)).length ≤ 5 ∧
    (List.replicate 32 (0 : UInt8)).length ≤ 64 := by decide

/-! ## Conversions -/

/-- The value of a byte string, most significant byte first. -/
def beValue (x : List UInt8) : Nat := Nat.ofDigits 256 (x.reverse.map UInt8.toNat)

theorem toInt_eq_beValue (x : List UInt8) : Spec.toInt x = beValue x := by
  induction x using List.reverseRecOn with
  | nil => rfl
  | append_singleton xs y ih =>
    rw [Spec.toInt, List.foldl_append, beValue, List.reverse_append, List.map_append]
    simp only [List.foldl_cons, List.foldl_nil, List.reverse_cons, List.reverse_nil, List.nil_append,
      List.map_cons, List.map_nil, List.cons_append, Nat.ofDigits_cons]
    rw [show Nat.ofDigits 256 (xs.reverse.map UInt8.toNat) = beValue xs from rfl, ← ih, Spec.toInt]
    omega

theorem base2b_ofDigits (X : List UInt8) (b : Nat) : ∀ o, o * b ≤ 8 * X.length →
    Nat.ofDigits (2 ^ b) (Spec.base2b X b o).reverse = Spec.toInt X / 2 ^ (8 * X.length - o * b) := by
  intro o
  induction o with
  | zero =>
    intro _
    rw [Nat.zero_mul, Nat.sub_zero, Nat.div_eq_of_lt]
    · rfl
    · have := Spec.toInt_lt X
      rwa [show (256 : Nat) = 2 ^ 8 from rfl, ← Nat.pow_mul] at this
  | succ o ih =>
    intro h
    rw [Nat.add_mul, Nat.one_mul] at h
    have e : 8 * X.length - o * b = (8 * X.length - (o + 1) * b) + b := by
      rw [Nat.add_mul, Nat.one_mul]; omega
    have ih := ih (by omega)
    rw [Spec.base2b, List.range_succ, List.map_append, List.map_cons, List.map_nil,
      List.reverse_append, List.reverse_singleton, List.singleton_append, Nat.ofDigits_cons]
    rw [Spec.base2b] at ih
    rw [ih, e, Nat.pow_add, ← Nat.div_div_eq_div_mul]
    exact Nat.mod_add_div _ _

/-- **C22** `to_int` gives the big-endian value of up to 8 bytes. -/
theorem C22_to_int {b : Build} (x : List UInt8) (n : UInt32) (hx : x.length = n.toNat)
    (hn : n.toNat ≤ 8) : ∃ v : UInt64, (to_int x n : Exec b _) = pure v ∧ v.toNat = beValue x := by
  obtain ⟨v, h, hv⟩ := Exec.returns_iff.mp (to_int_returns (m := Exec b) hx hn)
  exact ⟨v, h, hv.trans (toInt_eq_beValue x)⟩

example : ([1, 2, 3] : List UInt8).length = (3 : UInt32).toNat ∧ beValue [1, 2, 3] = 66051 := by
  decide

/-- **C22** `to_byte` (used with `n = 2` only) gives the two low-order bytes, big-endian. -/
theorem C22_to_byte {b : Build} (x : UInt32) : ∃ v : Vector UInt8 2,
    (to_byte x 2 : Exec b _) = pure v ∧ beValue v.toList = x.toNat % 2 ^ 16 := by
  obtain ⟨v, h, hv⟩ := Exec.returns_iff.mp (to_byte_returns (m := Exec b) x (n := 2) rfl)
  refine ⟨v, h, ?_⟩
  rw [← toInt_eq_beValue, hv]
  exact Spec.toInt_toByte _ _

/-- **C22** `base_2b` gives the base-`2^b` digits of the leading `out_len * b` bits, most significant
first. -/
theorem C22_base_2b {bd : Build} (x : List UInt8) (b out_len : UInt32) (baseb : List UInt32)
    (hb1 : 1 ≤ b.toNat) (hb2 : b.toNat < 16) (hx : x.length < 2 ^ 16)
    (ho : out_len.toNat = baseb.length) (ho2 : baseb.length < 2 ^ 16)
    (hl : baseb.length * b.toNat ≤ 8 * x.length) :
    ∃ ds : List UInt32, (base_2b x b out_len baseb : Exec bd _) = pure ds ∧
      ds.length = out_len.toNat ∧ (∀ d ∈ ds, d.toNat < 2 ^ b.toNat) ∧
      Nat.ofDigits (2 ^ b.toNat) (ds.map UInt32.toNat).reverse =
        beValue x / 2 ^ (8 * x.length - out_len.toNat * b.toNat) := by
  obtain ⟨ds, h, hd⟩ := Exec.returns_iff.mp (base_2b_returns (m := Exec bd) hb1 hb2 hx ho ho2 hl)
  refine ⟨ds, h, ?_, ?_, ?_⟩
  · have := congrArg List.length hd
    rwa [List.length_map, base2b_length] at this
  · intro d hdm
    have : d.toNat ∈ Spec.base2b x b.toNat out_len.toNat := by
      rw [← hd]; exact List.mem_map_of_mem hdm
    exact base2b_lt _ this
  · rw [hd, base2b_ofDigits _ _ _ (by rw [ho]; exact hl), toInt_eq_beValue]

example : ([0x12, 0x34] : List UInt8).length < 2 ^ 16 ∧ (4 : UInt32).toNat = ([0, 0, 0, 0] :
    List UInt32).length ∧ ([0, 0, 0, 0] : List UInt32).length * (4 : UInt32).toNat ≤ 8 * 2 := by
  decide

/-! ## Digest splitting -/

/-- **C24** Signing and verification split every digest into the fields FIPS 205 prescribes, and these
lie in range; the digest is exactly long enough for the three fields. -/
theorem C24_digest_split (b : Build) (digest : Vector UInt8 ps.params.M) {d32 h32 : UInt32}
    (hd : d32.toNat = ps.params.D) (hh : h32.toNat = ps.params.H) :
    let p := ps.sp
    ∃ md : List UInt8, ∃ tree leaf : UInt64,
      (slh_sign_split ps.params.A ps.params.D ps.params.H ps.params.K d32 h32 digest : Exec b _) =
        pure (md, tree, leaf) ∧
      (slh_verify_split ps.params.A ps.params.D ps.params.H ps.params.K d32 h32 digest : Exec b _) =
        pure (md, tree, leaf) ∧
      tree.toNat < 2 ^ (p.h - p.h / p.d) ∧ leaf.toNat < 2 ^ (p.h / p.d) ∧
      (∀ i ∈ Spec.base2b md p.a p.k, i < 2 ^ p.a) ∧
      md = digest.toList.take ((p.k * p.a + 7) / 8) ∧
      tree.toNat = beValue (Spec.slice digest.toList ((p.k * p.a + 7) / 8)
        ((p.k * p.a + 7) / 8 + (p.h - p.h / p.d + 7) / 8)) % 2 ^ (p.h - p.h / p.d) ∧
      leaf.toNat = beValue (digest.toList.drop
        ((p.k * p.a + 7) / 8 + (p.h - p.h / p.d + 7) / 8)) % 2 ^ (p.h / p.d) := by
  obtain ⟨⟨md, tree, leaf⟩, h, h1, h2, h3, h4, h5⟩ := Exec.returns_iff.mp
    (slh_split_returns (m := Exec b) ps.matches hd hh digest)
  refine ⟨md, tree, leaf, h, (by rw [slh_verify_split_eq]; exact h), ?_, ?_, ?_, ?_, ?_, ?_⟩
  · exact h3 ▸ Spec.digestTree_lt _
  · exact h4 ▸ Spec.digestLeaf_lt _
  · exact fun i hi => base2b_lt _ hi
  · exact h1.trans (by rw [Spec.digestMd, Spec.slice, List.drop_zero, Nat.sub_zero])
  · rw [← toInt_eq_beValue]; exact h3
  · rw [← toInt_eq_beValue]
    refine h4.trans ?_
    rw [Spec.digestLeaf, Spec.slice, List.take_of_length_le]
    rw [List.length_drop, Vector.length_toList]
    have : ps.params.M ≤ (ps.sp.k * ps.sp.a + 7) / 8 + (ps.sp.h - ps.sp.h / ps.sp.d + 7) / 8 +
      (ps.sp.h + 8 * ps.sp.d - 1) / (8 * ps.sp.d) := by cases ps <;> decide
    omega

example (ps : ParamSet) : (UInt32.ofNat ps.params.D).toNat = ps.params.D ∧
    (UInt32.ofNat ps.params.H).toNat = ps.params.H := by cases ps <;> decide

/-- **C38** The constants of each module are those of Table 2 and satisfy the formulas of the
standard. -/
theorem C38_parameter_table (ps : ParamSet) :
    let c := ps.params
    let r := Spec.table2 ps.size
    (c.N, c.H, c.D, c.HP, c.A, c.K, c.M, c.PK_LEN, c.SIG_LEN) =
      (r.n, r.h, r.d, r.hp, r.a, r.k, r.m, r.pkBytes, r.sigBytes) ∧
    c.SIG_LEN = (1 + c.K * (1 + c.A) + c.H + c.D * c.LEN) * c.N ∧ c.PK_LEN = 2 * c.N ∧
    c.SK_LEN = 4 * c.N ∧ c.LEN = 2 * c.N + 3 ∧ c.H = c.D * c.HP ∧
    c.M = (c.K * c.A + 7) / 8 + (c.H - c.H / c.D + 7) / 8 + (c.H / c.D + 7) / 8 ∧
    (c.fam = .shake ↔ ps.family = .shake) ∧
    (c.fam = .sha2_cat_1 ↔ ps.family = .sha2 ∧ r.category = 1) := by
  cases ps <;> simp [ParamSet.params, ParamSet.size, ParamSet.family, Spec.table2,
    slh_dsa_sha2_128s, slh_dsa_shake_128s, slh_dsa_sha2_128f, slh_dsa_shake_128f, slh_dsa_sha2_192s,
    slh_dsa_shake_192s, slh_dsa_sha2_192f, slh_dsa_shake_192f, slh_dsa_sha2_256s, slh_dsa_shake_256s,
    slh_dsa_sha2_256f, slh_dsa_shake_256f]

end Fips205.Props
