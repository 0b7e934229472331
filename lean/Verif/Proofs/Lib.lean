import Verif.Proofs.Serialize
import Verif.Model.Traits

/-! # Refinement of `src/lib.rs` and `src/traits.rs` -/

namespace Fips205.Model
open Fips205

set_option linter.unusedSectionVars false

/-! ## The twelve parameter sets -/

/-- The hash family named by a parameter-set module. -/
def ParamSet.family : ParamSet → Spec.Family
  | .slh_dsa_sha2_128s | .slh_dsa_sha2_128f | .slh_dsa_sha2_192s | .slh_dsa_sha2_192f
  | .slh_dsa_sha2_256s | .slh_dsa_sha2_256f => .sha2
  | .slh_dsa_shake_128s | .slh_dsa_shake_128f | .slh_dsa_shake_192s | .slh_dsa_shake_192f
  | .slh_dsa_shake_256s | .slh_dsa_shake_256f => .shake

/-- The size named by a parameter-set module. -/
def ParamSet.size : ParamSet → Spec.Size
  | .slh_dsa_sha2_128s | .slh_dsa_shake_128s => .s128
  | .slh_dsa_sha2_128f | .slh_dsa_shake_128f => .f128
  | .slh_dsa_sha2_192s | .slh_dsa_shake_192s => .s192
  | .slh_dsa_sha2_192f | .slh_dsa_shake_192f => .f192
  | .slh_dsa_sha2_256s | .slh_dsa_shake_256s => .s256
  | .slh_dsa_sha2_256f | .slh_dsa_shake_256f => .f256

/-- The row of Table 2 of the standard for a parameter set. -/
def ParamSet.row (ps : ParamSet) : Spec.Row := Spec.table2 ps.size

/-- The standard's parameters for a parameter set. -/
def ParamSet.sp (ps : ParamSet) : Spec.Params := ps.row.params

/-- The standard's hash functions for a parameter set. -/
def ParamSet.hf (ps : ParamSet) (P : Spec.Prims) : Spec.HashFns := Spec.hashFns P ps.family ps.row

/-- The standard's name of a pre-hash function. -/
def Ph.spec : Ph → Spec.PreHash
  | .SHA256 => .sha256
  | .SHA512 => .sha512
  | .SHAKE128 => .shake128
  | .SHAKE256 => .shake256

theorem ParamSet.matches (ps : ParamSet) :
    Matches ps.sp ps.params.K ps.params.LEN ps.params.M ps.params.N ps.params.A ps.params.D
      ps.params.H ps.params.HP := by
  cases ps <;> constructor <;> decide

/-- What the API needs to know of the constants of a module. -/
structure Sizes (p : Params) (sp : Spec.Params) : Prop where
  m : Matches sp p.K p.LEN p.M p.N p.A p.D p.H p.HP
  sig : p.SIG_LEN = sp.sigLen
  pk : p.PK_LEN = 2 * p.N
  sk : p.SK_LEN = 4 * p.N

theorem ParamSet.sizes (ps : ParamSet) : Sizes ps.params ps.sp := by
  refine ⟨ps.matches, ?_, ?_, ?_⟩ <;> cases ps <;> decide

section
variable {m : Type → Type} [Rust m] [LawfulMonad m] (P : Spec.Prims)

theorem ParamSet.hashers (ps : ParamSet) :
    HashersRefine (HASHERS ps.params (crypto P) : Hashers m _ _ _ _) (ps.hf P) := by
  cases ps
  · exact sha2_cat_1_refine P (by decide) (by decide) (by decide)
  · exact shake_refine P
  · exact sha2_cat_1_refine P (by decide) (by decide) (by decide)
  · exact shake_refine P
  · exact sha2_cat_3_5_refine P (by decide) (by decide) (by decide)
  · exact shake_refine P
  · exact sha2_cat_3_5_refine P (by decide) (by decide) (by decide)
  · exact shake_refine P
  · exact sha2_cat_3_5_refine P (by decide) (by decide) (by decide)
  · exact shake_refine P
  · exact sha2_cat_3_5_refine P (by decide) (by decide) (by decide)
  · exact shake_refine P

/-! ## Messages -/

theorem hash_message_returns (msg : List UInt8) (ph : Ph) (buf : Vector UInt8 64) :
    Returns (hash_message (crypto P) msg ph buf : m _) (fun v => v.1.toList = Spec.oid ph.spec ∧
      v.2.1 ≤ 64 ∧ (v.2.2.toList.drop 0).take (v.2.1 - 0) = Spec.preHash P msg ph.spec) := by
  unfold hash_message
  cases ph
  · refine Returns.sha256 ?_
    refine Returns.writeSlice (by omega) (by omega) (by simp) fun w hw => Returns.pure ⟨?_, by simp, ?_⟩
    · dsimp only; decide
    · dsimp only
      rw [hw]
      simp [Spec.preHash, Ph.spec]
  · refine Returns.sha512 ?_
    refine Returns.copyFromSlice (by simp) fun w hw => Returns.pure ⟨?_, by simp, ?_⟩
    · dsimp only; decide
    · dsimp only
      rw [hw]
      simp [Spec.preHash, Ph.spec, List.take_of_length_le]
  · refine Returns.shake128 ?_
    refine Returns.writeSlice (by omega) (by omega) (by simp) fun w hw => Returns.pure ⟨?_, by simp, ?_⟩
    · dsimp only; decide
    · dsimp only
      rw [hw]
      simp [Spec.preHash, Ph.spec]
  · refine Returns.shake256 (Returns.pure ⟨?_, by simp, ?_⟩)
    · dsimp only; decide
    · simp [Spec.preHash, Ph.spec, List.take_of_length_le]

theorem pure_flatten (ctx msg : List UInt8) :
    [[0], [UInt8.ofNat ctx.length], ctx, msg].flatten = Spec.pureMsg ctx msg := by
  simp [Spec.pureMsg, Spec.toByte]

theorem prehash_flatten (ctx o d : List UInt8) :
    [[1], [UInt8.ofNat ctx.length], ctx, o, d].flatten = Spec.prehashMsg ctx o d := by
  simp [Spec.prehashMsg, Spec.toByte]

variable {P} {p : Params} {sp : Spec.Params} {hf : Spec.HashFns}

/-! ## Signing and verification of a given message representative -/

/-- A byte string as an array (zero padded or cut if it has another length). -/
def toVec (n : Nat) (l : List UInt8) : Vector UInt8 n := Vector.ofFn fun i => l.getD i 0

theorem toVec_toList {n : Nat} {l : List UInt8} (h : l.length = n) : (toVec n l).toList = l := by
  subst h
  apply List.ext_getElem
  · simp
  · intro i h1 h2
    simp [toVec]

theorem eq_toVec {n : Nat} {v : Vector UInt8 n} {l : List UInt8} (h : v.toList = l) :
    v = toVec n l := by
  apply Vector.toList_inj.mp
  rw [h, toVec_toList (by rw [← h]; simp)]

theorem toVec_toList_self {n : Nat} (v : Vector UInt8 n) : toVec n v.toList = v :=
  (eq_toVec rfl).symm

theorem sign_serialize_returns (S : Sizes p sp) {C : Crypto m}
    (R : HashersRefine (HASHERS p C) hf) {mp : List (List UInt8)} (hmp : mp.length ≤ 5)
    (sk : SlhPrivateKey p.N) (opt_rand : Vector UInt8 p.N) :
    Returns (slh_sign_internal p.A p.D p.H p.HP (HASHERS p C) mp sk opt_rand >>= mapSerialize p)
      (fun r => ∃ sig : Vector UInt8 p.SIG_LEN, r = .ok sig ∧
        sig.toList = Spec.signInternal sp hf mp.flatten sk.sk_seed.toList
        sk.sk_prf.toList sk.pk_seed.toList sk.pk_root.toList opt_rand.toList) := by
  refine (slh_sign_internal_returns S.m R hmp sk opt_rand).bind ?_
  rintro _ ⟨sig, rfl, hsig⟩
  unfold mapSerialize
  refine Returns.leak ?_
  dsimp only
  refine (serialize_returns S.m sig S.sig).bind fun v hv => ?_
  exact Returns.pure ⟨v, rfl, by rw [hv, hsig]⟩

theorem deserialize_verify_returns (S : Sizes p sp) {C : Crypto m}
    (R : HashersRefine (HASHERS p C) hf) {mp : List (List UInt8)} (hmp : mp.length ≤ 5)
    (pk : SlhPublicKey p.N) (sig : Vector UInt8 p.SIG_LEN) :
    Returns (SlhDsaSig.deserialize p.A p.D p.HP p.K p.LEN p.N sig.toList >>= fun s =>
        slh_verify_internal p.H (HASHERS p C) mp s pk)
      (· = Spec.verifyInternal sp hf mp.flatten sig.toList pk.pk_seed.toList pk.pk_root.toList) := by
  refine (deserialize_returns S.m (by simpa using S.sig)).bind fun s hs => ?_
  rw [← hs]
  exact slh_verify_internal_returns S.m R hmp s pk

theorem verify_returns (S : Sizes p sp) {C : Crypto m} (R : HashersRefine (HASHERS p C) hf)
    (pk : PublicKey p) (msg : List UInt8) (sig : Vector UInt8 p.SIG_LEN) (ctx : List UInt8) :
    Returns (pk.verify C msg sig ctx)
      (· = Spec.verify sp hf msg sig.toList ctx pk.key.pk_seed.toList pk.key.pk_root.toList) := by
  unfold PublicKey.verify Spec.verify
  refine Returns.leak ?_
  by_cases h : 255 < ctx.length
  · rw [if_pos h, if_pos h]
    exact Returns.pure rfl
  · rw [if_neg h, if_neg h, ← pure_flatten]
    exact deserialize_verify_returns S R (by simp) pk.key sig

theorem hash_verify_returns (S : Sizes p sp) (R : HashersRefine (HASHERS p (crypto P : Crypto m)) hf)
    (pk : PublicKey p) (msg : List UInt8) (sig : Vector UInt8 p.SIG_LEN) (ctx : List UInt8) (ph : Ph) :
    Returns (pk.hash_verify (crypto P : Crypto m) msg sig ctx ph)
      (· = Spec.hashVerify sp hf (Spec.oid ph.spec) (Spec.preHash P msg ph.spec) sig.toList ctx
        pk.key.pk_seed.toList pk.key.pk_root.toList) := by
  unfold PublicKey.hash_verify Spec.hashVerify
  refine Returns.leak ?_
  by_cases h : 255 < ctx.length
  · rw [if_pos h, if_pos h]
    exact Returns.pure rfl
  · rw [if_neg h, if_neg h]
    refine (deserialize_returns S.m (by simpa using S.sig)).bind fun s hs => ?_
    refine (hash_message_returns P msg ph _).bind ?_
    rintro ⟨o, l, b⟩ ⟨h1, h2, h3⟩
    simp only at h1 h2 h3
    dsimp only
    refine Returns.slice (by omega) (by simpa using h2) ?_
    rw [h3, h1, ← prehash_flatten, ← hs]
    exact slh_verify_internal_returns S.m R (by simp) s pk.key

/-! ## Keys -/

theorem pk_into_bytes_returns (S : Sizes p sp) (pk : PublicKey p) :
    Returns (pk.into_bytes : m _) (fun v => v.toList =
      Spec.encodePK pk.key.pk_seed.toList pk.key.pk_root.toList) := by
  unfold PublicKey.into_bytes
  have h := S.pk
  have hN := S.m.N_le
  refine Returns.divUsize (by omega) ?_
  refine Returns.writeSlice (by omega) (by omega) (by simp; omega) fun w hw => ?_
  refine Returns.divUsize (by omega) ?_
  refine Returns.tail ?_
  refine Returns.writeSlice (by omega) (by omega) (by simp; omega) fun w2 hw2 => Returns.pure ?_
  rw [hw2, hw, Spec.encodePK]
  have e : p.PK_LEN / 2 = pk.key.pk_seed.toList.length := by simp; omega
  rw [e]
  simp
  omega

theorem pk_try_from_bytes_returns (S : Sizes p sp) (bytes : Vector UInt8 p.PK_LEN) :
    Returns (PublicKey.try_from_bytes bytes : m _) (fun r => ∃ pk : PublicKey p, r = .ok pk ∧
      Spec.encodePK pk.key.pk_seed.toList pk.key.pk_root.toList = bytes.toList) := by
  unfold PublicKey.try_from_bytes
  have h := S.pk
  have hN := S.m.N_le
  refine Returns.divUsize (by omega) ?_
  refine Returns.slice (by omega) (by simp; omega) ?_
  refine Returns.copyFromSlice (by simp; omega) fun a ha => ?_
  refine Returns.divUsize (by omega) ?_
  refine Returns.slice (by omega) (by simp) ?_
  refine Returns.copyFromSlice (by simp; omega) fun b hb => Returns.pure ⟨_, rfl, ?_⟩
  rw [Spec.encodePK, ha, hb]
  have := Spec.slice_append_slice bytes.toList (a := 0) (b := p.PK_LEN / 2) (c := p.PK_LEN) (by omega) (by omega)
  rw [Spec.slice, Spec.slice] at this
  rw [this]
  have e := Spec.slice_all bytes.toList
  rwa [Vector.length_toList] at e

theorem sk_into_bytes_returns (S : Sizes p sp) (sk : PrivateKey p) :
    Returns (sk.into_bytes : m _) (fun v => v.toList =
      Spec.encodeSK sk.key.sk_seed.toList sk.key.sk_prf.toList sk.key.pk_seed.toList
        sk.key.pk_root.toList) := by
  unfold PrivateKey.into_bytes
  have h := S.sk
  have hN := S.m.N_le
  have e1 : p.SK_LEN / 4 = p.N := by omega
  have e2 : p.SK_LEN / 2 = 2 * p.N := by omega
  have e3 : 3 * p.SK_LEN / 4 = 3 * p.N := by omega
  refine Returns.divUsize (by omega) ?_
  refine Returns.writeSlice (by omega) (by omega) (by simp; omega) fun w hw => ?_
  refine Returns.divUsize (by omega) ?_
  refine Returns.divUsize (by omega) ?_
  refine Returns.writeSlice (by omega) (by omega) (by simp; omega) fun w2 hw2 => ?_
  refine Returns.divUsize (by omega) ?_
  refine Returns.mulUsize (by omega) ?_
  refine Returns.divUsize (by omega) ?_
  refine Returns.writeSlice (by omega) (by omega) (by simp; omega) fun w3 hw3 => ?_
  refine Returns.mulUsize (by omega) ?_
  refine Returns.divUsize (by omega) ?_
  refine Returns.tail ?_
  refine Returns.writeSlice (by omega) (by omega) (by simp; omega) fun w4 hw4 => Returns.pure ?_
  rw [e1] at hw
  rw [e1, e2] at hw2
  rw [e2, e3] at hw3
  rw [e3] at hw4
  have l1 : sk.key.sk_seed.toList.length = p.N := by simp
  have l2 : sk.key.sk_prf.toList.length = p.N := by simp
  have l3 : sk.key.pk_seed.toList.length = p.N := by simp
  have a1 : w.toList.take p.N = sk.key.sk_seed.toList := by
    rw [hw]; simp
  have a2 : w2.toList.take (2 * p.N) = sk.key.sk_seed.toList ++ sk.key.sk_prf.toList := by
    rw [hw2, a1, List.take_append_of_le_length (by rw [List.length_append]; omega),
      List.take_of_length_le (by rw [List.length_append]; omega)]
  have a3 : w3.toList.take (3 * p.N) =
      sk.key.sk_seed.toList ++ sk.key.sk_prf.toList ++ sk.key.pk_seed.toList := by
    rw [hw3, a2, List.take_append_of_le_length (by rw [List.length_append, List.length_append]; omega),
      List.take_of_length_le (by rw [List.length_append, List.length_append]; omega)]
  rw [hw4, a3, List.drop_of_length_le (by simp), List.append_nil, Spec.encodeSK]

theorem sk_try_from_bytes_returns (S : Sizes p sp) {C : Crypto m}
    (R : HashersRefine (HASHERS p C) hf) (bytes : Vector UInt8 p.SK_LEN) :
    Returns (PrivateKey.try_from_bytes C bytes : m _) (fun r => ∃ sk : PrivateKey p,
      Spec.encodeSK sk.key.sk_seed.toList sk.key.sk_prf.toList sk.key.pk_seed.toList
        sk.key.pk_root.toList = bytes.toList ∧
      r = if sk.key.pk_root.toList = Spec.pkRoot sp hf sk.key.sk_seed.toList sk.key.pk_seed.toList
        then .ok sk else .error "Corrupted key") := by
  unfold PrivateKey.try_from_bytes
  have h := S.sk
  have hN := S.m.N_le
  have e1 : p.SK_LEN / 4 = p.N := by omega
  have e2 : p.SK_LEN / 2 = 2 * p.N := by omega
  have e3 : 3 * p.SK_LEN / 4 = 3 * p.N := by omega
  refine Returns.divUsize (by omega) ?_
  refine Returns.slice (by omega) (by simp; omega) ?_
  refine Returns.copyFromSlice (by simp; omega) fun a ha => ?_
  refine Returns.divUsize (by omega) ?_
  refine Returns.divUsize (by omega) ?_
  refine Returns.slice (by omega) (by simp; omega) ?_
  refine Returns.copyFromSlice (by simp; omega) fun b hb => ?_
  refine Returns.divUsize (by omega) ?_
  refine Returns.mulUsize (by omega) ?_
  refine Returns.divUsize (by omega) ?_
  refine Returns.slice (by omega) (by simp; omega) ?_
  refine Returns.copyFromSlice (by simp; omega) fun c hc => ?_
  refine Returns.mulUsize (by omega) ?_
  refine Returns.divUsize (by omega) ?_
  refine Returns.slice (by omega) (by simp) ?_
  refine Returns.copyFromSlice (by simp; omega) fun d hd => ?_
  refine (slh_keygen_internal_returns S.m R a b c).bind ?_
  rintro _ ⟨root, hroot, rfl⟩
  dsimp only
  refine Returns.leak ?_
  have hb' : Spec.encodeSK a.toList b.toList c.toList d.toList = bytes.toList := by
    rw [Spec.encodeSK, ha, hb, hc, hd]
    have s1 := Spec.slice_append_slice bytes.toList (a := 0) (b := p.SK_LEN / 4)
      (c := p.SK_LEN / 2) (by omega) (by omega)
    have s2 := Spec.slice_append_slice bytes.toList (a := 0) (b := p.SK_LEN / 2)
      (c := 3 * p.SK_LEN / 4) (by omega) (by omega)
    have s3 := Spec.slice_append_slice bytes.toList (a := 0) (b := 3 * p.SK_LEN / 4)
      (c := p.SK_LEN) (by omega) (by omega)
    have s4 := Spec.slice_all bytes.toList
    rw [Vector.length_toList] at s4
    exact (congrArg (· ++ _) ((congrArg (· ++ _) s1).trans s2)).trans (s3.trans s4)
  by_cases hr : root = d
  · rw [if_neg (by simpa using hr)]
    refine Returns.pure ⟨⟨⟨a, b, c, d⟩⟩, hb', ?_⟩
    dsimp only
    rw [if_pos (by rw [← hroot, hr])]
  · rw [if_pos (by simpa using hr)]
    refine Returns.pure ⟨⟨⟨a, b, c, d⟩⟩, hb', ?_⟩
    dsimp only
    rw [if_neg]
    intro h
    exact hr (Vector.toList_inj.mp (by rw [h, hroot]))

end

end Fips205.Model
