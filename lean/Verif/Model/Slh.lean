import Verif.Model.Hypertree
import Verif.Model.Fors

/-! # `src/slh.rs` -/

namespace Fips205.Model

section
variable {m : Type → Type} [Rust m] {K LEN M N : Nat}

/-- `src/slh.rs:51-78` (`slh_keygen_internal`) -/
def slh_keygen_internal (D HP : Nat) (hashers : Hashers m K LEN M N)
    (sk_seed sk_prf pk_seed : Vector UInt8 N) : m (SlhPrivateKey N × SlhPublicKey N) := do
  let d32 ← u32TryFromUnwrap D
  let hp32 ← u32TryFromUnwrap HP
  let adrs := Adrs.default
  let d1 ← subU32 d32 1
  let adrs := adrs.set_layer_address d1
  let pk_root ← xmss_node hashers sk_seed.toList 0 hp32 pk_seed.toList adrs
  let pk : SlhPublicKey N := { pk_seed, pk_root }
  let sk : SlhPrivateKey N := { sk_seed, sk_prf, pk_seed, pk_root }
  pure (sk, pk)

/-- `src/slh.rs:14-42` (`slh_keygen_with_rng`) -/
def slh_keygen_with_rng {σ : Type} (D HP : Nat) (rng : Rng m σ) (s : σ)
    (hashers : Hashers m K LEN M N) :
    m (σ × Except String (SlhPrivateKey N × SlhPublicKey N)) := do
  let (s, r) ← rng.tryFill s (zeroBytes N)
  leak (.branch r.isOk)
  match r with
  | .error _ => pure (s, .error "Alg17: rng failed1")
  | .ok sk_seed => do
    let (s, r) ← rng.tryFill s (zeroBytes N)
    leak (.branch r.isOk)
    match r with
    | .error _ => pure (s, .error "Alg17: rng failed2")
    | .ok sk_prf => do
      let (s, r) ← rng.tryFill s (zeroBytes N)
      leak (.branch r.isOk)
      match r with
      | .error _ => pure (s, .error "Alg17: rng failed3")
      | .ok pk_seed => do
        let kp ← slh_keygen_internal D HP hashers sk_seed sk_prf pk_seed
        pure (s, .ok kp)

/-- `src/slh.rs:180-198`, the part of `slh_sign_internal` that splits the digest into `md`, `idx_tree`
and `idx_leaf`. -/
def slh_sign_split {M : Nat} (A D H K : Nat) (d32 h32 : UInt32) (digest : Vector UInt8 M) :
    m (List UInt8 × UInt64 × UInt64) := do
  let t ← mulUsize K A
  let t ← addUsize t 7
  let index1 ← divUsize t 8
  let md ← slice digest.toList 0 index1
  let hd ← divUsize H D
  let t ← subUsize H hd
  let t ← addUsize t 7
  let t ← divUsize t 8
  let index2 ← addUsize index1 t
  let tmp_idx_tree ← slice digest.toList index1 index2
  let t8 ← mulUsize 8 D
  let t ← addUsize H t8
  let t ← subUsize t 1
  let t8 ← mulUsize 8 D
  let t ← divUsize t t8
  let index3 ← addUsize index2 t
  let tmp_idx_leaf ← slice digest.toList index2 index3
  let hd ← divU32 h32 d32
  let t ← subU32 h32 hd
  let t ← addU32 t 7
  let t ← divU32 t 8
  let v ← to_int tmp_idx_tree t
  let hd ← divU32 h32 d32
  let t ← subU32 h32 hd
  let t ← subU32 64 t
  let mask ← shrU64 0xffffffffffffffff t
  let idx_tree := v &&& mask
  let t8 ← mulU32 8 d32
  let t ← addU32 h32 t8
  let t ← subU32 t 1
  let t8 ← mulU32 8 d32
  let t ← divU32 t t8
  let v ← to_int tmp_idx_leaf t
  let hd ← divU32 h32 d32
  let t ← subU32 64 hd
  let mask ← shrU64 0xffffffffffffffff t
  let idx_leaf := v &&& mask
  pure (md, idx_tree, idx_leaf)

/-- `src/slh.rs:139-230` (`slh_sign_internal`).  The signature structure is built at the end instead
of being filled in field by field; `idx_leaf as u32` truncates. -/
def slh_sign_internal (A D H HP : Nat) (hashers : Hashers m K LEN M N) (msg : List (List UInt8))
    (sk : SlhPrivateKey N) (opt_rand : Vector UInt8 N) :
    m (Except String (SlhDsaSig A D HP K LEN N)) := do
  let d32 ← u32TryFromUnwrap D
  let h32 ← u32TryFromUnwrap H
  let adrs := Adrs.default
  let r ← hashers.prf_msg sk.sk_prf.toList opt_rand.toList msg
  let digest ← hashers.h_msg r.toList sk.pk_seed.toList sk.pk_root.toList msg
  let (md, idx_tree, idx_leaf) ← slh_sign_split A D H K d32 h32 digest
  let adrs := adrs.set_tree_address idx_tree
  let adrs := adrs.set_type_and_clear FORS_TREE
  let adrs := adrs.set_key_pair_address idx_leaf.toUInt32
  let r' ← fors_sign A hashers md sk.sk_seed.toList adrs sk.pk_seed.toList
  leak (.branch r'.isOk)
  match r' with
  | .error e => pure (.error e)
  | .ok fors_sig => do
    let pk_fors ← fors_pk_from_sig hashers fors_sig md sk.pk_seed.toList adrs
    let r' ← ht_sign D HP hashers pk_fors.key.toList sk.sk_seed.toList sk.pk_seed.toList idx_tree
        idx_leaf.toUInt32
    leak (.branch r'.isOk)
    match r' with
    | .error e => pure (.error e)
    | .ok ht_sig => pure (.ok { randomness := r, fors_sig, ht_sig })

/-- `src/slh.rs:90-128` (`slh_sign_with_rng`) -/
def slh_sign_with_rng {σ : Type} (A D H HP : Nat) (rng : Rng m σ) (s : σ)
    (hashers : Hashers m K LEN M N) (mp : List (List UInt8)) (sk : SlhPrivateKey N)
    (hedged : Bool) : m (σ × Except String (SlhDsaSig A D HP K LEN N)) := do
  let opt_rand := sk.pk_seed
  leak (.branch hedged)
  if hedged then do
    let (s, r) ← rng.tryFill s opt_rand
    leak (.branch r.isOk)
    match r with
    | .error _ => pure (s, .error "Alg17: rng failed")
    | .ok opt_rand => do
      let sig ← slh_sign_internal A D H HP hashers mp sk opt_rand
      pure (s, sig)
  else do
    let sig ← slh_sign_internal A D H HP hashers mp sk opt_rand
    pure (s, sig)

/-- `src/slh.rs:311-329`, the same in `slh_verify_internal` (repeated in the code and in the model). -/
def slh_verify_split {M : Nat} (A D H K : Nat) (d32 h32 : UInt32) (digest : Vector UInt8 M) :
    m (List UInt8 × UInt64 × UInt64) := do
  let t ← mulUsize K A
  let t ← addUsize t 7
  let index1 ← divUsize t 8
  let md ← slice digest.toList 0 index1
  let hd ← divUsize H D
  let t ← subUsize H hd
  let t ← addUsize t 7
  let t ← divUsize t 8
  let index2 ← addUsize index1 t
  let tmp_idx_tree ← slice digest.toList index1 index2
  let t8 ← mulUsize 8 D
  let t ← addUsize H t8
  let t ← subUsize t 1
  let t8 ← mulUsize 8 D
  let t ← divUsize t t8
  let index3 ← addUsize index2 t
  let tmp_idx_leaf ← slice digest.toList index2 index3
  let hd ← divU32 h32 d32
  let t ← subU32 h32 hd
  let t ← addU32 t 7
  let t ← divU32 t 8
  let v ← to_int tmp_idx_tree t
  let hd ← divU32 h32 d32
  let t ← subU32 h32 hd
  let t ← subU32 64 t
  let mask ← shrU64 0xffffffffffffffff t
  let idx_tree := v &&& mask
  let t8 ← mulU32 8 d32
  let t ← addU32 h32 t8
  let t ← subU32 t 1
  let t8 ← mulU32 8 d32
  let t ← divU32 t t8
  let v ← to_int tmp_idx_leaf t
  let hd ← divU32 h32 d32
  let t ← subU32 64 hd
  let mask ← shrU64 0xffffffffffffffff t
  let idx_leaf := v &&& mask
  pure (md, idx_tree, idx_leaf)

/-- `src/slh.rs:276-355` (`slh_verify_internal`) -/
def slh_verify_internal {A D HP : Nat} (H : Nat) (hashers : Hashers m K LEN M N)
    (msg : List (List UInt8)) (sig : SlhDsaSig A D HP K LEN N) (pk : SlhPublicKey N) :
    m Bool := do
  let d32 ← u32TryFromUnwrap D
  let h32 ← u32TryFromUnwrap H
  let adrs := Adrs.default
  let r := sig.randomness
  let sig_fors := sig.fors_sig
  let sig_ht := sig.ht_sig
  let digest ← hashers.h_msg r.toList pk.pk_seed.toList pk.pk_root.toList msg
  let (md, idx_tree, idx_leaf) ← slh_verify_split A D H K d32 h32 digest
  let adrs := adrs.set_tree_address idx_tree
  let adrs := adrs.set_type_and_clear FORS_TREE
  let r := u32TryFromU64 idx_leaf
  leak (.branch r.isOk)
  match r with
  | .error _ => pure false
  | .ok idx_leaf_u32 => do
    let adrs := adrs.set_key_pair_address idx_leaf_u32
    let pk_fors ← fors_pk_from_sig hashers sig_fors md pk.pk_seed.toList adrs
    ht_verify hashers pk_fors.key.toList sig_ht pk.pk_seed.toList idx_tree idx_leaf_u32 pk.pk_root

/-- `src/slh.rs:241-267` (`slh_verify`) -/
def slh_verify {A D HP : Nat} (H : Nat) (hashers : Hashers m K LEN M N) (mp : List (List UInt8))
    (sig : SlhDsaSig A D HP K LEN N) (pk : SlhPublicKey N) : m Bool :=
  slh_verify_internal H hashers mp sig pk

end

end Fips205.Model
