import Verif.Model.Traits

/-! # `ffi/src/lib.rs`: the C entry points

`Option<&mut T>` arguments are nullable C pointers: `none` is null and `some x` points to the buffer
contents `x`.  The contents after the call are returned.  A panic leaves the `extern "C"` function by
aborting the process: it is the panic of the monad.  Undefined behaviour is an explicit outcome.
Aliasing of the `&mut` arguments, and pointers that are neither null nor valid, are not modelled here but in
`Model/Memory.lean`. -/

namespace Fips205.Model

/-- `ffi/src/lib.rs:7` -/
def SLH_DSA_OK : UInt8 := 0
/-- `ffi/src/lib.rs:8` -/
def SLH_DSA_NULL_PTR_ERROR : UInt8 := 1
/-- `ffi/src/lib.rs:9` -/
def SLH_DSA_SERIALIZATION_ERROR : UInt8 := 2
/-- `ffi/src/lib.rs:10` -/
def SLH_DSA_DESERIALIZATION_ERROR : UInt8 := 3
/-- `ffi/src/lib.rs:11` -/
def SLH_DSA_KEYGEN_ERROR : UInt8 := 4
/-- `ffi/src/lib.rs:12` -/
def SLH_DSA_SIGN_ERROR : UInt8 := 5
/-- `ffi/src/lib.rs:13` -/
def SLH_DSA_VERIFY_ERROR : UInt8 := 6

/-- A `*const u8`: null, or pointing to readable bytes. `ffi/src/lib.rs:61`, `88`. -/
inductive Ptr
  | null
  | to (bytes : List UInt8)

/-- `buf.is_null()` (`ffi/src/lib.rs:69`) -/
def Ptr.isNull : Ptr → Bool
  | .null => true
  | .to _ => false

/-- Result of a C call: it returned, or the behaviour is undefined. `ffi/src/lib.rs:39-108`. -/
inductive Ffi (α : Type)
  | ret (a : α)
  | ub

section
variable {m : Type → Type} [Rust m] (C : Crypto m)

/-- `message_len.try_into().unwrap()` (`usize` from `c_int`): `ffi/src/lib.rs:74`, `96`. -/
def usizeFromCInt (len : Int) : m Nat :=
  if 0 ≤ len ∧ len < 2 ^ (Rust.build m).usizeBits then pure len.toNat else panic .unwrap

/-- `std::slice::from_raw_parts(buf, len)`: undefined behaviour when `buf` is null (even for
`len = 0`) or fewer than `len` bytes are readable. `ffi/src/lib.rs:74`, `96`. -/
def fromRawParts (buf : Ptr) (len : Nat) : Ffi (List UInt8) :=
  match buf with
  | .null => .ub
  | .to bytes => if len ≤ bytes.length then .ret (bytes.take len) else .ub

/-- `ffi/src/lib.rs:39-56` -/
def slh_dsa_sha2_128f_keygen {σ : Type} (os : Rng m σ) (s : σ)
    (public_out : Option (Vector UInt8 slh_dsa_sha2_128f.PK_LEN))
    (private_out : Option (Vector UInt8 slh_dsa_sha2_128f.SK_LEN)) :
    m (σ × UInt8 × Option (Vector UInt8 slh_dsa_sha2_128f.PK_LEN) ×
        Option (Vector UInt8 slh_dsa_sha2_128f.SK_LEN)) := do
  leak (.branch (public_out.isSome && private_out.isSome))
  match public_out, private_out with
  | some _, some _ => do
    let (s, r) ← try_keygen slh_dsa_sha2_128f C os s
    leak (.branch r.isOk)
    match r with
    | .error _ => pure (s, SLH_DSA_KEYGEN_ERROR, public_out, private_out)
    | .ok (pk, sk) => do
      let pkb ← pk.into_bytes
      let skb ← sk.into_bytes
      pure (s, SLH_DSA_OK, some pkb, some skb)
  | _, _ => pure (s, SLH_DSA_NULL_PTR_ERROR, public_out, private_out)

/-- `ffi/src/lib.rs:59-84` -/
def slh_dsa_sha2_128f_sign {σ : Type} (os : Rng m σ) (s : σ) (message_buf : Ptr)
    (message_len : Int) (private_key : Option (Vector UInt8 slh_dsa_sha2_128f.SK_LEN))
    (signature_out : Option (Vector UInt8 slh_dsa_sha2_128f.SIG_LEN)) :
    m (Ffi (σ × UInt8 × Option (Vector UInt8 slh_dsa_sha2_128f.SIG_LEN))) := do
  leak (.branch (private_key.isSome && signature_out.isSome))
  match private_key, signature_out with
  | some private_key, some _ => do
    leak (.branch message_buf.isNull)
    match message_buf with
    | .null => pure (.ret (s, SLH_DSA_NULL_PTR_ERROR, signature_out))
    | _ => do
      let len ← usizeFromCInt message_len
      match fromRawParts message_buf len with
      | .ub => pure .ub
      | .ret message => do
        let r ← PrivateKey.try_from_bytes C private_key
        leak (.branch r.isOk)
        match r with
        | .error _ => pure (.ret (s, SLH_DSA_DESERIALIZATION_ERROR, signature_out))
        | .ok sk => do
          let (s, r) ← sk.try_sign C os s message [] true
          leak (.branch r.isOk)
          match r with
          | .error _ => pure (.ret (s, SLH_DSA_SIGN_ERROR, signature_out))
          | .ok sig => pure (.ret (s, SLH_DSA_OK, some sig))
  | _, _ => pure (.ret (s, SLH_DSA_NULL_PTR_ERROR, signature_out))

/-- `ffi/src/lib.rs:86-108` -/
def slh_dsa_sha2_128f_verify (message_buf : Ptr) (message_len : Int)
    (public_key : Option (Vector UInt8 slh_dsa_sha2_128f.PK_LEN))
    (signature : Option (Vector UInt8 slh_dsa_sha2_128f.SIG_LEN)) : m (Ffi UInt8) := do
  leak (.branch (public_key.isSome && signature.isSome))
  match public_key, signature with
  | some public_key, some signature => do
    let len ← usizeFromCInt message_len
    match fromRawParts message_buf len with
    | .ub => pure .ub
    | .ret message => do
      let r ← PublicKey.try_from_bytes (p := slh_dsa_sha2_128f) public_key
      leak (.branch r.isOk)
      match r with
      | .error _ => pure (.ret SLH_DSA_DESERIALIZATION_ERROR)
      | .ok pk => do
        let res ← pk.verify C message signature []
        leak (.branch res)
        if res then pure (.ret SLH_DSA_OK) else pure (.ret SLH_DSA_VERIFY_ERROR)
  | _, _ => pure (.ret SLH_DSA_NULL_PTR_ERROR)

end

end Fips205.Model
