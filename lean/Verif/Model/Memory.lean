import Verif.Model.Ffi

/-! # The C entry points of `ffi/src/lib.rs` on the memory of the calling process

`Model/Ffi.lean` passes the contents of buffers.  Here the arguments are addresses, `0` is null, and the calls
read and write a memory in which some addresses are accessible.  Rust's rules for references are explicit:
a reference to memory that is not accessible is undefined behaviour, and so are two references that overlap
when one of them is `&mut`.  Addresses are unbounded; all types have alignment 1; memory that is readable but
not writable, and other threads, are not modelled. -/

namespace Fips205.Model

/-- The accessible bytes of a process. The memory behind the pointers of `ffi/src/lib.rs:40-43`, `60-64`, `87-91`. -/
structure Mem where
  byte : Nat → Option UInt8

namespace Mem

/-- The `n` bytes from address `a` are accessible. Needed at `ffi/src/lib.rs:41-42`, `62-63`, `74`, `89-90`, `96`. -/
def Mapped (M : Mem) (a n : Nat) : Prop := ∀ i, i < n → (M.byte (a + i)).isSome = true

instance (M : Mem) (a n : Nat) : Decidable (M.Mapped a n) := by unfold Mapped; infer_instance

/-- The `n` bytes from address `a`. `ffi/src/lib.rs:76`, `98`, `101`. -/
def contents (M : Mem) (a n : Nat) : Vector UInt8 n := Vector.ofFn fun i => (M.byte (a + i)).getD 0

/-- The memory after writing `bs` from address `a`. `ffi/src/lib.rs:53-54`, `82`. -/
def store (M : Mem) (a : Nat) (bs : List UInt8) : Mem :=
  ⟨fun x => if a ≤ x ∧ x < a + bs.length then bs[x - a]? else M.byte x⟩

/-- An address passed for `Option<&mut [u8; n]>`: null, or a reference. `ffi/src/lib.rs:41-42`, `62-63`, `89-90`. -/
def arg (M : Mem) (n a : Nat) : Ffi (Option (Vector UInt8 n)) :=
  if a = 0 then .ret none else if M.Mapped a n then .ret (some (M.contents a n)) else .ub

end Mem

/-- The `n` bytes from `a` and the `k` bytes from `b` have an address in common. For the references of
`ffi/src/lib.rs:41-42`, `62-63`, `74`. -/
def Overlap (a n b k : Nat) : Prop := 0 < n ∧ 0 < k ∧ a < b + k ∧ b < a + n

instance (a n b k : Nat) : Decidable (Overlap a n b k) := by unfold Overlap; infer_instance

section
variable {m : Type → Type} [Rust m] (C : Crypto m)

/-- `ffi/src/lib.rs:39-56` -/
def c_keygen {σ : Type} (os : Rng m σ) (s : σ) (M : Mem) (public_out private_out : Nat) :
    m (Ffi (σ × UInt8 × Mem)) :=
  match M.arg slh_dsa_sha2_128f.PK_LEN public_out, M.arg slh_dsa_sha2_128f.SK_LEN private_out with
  | .ret po, .ret qo => do
    if po.isSome ∧ qo.isSome ∧
        Overlap public_out slh_dsa_sha2_128f.PK_LEN private_out slh_dsa_sha2_128f.SK_LEN then pure .ub
    else do
      leak (.branch (po.isSome && qo.isSome))
      match po, qo with
      | some _, some _ => do
        let (s, r) ← try_keygen slh_dsa_sha2_128f C os s
        leak (.branch r.isOk)
        match r with
        | .error _ => pure (.ret (s, SLH_DSA_KEYGEN_ERROR, M))
        | .ok (pk, sk) => do
          let pkb ← pk.into_bytes
          let M := M.store public_out pkb.toList
          let skb ← sk.into_bytes
          let M := M.store private_out skb.toList
          pure (.ret (s, SLH_DSA_OK, M))
      | _, _ => pure (.ret (s, SLH_DSA_NULL_PTR_ERROR, M))
  | _, _ => pure .ub

/-- `std::slice::from_raw_parts(buf, len)` while the references `refs` (address and size) are live
(`ffi/src/lib.rs:73-74`, `95-96`) -/
def c_message (M : Mem) (buf len : Nat) (refs : List (Nat × Nat)) : Ffi (List UInt8) :=
  if buf = 0 ∨ ¬ M.Mapped buf len ∨ ∃ r ∈ refs, Overlap buf len r.1 r.2 then .ub
  else .ret (M.contents buf len).toList

/-- `ffi/src/lib.rs:59-84` -/
def c_sign {σ : Type} (os : Rng m σ) (s : σ) (M : Mem) (message_buf : Nat) (message_len : Int)
    (private_key signature_out : Nat) : m (Ffi (σ × UInt8 × Mem)) :=
  match M.arg slh_dsa_sha2_128f.SK_LEN private_key, M.arg slh_dsa_sha2_128f.SIG_LEN signature_out with
  | .ret ko, .ret so => do
    if ko.isSome ∧ so.isSome ∧
        Overlap private_key slh_dsa_sha2_128f.SK_LEN signature_out slh_dsa_sha2_128f.SIG_LEN then pure .ub
    else do
      leak (.branch (ko.isSome && so.isSome))
      match ko, so with
      | some key, some _ => do
        leak (.branch (message_buf == 0))
        if message_buf = 0 then pure (.ret (s, SLH_DSA_NULL_PTR_ERROR, M))
        else do
          let len ← usizeFromCInt message_len
          match c_message M message_buf len [(private_key, slh_dsa_sha2_128f.SK_LEN),
              (signature_out, slh_dsa_sha2_128f.SIG_LEN)] with
          | .ub => pure .ub
          | .ret message => do
            let r ← PrivateKey.try_from_bytes C key
            leak (.branch r.isOk)
            match r with
            | .error _ => pure (.ret (s, SLH_DSA_DESERIALIZATION_ERROR, M))
            | .ok sk => do
              let (s, r) ← sk.try_sign C os s message [] true
              leak (.branch r.isOk)
              match r with
              | .error _ => pure (.ret (s, SLH_DSA_SIGN_ERROR, M))
              | .ok sig => pure (.ret (s, SLH_DSA_OK, M.store signature_out sig.toList))
      | _, _ => pure (.ret (s, SLH_DSA_NULL_PTR_ERROR, M))
  | _, _ => pure .ub

/-- `ffi/src/lib.rs:86-108`.  The function writes to no buffer. -/
def c_verify (M : Mem) (message_buf : Nat) (message_len : Int) (public_key signature : Nat) :
    m (Ffi UInt8) :=
  match M.arg slh_dsa_sha2_128f.PK_LEN public_key, M.arg slh_dsa_sha2_128f.SIG_LEN signature with
  | .ret ko, .ret so => do
    if ko.isSome ∧ so.isSome ∧
        Overlap public_key slh_dsa_sha2_128f.PK_LEN signature slh_dsa_sha2_128f.SIG_LEN then pure .ub
    else do
      leak (.branch (ko.isSome && so.isSome))
      match ko, so with
      | some key, some sig => do
        let len ← usizeFromCInt message_len
        match c_message M message_buf len [(public_key, slh_dsa_sha2_128f.PK_LEN),
            (signature, slh_dsa_sha2_128f.SIG_LEN)] with
        | .ub => pure .ub
        | .ret message => do
          let r ← PublicKey.try_from_bytes (p := slh_dsa_sha2_128f) key
          leak (.branch r.isOk)
          match r with
          | .error _ => pure (.ret SLH_DSA_DESERIALIZATION_ERROR)
          | .ok pk => do
            let res ← pk.verify C message sig []
            leak (.branch res)
            if res then pure (.ret SLH_DSA_OK) else pure (.ret SLH_DSA_VERIFY_ERROR)
      | _, _ => pure (.ret SLH_DSA_NULL_PTR_ERROR)
  | _, _ => pure .ub

end

end Fips205.Model
