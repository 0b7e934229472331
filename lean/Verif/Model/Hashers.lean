import Verif.Model.Helpers

/-! # `src/hashers.rs`

A hasher object of the `sha2`/`sha3` crates is modelled by the list of the arguments of its `update`
calls so far: `new`/`default` is the empty list, `update` appends one element, `finalize`/`finalize_xof`
applies the function given by `Crypto`. -/

namespace Fips205.Model

/-- `src/hashers.rs:7-15` (`Hashers`): the record of function pointers.  Functions are computations in
`m` because they may panic (slice bounds) and are visible to the observer. -/
structure Hashers (m : Type → Type) (K LEN M N : Nat) where
  h_msg : List UInt8 → List UInt8 → List UInt8 → List (List UInt8) → m (Vector UInt8 M)
  prf : List UInt8 → List UInt8 → Adrs → m (Vector UInt8 N)
  prf_msg : List UInt8 → List UInt8 → List (List UInt8) → m (Vector UInt8 N)
  f : List UInt8 → Adrs → List UInt8 → m (Vector UInt8 N)
  h : List UInt8 → Adrs → List UInt8 → List UInt8 → m (Vector UInt8 N)
  t_l : List UInt8 → Adrs → Vector (Vector UInt8 N) LEN → m (Vector UInt8 N)
  t_len : List UInt8 → Adrs → Vector (Vector UInt8 N) K → m (Vector UInt8 N)

section
variable {m : Type → Type} [Rust m] (C : Crypto m)

/-- The updates made by `ml.iter().for_each(|item| hasher.update(item))`. `src/hashers.rs:89`, `196`, `315`. -/
def items {X Y : Nat} (ml : Vector (Vector UInt8 Y) X) : List (List UInt8) :=
  ml.toList.map Vector.toList

namespace shake

/-- `src/hashers.rs:32-37` (`shake256`); the output slice is always a whole array `[u8; n]`. -/
def shake256 (input : List (List UInt8)) (n : Nat) : m (Vector UInt8 n) := do
  leak (.trip input.length)
  C.shake256 input n

/-- `src/hashers.rs:40-48` -/
def h_msg (M : Nat) (r pk_seed pk_root : List UInt8) (ms : List (List UInt8)) :
    m (Vector UInt8 M) := do
  let inp : Vector (List UInt8) 8 := #v[r, pk_seed, pk_root, [], [], [], [], []]
  let e ← addUsize 3 ms.length
  let inp ← writeSlice inp 3 e ms
  shake256 C inp.toList M

/-- `src/hashers.rs:52-56` -/
def prf (N : Nat) (pk_seed sk_seed : List UInt8) (adrs : Adrs) : m (Vector UInt8 N) := do
  let a ← adrs.to_32_bytes
  shake256 C [pk_seed, a.toList, sk_seed] N

/-- `src/hashers.rs:59-65` -/
def prf_msg (N : Nat) (sk_prf opt_rand : List UInt8) (ms : List (List UInt8)) :
    m (Vector UInt8 N) := do
  let inp : Vector (List UInt8) 7 := #v[sk_prf, opt_rand, [], [], [], [], []]
  let e ← addUsize 2 ms.length
  let inp ← writeSlice inp 2 e ms
  shake256 C inp.toList N

/-- `src/hashers.rs:68-72` -/
def f (N : Nat) (pk_seed : List UInt8) (adrs : Adrs) (m1 : List UInt8) : m (Vector UInt8 N) := do
  let a ← adrs.to_32_bytes
  shake256 C [pk_seed, a.toList, m1] N

/-- `src/hashers.rs:75-79` -/
def h (N : Nat) (pk_seed : List UInt8) (adrs : Adrs) (m1 m2 : List UInt8) : m (Vector UInt8 N) := do
  let a ← adrs.to_32_bytes
  shake256 C [pk_seed, a.toList, m1, m2] N

/-- `src/hashers.rs:83-94` -/
def t_l {X Y : Nat} (pk_seed : List UInt8) (adrs : Adrs) (ml : Vector (Vector UInt8 Y) X) :
    m (Vector UInt8 Y) := do
  let a ← adrs.to_32_bytes
  leak (.trip X)
  C.shake256 (pk_seed :: a.toList :: items ml) Y

end shake

/-- `padding.iter_mut().zip(key.iter())` with `*p ^= k`: `src/hashers.rs:146-148`, `265-267`. -/
def xorZip : List UInt8 → List UInt8 → List UInt8
  | p :: ps, k :: ks => (p ^^^ k) :: xorZip ps ks
  | ps, _ => ps

/-- The mutable variables of the MGF1 loops (`src/hashers.rs:120-122`, `239-241`). -/
structure MgfState (M : Nat) where
  result : Vector UInt8 M
  start : Nat
  counter : UInt32

namespace sha2_cat_1

/-- `src/hashers.rs:105-110` (`sha2_256`): digest of the concatenation, truncated to the output slice of
length `n`. -/
def sha2_256 (input : List (List UInt8)) (n : Nat) : m (Vector UInt8 n) := do
  leak (.trip input.length)
  let result ← C.sha256 input
  let sl ← slice result.toList 0 n
  copyFromSlice n sl

/-- `src/hashers.rs:113-132` -/
def h_msg (M : Nat) (r pk_seed pk_root : List UInt8) (ms : List (List UInt8)) :
    m (Vector UInt8 M) := do
  let inp : Vector (List UInt8) 8 := #v[r, pk_seed, pk_root, [], [], [], [], []]
  let e ← addUsize 3 ms.length
  let inp ← writeSlice inp 3 e ms
  let digest1 ← sha2_256 C inp.toList 32
  let st ← whileFuel (fun st : MgfState M => decide (st.start < M)) (fun st => do
      let tmp ← sha2_256 C [r, pk_seed, digest1.toList, (u32ToBe st.counter).toList] 32
      let d ← subUsize M st.start
      let len := min d 32
      let e ← addUsize st.start len
      let src ← slice tmp.toList 0 len
      let result ← writeSlice st.result st.start e src
      let start ← addUsize st.start 32
      let counter ← addU32 st.counter 1
      pure { result, start, counter }) (M + 1) { result := zeroBytes M, start := 0, counter := 0 }
  pure st.result

/-- `src/hashers.rs:136-141` -/
def prf (N : Nat) (pk_seed sk_seed : List UInt8) (adrs : Adrs) : m (Vector UInt8 N) := do
  let zeros := (zeroBytes 48).toList
  let zl ← subUsize 64 N
  let z ← slice zeros 0 zl
  let a ← adrs.to_22_bytes
  sha2_256 C [pk_seed, z, a.toList, sk_seed] N

/-- `src/hashers.rs:144-160` -/
def hmac_sha_256 (key a0 : List UInt8) (ms : List (List UInt8)) : m (Vector UInt8 32) := do
  let padding := List.replicate 64 (0x36 : UInt8)
  leak (.trip (min padding.length key.length))
  let padding := xorZip padding key
  leak (.trip ms.length)
  leak (.trip padding.length)
  let inner ← C.sha256 (padding :: a0 :: ms)
  let padding := padding.map (· ^^^ 0x6a)
  C.sha256 [padding, inner.toList]

/-- `src/hashers.rs:163-168` -/
def prf_msg (N : Nat) (sk_prf opt_rand : List UInt8) (ms : List (List UInt8)) :
    m (Vector UInt8 N) := do
  let full_digest ← hmac_sha_256 C sk_prf opt_rand ms
  let sl ← slice full_digest.toList 0 N
  copyFromSlice N sl

/-- `src/hashers.rs:171-176` -/
def f (N : Nat) (pk_seed : List UInt8) (adrs : Adrs) (m1 : List UInt8) : m (Vector UInt8 N) := do
  let zeros := (zeroBytes 48).toList
  let zl ← subUsize 64 N
  let z ← slice zeros 0 zl
  let a ← adrs.to_22_bytes
  sha2_256 C [pk_seed, z, a.toList, m1] N

/-- `src/hashers.rs:179-184` -/
def h (N : Nat) (pk_seed : List UInt8) (adrs : Adrs) (m1 m2 : List UInt8) :
    m (Vector UInt8 N) := do
  let zeros := (zeroBytes 48).toList
  let zl ← subUsize 64 N
  let z ← slice zeros 0 zl
  let a ← adrs.to_22_bytes
  sha2_256 C [pk_seed, z, a.toList, m1, m2] N

/-- `src/hashers.rs:187-200` -/
def t_l {LEN N : Nat} (pk_seed : List UInt8) (adrs : Adrs) (ml : Vector (Vector UInt8 N) LEN) :
    m (Vector UInt8 N) := do
  let zeros := (zeroBytes 48).toList
  let zl ← subUsize 64 N
  let z ← slice zeros 0 zl
  let a ← adrs.to_22_bytes
  leak (.trip LEN)
  let digest ← C.sha256 (pk_seed :: z :: a.toList :: items ml)
  let sl ← slice digest.toList 0 N
  copyFromSlice N sl

end sha2_cat_1

namespace sha2_cat_3_5

/-- `src/hashers.rs:216-221` (`sha2_256`): digest of the concatenation, truncated to the output slice of
length `n`. -/
def sha2_256 (input : List (List UInt8)) (n : Nat) : m (Vector UInt8 n) := do
  leak (.trip input.length)
  let result ← C.sha256 input
  let sl ← slice result.toList 0 n
  copyFromSlice n sl

/-- `src/hashers.rs:224-229` (`sha2_512`) -/
def sha2_512 (input : List (List UInt8)) (n : Nat) : m (Vector UInt8 n) := do
  leak (.trip input.length)
  let result ← C.sha512 input
  let sl ← slice result.toList 0 n
  copyFromSlice n sl

/-- `src/hashers.rs:232-251` -/
def h_msg (M : Nat) (r pk_seed pk_root : List UInt8) (ms : List (List UInt8)) :
    m (Vector UInt8 M) := do
  let inp : Vector (List UInt8) 8 := #v[r, pk_seed, pk_root, [], [], [], [], []]
  let e ← addUsize 3 ms.length
  let inp ← writeSlice inp 3 e ms
  let digest1 ← sha2_512 C inp.toList 64
  let st ← whileFuel (fun st : MgfState M => decide (st.start < M)) (fun st => do
      let tmp ← sha2_512 C [r, pk_seed, digest1.toList, (u32ToBe st.counter).toList] 64
      let d ← subUsize M st.start
      let len := min d 64
      let e ← addUsize st.start len
      let src ← slice tmp.toList 0 len
      let result ← writeSlice st.result st.start e src
      let start ← addUsize st.start 64
      let counter ← addU32 st.counter 1
      pure { result, start, counter }) (M + 1) { result := zeroBytes M, start := 0, counter := 0 }
  pure st.result

/-- `src/hashers.rs:255-260` -/
def prf (N : Nat) (pk_seed sk_seed : List UInt8) (adrs : Adrs) : m (Vector UInt8 N) := do
  let zeros := (zeroBytes 40).toList
  let zl ← subUsize 64 N
  let z ← slice zeros 0 zl
  let a ← adrs.to_22_bytes
  sha2_256 C [pk_seed, z, a.toList, sk_seed] N

/-- `src/hashers.rs:263-279` -/
def hmac_sha_512 (key a0 : List UInt8) (ms : List (List UInt8)) : m (Vector UInt8 64) := do
  let padding := List.replicate 128 (0x36 : UInt8)
  leak (.trip (min padding.length key.length))
  let padding := xorZip padding key
  leak (.trip ms.length)
  leak (.trip padding.length)
  let inner ← C.sha512 (padding :: a0 :: ms)
  let padding := padding.map (· ^^^ 0x6a)
  C.sha512 [padding, inner.toList]

/-- `src/hashers.rs:282-287` -/
def prf_msg (N : Nat) (sk_prf opt_rand : List UInt8) (ms : List (List UInt8)) :
    m (Vector UInt8 N) := do
  let full_digest ← hmac_sha_512 C sk_prf opt_rand ms
  let sl ← slice full_digest.toList 0 N
  copyFromSlice N sl

/-- `src/hashers.rs:290-295` -/
def f (N : Nat) (pk_seed : List UInt8) (adrs : Adrs) (m1 : List UInt8) : m (Vector UInt8 N) := do
  let zeros := (zeroBytes 40).toList
  let zl ← subUsize 64 N
  let z ← slice zeros 0 zl
  let a ← adrs.to_22_bytes
  sha2_256 C [pk_seed, z, a.toList, m1] N

/-- `src/hashers.rs:298-303` -/
def h (N : Nat) (pk_seed : List UInt8) (adrs : Adrs) (m1 m2 : List UInt8) :
    m (Vector UInt8 N) := do
  let zeros := (zeroBytes 104).toList
  let zl ← subUsize 128 N
  let z ← slice zeros 0 zl
  let a ← adrs.to_22_bytes
  sha2_512 C [pk_seed, z, a.toList, m1, m2] N

/-- `src/hashers.rs:306-319` -/
def t_l {LEN N : Nat} (pk_seed : List UInt8) (adrs : Adrs) (ml : Vector (Vector UInt8 N) LEN) :
    m (Vector UInt8 N) := do
  let zeros := (zeroBytes 104).toList
  let zl ← subUsize 128 N
  let z ← slice zeros 0 zl
  let a ← adrs.to_22_bytes
  leak (.trip LEN)
  let digest ← C.sha512 (pk_seed :: z :: a.toList :: items ml)
  let sl ← slice digest.toList 0 N
  copyFromSlice N sl

end sha2_cat_3_5

/-- `src/hashers.rs:322-375` (`hash_message`).  `phm` is the old buffer; returns the OID, the digest
length and the new buffer contents. -/
def hash_message (message : List UInt8) (ph : Ph) (phm : Vector UInt8 64) :
    m (Vector UInt8 11 × Nat × Vector UInt8 64) := do
  match ph with
  | .SHA256 => do
    let d ← C.sha256 [message]
    let phm ← writeSlice phm 0 32 d.toList
    pure (#v[0x06, 0x09, 0x60, 0x86, 0x48, 0x01, 0x65, 0x03, 0x04, 0x02, 0x01], 32, phm)
  | .SHA512 => do
    let d ← C.sha512 [message]
    let phm ← copyFromSlice 64 d.toList
    pure (#v[0x06, 0x09, 0x60, 0x86, 0x48, 0x01, 0x65, 0x03, 0x04, 0x02, 0x03], 64, phm)
  | .SHAKE128 => do
    let d ← C.shake128 [message] 32
    let phm ← writeSlice phm 0 32 d.toList
    pure (#v[0x06, 0x09, 0x60, 0x86, 0x48, 0x01, 0x65, 0x03, 0x04, 0x02, 0x0B], 32, phm)
  | .SHAKE256 => do
    let d ← C.shake256 [message] 64
    pure (#v[0x06, 0x09, 0x60, 0x86, 0x48, 0x01, 0x65, 0x03, 0x04, 0x02, 0x0C], 64, d)

end

end Fips205.Model
