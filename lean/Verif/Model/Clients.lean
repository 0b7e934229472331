import Verif.Model.Ffi

/-! # Code around the crate: the fuzz targets and the Python wrapper -/

namespace Fips205.Model

section
variable {m : Type → Type} [Rust m] (C : Crypto m)

/-! ## `fuzz/fuzz_targets`

The targets throw the results of the calls away; the model keeps them.  `OsRng` is the parameter `os`. -/

/-- The `match` on the byte in `fuzz/fuzz_targets/fuzz_sign.rs:24-28`, `fuzz/fuzz_targets/fuzz_verify.rs:15-19`. -/
def fuzzPh (x : UInt8) : Ph :=
  match (x % 3).toNat with
  | 0 => .SHA256
  | 1 => .SHA512
  | _ => .SHAKE256

/-- The results of the calls of `fuzz_sign`. `fuzz/fuzz_targets/fuzz_sign.rs:20-53`. -/
structure FuzzSign where
  /-- `fuzz/fuzz_targets/fuzz_sign.rs:31` -/
  sign : Except String (Vector UInt8 slh_dsa_sha2_128f.SIG_LEN)
  /-- `fuzz/fuzz_targets/fuzz_sign.rs:40`, if made -/
  hash_sign : Option (Except String (Vector UInt8 slh_dsa_sha2_128f.SIG_LEN))
  /-- `fuzz/fuzz_targets/fuzz_sign.rs:50` -/
  pk : PublicKey slh_dsa_sha2_128f

/-- `fuzz/fuzz_targets/fuzz_sign.rs:20-52`; `none` if key generation fails. -/
def fuzz_sign {σ : Type} (os : Rng m σ) (s : σ) (message context : List UInt8) (hedged use_hash : Bool)
    (hash_function : UInt8) : m (σ × Option FuzzSign) := do
  let (s, r) ← try_keygen slh_dsa_sha2_128f C os s
  match r with
  | .error _ => pure (s, none)
  | .ok (_, sk) => do
    let ph := fuzzPh hash_function
    let ctx ← slice context 0 (context.length % 255)
    let (s, sign) ← sk.try_sign_with_rng C os s message ctx hedged
    if use_hash then do
      let ctx ← slice context 0 (context.length % 255)
      let (s, hash_sign) ← sk.try_hash_sign_with_rng C os s message ctx ph hedged
      pure (s, some { sign, hash_sign := some hash_sign, pk := sk.get_public_key })
    else pure (s, some { sign, hash_sign := none, pk := sk.get_public_key })

/-- The results of the calls of `fuzz_verify`; a test that is not made gives `none`.
`fuzz/fuzz_targets/fuzz_verify.rs:9-56`. -/
structure FuzzVerify where
  /-- the key pair of the run -/
  pk : PublicKey slh_dsa_sha2_128f
  sk : PrivateKey slh_dsa_sha2_128f
  /-- `fuzz/fuzz_targets/fuzz_verify.rs:30` -/
  test1 : Option Bool
  /-- `fuzz/fuzz_targets/fuzz_verify.rs:35` -/
  test2 : Option Bool
  /-- `fuzz/fuzz_targets/fuzz_verify.rs:43` -/
  test3 : Option Bool
  /-- `fuzz/fuzz_targets/fuzz_verify.rs:52`: the signature, the modified message and the answer -/
  test4 : Option (Vector UInt8 slh_dsa_sha2_128f.SIG_LEN × List UInt8 × Bool)

/-- `fuzz/fuzz_targets/fuzz_verify.rs:29-31` -/
def fuzz_test1 (pk : PublicKey slh_dsa_sha2_128f) (message context : List UInt8) :
    Except String (Vector UInt8 slh_dsa_sha2_128f.SIG_LEN) → m (Option Bool)
  | .ok valid_sig => do pure (some (← pk.verify C message valid_sig context))
  | .error _ => pure none

/-- `fuzz/fuzz_targets/fuzz_verify.rs:34-36` -/
def fuzz_test2 (pk : PublicKey slh_dsa_sha2_128f) (message context : List UInt8) (ph : Ph) :
    Except String (Vector UInt8 slh_dsa_sha2_128f.SIG_LEN) → m (Option Bool)
  | .ok valid_hash_sig => do pure (some (← pk.hash_verify C message valid_hash_sig context ph))
  | .error _ => pure none

/-- `fuzz/fuzz_targets/fuzz_verify.rs:41-45`, after decoding the key -/
def fuzz_test3 {σ : Type} (os : Rng m σ) (s : σ) (sk : PrivateKey slh_dsa_sha2_128f)
    (message context : List UInt8) : Except String (PublicKey slh_dsa_sha2_128f) → m (σ × Option Bool)
  | .ok maybe_pk => do
    let (s, sig) ← sk.try_sign C os s message context true
    match sig with
    | .ok sig => do pure (s, some (← maybe_pk.verify C message sig context))
    | .error _ => pure (s, none)
  | .error _ => pure (s, none)

/-- `fuzz/fuzz_targets/fuzz_verify.rs:48-54` -/
def fuzz_test4 (pk : PublicKey slh_dsa_sha2_128f) (message context : List UInt8) :
    Except String (Vector UInt8 slh_dsa_sha2_128f.SIG_LEN) →
    m (Option (Vector UInt8 slh_dsa_sha2_128f.SIG_LEN × List UInt8 × Bool))
  | .ok sig =>
    match message with
    | [] => pure none
    | x :: xs => do
      let modified_message := (x ^^^ 1) :: xs
      pure (some (sig, modified_message, ← pk.verify C modified_message sig context))
  | .error _ => pure none

/-- `fuzz/fuzz_targets/fuzz_verify.rs:9-56`; `none` if the input is too short or key generation fails. -/
def fuzz_verify {σ : Type} (os : Rng m σ) (s : σ) (data : List UInt8) : m (σ × Option FuzzVerify) := do
  if data.length < 32 then pure (s, none)
  else do
    let ph := fuzzPh (← lget data 0)
    let (s, r) ← try_keygen slh_dsa_sha2_128f C os s
    match r with
    | .error _ => pure (s, none)
    | .ok (pk, sk) => do
      let split_point := data.length % 255
      let message ← slice data split_point data.length
      let context ← slice data 0 split_point
      let (s, sig) ← sk.try_sign C os s message context true
      let test1 ← fuzz_test1 C pk message context sig
      let (s, sig) ← sk.try_hash_sign C os s message context ph true
      let test2 ← fuzz_test2 C pk message context ph sig
      let maybe ← PublicKey.try_from_bytes (p := slh_dsa_sha2_128f) (← pk.into_bytes)
      let (s, test3) ← fuzz_test3 C os s sk message context maybe
      let (s, sig) ← sk.try_sign C os s message context true
      let test4 ← fuzz_test4 C pk message context sig
      pure (s, some { pk, sk, test1, test2, test3, test4 })

/-! ## `ffi/fips205.py`

`bytes` objects are lists; `source` is always the class `slh_dsa_sha2_128f` (the only one, lines 171-178).
A C function called through `ctypes` without declared argument types gets a non-null pointer to the bytes
for a `bytes` argument and the low 32 bits of a number, as a C `int`, for an `int` argument.  The C
functions write into `bytes` objects made for the purpose just before (lines 145, 164); they are not shared
with any other object yet, so the model returns the new contents. -/

/-- What a Python call does, if the process is not aborted: it returns, raises an exception, or runs into
undefined behaviour in C. `ffi/fips205.py:141-168`. -/
inductive Py (α : Type)
  | ret (a : α)
  | raise (msg : String)
  | ub

/-- `ctypes`: a number passed as C `int`. `ffi/fips205.py:146`. -/
def ctypesInt (n : Nat) : Int := if n % 2 ^ 32 < 2 ^ 31 then (n % 2 ^ 32 : Nat) else (n % 2 ^ 32 : Nat) - 2 ^ 32

/-- `ffi/fips205.py:173` -/
def PY_PK_LEN : Nat := 32
/-- `ffi/fips205.py:174` -/
def PY_SK_LEN : Nat := 64
/-- `ffi/fips205.py:175` -/
def PY_SIG_LEN : Nat := 17088

/-- `ffi/fips205.py:89` (class `PublicKey`) -/
structure PyPublicKey where
  key : Vector UInt8 slh_dsa_sha2_128f.PK_LEN

/-- `ffi/fips205.py:121` (class `PrivateKey`) -/
structure PyPrivateKey where
  key : Vector UInt8 slh_dsa_sha2_128f.SK_LEN

/-- The codes the C entry points return, as a caller knows them. `ffi/fips205.h:8-14`, `ffi/fips205.py:79-86`. -/
structure ErrCodes where
  ok : UInt8
  nullPtr : UInt8
  serialization : UInt8
  deserialization : UInt8
  keygen : UInt8
  sign : UInt8
  verify : UInt8
deriving DecidableEq

/-- `ffi/fips205.h:8-14` -/
def headerErr : ErrCodes := ⟨0, 1, 2, 3, 4, 5, 6⟩

/-- class `Err` (`ffi/fips205.py:79-86`) -/
def pyErr : ErrCodes := ⟨0, 1, 2, 3, 4, 5, 6⟩

/-- `ffi/fips205.py:96-101` -/
def PyPublicKey.init (data : List UInt8) : Py PyPublicKey :=
  if h : data.length = PY_PK_LEN then .ret ⟨⟨data.toArray, h⟩⟩
  else .raise "Inconsistent public key source/length"

/-- `ffi/fips205.py:128-133` -/
def PyPrivateKey.init (data : List UInt8) : Py PyPrivateKey :=
  if h : data.length = PY_SK_LEN then .ret ⟨⟨data.toArray, h⟩⟩
  else .raise "Inconsistent private key source/length"

/-- `ffi/fips205.py:106-107` -/
def PyPublicKey.bytes (self : PyPublicKey) : List UInt8 := self.key.toList

/-- `ffi/fips205.py:138-139` -/
def PyPrivateKey.bytes (self : PyPrivateKey) : List UInt8 := self.key.toList

/-- `ffi/fips205.py:109-118` -/
def PyPublicKey.verify (self : PyPublicKey) (message signature : List UInt8) : m (Py Bool) :=
  if h : signature.length = PY_SIG_LEN then do
    match ← slh_dsa_sha2_128f_verify C (.to message) (ctypesInt message.length) (some self.key)
        (some ⟨signature.toArray, h⟩) with
    | .ub => pure .ub
    | .ret code =>
      if code ≠ pyErr.ok ∧ code ≠ pyErr.verify then
        pure (.raise s!"slh_dsa_sha2_128f_verify() returned {code}")
      else pure (.ret (code == pyErr.ok))
  else pure (.raise "Inconsistent signature source/length")

/-- `ffi/fips205.py:141-149`.  An exception drops the state of the RNG. -/
def PyPrivateKey.sign {σ : Type} (os : Rng m σ) (s : σ) (self : PyPrivateKey) (message : List UInt8) :
    m (Py (σ × List UInt8)) := do
  let signature := Vector.replicate PY_SIG_LEN 0
  match ← slh_dsa_sha2_128f_sign C os s (.to message) (ctypesInt message.length) (some self.key)
      (some signature) with
  | .ub => pure .ub
  | .ret (s, code, out) =>
    if code ≠ pyErr.ok then pure (.raise s!"slh_dsa_sha2_128f_sign() returned {code}")
    else pure (.ret (s, (out.getD signature).toList))

/-- `ffi/fips205.py:161-168` -/
def py_keygen {σ : Type} (os : Rng m σ) (s : σ) : m (Py (σ × PyPublicKey × PyPrivateKey)) := do
  let pk := Vector.replicate PY_PK_LEN 0
  let sk := Vector.replicate PY_SK_LEN 0
  let (s, code, pko, sko) ← slh_dsa_sha2_128f_keygen C os s (some pk) (some sk)
  if code ≠ pyErr.ok then pure (.raise s!"slh_dsa_sha2_128f_keygen() returned {code}")
  else
    match PyPublicKey.init (pko.getD pk).toList, PyPrivateKey.init (sko.getD sk).toList with
    | .ret pk, .ret sk => pure (.ret (s, pk, sk))
    | .raise e, _ => pure (.raise e)
    | _, .raise e => pure (.raise e)
    | _, _ => pure .ub

end

end Fips205.Model
