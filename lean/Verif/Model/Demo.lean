import Verif.Model.Tests

/-! # Programs that print keys: `ffi/fips205.py` run as a program, and `wasm/src/lib.rs`

`wasm/src/lib.rs` is written for an older version of the crate: it calls `try_sign_with_rng` without a context and
expects a `Result` from `verify`, so it does not compile as it is.  The model passes an empty context and asserts
what `verify` returns. -/

namespace Fips205.Model

/-- A digit in base 16, as Python and the crate `hex` write it. `ffi/fips205.py:104`, `wasm/src/lib.rs:17`. -/
def hexChar (x : UInt8) : Char := "0123456789abcdef".toList.getD x.toNat '0'

/-- `bytes.hex()`, `hex::encode`. `ffi/fips205.py:104`, `136`, `wasm/src/lib.rs:17-19`. -/
def hexEncode : List UInt8 → List Char
  | [] => []
  | x :: xs => hexChar (x >>> 4) :: hexChar (x &&& 0x0f) :: hexEncode xs

/-- `__repr__`. `ffi/fips205.py:103-104`. -/
def PyPublicKey.repr (self : PyPublicKey) : String :=
  "<slh_dsa_sha2_128f public key: " ++ String.ofList (hexEncode self.bytes) ++ ">"

/-- `__repr__`. `ffi/fips205.py:135-136`. -/
def PyPrivateKey.repr (self : PyPrivateKey) : String :=
  "<slh_dsa_sha2_128f private key: " ++ String.ofList (hexEncode self.bytes) ++ ">"

section
variable {m : Type → Type} [Rust m] (C : Crypto m)

/-- The text of the last line of the program. `ffi/fips205.py:186`. -/
def pyText (res : Bool) (ppk : PyPublicKey) (ssk : PyPrivateKey) : String :=
  (if res then "True" else "False") ++ "\n" ++ ppk.repr ++ "\n" ++ ssk.repr ++ "\n"

/-- `ffi/fips205.py:182-186`: what is printed. -/
def py_main {σ : Type} (os : Rng m σ) (s : σ) : m (Py (σ × String)) := do
  match ← py_keygen C os s with
  | .ub => pure .ub
  | .raise e => pure (.raise e)
  | .ret (s, ppk, ssk) => do
    match ← ssk.sign C os s [1, 2, 3] with
    | .ub => pure .ub
    | .raise e => pure (.raise e)
    | .ret (s, sig) => do
      match ← ppk.verify C [1, 2, 3] sig with
      | .ub => pure .ub
      | .raise e => pure (.raise e)
      | .ret res => pure (.ret (s, pyText res ppk ssk))

/-- The text `sign` returns. `wasm/src/lib.rs:21-28`. -/
def wasmText (message : String) (sk sig pk : List UInt8) : String :=
  let s0 := "The message to sign is: " ++ message ++ "\n"
  let s1 := "The seed used to generate the keys is: 123\n\n"
  let s2 := "The generated public||private key is: " ++ String.ofList (hexEncode sk) ++ "\n"
  let s3 := "Using that private key, the calculated signature is: " ++ String.ofList (hexEncode sig) ++ "\n\n"
  let s4 := "The generated public key is: " ++ String.ofList (hexEncode pk) ++ "\n"
  let s5 := "The public key verifies the signature on the message."
  s0 ++ s1 ++ s2 ++ s3 ++ s4 ++ s5

/-- `sign`, see above; `rng` in state `s` is `ChaCha8Rng::seed_from_u64(123)`. `wasm/src/lib.rs:7-29`. -/
def wasm_sign {σ : Type} (rng : Rng m σ) (s : σ) (message : String) : m String := do
  let (s, r) ← try_keygen_with_rng slh_dsa_sha2_128f C rng s
  let (pk, sk) ← unwrap r
  let (_, r) ← sk.try_sign_with_rng C rng s message.toUTF8.data.toList [] true
  let sig ← unwrap r
  let result ← pk.verify C message.toUTF8.data.toList sig []
  assert result
  let sk ← sk.into_bytes
  let pk ← pk.into_bytes
  pure (wasmText message sk.toList sig.toList pk.toList)

end

end Fips205.Model
