import Verif.Model.Tests

/-! # The ACVP test suites: `tests/nist_acvp_vectors/mod.rs`

The files are given as what `serde_json` makes of them (a file that lacks a field makes the suite panic; this is
not modelled); the hexadecimal strings in them are decoded by the model.  Prints are left out.  `tc_id` and
`reason` are only printed. -/

namespace Fips205.Model

/-- The value of a digit, in the crate `hex`. `tests/nist_acvp_vectors/mod.rs:24`. -/
def hexVal (c : Char) : Option UInt8 :=
  if 'A' ≤ c ∧ c ≤ 'F' then some (UInt8.ofNat (c.toNat - 'A'.toNat + 10))
  else if 'a' ≤ c ∧ c ≤ 'f' then some (UInt8.ofNat (c.toNat - 'a'.toNat + 10))
  else if '0' ≤ c ∧ c ≤ '9' then some (UInt8.ofNat (c.toNat - '0'.toNat))
  else none

/-- `hex::decode`. `tests/nist_acvp_vectors/mod.rs:24`. -/
def hexDecode : List Char → Option (List UInt8)
  | [] => some []
  | [_] => none
  | u :: v :: cs => do
    let h ← hexVal u
    let l ← hexVal v
    let xs ← hexDecode cs
    some ((h <<< 4 ||| l) :: xs)

/-- `KeyGenTest`. `tests/nist_acvp_vectors/mod.rs:58-72`. -/
structure KeyGenTest where
  sk_seed : List Char
  sk_prf : List Char
  pk_seed : List Char
  sk : List Char
  pk : List Char

/-- `SignTest`; `additional_randomness` may be absent. `tests/nist_acvp_vectors/mod.rs:171-183`. -/
structure SignTest where
  sk : List Char
  additional_randomness : Option (List Char)
  message : List Char
  signature : List Char

/-- `VerifyTest`. `tests/nist_acvp_vectors/mod.rs:292-304`. -/
structure VerifyTest where
  test_passed : Bool
  pk : List Char
  message : List Char
  signature : List Char

/-- An element of `"testGroups"`. `tests/nist_acvp_vectors/mod.rs:76`, `112-113`. -/
structure TestGroup (T : Type) where
  parameterSet : String
  /-- read by the signing suite only, `tests/nist_acvp_vectors/mod.rs:234` -/
  deterministic : Bool
  tests : List T

/-- The contents of a file. `tests/nist_acvp_vectors/mod.rs:107-112`. -/
structure KatFile (T : Type) where
  algorithm : String
  mode : String
  revision : String
  testGroups : List (TestGroup T)

/-- The `match` on the name of the parameter set. `tests/nist_acvp_vectors/mod.rs:114-166`, `235-287`,
`359-411`. -/
def acvpSet : String → Option Params
  | "SLH-DSA-SHA2-128s" => some slh_dsa_sha2_128s
  | "SLH-DSA-SHAKE-128s" => some slh_dsa_shake_128s
  | "SLH-DSA-SHA2-128f" => some slh_dsa_sha2_128f
  | "SLH-DSA-SHAKE-128f" => some slh_dsa_shake_128f
  | "SLH-DSA-SHA2-192s" => some slh_dsa_sha2_192s
  | "SLH-DSA-SHAKE-192s" => some slh_dsa_shake_192s
  | "SLH-DSA-SHA2-192f" => some slh_dsa_sha2_192f
  | "SLH-DSA-SHAKE-192f" => some slh_dsa_shake_192f
  | "SLH-DSA-SHA2-256s" => some slh_dsa_sha2_256s
  | "SLH-DSA-SHAKE-256s" => some slh_dsa_shake_256s
  | "SLH-DSA-SHA2-256f" => some slh_dsa_sha2_256f
  | "SLH-DSA-SHAKE-256f" => some slh_dsa_shake_256f
  | _ => none

section
variable {m : Type → Type} [Rust m] (C : Crypto m)

/-- `dehex`, and the `unwrap` of the test that is being read. `tests/nist_acvp_vectors/mod.rs:19-25`, `77`, `188`,
`309`. -/
def dehex (s : List Char) : m (List UInt8) :=
  match hexDecode s with
  | some x => pure x
  | none => panic .unwrap

/-- The same with `default`: no bytes if the field is absent. `tests/nist_acvp_vectors/mod.rs:177-178`. -/
def dehex_default : Option (List Char) → m (List UInt8)
  | some s => dehex s
  | none => pure []

/-- `a + b` on `i32`. `tests/nist_acvp_vectors/mod.rs:96`, `216`, `341`. -/
def addI32 (a b : Int32) : m Int32 :=
  ovf (decide (a.toInt + b.toInt < -2 ^ 31 ∨ 2 ^ 31 ≤ a.toInt + b.toInt)) (a + b)

/-- The end of each test: a failure is counted. `tests/nist_acvp_vectors/mod.rs:92-97`, `212-217`, `337-342`. -/
def count_failure (fail_count : Int32) (passed : Bool) : m Int32 :=
  if passed then pure fail_count else addI32 fail_count 1

/-- `assert_eq!` of the names in the file. `tests/nist_acvp_vectors/mod.rs:109-111`, `229-231`, `354-356`. -/
def check_header {T : Type} (kat : KatFile T) (mode : String) : m Unit := do
  assert (kat.algorithm == "SLH-DSA")
  assert (kat.mode == mode)
  assert (kat.revision == "FIPS205")

/-- The loop over the groups, with a group of an unknown name left out, and the final assertion.
`tests/nist_acvp_vectors/mod.rs:112-168`, `232-289`, `357-413`. -/
def run_groups {T : Type} (groups : List (TestGroup T)) (test : Params → TestGroup T → Int32 → m Int32) : m Unit := do
  let fail_count ← forEach groups (0 : Int32) fun group fail_count =>
    match acvpSet group.parameterSet with
    | some p => test p group fail_count
    | none => pure fail_count
  assert (fail_count == 0)

/-- `test_keygen!`. `tests/nist_acvp_vectors/mod.rs:74-100`. -/
def test_keygen (p : Params) (group : TestGroup KeyGenTest) (fail_count : Int32) : m Int32 :=
  forEach group.tests fail_count fun test fail_count => do
    let sk_seed ← dehex test.sk_seed
    let sk_prf ← dehex test.sk_prf
    let pk_seed ← dehex test.pk_seed
    let sk ← dehex test.sk
    let pk ← dehex test.pk
    let passed ← acvp_keygen p C sk_seed sk_prf pk_seed sk pk
    count_failure fail_count passed

/-- `run_keygen_tests`. `tests/nist_acvp_vectors/mod.rs:102-169`. -/
def run_keygen_tests (kat : KatFile KeyGenTest) : m Unit := do
  check_header kat "keyGen"
  run_groups kat.testGroups (test_keygen C)

/-- `test_sign!`. `tests/nist_acvp_vectors/mod.rs:185-220`. -/
def test_sign (p : Params) (group : TestGroup SignTest) (fail_count : Int32) : m Int32 :=
  forEach group.tests fail_count fun test fail_count => do
    let sk ← dehex test.sk
    let additional_randomness ← dehex_default test.additional_randomness
    let message ← dehex test.message
    let signature ← dehex test.signature
    let passed ← acvp_sign p C group.deterministic sk additional_randomness message signature
    count_failure fail_count passed

/-- `run_signing_tests`. `tests/nist_acvp_vectors/mod.rs:222-290`. -/
def run_signing_tests (kat : KatFile SignTest) : m Unit := do
  check_header kat "sigGen"
  run_groups kat.testGroups (test_sign C)

/-- `test_verify!`, where `run` is `catch_unwind`. `tests/nist_acvp_vectors/mod.rs:306-345`. -/
def test_verify (run : m Bool → Except Panic Bool) (p : Params) (group : TestGroup VerifyTest)
    (fail_count : Int32) : m Int32 :=
  forEach group.tests fail_count fun test fail_count => do
    let pk ← dehex test.pk
    let message ← dehex test.message
    let signature ← dehex test.signature
    let is_valid := run (acvp_verify_closure p C pk message signature)
    count_failure fail_count (acvp_verdict is_valid test.test_passed)

/-- `run_verification_tests`. `tests/nist_acvp_vectors/mod.rs:347-414`. -/
def run_verification_tests (run : m Bool → Except Panic Bool) (kat : KatFile VerifyTest) : m Unit := do
  check_header kat "sigVer"
  run_groups kat.testGroups (test_verify C run)

end

end Fips205.Model
