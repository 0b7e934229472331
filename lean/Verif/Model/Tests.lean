import Verif.Model.Clients

/-! # The test programs of the repository

What they leave behind (prints, counts of failures) is the result of the functions here.  No leakage is
recorded outside the calls of the crate. -/

namespace Fips205.Model

section
variable {m : Type → Type} [Rust m] (p : Params) (C : Crypto m)

/-- `.unwrap()`, `.expect(..)` on a `Result`. `tests/nist_acvp_vectors/mod.rs:87`, `195`, `src/lib.rs:397`. -/
def unwrap {ε α : Type} : Except ε α → m α
  | .ok v => pure v
  | .error _ => panic .unwrap

/-- `.try_into().expect(..)` from a slice to a reference to an array. `tests/nist_acvp_vectors/mod.rs:193`, `319`,
`326`. -/
def tryIntoArray (n : Nat) (x : List UInt8) : m (Vector UInt8 n) :=
  if h : x.length = n then pure ⟨x.toArray, by simpa using h⟩ else panic .unwrap

/-- `assert!(c)`. `src/lib.rs:405`. -/
def assert (c : Bool) : m Unit := if c then pure () else panic .assertion

/-! ## `tests/nist_acvp_vectors/mod.rs`, `tests/py_vectors.rs` -/

/-- `TestRng` (`tests/nist_acvp_vectors/mod.rs:27-56`, `tests/py_vectors.rs:6-38`): delivers what was pushed, the
last first. -/
def testRng : Rng m (List (List UInt8)) where
  tryFill s n _ := match s.getLast? with
    | none => panic .unwrap
    | some x => do
      let out ← copyFromSlice n x
      pure (s.dropLast, .ok out)

/-- The body of `test_keygen!` (`tests/nist_acvp_vectors/mod.rs:80-97`): did the test pass? -/
def acvp_keygen (sk_seed sk_prf pk_seed sk pk : List UInt8) : m Bool := do
  let rnd := (([] ++ [pk_seed]) ++ [sk_prf]) ++ [sk_seed]
  let (_, r) ← try_keygen_with_rng p C testRng rnd
  let (pk', sk') ← unwrap r
  let pkb ← pk'.into_bytes
  let pk_match := pkb.toList == pk
  let skb ← sk'.into_bytes
  let sk_match := skb.toList == sk
  pure (pk_match && sk_match)

/-- The body of `test_sign!` (`tests/nist_acvp_vectors/mod.rs:191-217`) -/
def acvp_sign (deterministic : Bool) (sk additional_randomness message signature : List UInt8) : m Bool := do
  let skb ← tryIntoArray p.SK_LEN sk
  let r ← PrivateKey.try_from_bytes (p := p) C skb
  let sk ← unwrap r
  let (_, r) ← if deterministic then sk._test_only_raw_sign C testRng [] message false
    else sk._test_only_raw_sign C testRng ([] ++ [additional_randomness]) message true
  let sig_exp ← unwrap r
  pure (sig_exp.toList == signature)

/-- The closure in `test_verify!` (`tests/nist_acvp_vectors/mod.rs:316-329`) -/
def acvp_verify_closure (pk message signature : List UInt8) : m Bool := do
  let pkb ← tryIntoArray p.PK_LEN pk
  let r ← PublicKey.try_from_bytes (p := p) pkb
  let pk ← unwrap r
  let sig ← tryIntoArray p.SIG_LEN signature
  let r ← pk._test_only_raw_verify C message sig
  unwrap r

/-- `vector_slh_dsa_*` (`tests/py_vectors.rs:43-62` and the eleven copies below it) with the constants as
arguments. -/
def py_vector (M sk_seed sk_prf pk_seed opt_rand sig_exp : List UInt8) : m Unit := do
  let rnd := ((([] ++ [opt_rand]) ++ [pk_seed]) ++ [sk_prf]) ++ [sk_seed]
  let (rnd, r) ← try_keygen_with_rng p C testRng rnd
  let (pk, sk) ← unwrap r
  let (_, r) ← sk._test_only_raw_sign C testRng rnd M true
  let sig_act ← unwrap r
  assert (sig_act.toList.length == sig_exp.length)
  assert (sig_act.toList == sig_exp)
  let r ← pk._test_only_raw_verify C M sig_act
  let result ← unwrap r
  assert result

/-! ## `src/lib.rs`, module `tests` -/

/-- The string `"context"`. `src/lib.rs:403`. -/
def ctxBytes : List UInt8 := [99, 111, 110, 116, 101, 120, 116]

/-- The string `"some other context"`. `src/lib.rs:412`. -/
def otherCtxBytes : List UInt8 :=
  [115, 111, 109, 101, 32, 111, 116, 104, 101, 114, 32, 99, 111, 110, 116, 101, 120, 116]

/-- `src/lib.rs:414-422`: one round of the loop -/
def round_trip_ph {σ : Type} (rng : Rng m σ) (pk : PublicKey p) (sk : PrivateKey p) (ph : Ph) (s : σ) : m σ := do
  let (s, r) ← sk.try_hash_sign_with_rng C rng s [0, 1, 2, 3] ctxBytes ph true
  let sig ← unwrap r
  let result ← pk.hash_verify C [0, 1, 2, 3] sig ctxBytes ph
  assert result
  let result ← pk.hash_verify C [0, 1, 2, 3] sig otherCtxBytes ph
  assert (!result)
  pure s

/-- `simple_round_trips` (`src/lib.rs:394-423`); `ChaCha8Rng` is the parameter `rng`. -/
def simple_round_trips {σ : Type} (rng : Rng m σ) (s : σ) : m Unit := do
  let (s, r) ← try_keygen_with_rng p C rng s
  let (pk1, sk1) ← unwrap r
  let pk1_bytes ← pk1.into_bytes
  let sk1_bytes ← sk1.into_bytes
  let r ← PublicKey.try_from_bytes (p := p) pk1_bytes
  let pk2 ← unwrap r
  let r ← PrivateKey.try_from_bytes (p := p) C sk1_bytes
  let sk2 ← unwrap r
  let (s, r) ← sk2.try_sign_with_rng C rng s [0, 1, 2, 3] ctxBytes true
  let sig ← unwrap r
  let result ← pk2.verify C [0, 1, 2, 3] sig ctxBytes
  assert result
  let (pk3, sk3) ← keygen_with_seeds p C (Vector.replicate p.N 0) (Vector.replicate p.N 1)
    (Vector.replicate p.N 2)
  let (s, r) ← sk3.try_sign_with_rng C rng s [0, 1, 2, 3] ctxBytes true
  let sig ← unwrap r
  let result ← pk3.verify C [0, 1, 2, 3] sig ctxBytes
  assert result
  let result ← pk2.verify C [0, 1, 2, 3] sig otherCtxBytes
  assert (!result)
  let _ ← forEach [Ph.SHA256, .SHA512, .SHAKE128, .SHAKE256] s (round_trip_ph p C rng pk2 sk2)
  pure ()

/-! ## `tests/messages.rs` -/

/-- `test_browser_message` (`tests/messages.rs:7-22`), with the constants as arguments; it is marked
`#[ignore]`. -/
def test_browser_message {σ : Type} (rng : Rng m σ) (s : σ) (sk_exp sig_exp pk_exp : List UInt8) : m Unit := do
  let (s, r) ← try_keygen_with_rng slh_dsa_sha2_128f C rng s
  let (pk, sk) ← unwrap r
  let (_, r) ← sk.try_sign_with_rng C rng s [97, 115, 100, 102] [] true
  let sig ← unwrap r
  let result ← pk.verify C [97, 115, 100, 102] sig ctxBytes
  assert result
  let skb ← sk.into_bytes
  assert (skb.toList == sk_exp)
  assert (sig.toList == sig_exp)
  let pkb ← pk.into_bytes
  assert (pkb.toList == pk_exp)

/-! ## `dudect/src/main.rs` -/

/-- `TestRng` (`dudect/src/main.rs:8-25`): delivers the same bytes again and again. -/
def dudectRng : Rng m (Vector UInt8 16) where
  tryFill z n _ := do
    let out ← copyFromSlice n z.toList
    pure (z, .ok out)

/-- One round of the loop in the measured closure (`dudect/src/main.rs:54-55`); the model keeps what the
program throws away. -/
def dudect_round (z : Vector UInt8 16) :
    m (Vector UInt8 16 × PublicKey slh_dsa_sha2_128s × Except String (Vector UInt8 slh_dsa_sha2_128s.SIG_LEN)) := do
  let (z, r) ← try_keygen_with_rng slh_dsa_sha2_128s C dudectRng z
  let (pk, sk) ← unwrap r
  let (z, sig) ← sk.try_sign_with_rng C dudectRng z [0, 1, 2, 3, 4, 5, 6, 7] [0] true
  pure (z, pk, sig)

/-- The measured closure (`dudect/src/main.rs:52-57`), with the key and the signature of each round. -/
def dudect_closure (z : Vector UInt8 16) :
    m (List (PublicKey slh_dsa_sha2_128s × Except String (Vector UInt8 slh_dsa_sha2_128s.SIG_LEN))) := do
  let (_, out) ← forUsize 0 2 (z, []) fun _ (z, out) => do
    let (z, pk, sig) ← dudect_round C z
    pure (z, out ++ [(pk, sig)])
  pure out

/-- `z_left` (`dudect/src/main.rs:37`) -/
def dudectLeft : Vector UInt8 16 := Vector.replicate 16 0xAA
/-- `z_right` (`dudect/src/main.rs:38`) -/
def dudectRight : Vector UInt8 16 := Vector.replicate 16 0x55

/-! ## `ffi/tests/baseline.c` -/

/-- `ffi/tests/baseline.c:30-41`: signing with null pointers; the exit code -/
def baseline_null_sign {σ : Type} (os : Rng m σ) (s : σ) (message : List UInt8)
    (private' : Option (Vector UInt8 slh_dsa_sha2_128f.SK_LEN))
    (sig : Option (Vector UInt8 slh_dsa_sha2_128f.SIG_LEN)) : m (Ffi Nat) := do
  match ← slh_dsa_sha2_128f_sign C os s .null 3 private' sig with
  | .ub => pure .ub
  | .ret (s, err, sig) =>
    if err ≠ headerErr.nullPtr then pure (.ret 1)
    else do
      match ← slh_dsa_sha2_128f_sign C os s (.to message) 3 none sig with
      | .ub => pure .ub
      | .ret (s, err, _) =>
        if err ≠ headerErr.nullPtr then pure (.ret 1)
        else do
          match ← slh_dsa_sha2_128f_sign C os s (.to message) 3 private' none with
          | .ub => pure .ub
          | .ret (_, err, _) => if err ≠ headerErr.nullPtr then pure (.ret 1) else pure (.ret 0)

/-- `ffi/tests/baseline.c:20-41`: key generation with null pointers, and the above -/
def baseline_nulls {σ : Type} (os : Rng m σ) (s : σ) (message : List UInt8)
    (public' : Option (Vector UInt8 slh_dsa_sha2_128f.PK_LEN))
    (private' : Option (Vector UInt8 slh_dsa_sha2_128f.SK_LEN))
    (sig : Option (Vector UInt8 slh_dsa_sha2_128f.SIG_LEN)) : m (Ffi Nat) := do
  let (s, err, _, _) ← slh_dsa_sha2_128f_keygen C os s public' none
  if err ≠ headerErr.nullPtr then pure (.ret 1)
  else do
    let (s, err, _, private') ← slh_dsa_sha2_128f_keygen C os s none private'
    if err ≠ headerErr.nullPtr then pure (.ret 1)
    else baseline_null_sign C os s message private' sig

/-- `main` (`ffi/tests/baseline.c:5-42`), built by `ffi/tests/Makefile` for `slh_dsa_sha2_128f`: the exit code.
`public'`, `private'` and `sig` are the contents of the uninitialised variables. -/
def baseline_main {σ : Type} (os : Rng m σ) (s : σ) (public' : Vector UInt8 slh_dsa_sha2_128f.PK_LEN)
    (private' : Vector UInt8 slh_dsa_sha2_128f.SK_LEN) (sig : Vector UInt8 slh_dsa_sha2_128f.SIG_LEN) :
    m (Ffi Nat) := do
  let (s, err, public', private') ← slh_dsa_sha2_128f_keygen C os s (some public') (some private')
  if err ≠ 0 then pure (.ret 1)
  else do
    match ← slh_dsa_sha2_128f_sign C os s (.to [0x00, 0x11, 0x22]) 3 private' (some sig) with
    | .ub => pure .ub
    | .ret (s, err, sig) =>
      if err ≠ 0 then pure (.ret 1)
      else do
        match ← slh_dsa_sha2_128f_verify C (.to [0x00, 0x11, 0x22]) 3 public' sig with
        | .ub => pure .ub
        | .ret err =>
          if err ≠ 0 then pure (.ret 1)
          else do
            match ← slh_dsa_sha2_128f_verify C (.to [99, 0x11, 0x22]) 3 public' sig with
            | .ub => pure .ub
            | .ret err =>
              if err ≠ headerErr.verify then pure (.ret 1)
              else baseline_nulls C os s [99, 0x11, 0x22] public' private' sig

end

/-- The end of `test_verify!` (`tests/nist_acvp_vectors/mod.rs:331-344`), where `is_valid` is what `catch_unwind`
makes of a run of the closure: did the test pass? -/
def acvp_verdict (is_valid : Except Panic Bool) (test_passed : Bool) : Bool :=
  (match is_valid with
    | .ok true => true
    | .ok false => false
    | .error _ => false) == test_passed

end Fips205.Model
