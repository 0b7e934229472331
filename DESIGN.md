# Formal model of integritychain/fips205 in Lean 4 — design

## Layout

```
properties.jsonl   the claims C01, C02, ... in terms of the API
MANIFEST.json      for each claim: status and the exact names of its theorems
seeded/LOG.jsonl   wrong programs the theorems were tested against (one line per attempt)
kat/run.py         runs the compiled model on the repository's test vectors
tools/items.py     compares the table of items in `Model/Items.lean` with the text of the source
lean/Verif/Model/* the code, function by function
lean/Verif/Spec/*  FIPS 205 and the notions the claims need, written independently of the code
lean/Verif/Proofs/* lemmas: program logics, model = specification, theory of the specification
lean/Verif/Props/* the theorems Cnn_*, each with an example that meets its hypotheses
lean/Verif/Exec/*  SHA-2, SHA-3 and a driver to run the model; no theorem depends on it
```

## The code model (`Verif/Model`)

Every function of `src/` that takes part in key generation, signing, verification,
(de)serialisation, hashing and the provided trait methods is one Lean function with the same name and
argument order; so are the three C entry points of `ffi/src/lib.rs`, the methods of `ffi/fips205.py` and the
two fuzz targets (`Model/Clients.lean`; these keep the results the targets throw away), and the test programs
(`Model/Tests.lean`): the ACVP and Python vectors, the round trip tests, `ffi/tests/baseline.c` and the measured
closure of `dudect/`, the three ACVP suites (`Model/Suites.lean`) and the programs that print keys
(`Model/Demo.lean`). Every definition cites file and lines.

The code runs in an arbitrary monad `m` with `class Rust m` (`Model/Rust.lean`):

* `panic`: overflow, bad index or slice, `copy_from_slice` length mismatch, failed `debug_assert!`,
  `unwrap` of an error, division by zero, `unimplemented!`;
* `leak`: what an observer of control flow and memory accesses sees — branch outcomes, loop trip counts,
  array indices, slice bounds, operands of variable-time comparisons, and for each hash call the
  function, the length of each `update` and the length of the output;
* `build`: overflow checks, debug assertions, width of `usize` (any width ≥ 16).

How Rust is read:

* `u8`, `u32`, `u64` are `UInt8`, `UInt32`, `UInt64`. `+ - * << >>` are checked: they panic or wrap
  according to `build`, as rustc does. `usize` is `Nat` with checks against `2 ^ usizeBits`.
* `[T; N]` is `Vector T N`; `&[T]` is `List T`; indexing and slicing are checked and panic.
* `Result` is `Except String`, `?` an explicit match. `&mut` arguments become returned values.
* `for` loops are recursions with the bounds of the code. `while` loops (`base_2b`, MGF1) are
  fuel-bounded; running out of fuel is a panic and is proved unreachable.

External crates are parameters: `sha2` and `sha3` are four arbitrary functions of the list of the
arguments of the `update` calls (`Crypto m`), instantiated in the theorems by functions of their concatenation, the RNG is an arbitrary state machine (`Rng m σ`). So every theorem holds for all hash
functions (of the right output length) and all RNGs. `zeroize` derives are modelled as "all bytes become 0".

### Where the model is simpler than the code

* `src/lib.rs` expands one macro twelve times; the model has one function with a record of the module's
  constants. `ParamSet` enumerates the twelve records.
* A hasher object is the list of its `update` arguments so far; the call is recorded at `finalize`.
* `SlhPrivateKey`, signatures etc. are values; memory (drop, stack remains, alignment) is not
  modelled. C33 speaks about the value after `zeroize`, not about copies left in memory.
* `leak` is recorded at `if`, `match` and `?` on a `Result`, null checks, loops, indices, slices and
  comparisons written in the code, not inside external crates or compiler-generated code.
* A panic in an `extern "C"` function is an abort. `Model/Ffi.lean` passes the contents of buffers: pointers
  are null or valid and do not alias. `Model/Memory.lean` models the same functions on addresses in a memory; there
  references that are not usable, and overlapping references of which one is `&mut`, are undefined behaviour (this
  is the strict reading: `verify` takes `&mut` but only reads). Read-only memory, alignment (1 for all types)
  and other threads are not modelled.
* `ctypes` passes `bytes` as a pointer to their contents and an `int` argument as its low 32 bits, read as a
  C `int`. A Python exception drops the RNG state.
* `cfg` attributes do not occur inside function bodies, so the functions of the model do not depend on the features.
  `Model/Items.lean` lists which items there are with which features and what each of them names; it is a scan of names
  (`tools/items.py`), not of types.
* Private functions that are inlined copies of each other in the code are separate in the model too
  (`sha2_cat_1`, `sha2_cat_3_5`, `shake`).

### Not modelled

The reading of JSON in `tests/` (`Model/Suites.lean` starts from the parsed file, whose strings are hexadecimal or
not), what serde makes of missing fields, the statistics
of `dudect-bencher`, the documentation apart from its examples, `Cargo.toml` beyond the build flags above and the features (`Model/Items.lean`), and the insides of the crates `sha2`, `sha3`,
`rand_core`, `zeroize`. Timing below the level of `leak` is not modelled.

## The specification (`Verif/Spec`)

* `Fips205`: algorithms 2–25 over `List UInt8` and `Nat`; ADRS is a 32-byte string with the member
  functions of Table 1; `base_2b` is given by arithmetic, not by the loop of the standard; XMSS and FORS
  nodes are recursive functions.
* `Section11`: the hash families of section 11 over arbitrary SHA-256, SHA-512, SHAKE128, SHAKE256;
  pre-hash OIDs; Table 2 as a list of rows.
* `Forgery`: what a collision, a preimage and a second preimage at an address is; `Break`.
* `Places`: where in a key a hash is computed, and its address.
* `Calls`, `Work`: lists of hash calls, and the places each operation must visit.
* `Seen`: what a verification hashes at each of its places, and how two verifications can disagree.
* `Run`: algorithms 5–25 and the functions of section 11 as programs that record their hash calls.

Nothing in `Spec` imports `Model`.

## Proof technique (`Verif/Proofs`)

* `Logic`: `Returns x P` — in every monad that satisfies the laws, `x` behaves as `pure v` with `P v`.
  It is stated so that results hold for every build at once. Rules for bind, loops, slices, arithmetic.
* `Helpers` … `Slh`, `Lib`, `Api`: refinement, function by function, of the model to the specification.
  `Matches`, `HashersRefine` tie the hash tables. C18–C20 are its top.
* `SpecCorrect`, `SpecHt`, `Consistent`: sign/verify round trip on the specification.
* `Digits`, `Forge`, `Meet`: WOTS+ checksum; extraction of a hash break from an accepted signature and the
  private key, and from two accepted signatures.
* `Trace*`: `TraceExec` records leaks; `Rel` relates two runs (C29, C30, C44).
* `Cost*`: upper bounds for the number of hash calls (C31, C45, C46).
* `Visit*`: `LogExec` records hash calls with inputs and outputs; `Visits`, `Makes` describe the log
  exactly (C43, C47).
* `Run*`: the refinement once more, for the log: which hash calls, and in which order (C63).
* `Hom`, `Erase`, `Both`: monad homomorphisms commute with the model, so the recording monads compute the
  same results as the plain one, and what one records agrees with what the other does (C55).

| id | theorem rests on |
|----|-----|
| C01–C03 | C18–C20 and correctness of the specification |
| C04–C06, C08–C10 | equations of the API in `Api` |
| C07 | `DummyRng` is one of the RNG state machines; seeds of the wrong length panic |
| C11–C15 | (de)serialisation lemmas |
| C16, C17 | byte-string injectivity |
| C18–C22 | refinement |
| C23, C24 | digit sums, arithmetic |
| C25, C42, C43 | injectivity of address encodings; consistency of all signatures of one key |
| C26, C27 | induction from the public root down to the FORS leaves |
| C28, C37, C39 | refinement: one value for every build |
| C29–C31, C44–C46 | trace and cost logics |
| C32, C40 | induction over histories of API calls |
| C33 | zeroize as modelled (see above) |
| C34–C36, C41 | model of the C entry points |
| C38 | the finite table of twelve sets against Table 2 |
| C47 | visit logic |
| C48, C49 | C26 and the FORS part of an honest signature |
| C50 | induction over the XMSS tree and the WOTS+ chains |
| C51, C52 | C01, C02, C49 and the C entry points |
| C53 | the two-run logic of C29, C30, C44, chained over histories (C40); `Props/MemoryTraces` for the C entry points with addresses |
| C54, C55 | the places of C47, counted; one run seen by both recording monads |
| C56 | C29, C55 for the RNG of the experiment |
| C57–C59 | refinement (C18–C20), C01, C02, C41, C48, C49 |
| C60 | induction from the public root down, for two verifications at once (`Meet`) |
| C61 | C48, and counting: a digest is determined by what it selects and its unused bits |
| C62 | C61 summed over all histories of digests; moments of the number of hits of a FORS key by falling factorials and Stirling numbers (`Proofs/Moments`) |
| C63 | refinement of the log (`Run*`) |
| C64 | C35, C01, C11, C12; case analysis of the addresses; `Props/MemoryTraces`: the entry points with addresses and with buffers are one program |
| C65 | C01 (completeness of `slh_verify` for every randomizer), `Proofs/Meet`; the parts of an honest signature depend on the FORS key and leaf only |
| C66 | `Proofs/Oracle` (adaptive games with a random function: at most `(T+1) α/β Σ S(k,j) (β (q + T q/|R|))^j`), `Proofs/Same` (what depends on `H_msg`), C26, C43, C62, C65. **Assumption in the statement, not in the proof**: `H_msg` is a uniformly random function on randomizers and a finite set of messages (any size), independent of the other functions, and each signature's randomizer is uniformly random; the strategy is deterministic (for a randomized one, average over its coins). A signature twice asked for the same message gets a new randomizer, as with hedged signing |
| C67 | `Props/RomGame` (the game), `Proofs/Hidden` (a random function applied to a secret and to its own values: each evaluation of a player is bad with probability at most `2/|D|`), `Proofs/Values` (the value at each place of a key, signatures as selections of values, which arguments stay unknown), `Proofs/Ask` and `Proofs/BreakAsk` (verification as a program that asks for hashes; every break shows in one of them), `Proofs/Rom` (the calls the code composes are different at different places, C43), C66. **Assumption in the statement, not in the proof**: the first `n` bytes of SHA-256, SHA-512 and SHAKE256 are a uniformly random function of the input, for inputs of up to `B` bytes (`B` at least the length of the longest input at a place), independent of `H_msg` and the randomizers. That the hash functions of the real world behave like this is the usual idealization (random oracle); it is not an axiom here, the theorem is about the average over all functions |
| C68 | `Props/FullGame` (the game, with the code's own table of hash functions), `Proofs/Congr` (keys, signatures and verdicts depend on the hash functions at places only), `Proofs/Override` (values of a random function at points known from the other values may be drawn separately), `Proofs/Opt` (randomizers as a random function of the request, from C67 by remembering signatures), `Proofs/Full`, `Proofs/Shake` (the inputs composed for `PRF_msg`, `H_msg` and the places are different, unless `SK.prf` is hit). **Assumption in the statement**: as for C67, for SHAKE256 with outputs of `w ≥ m` bytes; the average is over all functions |
| C69 | `Proofs/Lazy` (a player who looks values up in two stages, as in MGF1 over a digest: the composition behaves as one random function except when digests collide or are guessed), `Proofs/TwoStep` (HMAC: outer hash of a random inner hash), `Proofs/Sha2In` (the inputs composed for `PRF_msg`, `H_msg` and the places), `Proofs/Sha2Star`, `Proofs/Sha2Play` (a forger as such a player), `Props/Sha2`. **Assumption in the statement**: as for C68, for SHA-256 and SHA-512 with outputs of 64 bytes or more of which the code uses the beginning. The functions are random on the complete input: the iterated structure of SHA-2 (block by block, so that a digest can be continued) is not part of this idealization |
| C70 | `Props/ApiGame` (the game, with the functions of the API in any execution monad), `Proofs/Collide` (a program that evaluates a random function rarely meets a collision), `Proofs/ApiRun` (the outcome and the calls of the game, by C47 and C54), `Proofs/ApiForge` (a user of the API as a forger of C68/C69 against formatted messages; by C16 and C17 they win together, or a pre-hash collides), `Proofs/ApiTree` (the game run in a monad of programs that ask for hashes), `Props/ApiForgery`. **Assumption in the statement**: as for C68 and C69, now also for SHAKE128 |
| C71 | `Props/GenGame` (C70's game with `try_keygen_with_rng`), `Proofs/Shake` and `Props/Shake` (`shake_le`: the bound of C68 for any `PK.seed`, with a term for public keys that begin with an address), `Proofs/Addresses` (the root of a key is random; how many addresses there are), `Props/GenForgery`. **Assumption in the statement**: as for C70 |
| C72 | `Model/Docs` (the examples of the doc comments, with the parameter set as an argument; `benches/benchmark.rs`, Criterion's loop with any number of rounds), `Props/Docs` |
| C73 | `Props/MultiGame` (the game with any number of keys, for any parameter sets, made with `try_keygen_with_rng` from one generator; the forger may get private keys), `Proofs/Multi` (a forger against one key who makes the other keys: the model runs in the monad `AskExec` of programs that ask for hashes, and its questions become calls of the forger), `Props/MultiForgery`. **Assumption in the statement**: as for C70 |
| C74 | `Proofs/Thread` (the monad `Thread` of calls that stop at each draw; the API as equations in it; a call among others is a call alone that is dealt the same answers), `Props/Threads` (the system: a scheduler starts calls and serves draws in any order). **Assumption in the model**: calls share nothing but the generator and immutable keys (no unsafe code, no interior mutability, no mutable statics in `/repo/src`), and one draw is served at a time |
| C75 | `Props/CForgery` (the game with the C functions and byte buffers; a C program is turned into a user of the API, and C71 applies). **Assumption in the statement**: as for C70 |
| C76 | `Spec/Bind`, `Props/BindGame`, `Props/Binding` (two climbs with the same signature and root; they part only at a collision, at a chain that loops, or at digests that begin alike; `Proofs/Late`: no value of a random function is foretold). **Assumption in the statement** of the bound: the hash functions are random functions |
| C77 | `Props/Machine` (every operation of `Model/Rust` against integers and lists) |
| C78 | `Props/OwnGame`, `Props/Ownership` (`Proofs/Hit`: a value of a random function is seldom in a list that what was seen before determines; `Proofs/OwnParts`: the list — values at other points, parts of points, the one value that a given WOTS+ signature and key sign, the one digest for which a given signature leads to a given root; `Proofs/OwnUnique`, `OwnCore`, `OwnKey`: if no value is in its list, an accepted signature is for the signer's key and request). **Assumption in the statement** of the bound: the hash functions are random functions |
| C79 | `Props/ResignGame`, `Props/Resign` (`Proofs/Feed`: the values at the points of a program may be drawn before it is run; `Proofs/ResignPoints`: the points of the signer that depend on the message, and what must be guessed to reach one of them; `Proofs/ResignSign`: the rest of the signer is given the digest and no message; `Proofs/ResignOrder`, `ResignPlay`: without a guess, an accepted signature has a digest that was asked for after it was fixed, as in C78; `Proofs/ResignAvg`: each guess is independent of what it must match). **Assumption in the statement** of the bound: the hash functions are random functions |
| C80 | `Props/Suites` (`Spec/Text`: hexadecimal and the names of Table 2; `Model/Suites`: the three suites on files whose JSON has been read) |
| C81 | `Props/Demo` (`Model/Demo`; the wasm example is modelled with an empty context and an assertion on the result of `verify`, since it does not compile as it is) |
| C82 | `Props/DupGame` (the game), `Props/Duplicate`; C50 is the statement for a fixed PK.seed without probabilities |
| C83 | `Props/RecoverGame` (the game), `Props/Recover`; by C73, since whoever has a private key can sign with it |
| C84 | `Model/Items` (features, items, uses; `tools/items.py` reads the tables from the source and compares), `Props/Features` |
| C85 | `Props/Weak`: from C70, C71, C73 and C83, by the density and by the distance of the distribution |
| C86 | `Props/Distinct`: two draws of one string, summed over the pairs of keys; no assumption on the hash functions |
| C87 | `Proofs/Faults` (runs with a hash unit, `Ends`), `Proofs/FaultsRun` (layer by layer), `Props/Faults` |
| C88 | `Proofs/FaultsAgree` (runs as trees of calls; watched and mended units), `Proofs/FaultsGraft` (signing with errors off the verifier's path), `Props/Graft` |
| C89 | `Proofs/Regraft` (a signature with its layers from one on replaced), `Props/Reused` |
| C90 | `Props/Shared` (on `Proofs/Regraft`, where the second signature may be one of the other set) |
| C91 | `Props/Apart` (on `Props/Visits`) |
| C92 | `Props/Blind` (on `Proofs/Blind`, `Proofs/Ask`, `Proofs/Override`) |
| C93 | `Props/Spread` (on `Proofs/Spread`, `Proofs/Blind`, `Proofs/Sha2Star`, `Proofs/Override`) |
| C94 | `Props/Average` (on `Proofs/Average`, `Proofs/Values`, `Proofs/Override`, C54) |
| C95 | `Props/Damage` (on C71) |
| C96 | `Props/Ideal` (on C73, C83, C01, C02): up to the first wrong verdict the environment is a forger who looks the verdicts up, and computes those for users with exposed keys |
| C97 | `Props/CIdeal` (on C75, C34, C35): the same for programs that use the C entry points, with buffers and return codes |
| C98 | `Props/Fresh` (on `Proofs/Fresh`, `Proofs/Spread`) |
| C99 | `Props/PyIdeal` (on C97, C52): a Python program is a C program that reads codes and buffers as the wrapper does |
| C100 | `Props/KeyDamage` (on `Proofs/KeyDamage`) |

In C92–C100 probabilities are averages over all functions in the place of the hash functions, as described for C67–C70.

C36 is *false* of the code (verification does not null-check the message; a negative length aborts):
its safe part is proved, the rest refuted with witnesses, and C41 gives the exact behaviour.

Other things found on the way: `ffi/fips205.h` declares keys and signatures that are only read `const`, but the Rust
side takes `&mut`, so a C caller who shares them between overlapping calls breaks Rust's rules unknowingly (C64); `keygen_with_seeds` panics for seeds of the wrong length (C07), and the parameter set does not enter the secret values, so the same
seeds must not be used for a small and a fast set (C90); every byte string
decodes to a public key (C11); a wrong `SK.prf` is not noticed when decoding (C12); rejecting a private
key compares in variable time (C30); a zeroized key still signs (C33); the Python wrapper aborts for
message lengths in `[2^31, 2^32)` modulo `2^32`, and ignores all but the first `length mod 2^32` bytes of longer
messages (C52); test 4 of the verification fuzz target never runs for inputs below 255 bytes (C51); the ignored
test `tests/messages.rs` signs and verifies with different contexts (C59); `run_signing_tests` opens
`SLH-DSA-sigGen-FIPS205/internalProjection.json`, which is not in the repository; the two classes of the timing
experiment differ in public data too, so differences it finds need not be leaks (C56).

## Evidence that the model is the code

* Each definition cites its lines and keeps names, order of operations and byte layouts.
* `kat/run.py` compiles the model with the SHA-2 and SHA-3 of `Verif/Exec` and compares it with the
  vectors in `/repo/tests`: the NIST key generation vectors (40), the NIST verification vectors (45,
  valid and invalid), re-signing of the valid ones, and the twelve key/signature vectors of
  `tests/py_vectors.rs`. All 112 agree (`kat/RESULT.txt`). The Rust code itself was never run.
* `seeded/LOG.jsonl`: realistic bugs put into a scratch copy of the model; each must make a theorem fail.

## Trusted base

* The Lean 4.33.0 kernel, and Mathlib's statements of the few notions used in the theorems (lists,
  naturals, `List.Nodup`, `List.Perm`).
* Axioms: no theorem uses any axiom beyond `propext`, `Classical.choice`, `Quot.sound`; most use all three.
  None: `C16_pure_prehash_disjoint`, `C17_prehash_determined`, `C43_xmss_addresses`. Only `propext`:
  `C38_parameter_table`. `propext` and `Quot.sound`: `C15_public_key_bytes`, `C16_pure_injective`,
  `C17_prehash_injective`, `C22_to_int`, `C26_break_meaning`, `C33_zeroize`, `C34_keygen_*`,
  `C35_sign_null`, `C35_sign_error_untouched`, all `C36_*`.
  There are no project axioms, no `sorry`, no `native_decide`, no `bv_decide`.
* The reading of the Rust code into `Verif/Model`, and of FIPS 205 into `Verif/Spec`.
* The compiler is not trusted: nothing proved depends on running compiled code.
