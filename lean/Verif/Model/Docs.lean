import Verif.Model.Tests

/-! # The examples in the documentation (`src/lib.rs`, `src/traits.rs`) and `benches/benchmark.rs`

The operating system's RNG (`OsRng`) is the parameter `os`.  The examples are written for `slh_dsa_shake_128s`
and say that any of the twelve parameter sets could be used; the parameter set is the argument `p` here.  No
leakage is recorded outside the calls of the crate. -/

namespace Fips205.Model

section
variable {m : Type → Type} [Rust m] (p : Params) (C : Crypto m)

/-- The message of the examples and of the benchmark. `src/traits.rs:31`, `benches/benchmark.rs:12`. -/
def docMsg : List UInt8 := [0, 1, 2, 3, 4, 5, 6, 7]

variable {p} in
/-- The second half of every example: the public key is sent as bytes, decoded and used. `src/traits.rs:42-53`. -/
def doc_receive {σ : Type} (s : σ) (pk1 : PublicKey p) (check : PublicKey p → m Bool) :
    m (σ × Except String Unit) := do
  let pk_send ← pk1.into_bytes
  let r ← PublicKey.try_from_bytes (p := p) pk_send
  match r with
  | .error e => pure (s, .error e)
  | .ok pk2 => do
    let v ← check pk2
    assert v
    pure (s, .ok ())

variable {p} in
/-- Signing and what follows, in the examples with `try_sign` or `try_sign_with_rng`. `src/traits.rs:39-53`,
`128-143`, `299-313`. -/
def doc_sign {σ : Type} (os : Rng m σ) (s : σ) (pk1 : PublicKey p) (sk : PrivateKey p) :
    m (σ × Except String Unit) := do
  let (s, r) ← sk.try_sign C os s docMsg ctxBytes true
  match r with
  | .error e => pure (s, .error e)
  | .ok sig => doc_receive s pk1 fun pk2 => pk2.verify C docMsg sig ctxBytes

/-- The example `src/traits.rs:24-55` and its copies `68-100`, `188-219`, `284-315`, `415-446`, `511-534`,
`542-565` and in `src/lib.rs:111-142`, `153-185`, `README.md:25-55`. -/
def doc_pure {σ : Type} (os : Rng m σ) (s : σ) : m (σ × Except String Unit) := do
  let (s, r) ← try_keygen p C os s
  match r with
  | .error e => pure (s, .error e)
  | .ok (pk1, sk) => doc_sign C os s pk1 sk

/-- The example of `keygen_with_seeds`, `src/traits.rs:112-145`. -/
def doc_seeds {σ : Type} (os : Rng m σ) (s : σ) : m (σ × Except String Unit) := do
  let (pk1, sk) ← keygen_with_seeds p C (Vector.replicate p.N 0) (Vector.replicate p.N 1) (Vector.replicate p.N 2)
  doc_sign C os s pk1 sk

/-- The examples of pre-hash signatures, `src/traits.rs:235-267`, `455-487` (with `Ph::SHA256`), `329-363` (with
`Ph::SHA512`). -/
def doc_hash {σ : Type} (ph : Ph) (os : Rng m σ) (s : σ) : m (σ × Except String Unit) := do
  let (s, r) ← try_keygen p C os s
  match r with
  | .error e => pure (s, .error e)
  | .ok (pk1, sk) => do
    let (s, r) ← sk.try_hash_sign C os s docMsg ctxBytes ph true
    match r with
    | .error e => pure (s, .error e)
    | .ok sig => doc_receive s pk1 fun pk2 => pk2.hash_verify C docMsg sig ctxBytes ph

/-- The example of `get_public_key`, `src/traits.rs:371-390`; the result includes the two public keys (the
example drops them). -/
def doc_public {σ : Type} (os : Rng m σ) (s : σ) : m (σ × Except String (PublicKey p × PublicKey p)) := do
  let (s, r) ← try_keygen p C os s
  match r with
  | .error e => pure (s, .error e)
  | .ok (pk1, sk) => pure (s, .ok (pk1, sk.get_public_key))

end

section
variable {m : Type → Type} [Rust m] (C : Crypto m)

/-- The order in which the keys are made. `benches/benchmark.rs:15-26`. -/
def benchSets : List ParamSet :=
  [.slh_dsa_sha2_128s, .slh_dsa_sha2_128f, .slh_dsa_sha2_192s, .slh_dsa_sha2_192f, .slh_dsa_sha2_256s,
   .slh_dsa_sha2_256f, .slh_dsa_shake_128s, .slh_dsa_shake_128f, .slh_dsa_shake_192s, .slh_dsa_shake_192f,
   .slh_dsa_shake_256s, .slh_dsa_shake_256f]

/-- The variables `pk_*`, `sk_*` of one parameter set. `benches/benchmark.rs:15-26`. -/
structure BenchKeys where
  ps : ParamSet
  pk : PublicKey ps.params
  sk : PrivateKey ps.params

/-- ... with `sig_*`. `benches/benchmark.rs:28-39`. -/
structure BenchVars extends BenchKeys where
  sig : Vector UInt8 ps.params.SIG_LEN

/-- `benches/benchmark.rs:15-26`: the keys of the given parameter sets -/
def bench_keys {σ : Type} (os : Rng m σ) : List ParamSet → σ → m (σ × List BenchKeys)
  | [], s => pure (s, [])
  | ps :: rest, s => do
    let (s, r) ← try_keygen ps.params C os s
    let (pk, sk) ← unwrap r
    let (s, l) ← bench_keys os rest s
    pure (s, { ps, pk, sk } :: l)

/-- `benches/benchmark.rs:28-39`: the signatures with the given keys (`hedged` is `false`, line 13) -/
def bench_sigs {σ : Type} (os : Rng m σ) : List BenchKeys → σ → m (σ × List BenchVars)
  | [], s => pure (s, [])
  | k :: rest, s => do
    let (s, r) ← k.sk.try_sign C os s docMsg ctxBytes false
    let sig ← unwrap r
    let (s, l) ← bench_sigs os rest s
    pure (s, { toBenchKeys := k, sig } :: l)

/-- The first part of `criterion_benchmark`, `benches/benchmark.rs:12-39`. -/
def bench_setup {σ : Type} (os : Rng m σ) (s : σ) : m (σ × List BenchVars) := do
  let (s, keys) ← bench_keys C os benchSets s
  bench_sigs C os keys s

/-- The closures of `benches/benchmark.rs:41-52`.  Criterion runs each closure as often as it likes. -/
def bench_keygen {σ : Type} (os : Rng m σ) (ps : ParamSet) (s : σ) :
    m (σ × Except String (PublicKey ps.params × PrivateKey ps.params)) :=
  try_keygen ps.params C os s

/-- The closures of `benches/benchmark.rs:54-89`. -/
def bench_sign {σ : Type} (os : Rng m σ) (v : BenchVars) (s : σ) :
    m (σ × Except String (Vector UInt8 v.ps.params.SIG_LEN)) :=
  v.sk.try_sign C os s docMsg ctxBytes false

/-- The closures of `benches/benchmark.rs:91-126`. -/
def bench_verify (v : BenchVars) : m Bool := v.pk.verify C docMsg v.sig ctxBytes

/-- `b.iter(f)` with `n` rounds: what the rounds return, in order. `benches/benchmark.rs:41`. -/
def benchIter {σ α : Type} (f : σ → m (σ × α)) : Nat → σ → m (σ × List α)
  | 0, s => pure (s, [])
  | n + 1, s => do
    let (s, a) ← f s
    let (s, l) ← benchIter f n s
    pure (s, a :: l)

end

end Fips205.Model
