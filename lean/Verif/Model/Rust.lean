/-!
# The fragment of Rust's run-time semantics the model needs

The model of the crate runs in an arbitrary monad `m` with an instance of `Rust m`.  The class gives
the three effects that safe, allocation-free, single-threaded Rust code such as this crate has beside
returning a value:

* `panic`: the thread panics (overflow, bad index, failed assertion, `unwrap` on an error, ...);
* `leak`: what an observer of the control flow and of the memory access pattern sees (branch
  outcomes, loop trip counts, array indices, shape of hash calls).  It has no functional effect;
* `build`: the compile-time configuration the behaviour may depend on.

Integer types: `u8`, `u32`, `u64` are `UInt8`, `UInt32`, `UInt64`; `usize` is `Nat` with explicit
checks against `2 ^ usizeBits`.  Arrays `[T; N]` are `Vector T N`; slices `&[T]` are `List T`.
-/

namespace Fips205.Model

/-- Why a computation did not return: the panics the crate's operations can raise.
`outOfFuel` is an artefact of modelling `while` loops by bounded recursion; like every other
constructor it is proved unreachable. Examples: `src/helpers.rs:20` (overflow), `86` (index), `src/hypertree.rs:26`
(unwrap), `src/traits.rs:158` (unimplemented), `src/lib.rs:405` (assertion). -/
inductive Panic
  | overflow | divByZero | index | slice | copyLen | debugAssert | unwrap | unimplemented | assertion
  | outOfFuel
  deriving DecidableEq, Repr

/-- Build configuration: `overflow-checks`, `debug-assertions` and the width of `usize`
(at least 16 bits by the Rust reference).  `Cargo.toml:55-65` sets profiles with both values of
the flags. -/
structure Build where
  overflowChecks : Bool
  debugAssertions : Bool
  usizeBits : Nat
  usizeBits_ge : 16 ≤ usizeBits

/-- The hash functions of the external crates `sha2` and `sha3`. `src/hashers.rs:29`, `102`, `213`, `323-325`. -/
inductive HashAlg
  | sha256 | sha512 | shake128 | shake256
  deriving DecidableEq, Repr

/-- What an observer of control flow and memory accesses sees. Examples: `src/slh.rs:115`, `src/xmss.rs:173`
(branches), `src/wots.rs:30` (loop), `src/helpers.rs:86` (index), `src/hypertree.rs:160` (comparison),
`src/hashers.rs:33-36` (hash). -/
inductive Leak
  /-- outcome of a conditional branch -/
  | branch (b : Bool)
  /-- number of iterations of a loop -/
  | trip (n : Nat)
  /-- index used to access an array -/
  | index (i : Nat)
  /-- bounds used to take a sub-slice -/
  | range (lo hi : Nat)
  /-- a variable-time comparison of two byte strings: the observer learns both -/
  | cmp (a b : List UInt8)
  /-- a call to a hash function, with the number of bytes of each `update` and of the output -/
  | hash (alg : HashAlg) (inLens : List Nat) (outLen : Nat)
  deriving DecidableEq, Repr

/-- The effects of the modelled code. They are those of `src/*.rs`; see the operations below for the lines. -/
class Rust (m : Type → Type) extends Monad m where
  panic : {α : Type} → Panic → m α
  leak : Leak → m Unit
  build : Build

section
variable {m : Type → Type} [Rust m] {α β σ : Type}

export Rust (panic leak)

/-- The result `v` of an arithmetic operation that overflows iff `c`: with overflow checks the
operation panics, without them it yields the wrapped value. `Cargo.toml:55-65`. -/
def ovf (c : Bool) (v : α) : m α :=
  if c && (Rust.build m).overflowChecks then panic .overflow else pure v

/-- `a + b` on `u32`. `src/helpers.rs:86`, `92`, `src/wots.rs:30`, `src/xmss.rs:50`. -/
def addU32 (a b : UInt32) : m UInt32 := ovf (decide (2 ^ 32 ≤ a.toNat + b.toNat)) (a + b)
/-- `a - b` on `u32`. `src/helpers.rs:47`, `98`, `src/wots.rs:130`, `src/fors.rs:228`. -/
def subU32 (a b : UInt32) : m UInt32 := ovf (decide (a.toNat < b.toNat)) (a - b)
/-- `a * b` on `u32`. `src/helpers.rs:66`, `src/wots.rs:124`, `src/xmss.rs:46`. -/
def mulU32 (a b : UInt32) : m UInt32 := ovf (decide (2 ^ 32 ≤ a.toNat * b.toNat)) (a * b)
/-- `a / b` on `u32` (division by zero panics in every build). `src/helpers.rs:66`, `src/xmss.rs:176`,
`src/slh.rs:193`. -/
def divU32 (a b : UInt32) : m UInt32 := if b = 0 then panic .divByZero else pure (a / b)
/-- `a << s` on `u32`: overflow means a shift amount of at least 32 (bits shifted out are dropped
silently in every build); without checks the amount is masked. `src/helpers.rs:86`, `src/wots.rs:136`,
`src/fors.rs:133`. -/
def shlU32 (a s : UInt32) : m UInt32 := ovf (decide (32 ≤ s.toNat)) (a <<< s)
/-- `a >> s` on `u32`. `src/helpers.rs:50`, `101`, `src/xmss.rs:100`. -/
def shrU32 (a s : UInt32) : m UInt32 := ovf (decide (32 ≤ s.toNat)) (a >>> s)

/-- `a + b` on `u64`. `src/helpers.rs:20`. -/
def addU64 (a b : UInt64) : m UInt64 := ovf (decide (2 ^ 64 ≤ a.toNat + b.toNat)) (a + b)
/-- `a - b` on `u64`. `src/hypertree.rs:56`, `130`. -/
def subU64 (a b : UInt64) : m UInt64 := ovf (decide (a.toNat < b.toNat)) (a - b)
/-- `a << s` with `a : u64`, `s : u32`. `src/helpers.rs:20`, `src/hypertree.rs:56`. -/
def shlU64 (a : UInt64) (s : UInt32) : m UInt64 :=
  ovf (decide (64 ≤ s.toNat)) (a <<< s.toUInt64)
/-- `a >> s` with `a : u64`, `s : u32`. `src/hypertree.rs:59`, `src/slh.rs:194`. -/
def shrU64 (a : UInt64) (s : UInt32) : m UInt64 :=
  ovf (decide (64 ≤ s.toNat)) (a >>> s.toUInt64)

/-- `a + b` on `usize`. `src/helpers.rs:89`, `130`, `src/hashers.rs:45`, `src/slh.rs:181`. -/
def addUsize (a b : Nat) : m Nat :=
  ovf (decide (2 ^ (Rust.build m).usizeBits ≤ a + b)) ((a + b) % 2 ^ (Rust.build m).usizeBits)
/-- `a - b` on `usize`; the wrapped value (no overflow checks) is `2^bits + a - b`. `src/hashers.rs:126`, `139`,
`src/slh.rs:185`. -/
def subUsize (a b : Nat) : m Nat :=
  ovf (decide (a < b)) ((2 ^ (Rust.build m).usizeBits + a - b) % 2 ^ (Rust.build m).usizeBits)
/-- `a * b` on `usize`. `src/helpers.rs:124`, `src/wots.rs:124`, `src/slh.rs:181`. -/
def mulUsize (a b : Nat) : m Nat :=
  ovf (decide (2 ^ (Rust.build m).usizeBits ≤ a * b)) ((a * b) % 2 ^ (Rust.build m).usizeBits)
/-- `a / b` on `usize`. `src/slh.rs:181`, `185`, `189`. -/
def divUsize (a b : Nat) : m Nat := if b = 0 then panic .divByZero else pure (a / b)

/-- `x as usize` for `x : u32` (truncates if `usize` is narrower than 32 bits). `src/helpers.rs:10`, `47`,
`src/wots.rs:84`. -/
def asUsize (x : UInt32) : m Nat := pure (x.toNat % 2 ^ (Rust.build m).usizeBits)
/-- `x as u32` for `x : usize`. `src/wots.rs:222`. -/
def usizeAsU32 (x : Nat) : UInt32 := UInt32.ofNat x
/-- `u32::try_from(x).unwrap()` for `x : usize`. `src/wots.rs:58`, `src/xmss.rs:89`, `src/slh.rs:62`. -/
def u32TryFromUnwrap (x : Nat) : m UInt32 :=
  if x < 2 ^ 32 then pure (UInt32.ofNat x) else panic .unwrap

/-- `debug_assert!(c)`: `c` itself is computed inside the assertion, hence only when debug assertions
are enabled. `src/helpers.rs:10-11`, `37-38`, `66-68`, `121-126`, `148`, `src/wots.rs:19`. -/
def debugAssert (c : m Bool) : m Unit :=
  if (Rust.build m).debugAssertions then do
    if ← c then pure () else panic .debugAssert
  else pure ()

/-- `arr[i]` on an array. `src/wots.rs:227-229`, `src/fors.rs:194`. -/
def vget {n : Nat} (v : Vector α n) (i : Nat) : m α := do
  leak (.index i)
  if h : i < n then pure v[i] else panic .index

/-- `arr[i] = x` on an array. `src/helpers.rs:47`, `src/wots.rs:84`. -/
def vset {n : Nat} (v : Vector α n) (i : Nat) (x : α) : m (Vector α n) := do
  leak (.index i)
  if h : i < n then pure (v.set i x) else panic .index

/-- `s[i]` on a slice. `src/helpers.rs:86`. -/
def lget (v : List α) (i : Nat) : m α := do
  leak (.index i)
  if h : i < v.length then pure v[i] else panic .index

/-- `&s[lo..hi]`: panics unless `lo ≤ hi ≤ s.len()`. `src/hashers.rs:109`, `139`, `src/slh.rs:182`. -/
def slice (s : List α) (lo hi : Nat) : m (List α) := do
  leak (.range lo hi)
  if lo ≤ hi ∧ hi ≤ s.length then pure ((s.drop lo).take (hi - lo)) else panic .slice

/-- `dst.copy_from_slice(src)` where `dst : [T; n]` is overwritten entirely. `src/hashers.rs:166`,
`src/helpers.rs:172`. -/
def copyFromSlice (n : Nat) (src : List α) : m (Vector α n) :=
  if h : src.length = n then pure ⟨src.toArray, by simpa using h⟩ else panic .copyLen

/-- `dst[lo..hi].copy_from_slice(src)`: panics unless `lo ≤ hi ≤ n` and `src.len() = hi - lo`.
`src/helpers.rs:127`, `130`, `src/hashers.rs:45`. -/
def writeSlice {n : Nat} (dst : Vector α n) (lo hi : Nat) (src : List α) : m (Vector α n) := do
  leak (.range lo hi)
  if h : lo ≤ hi ∧ hi ≤ n then
    if h' : src.length = hi - lo then
      pure ⟨(dst.toList.take lo ++ src ++ dst.toList.drop hi).toArray, by
        simp [h']; omega⟩
    else panic .copyLen
  else panic .slice

/-- `count` iterations of a loop body, with the loop variable starting at `i`. Used by the next two, for the loops
cited there (`src/helpers.rs:44`, `129`). -/
def loopFrom (body : Nat → σ → m σ) : (count i : Nat) → σ → m σ
  | 0, _, s => pure s
  | c + 1, i, s => do
    let s ← body i s
    loopFrom body c (i + 1) s

/-- `for i in lo..hi { .. }` with `usize` bounds. `src/helpers.rs:129`, `src/wots.rs:219`. -/
def forUsize (lo hi : Nat) (s : σ) (body : Nat → σ → m σ) : m σ := do
  leak (.trip (hi - lo))
  loopFrom body (hi - lo) lo s

/-- `for i in lo..hi { .. }` with `u32` bounds. `src/helpers.rs:44`, `src/wots.rs:30`, `src/xmss.rs:97`. -/
def forU32 (lo hi : UInt32) (s : σ) (body : UInt32 → σ → m σ) : m σ := do
  leak (.trip (hi.toNat - lo.toNat))
  loopFrom (fun i => body (UInt32.ofNat i)) (hi.toNat - lo.toNat) lo.toNat s

/-- `for x in xs.iter() { .. }`. `src/helpers.rs:17`, `240`, `src/wots.rs:127`. -/
def forEach {ε : Type} (xs : List ε) (s : σ) (body : ε → σ → m σ) : m σ := do
  leak (.trip xs.length)
  xs.foldlM (fun s x => body x s) s

/-- `count` iterations of a loop body that may leave the function early (`?` or `return`). `src/hypertree.rs:56`,
`133`, `src/fors.rs:150`. -/
def loopFromE {ε : Type} (body : Nat → σ → m (Except ε σ)) : (count i : Nat) → σ → m (Except ε σ)
  | 0, _, s => pure (.ok s)
  | c + 1, i, s => do
    match ← body i s with
    | .ok s => do
      leak (.branch true)
      loopFromE body c (i + 1) s
    | .error e => do
      leak (.branch false)
      pure (.error e)

/-- `for i in lo..hi { .. }` with `u32` bounds and a body that may leave the function early. `src/hypertree.rs:52`,
`127`, `src/fors.rs:125`. -/
def forU32E {ε : Type} (lo hi : UInt32) (s : σ) (body : UInt32 → σ → m (Except ε σ)) :
    m (Except ε σ) := do
  leak (.trip (hi.toNat - lo.toNat))
  loopFromE (fun i => body (UInt32.ofNat i)) (hi.toNat - lo.toNat) lo.toNat s

/-- `u32::try_from(x)` for `x : u64`. `src/hypertree.rs:56`, `130`, `src/slh.rs:338`. -/
def u32TryFromU64 (x : UInt64) : Except Unit UInt32 :=
  if x.toNat < 2 ^ 32 then .ok x.toUInt32 else .error ()

/-- `while c { .. }`, bounded by `fuel` iterations. `src/helpers.rs:83`, `src/hashers.rs:123`, `242`. -/
def whileFuel (cond : σ → Bool) (body : σ → m σ) : (fuel : Nat) → σ → m σ
  | 0, _ => panic .outOfFuel
  | f + 1, s => do
    leak (.branch (cond s))
    if cond s then do
      let s ← body s
      whileFuel cond body f s
    else pure s

end

/-- `x.to_be_bytes()` for `u32`. `src/helpers.rs:200`, `src/hashers.rs:125`. -/
def u32ToBe (x : UInt32) : Vector UInt8 4 :=
  #v[(x >>> 24).toUInt8, (x >>> 16).toUInt8, (x >>> 8).toUInt8, x.toUInt8]

/-- `u32::from_be_bytes(b)`. `src/helpers.rs:202`, `225`. -/
def u32FromBe (b : Vector UInt8 4) : UInt32 :=
  (b[0].toUInt32 <<< 24) ||| (b[1].toUInt32 <<< 16) ||| (b[2].toUInt32 <<< 8) ||| b[3].toUInt32

/-- `x.to_be_bytes()` for `u64`. `src/helpers.rs:216`. -/
def u64ToBe (x : UInt64) : Vector UInt8 8 :=
  #v[(x >>> 56).toUInt8, (x >>> 48).toUInt8, (x >>> 40).toUInt8, (x >>> 32).toUInt8,
     (x >>> 24).toUInt8, (x >>> 16).toUInt8, (x >>> 8).toUInt8, x.toUInt8]

/-- An RNG (`impl CryptoRngCore`): an arbitrary state machine.  `tryFill s buf` models
`rng.try_fill_bytes(&mut buf)`: it gets the old buffer contents and returns the new state and either
an error or the new buffer contents (it may read or even keep the old contents). `src/slh.rs:28`, `117`,
`src/lib.rs:262`. -/
structure Rng (m : Type → Type) (σ : Type) where
  tryFill : σ → {n : Nat} → Vector UInt8 n → m (σ × Except Unit (Vector UInt8 n))

/-- The external crates `sha2` and `sha3`: each function maps the arguments of the successive `update`
calls of a fresh hasher to the digest (`finalize`) or to the first `n` output bytes (`finalize_xof`,
`read`). `src/hashers.rs:33-36`, `86-92`, `106-108`, `225-227`, `333-335`, `355-358`. -/
structure Crypto (m : Type → Type) where
  sha256 : List (List UInt8) → m (Vector UInt8 32)
  sha512 : List (List UInt8) → m (Vector UInt8 64)
  shake128 : List (List UInt8) → (n : Nat) → m (Vector UInt8 n)
  shake256 : List (List UInt8) → (n : Nat) → m (Vector UInt8 n)

end Fips205.Model
