import Verif.Model.Lib

/-! # `src/traits.rs`: the provided methods -/

namespace Fips205.Model

section
variable {m : Type → Type} [Rust m]

/-- `src/traits.rs:155` (`DummyRng`) -/
structure DummyRng (n : Nat) where
  data : Vector (Vector UInt8 n) 3
  i : Nat

/-- `src/traits.rs:157-169`: `try_fill_bytes` of `DummyRng`.  The other methods are `unimplemented!()`
and are never called. -/
def dummyRng (n : Nat) : Rng m (DummyRng n) where
  tryFill self {_k} _out := do
    let d ← vget self.data self.i
    let out ← copyFromSlice _ d.toList
    let i ← addUsize self.i 1
    pure ({ self with i }, .ok out)

variable (p : Params) (C : Crypto m)

/-- `src/traits.rs:147-151` (`keygen_with_seeds`).  The seed length `n` is a generic of the method and
is not tied to the parameter set. -/
def keygen_with_seeds {n : Nat} (sk_seed sk_prf pk_seed : Vector UInt8 n) :
    m (PublicKey p × PrivateKey p) := do
  let (_, r) ← try_keygen_with_rng p C (dummyRng n)
    { data := #v[sk_seed, sk_prf, pk_seed], i := 0 }
  leak (.branch r.isOk)
  match r with
  | .ok kp => pure kp
  | .error _ => panic .unwrap

/-- `src/traits.rs:57-59` (`try_keygen`): the operating system's RNG is the parameter `os`. -/
def try_keygen {σ : Type} (os : Rng m σ) (s : σ) :
    m (σ × Except String (PublicKey p × PrivateKey p)) :=
  try_keygen_with_rng p C os s

variable {p}

/-- `src/traits.rs:221-225` (`try_sign`) -/
def PrivateKey.try_sign {σ : Type} (self : PrivateKey p) (os : Rng m σ) (s : σ)
    (message ctx : List UInt8) (hedged : Bool) : m (σ × Except String (Vector UInt8 p.SIG_LEN)) :=
  self.try_sign_with_rng C os s message ctx hedged

/-- `src/traits.rs:269-273` (`try_hash_sign`) -/
def PrivateKey.try_hash_sign {σ : Type} (self : PrivateKey p) (os : Rng m σ) (s : σ)
    (message ctx : List UInt8) (ph : Ph) (hedged : Bool) :
    m (σ × Except String (Vector UInt8 p.SIG_LEN)) :=
  self.try_hash_sign_with_rng C os s message ctx ph hedged

end

end Fips205.Model
