import Verif.Model.Slh

/-! # `src/lib.rs`: the parameter sets and the public API -/

namespace Fips205.Model

/-- Which sub-module of `src/hashers.rs` a parameter set imports its hash functions from. `src/lib.rs:450-1026`
(the `use` lines of the modules), `src/hashers.rs:26`, `99`, `210`. -/
inductive HashFamily
  | shake | sha2_cat_1 | sha2_cat_3_5
  deriving DecidableEq, Repr

/-- The constants of a parameter-set module. For instance `src/lib.rs:454-470`. -/
structure Params where
  fam : HashFamily
  N : Nat
  H : Nat
  D : Nat
  HP : Nat
  A : Nat
  K : Nat
  M : Nat
  LEN : Nat
  PK_LEN : Nat
  SIG_LEN : Nat
  SK_LEN : Nat
  deriving DecidableEq, Repr

/-- `src/lib.rs:449-476` -/
def slh_dsa_sha2_128s : Params :=
  { fam := .sha2_cat_1, N := 16, H := 63, D := 7, HP := 9, A := 12, K := 14, M := 30,
    LEN := 2 * 16 + 3, PK_LEN := 32, SIG_LEN := 7856, SK_LEN := 32 * 2 }

/-- `src/lib.rs:499-526` -/
def slh_dsa_shake_128s : Params :=
  { fam := .shake, N := 16, H := 63, D := 7, HP := 9, A := 12, K := 14, M := 30,
    LEN := 2 * 16 + 3, PK_LEN := 32, SIG_LEN := 7856, SK_LEN := 32 * 2 }

/-- `src/lib.rs:549-576` -/
def slh_dsa_sha2_128f : Params :=
  { fam := .sha2_cat_1, N := 16, H := 66, D := 22, HP := 3, A := 6, K := 33, M := 34,
    LEN := 2 * 16 + 3, PK_LEN := 32, SIG_LEN := 17088, SK_LEN := 32 * 2 }

/-- `src/lib.rs:599-626` -/
def slh_dsa_shake_128f : Params :=
  { fam := .shake, N := 16, H := 66, D := 22, HP := 3, A := 6, K := 33, M := 34,
    LEN := 2 * 16 + 3, PK_LEN := 32, SIG_LEN := 17088, SK_LEN := 32 * 2 }

/-- `src/lib.rs:649-676` -/
def slh_dsa_sha2_192s : Params :=
  { fam := .sha2_cat_3_5, N := 24, H := 63, D := 7, HP := 9, A := 14, K := 17, M := 39,
    LEN := 2 * 24 + 3, PK_LEN := 48, SIG_LEN := 16224, SK_LEN := 48 * 2 }

/-- `src/lib.rs:699-726` -/
def slh_dsa_shake_192s : Params :=
  { fam := .shake, N := 24, H := 63, D := 7, HP := 9, A := 14, K := 17, M := 39,
    LEN := 2 * 24 + 3, PK_LEN := 48, SIG_LEN := 16224, SK_LEN := 48 * 2 }

/-- `src/lib.rs:749-776` -/
def slh_dsa_sha2_192f : Params :=
  { fam := .sha2_cat_3_5, N := 24, H := 66, D := 22, HP := 3, A := 8, K := 33, M := 42,
    LEN := 2 * 24 + 3, PK_LEN := 48, SIG_LEN := 35664, SK_LEN := 48 * 2 }

/-- `src/lib.rs:799-826` -/
def slh_dsa_shake_192f : Params :=
  { fam := .shake, N := 24, H := 66, D := 22, HP := 3, A := 8, K := 33, M := 42,
    LEN := 2 * 24 + 3, PK_LEN := 48, SIG_LEN := 35664, SK_LEN := 48 * 2 }

/-- `src/lib.rs:849-876` -/
def slh_dsa_sha2_256s : Params :=
  { fam := .sha2_cat_3_5, N := 32, H := 64, D := 8, HP := 8, A := 14, K := 22, M := 47,
    LEN := 2 * 32 + 3, PK_LEN := 64, SIG_LEN := 29792, SK_LEN := 64 * 2 }

/-- `src/lib.rs:899-926` -/
def slh_dsa_shake_256s : Params :=
  { fam := .shake, N := 32, H := 64, D := 8, HP := 8, A := 14, K := 22, M := 47,
    LEN := 2 * 32 + 3, PK_LEN := 64, SIG_LEN := 29792, SK_LEN := 64 * 2 }

/-- `src/lib.rs:949-976` -/
def slh_dsa_sha2_256f : Params :=
  { fam := .sha2_cat_3_5, N := 32, H := 68, D := 17, HP := 4, A := 9, K := 35, M := 49,
    LEN := 2 * 32 + 3, PK_LEN := 64, SIG_LEN := 49856, SK_LEN := 64 * 2 }

/-- `src/lib.rs:999-1026` -/
def slh_dsa_shake_256f : Params :=
  { fam := .shake, N := 32, H := 68, D := 17, HP := 4, A := 9, K := 35, M := 49,
    LEN := 2 * 32 + 3, PK_LEN := 64, SIG_LEN := 49856, SK_LEN := 64 * 2 }

/-- The twelve parameter-set modules. `src/lib.rs:448-1026`. -/
inductive ParamSet
  | slh_dsa_sha2_128s
  | slh_dsa_shake_128s
  | slh_dsa_sha2_128f
  | slh_dsa_shake_128f
  | slh_dsa_sha2_192s
  | slh_dsa_shake_192s
  | slh_dsa_sha2_192f
  | slh_dsa_shake_192f
  | slh_dsa_sha2_256s
  | slh_dsa_shake_256s
  | slh_dsa_sha2_256f
  | slh_dsa_shake_256f
  deriving DecidableEq, Repr

/-- The constants of each module. `src/lib.rs:448-1026`. -/
def ParamSet.params : ParamSet → Params
  | .slh_dsa_sha2_128s => Model.slh_dsa_sha2_128s
  | .slh_dsa_shake_128s => Model.slh_dsa_shake_128s
  | .slh_dsa_sha2_128f => Model.slh_dsa_sha2_128f
  | .slh_dsa_shake_128f => Model.slh_dsa_shake_128f
  | .slh_dsa_sha2_192s => Model.slh_dsa_sha2_192s
  | .slh_dsa_shake_192s => Model.slh_dsa_shake_192s
  | .slh_dsa_sha2_192f => Model.slh_dsa_sha2_192f
  | .slh_dsa_shake_192f => Model.slh_dsa_shake_192f
  | .slh_dsa_sha2_256s => Model.slh_dsa_sha2_256s
  | .slh_dsa_shake_256s => Model.slh_dsa_shake_256s
  | .slh_dsa_sha2_256f => Model.slh_dsa_sha2_256f
  | .slh_dsa_shake_256f => Model.slh_dsa_shake_256f

section
variable {m : Type → Type} [Rust m] (p : Params) (C : Crypto m)

/-- `static HASHERS` of each parameter-set module (`src/lib.rs:472-473` and the same two lines in the
other modules), with the imports from `src/hashers.rs` that the module selects. -/
def HASHERS : Hashers m p.K p.LEN p.M p.N :=
  match p.fam with
  | .shake =>
    { h_msg := shake.h_msg C p.M, prf := shake.prf C p.N, prf_msg := shake.prf_msg C p.N,
      f := shake.f C p.N, h := shake.h C p.N, t_l := shake.t_l C, t_len := shake.t_l C }
  | .sha2_cat_1 =>
    { h_msg := sha2_cat_1.h_msg C p.M, prf := sha2_cat_1.prf C p.N,
      prf_msg := sha2_cat_1.prf_msg C p.N, f := sha2_cat_1.f C p.N, h := sha2_cat_1.h C p.N,
      t_l := sha2_cat_1.t_l C, t_len := sha2_cat_1.t_l C }
  | .sha2_cat_3_5 =>
    { h_msg := sha2_cat_3_5.h_msg C p.M, prf := sha2_cat_3_5.prf C p.N,
      prf_msg := sha2_cat_3_5.prf_msg C p.N, f := sha2_cat_3_5.f C p.N, h := sha2_cat_3_5.h C p.N,
      t_l := sha2_cat_3_5.t_l C, t_len := sha2_cat_3_5.t_l C }

/-- `src/lib.rs:89-90` -/
structure PrivateKey where
  key : SlhPrivateKey p.N
  deriving DecidableEq

/-- `src/lib.rs:94-95` -/
structure PublicKey where
  key : SlhPublicKey p.N
  deriving DecidableEq

/-- `src/lib.rs:198-203` (and the free function, `186-190`, that calls it) -/
def try_keygen_with_rng {σ : Type} (rng : Rng m σ) (s : σ) :
    m (σ × Except String (PublicKey p × PrivateKey p)) := do
  let (s, res) ← slh_keygen_with_rng p.D p.HP rng s (HASHERS p C)
  leak (.branch res.isOk)
  match res with
  | .error e => pure (s, .error e)
  | .ok (sk, pk) => pure (s, .ok ({ key := pk }, { key := sk }))

/-- The error returned for an over-long context: `src/lib.rs:216`, `231`. -/
def ctxError : String := "ctx must be less than 256 bytes"

/-- `sig.map(|s| s.serialize())`: `src/lib.rs:222`, `245`, `272`. -/
def mapSerialize (r : Except String (SlhDsaSig p.A p.D p.HP p.K p.LEN p.N)) :
    m (Except String (Vector UInt8 p.SIG_LEN)) := do
  leak (.branch r.isOk)
  match r with
  | .error e => pure (.error e)
  | .ok sig => do
    let out ← sig.serialize p.SIG_LEN
    pure (.ok out)

variable {p}

/-- `src/lib.rs:212-223`; `ctx.len().to_le_bytes()[0]` is the low byte of the length. -/
def PrivateKey.try_sign_with_rng {σ : Type} (self : PrivateKey p) (rng : Rng m σ) (s : σ)
    (msg ctx : List UInt8) (hedged : Bool) :
    m (σ × Except String (Vector UInt8 p.SIG_LEN)) := do
  leak (.branch (decide (255 < ctx.length)))
  if 255 < ctx.length then pure (s, .error ctxError)
  else do
    let mp : List (List UInt8) := [[0], [UInt8.ofNat ctx.length], ctx, msg]
    let (s, sig) ← slh_sign_with_rng p.A p.D p.H p.HP rng s (HASHERS p C) mp self.key hedged
    let r ← mapSerialize p sig
    pure (s, r)

/-- `src/lib.rs:226-246` -/
def PrivateKey.try_hash_sign_with_rng {σ : Type} (self : PrivateKey p) (rng : Rng m σ) (s : σ)
    (message ctx : List UInt8) (ph : Ph) (hedged : Bool) :
    m (σ × Except String (Vector UInt8 p.SIG_LEN)) := do
  leak (.branch (decide (255 < ctx.length)))
  if 255 < ctx.length then pure (s, .error ctxError)
  else do
    let phm := zeroBytes 64
    let (oid, phm_len, phm) ← hash_message C message ph phm
    let d ← slice phm.toList 0 phm_len
    let mp : List (List UInt8) := [[1], [UInt8.ofNat ctx.length], ctx, oid.toList, d]
    let (s, sig) ← slh_sign_with_rng p.A p.D p.H p.HP rng s (HASHERS p C) mp self.key hedged
    let r ← mapSerialize p sig
    pure (s, r)

/-- `src/lib.rs:249-251` -/
def PrivateKey.get_public_key (self : PrivateKey p) : PublicKey p :=
  { key := { pk_seed := self.key.pk_seed, pk_root := self.key.pk_root } }

/-- `src/lib.rs:254-273` -/
def PrivateKey._test_only_raw_sign {σ : Type} (self : PrivateKey p) (rng : Rng m σ) (s : σ)
    (msg : List UInt8) (hedged : Bool) : m (σ × Except String (Vector UInt8 p.SIG_LEN)) := do
  let opt_rand := self.key.pk_seed
  leak (.branch hedged)
  if hedged then do
    let (s, r) ← rng.tryFill s opt_rand
    leak (.branch r.isOk)
    match r with
    | .error _ => pure (s, .error "Alg17: rng failed")
    | .ok opt_rand => do
      let sig ← slh_sign_internal p.A p.D p.H p.HP (HASHERS p C) [msg] self.key opt_rand
      let r ← mapSerialize p sig
      pure (s, r)
  else do
    let sig ← slh_sign_internal p.A p.D p.H p.HP (HASHERS p C) [msg] self.key opt_rand
    let r ← mapSerialize p sig
    pure (s, r)

/-- `src/lib.rs:281-291` -/
def PublicKey.verify (self : PublicKey p) (msg : List UInt8) (sig_bytes : Vector UInt8 p.SIG_LEN)
    (ctx : List UInt8) : m Bool := do
  leak (.branch (decide (255 < ctx.length)))
  if 255 < ctx.length then pure false
  else do
    let sig ← SlhDsaSig.deserialize p.A p.D p.HP p.K p.LEN p.N sig_bytes.toList
    let mp : List (List UInt8) := [[0], [UInt8.ofNat ctx.length], ctx, msg]
    slh_verify p.H (HASHERS p C) mp sig self.key

/-- `src/lib.rs:294-314` -/
def PublicKey.hash_verify (self : PublicKey p) (msg : List UInt8)
    (sig_bytes : Vector UInt8 p.SIG_LEN) (ctx : List UInt8) (ph : Ph) : m Bool := do
  leak (.branch (decide (255 < ctx.length)))
  if 255 < ctx.length then pure false
  else do
    let sig ← SlhDsaSig.deserialize p.A p.D p.HP p.K p.LEN p.N sig_bytes.toList
    let phm := zeroBytes 64
    let (oid, phm_len, phm) ← hash_message C msg ph phm
    let d ← slice phm.toList 0 phm_len
    let mp : List (List UInt8) := [[1], [UInt8.ofNat ctx.length], ctx, oid.toList, d]
    slh_verify p.H (HASHERS p C) mp sig self.key

/-- `src/lib.rs:317-328` -/
def PublicKey._test_only_raw_verify (self : PublicKey p) (msg : List UInt8)
    (sig_bytes : Vector UInt8 p.SIG_LEN) : m (Except String Bool) := do
  let sig ← SlhDsaSig.deserialize p.A p.D p.HP p.K p.LEN p.N sig_bytes.toList
  let res ← slh_verify_internal p.H (HASHERS p C) [msg] sig self.key
  pure (.ok res)

/-- `src/lib.rs:338-343` -/
def PublicKey.into_bytes (self : PublicKey p) : m (Vector UInt8 p.PK_LEN) := do
  let out := zeroBytes p.PK_LEN
  let half ← divUsize p.PK_LEN 2
  let out ← writeSlice out 0 half self.key.pk_seed.toList
  let half ← divUsize p.PK_LEN 2
  writeSlice out half p.PK_LEN self.key.pk_root.toList

/-- `src/lib.rs:346-351` -/
def PublicKey.try_from_bytes (bytes : Vector UInt8 p.PK_LEN) :
    m (Except String (PublicKey p)) := do
  let half ← divUsize p.PK_LEN 2
  let sl ← slice bytes.toList 0 half
  let pk_seed ← copyFromSlice p.N sl
  let half ← divUsize p.PK_LEN 2
  let sl ← slice bytes.toList half p.PK_LEN
  let pk_root ← copyFromSlice p.N sl
  pure (.ok { key := { pk_seed, pk_root } })

/-- `src/lib.rs:359-366` -/
def PrivateKey.into_bytes (self : PrivateKey p) : m (Vector UInt8 p.SK_LEN) := do
  let bytes := zeroBytes p.SK_LEN
  let q ← divUsize p.SK_LEN 4
  let bytes ← writeSlice bytes 0 q self.key.sk_seed.toList
  let q ← divUsize p.SK_LEN 4
  let h ← divUsize p.SK_LEN 2
  let bytes ← writeSlice bytes q h self.key.sk_prf.toList
  let h ← divUsize p.SK_LEN 2
  let t ← mulUsize 3 p.SK_LEN
  let t ← divUsize t 4
  let bytes ← writeSlice bytes h t self.key.pk_seed.toList
  let t ← mulUsize 3 p.SK_LEN
  let t ← divUsize t 4
  writeSlice bytes t p.SK_LEN self.key.pk_root.toList

/-- `src/lib.rs:369-383`.  The comparison `!=` of the two roots is not constant time. -/
def PrivateKey.try_from_bytes (bytes : Vector UInt8 p.SK_LEN) :
    m (Except String (PrivateKey p)) := do
  let q ← divUsize p.SK_LEN 4
  let sl ← slice bytes.toList 0 q
  let sk_seed ← copyFromSlice p.N sl
  let q ← divUsize p.SK_LEN 4
  let h ← divUsize p.SK_LEN 2
  let sl ← slice bytes.toList q h
  let sk_prf ← copyFromSlice p.N sl
  let h ← divUsize p.SK_LEN 2
  let t ← mulUsize 3 p.SK_LEN
  let t ← divUsize t 4
  let sl ← slice bytes.toList h t
  let pk_seed ← copyFromSlice p.N sl
  let t ← mulUsize 3 p.SK_LEN
  let t ← divUsize t 4
  let sl ← slice bytes.toList t p.SK_LEN
  let pk_root ← copyFromSlice p.N sl
  let (sk_test, _) ← slh_keygen_internal p.D p.HP (HASHERS p C) sk_seed sk_prf pk_seed
  leak (.cmp sk_test.pk_root.toList pk_root.toList)
  if sk_test.pk_root ≠ pk_root then pure (.error "Corrupted key")
  else pure (.ok { key := { sk_seed, sk_prf, pk_seed, pk_root } })

/-- The derived `Zeroize` of `PrivateKey` (`src/lib.rs:89`) and `SlhPrivateKey` (`src/types.rs:42`):
every byte of every field becomes zero. -/
def PrivateKey.zeroize (_self : PrivateKey p) : PrivateKey p :=
  { key := { sk_seed := zeroBytes p.N, sk_prf := zeroBytes p.N, pk_seed := zeroBytes p.N,
             pk_root := zeroBytes p.N } }

/-- The derived `Zeroize` of `PublicKey` (`src/lib.rs:94`) and `SlhPublicKey` (`src/types.rs:34`). -/
def PublicKey.zeroize (_self : PublicKey p) : PublicKey p :=
  { key := { pk_seed := zeroBytes p.N, pk_root := zeroBytes p.N } }

end

end Fips205.Model
