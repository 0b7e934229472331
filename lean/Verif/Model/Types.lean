import Verif.Model.Rust

/-! # `src/types.rs` -/

namespace Fips205.Model

/-- `src/types.rs:5-14` -/
inductive Ph
  | SHA256 | SHA512 | SHAKE128 | SHAKE256
  deriving DecidableEq, Repr

/-- `src/types.rs:66-68` (`Auth`) -/
structure Auth (A N : Nat) where
  tree : Vector (Vector UInt8 N) A

/-- `src/types.rs:51-56` (`ForsSig`) -/
structure ForsSig (A K N : Nat) where
  private_key_value : Vector (Vector UInt8 N) K
  auth : Vector (Auth A N) K

/-- `src/types.rs:59-62` (`ForsPk`) -/
structure ForsPk (N : Nat) where
  key : Vector UInt8 N

/-- `src/types.rs:78-82` (`WotsSig`) -/
structure WotsSig (LEN N : Nat) where
  data : Vector (Vector UInt8 N) LEN

/-- `src/types.rs:85-86` (`WotsPk`) -/
structure WotsPk (N : Nat) where
  val : Vector UInt8 N

/-- `src/types.rs:89-94` (`XmssSig`) -/
structure XmssSig (HP LEN N : Nat) where
  sig_wots : WotsSig LEN N
  auth : Vector (Vector UInt8 N) HP

/-- `src/types.rs:98` (`get_wots_sig`) -/
def XmssSig.get_wots_sig {HP LEN N : Nat} (s : XmssSig HP LEN N) : WotsSig LEN N := s.sig_wots

/-- `src/types.rs:100` (`get_xmss_auth`) -/
def XmssSig.get_xmss_auth {HP LEN N : Nat} (s : XmssSig HP LEN N) : Vector (Vector UInt8 N) HP :=
  s.auth

/-- `src/types.rs:71-75` (`HtSig`) -/
structure HtSig (D HP LEN N : Nat) where
  xmss_sigs : Vector (XmssSig HP LEN N) D

/-- `src/types.rs:17-30` (`SlhDsaSig`) -/
structure SlhDsaSig (A D HP K LEN N : Nat) where
  randomness : Vector UInt8 N
  fors_sig : ForsSig A K N
  ht_sig : HtSig D HP LEN N

/-- `src/types.rs:33-38` (`SlhPublicKey`) -/
@[ext] structure SlhPublicKey (N : Nat) where
  pk_seed : Vector UInt8 N
  pk_root : Vector UInt8 N
  deriving DecidableEq

/-- `src/types.rs:41-48` (`SlhPrivateKey`) -/
@[ext] structure SlhPrivateKey (N : Nat) where
  sk_seed : Vector UInt8 N
  sk_prf : Vector UInt8 N
  pk_seed : Vector UInt8 N
  pk_root : Vector UInt8 N
  deriving DecidableEq

/-- `src/types.rs:104` -/
def WOTS_HASH : UInt32 := 0
/-- `src/types.rs:105` -/
def WOTS_PK : UInt32 := 1
/-- `src/types.rs:106` -/
def TREE : UInt32 := 2
/-- `src/types.rs:107` -/
def FORS_TREE : UInt32 := 3
/-- `src/types.rs:108` -/
def FORS_ROOTS : UInt32 := 4
/-- `src/types.rs:109` -/
def WOTS_PRF : UInt32 := 5
/-- `src/types.rs:110` -/
def FORS_PRF : UInt32 := 6

/-- `src/types.rs:114-132` (`Adrs`): the eight 4-byte words of an address. -/
@[ext] structure Adrs where
  f0 : Vector UInt8 4
  f1 : Vector UInt8 4
  f2 : Vector UInt8 4
  f3 : Vector UInt8 4
  f4 : Vector UInt8 4
  f5 : Vector UInt8 4
  f6 : Vector UInt8 4
  f7 : Vector UInt8 4
  deriving DecidableEq

/-- `src/types.rs:114`: the derived `Default` of `Adrs` (all bytes zero). -/
def Adrs.default : Adrs :=
  let z : Vector UInt8 4 := Vector.replicate 4 0
  ⟨z, z, z, z, z, z, z, z⟩

/-- The all-zero `[u8; N]`, `[0u8; N]`. `src/slh.rs:27`, `src/hashers.rs:43`. -/
def zeroBytes (N : Nat) : Vector UInt8 N := Vector.replicate N 0

/-- The all-zero FORS signature built before it is filled in: `src/slh.rs:165-168`,
`src/fors.rs:115-118`, `src/helpers.rs:161-164`. -/
def ForsSig.zero (A K N : Nat) : ForsSig A K N :=
  { private_key_value := Vector.replicate K (zeroBytes N)
    auth := Vector.replicate K { tree := Vector.replicate A (zeroBytes N) } }

/-- The all-zero XMSS signature: `src/xmss.rs:91-94`, `src/hypertree.rs:40-43`. -/
def XmssSig.zero (HP LEN N : Nat) : XmssSig HP LEN N :=
  { sig_wots := { data := Vector.replicate LEN (zeroBytes N) }
    auth := Vector.replicate HP (zeroBytes N) }

/-- The all-zero hypertree signature: `src/hypertree.rs:39-44`, `src/slh.rs:169-174`,
`src/helpers.rs:165-170`. -/
def HtSig.zero (D HP LEN N : Nat) : HtSig D HP LEN N :=
  { xmss_sigs := Vector.replicate D (XmssSig.zero HP LEN N) }

end Fips205.Model
