import Verif.Spec.Fips205

/-! # FIPS 205 section 11: parameter sets and hash function constructions -/

namespace Fips205.Spec

/-- SHA-256, SHA-512, SHAKE128 and SHAKE256 with output lengths in bytes: arbitrary functions, except
for the lengths of their outputs. -/
structure Prims where
  sha256 : Bytes → Vector UInt8 32
  sha512 : Bytes → Vector UInt8 64
  shake128 : Bytes → (n : Nat) → Vector UInt8 n
  shake256 : Bytes → (n : Nat) → Vector UInt8 n

/-- `Trunc_ℓ` -/
def trunc (l : Nat) (X : Bytes) : Bytes := X.take l

/-- RFC 8017 appendix B.2.1, `MGF1(seed, len)` for a hash function with `hLen`-byte output. -/
def mgf1 (hash : Bytes → Bytes) (hLen : Nat) (seed : Bytes) (len : Nat) : Bytes :=
  trunc len (concat ((len + hLen - 1) / hLen) fun c => hash (seed ++ toByte c 4))

/-- FIPS 198-1: HMAC with block size `B` and a key no longer than `B` bytes. -/
def hmac (hash : Bytes → Bytes) (B : Nat) (K text : Bytes) : Bytes :=
  let K0 := (if K.length ≤ B then K else hash K)
  let K0 := K0 ++ List.replicate (B - K0.length) 0
  hash (K0.map (· ^^^ 0x5c) ++ hash (K0.map (· ^^^ 0x36) ++ text))

section
variable (P : Prims) (n m : Nat)

/-- 11.1: SLH-DSA using SHAKE. -/
def shakeFns : HashFns where
  Hmsg R PKseed PKroot M := (P.shake256 (R ++ PKseed ++ PKroot ++ M) m).toList
  PRF PKseed SKseed ADRS := (P.shake256 (PKseed ++ ADRS ++ SKseed) n).toList
  PRFmsg SKprf optRand M := (P.shake256 (SKprf ++ optRand ++ M) n).toList
  F PKseed ADRS M1 := (P.shake256 (PKseed ++ ADRS ++ M1) n).toList
  H PKseed ADRS M2 := (P.shake256 (PKseed ++ ADRS ++ M2) n).toList
  T PKseed ADRS Ml := (P.shake256 (PKseed ++ ADRS ++ Ml) n).toList

def sha256' (X : Bytes) : Bytes := (P.sha256 X).toList
def sha512' (X : Bytes) : Bytes := (P.sha512 X).toList

/-- 11.2.1: SLH-DSA using SHA2 for security category 1. -/
def sha2Cat1Fns : HashFns where
  Hmsg R PKseed PKroot M :=
    mgf1 (sha256' P) 32 (R ++ PKseed ++ sha256' P (R ++ PKseed ++ PKroot ++ M)) m
  PRF PKseed SKseed ADRS :=
    trunc n (sha256' P (PKseed ++ toByte 0 (64 - n) ++ compress ADRS ++ SKseed))
  PRFmsg SKprf optRand M := trunc n (hmac (sha256' P) 64 SKprf (optRand ++ M))
  F PKseed ADRS M1 := trunc n (sha256' P (PKseed ++ toByte 0 (64 - n) ++ compress ADRS ++ M1))
  H PKseed ADRS M2 := trunc n (sha256' P (PKseed ++ toByte 0 (64 - n) ++ compress ADRS ++ M2))
  T PKseed ADRS Ml := trunc n (sha256' P (PKseed ++ toByte 0 (64 - n) ++ compress ADRS ++ Ml))

/-- 11.2.2: SLH-DSA using SHA2 for security categories 3 and 5. -/
def sha2Cat35Fns : HashFns where
  Hmsg R PKseed PKroot M :=
    mgf1 (sha512' P) 64 (R ++ PKseed ++ sha512' P (R ++ PKseed ++ PKroot ++ M)) m
  PRF PKseed SKseed ADRS :=
    trunc n (sha256' P (PKseed ++ toByte 0 (64 - n) ++ compress ADRS ++ SKseed))
  PRFmsg SKprf optRand M := trunc n (hmac (sha512' P) 128 SKprf (optRand ++ M))
  F PKseed ADRS M1 := trunc n (sha256' P (PKseed ++ toByte 0 (64 - n) ++ compress ADRS ++ M1))
  H PKseed ADRS M2 := trunc n (sha512' P (PKseed ++ toByte 0 (128 - n) ++ compress ADRS ++ M2))
  T PKseed ADRS Ml := trunc n (sha512' P (PKseed ++ toByte 0 (128 - n) ++ compress ADRS ++ Ml))

end

/-! ## Table 2 -/

/-- Which hash functions a parameter set uses. -/
inductive Family
  | sha2 | shake

/-- A row of Table 2, with `lg_w = 4` throughout. -/
structure Row where
  n : Nat
  h : Nat
  d : Nat
  hp : Nat
  a : Nat
  k : Nat
  m : Nat
  category : Nat
  pkBytes : Nat
  sigBytes : Nat

/-- The sizes, `s` (small signatures) and `f` (fast). -/
inductive Size
  | s128 | f128 | s192 | f192 | s256 | f256

/-- Table 2 (each row is shared by the SHA2 and the SHAKE set). -/
def table2 : Size → Row
  | .s128 => ⟨16, 63, 7, 9, 12, 14, 30, 1, 32, 7856⟩
  | .f128 => ⟨16, 66, 22, 3, 6, 33, 34, 1, 32, 17088⟩
  | .s192 => ⟨24, 63, 7, 9, 14, 17, 39, 3, 48, 16224⟩
  | .f192 => ⟨24, 66, 22, 3, 8, 33, 42, 3, 48, 35664⟩
  | .s256 => ⟨32, 64, 8, 8, 14, 22, 47, 5, 64, 29792⟩
  | .f256 => ⟨32, 68, 17, 4, 9, 35, 49, 5, 64, 49856⟩

/-- The parameters of a row. -/
def Row.params (r : Row) : Params := ⟨r.n, r.h, r.d, r.hp, r.a, r.k, r.m⟩

/-- Section 11: the hash functions of a parameter set. -/
def hashFns (P : Prims) : Family → Row → HashFns
  | .shake, r => shakeFns P r.n r.m
  | .sha2, r => if r.category = 1 then sha2Cat1Fns P r.n r.m else sha2Cat35Fns P r.n r.m

/-! ## Pre-hash functions (Algorithms 23 and 25) -/

/-- The pre-hash functions the algorithms list by name. -/
inductive PreHash
  | sha256 | sha512 | shake128 | shake256

/-- The DER encoding of the OIDs 2.16.840.1.101.3.4.2.{1, 3, 11, 12}. -/
def oid : PreHash → Bytes
  | .sha256 => toByte 0x0609608648016503040201 11
  | .sha512 => toByte 0x0609608648016503040203 11
  | .shake128 => toByte 0x060960864801650304020B 11
  | .shake256 => toByte 0x060960864801650304020C 11

/-- The digests; SHAKE128 with 256 bits and SHAKE256 with 512 bits of output. -/
def preHash (P : Prims) (M : Bytes) : PreHash → Bytes
  | .sha256 => (P.sha256 M).toList
  | .sha512 => (P.sha512 M).toList
  | .shake128 => (P.shake128 M 32).toList
  | .shake256 => (P.shake256 M 64).toList

end Fips205.Spec
