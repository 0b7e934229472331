/-!
# SHA-256 and SHA-512 (FIPS 180-4), to run the model

Nothing is proved about these definitions, and no theorem depends on them.
-/

namespace Fips205.Exec

namespace Sha256

/-- FIPS 180-4 section 4.2: the constants. -/
def K : Array UInt32 := #[
  0x428a2f98, 0x71374491, 0xb5c0fbcf, 0xe9b5dba5, 0x3956c25b, 0x59f111f1, 0x923f82a4, 0xab1c5ed5,
  0xd807aa98, 0x12835b01, 0x243185be, 0x550c7dc3, 0x72be5d74, 0x80deb1fe, 0x9bdc06a7, 0xc19bf174,
  0xe49b69c1, 0xefbe4786, 0x0fc19dc6, 0x240ca1cc, 0x2de92c6f, 0x4a7484aa, 0x5cb0a9dc, 0x76f988da,
  0x983e5152, 0xa831c66d, 0xb00327c8, 0xbf597fc7, 0xc6e00bf3, 0xd5a79147, 0x06ca6351, 0x14292967,
  0x27b70a85, 0x2e1b2138, 0x4d2c6dfc, 0x53380d13, 0x650a7354, 0x766a0abb, 0x81c2c92e, 0x92722c85,
  0xa2bfe8a1, 0xa81a664b, 0xc24b8b70, 0xc76c51a3, 0xd192e819, 0xd6990624, 0xf40e3585, 0x106aa070,
  0x19a4c116, 0x1e376c08, 0x2748774c, 0x34b0bcb5, 0x391c0cb3, 0x4ed8aa4a, 0x5b9cca4f, 0x682e6ff3,
  0x748f82ee, 0x78a5636f, 0x84c87814, 0x8cc70208, 0x90befffa, 0xa4506ceb, 0xbef9a3f7, 0xc67178f2]

/-- Section 5.3: the initial hash value. -/
def H0 : Array UInt32 := #[
  0x6a09e667, 0xbb67ae85, 0x3c6ef372, 0xa54ff53a, 0x510e527f, 0x9b05688c, 0x1f83d9ab, 0x5be0cd19]

@[inline] def rotr (x : UInt32) (n : UInt32) : UInt32 := (x >>> n) ||| (x <<< (32 - n))
@[inline] def bigSigma0 (x : UInt32) : UInt32 := rotr x 2 ^^^ rotr x 13 ^^^ rotr x 22
@[inline] def bigSigma1 (x : UInt32) : UInt32 := rotr x 6 ^^^ rotr x 11 ^^^ rotr x 25
@[inline] def sigma0 (x : UInt32) : UInt32 := rotr x 7 ^^^ rotr x 18 ^^^ (x >>> 3)
@[inline] def sigma1 (x : UInt32) : UInt32 := rotr x 17 ^^^ rotr x 19 ^^^ (x >>> 10)

/-- Section 5.1: padding. -/
def pad (msg : List UInt8) : ByteArray := Id.run do
  let mut a : ByteArray := .mk msg.toArray
  let len := a.size
  a := a.push 0x80
  for _ in [0 : (64 - (len + 9) % 64) % 64] do
    a := a.push 0
  for i in [0 : 8] do
    a := a.push (UInt8.ofNat ((8 * len) >>> (8 * (7 - i))))
  return a

/-- Section 6: one block. -/
def block (a : ByteArray) (o : Nat) (h : Array UInt32) : Array UInt32 := Id.run do
  let b (i : Nat) : UInt32 := (a.get! i).toUInt32
  let mut w : Array UInt32 := .mkEmpty 64
  for t in [0 : 16] do
    let i := o + 4 * t
    w := w.push ((b (i + 0) <<< 24) ||| (b (i + 1) <<< 16) ||| (b (i + 2) <<< 8) ||| (b (i + 3)))
  for t in [16 : 64] do
    w := w.push (sigma1 w[t - 2]! + w[t - 7]! + sigma0 w[t - 15]! + w[t - 16]!)
  let mut (A, B, C, D) := (h[0]!, h[1]!, h[2]!, h[3]!)
  let mut (E, F, G, H) := (h[4]!, h[5]!, h[6]!, h[7]!)
  for t in [0 : 64] do
    let t1 := H + bigSigma1 E + ((E &&& F) ^^^ (~~~E &&& G)) + K[t]! + w[t]!
    let t2 := bigSigma0 A + ((A &&& B) ^^^ (A &&& C) ^^^ (B &&& C))
    H := G; G := F; F := E; E := D + t1
    D := C; C := B; B := A; A := t1 + t2
  return #[h[0]! + A, h[1]! + B, h[2]! + C, h[3]! + D, h[4]! + E, h[5]! + F, h[6]! + G, h[7]! + H]

/-- The final hash value. -/
def words (msg : List UInt8) : Array UInt32 := Id.run do
  let a := pad msg
  let mut h := H0
  for i in [0 : a.size / 64] do
    h := block a (64 * i) h
  return h

/-- The digest. -/
def hash (msg : List UInt8) : Vector UInt8 32 :=
  let h := words msg
  Vector.ofFn fun i => (h[i.val / 4]! >>> (UInt32.ofNat (8 * (3 - i.val % 4)))).toUInt8

end Sha256

namespace Sha512

/-- FIPS 180-4 section 4.2: the constants. -/
def K : Array UInt64 := #[
  0x428a2f98d728ae22, 0x7137449123ef65cd, 0xb5c0fbcfec4d3b2f, 0xe9b5dba58189dbbc,
  0x3956c25bf348b538, 0x59f111f1b605d019, 0x923f82a4af194f9b, 0xab1c5ed5da6d8118,
  0xd807aa98a3030242, 0x12835b0145706fbe, 0x243185be4ee4b28c, 0x550c7dc3d5ffb4e2,
  0x72be5d74f27b896f, 0x80deb1fe3b1696b1, 0x9bdc06a725c71235, 0xc19bf174cf692694,
  0xe49b69c19ef14ad2, 0xefbe4786384f25e3, 0x0fc19dc68b8cd5b5, 0x240ca1cc77ac9c65,
  0x2de92c6f592b0275, 0x4a7484aa6ea6e483, 0x5cb0a9dcbd41fbd4, 0x76f988da831153b5,
  0x983e5152ee66dfab, 0xa831c66d2db43210, 0xb00327c898fb213f, 0xbf597fc7beef0ee4,
  0xc6e00bf33da88fc2, 0xd5a79147930aa725, 0x06ca6351e003826f, 0x142929670a0e6e70,
  0x27b70a8546d22ffc, 0x2e1b21385c26c926, 0x4d2c6dfc5ac42aed, 0x53380d139d95b3df,
  0x650a73548baf63de, 0x766a0abb3c77b2a8, 0x81c2c92e47edaee6, 0x92722c851482353b,
  0xa2bfe8a14cf10364, 0xa81a664bbc423001, 0xc24b8b70d0f89791, 0xc76c51a30654be30,
  0xd192e819d6ef5218, 0xd69906245565a910, 0xf40e35855771202a, 0x106aa07032bbd1b8,
  0x19a4c116b8d2d0c8, 0x1e376c085141ab53, 0x2748774cdf8eeb99, 0x34b0bcb5e19b48a8,
  0x391c0cb3c5c95a63, 0x4ed8aa4ae3418acb, 0x5b9cca4f7763e373, 0x682e6ff3d6b2b8a3,
  0x748f82ee5defb2fc, 0x78a5636f43172f60, 0x84c87814a1f0ab72, 0x8cc702081a6439ec,
  0x90befffa23631e28, 0xa4506cebde82bde9, 0xbef9a3f7b2c67915, 0xc67178f2e372532b,
  0xca273eceea26619c, 0xd186b8c721c0c207, 0xeada7dd6cde0eb1e, 0xf57d4f7fee6ed178,
  0x06f067aa72176fba, 0x0a637dc5a2c898a6, 0x113f9804bef90dae, 0x1b710b35131c471b,
  0x28db77f523047d84, 0x32caab7b40c72493, 0x3c9ebe0a15c9bebc, 0x431d67c49c100d4c,
  0x4cc5d4becb3e42b6, 0x597f299cfc657e2a, 0x5fcb6fab3ad6faec, 0x6c44198c4a475817]

/-- Section 5.3: the initial hash value. -/
def H0 : Array UInt64 := #[
  0x6a09e667f3bcc908, 0xbb67ae8584caa73b, 0x3c6ef372fe94f82b, 0xa54ff53a5f1d36f1,
  0x510e527fade682d1, 0x9b05688c2b3e6c1f, 0x1f83d9abfb41bd6b, 0x5be0cd19137e2179]

@[inline] def rotr (x : UInt64) (n : UInt64) : UInt64 := (x >>> n) ||| (x <<< (64 - n))
@[inline] def bigSigma0 (x : UInt64) : UInt64 := rotr x 28 ^^^ rotr x 34 ^^^ rotr x 39
@[inline] def bigSigma1 (x : UInt64) : UInt64 := rotr x 14 ^^^ rotr x 18 ^^^ rotr x 41
@[inline] def sigma0 (x : UInt64) : UInt64 := rotr x 1 ^^^ rotr x 8 ^^^ (x >>> 7)
@[inline] def sigma1 (x : UInt64) : UInt64 := rotr x 19 ^^^ rotr x 61 ^^^ (x >>> 6)

/-- Section 5.1: padding. -/
def pad (msg : List UInt8) : ByteArray := Id.run do
  let mut a : ByteArray := .mk msg.toArray
  let len := a.size
  a := a.push 0x80
  for _ in [0 : (128 - (len + 17) % 128) % 128] do
    a := a.push 0
  for i in [0 : 16] do
    a := a.push (UInt8.ofNat ((8 * len) >>> (8 * (15 - i))))
  return a

/-- Section 6: one block. -/
def block (a : ByteArray) (o : Nat) (h : Array UInt64) : Array UInt64 := Id.run do
  let b (i : Nat) : UInt64 := (a.get! i).toUInt64
  let mut w : Array UInt64 := .mkEmpty 80
  for t in [0 : 16] do
    let i := o + 8 * t
    w := w.push ((b (i + 0) <<< 56) ||| (b (i + 1) <<< 48) ||| (b (i + 2) <<< 40) ||| (b (i + 3) <<< 32) ||| (b (i + 4) <<< 24) ||| (b (i + 5) <<< 16) ||| (b (i + 6) <<< 8) ||| (b (i + 7)))
  for t in [16 : 80] do
    w := w.push (sigma1 w[t - 2]! + w[t - 7]! + sigma0 w[t - 15]! + w[t - 16]!)
  let mut (A, B, C, D) := (h[0]!, h[1]!, h[2]!, h[3]!)
  let mut (E, F, G, H) := (h[4]!, h[5]!, h[6]!, h[7]!)
  for t in [0 : 80] do
    let t1 := H + bigSigma1 E + ((E &&& F) ^^^ (~~~E &&& G)) + K[t]! + w[t]!
    let t2 := bigSigma0 A + ((A &&& B) ^^^ (A &&& C) ^^^ (B &&& C))
    H := G; G := F; F := E; E := D + t1
    D := C; C := B; B := A; A := t1 + t2
  return #[h[0]! + A, h[1]! + B, h[2]! + C, h[3]! + D, h[4]! + E, h[5]! + F, h[6]! + G, h[7]! + H]

/-- The final hash value. -/
def words (msg : List UInt8) : Array UInt64 := Id.run do
  let a := pad msg
  let mut h := H0
  for i in [0 : a.size / 128] do
    h := block a (128 * i) h
  return h

/-- The digest. -/
def hash (msg : List UInt8) : Vector UInt8 64 :=
  let h := words msg
  Vector.ofFn fun i => (h[i.val / 8]! >>> (UInt64.ofNat (8 * (7 - i.val % 8)))).toUInt8

end Sha512

end Fips205.Exec
