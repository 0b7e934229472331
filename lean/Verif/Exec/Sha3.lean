/-!
# SHAKE128 and SHAKE256 (FIPS 202), to run the model

Nothing is proved about these definitions, and no theorem depends on them.
-/

namespace Fips205.Exec.Keccak

/-- FIPS 202 section 3.2.5: the round constants. -/
def RC : Array UInt64 := #[
  0x0000000000000001, 0x0000000000008082, 0x800000000000808a, 0x8000000080008000,
  0x000000000000808b, 0x0000000080000001, 0x8000000080008081, 0x8000000000008009,
  0x000000000000008a, 0x0000000000000088, 0x0000000080008009, 0x000000008000000a,
  0x000000008000808b, 0x800000000000008b, 0x8000000000008089, 0x8000000000008003,
  0x8000000000008002, 0x8000000000000080, 0x000000000000800a, 0x800000008000000a,
  0x8000000080008081, 0x8000000000008080, 0x0000000080000001, 0x8000000080008008]

/-- Section 3.2.2: the offsets of ρ, for lane `x + 5 y`. -/
def rho : Array UInt64 := #[0, 1, 62, 28, 27, 36, 44, 6, 55, 20, 3, 10, 43, 25, 39, 41, 45, 15, 21, 8, 18, 2, 61, 56, 14]

@[inline] def rotl (x n : UInt64) : UInt64 := if n = 0 then x else (x <<< n) ||| (x >>> (64 - n))

/-- Section 3.3: one round on the lanes `x + 5 y`. -/
def round (a : Array UInt64) (rc : UInt64) : Array UInt64 := Id.run do
  let mut c : Array UInt64 := .mkEmpty 5
  for x in [0 : 5] do
    c := c.push (a[x]! ^^^ a[x + 5]! ^^^ a[x + 10]! ^^^ a[x + 15]! ^^^ a[x + 20]!)
  let mut b : Array UInt64 := .replicate 25 0
  for x in [0 : 5] do
    let d := c[(x + 4) % 5]! ^^^ rotl c[(x + 1) % 5]! 1
    for y in [0 : 5] do
      b := b.set! (y + 5 * ((2 * x + 3 * y) % 5)) (rotl (a[x + 5 * y]! ^^^ d) rho[x + 5 * y]!)
  let mut r : Array UInt64 := .mkEmpty 25
  for y in [0 : 5] do
    for x in [0 : 5] do
      r := r.push (b[x + 5 * y]! ^^^ (~~~b[(x + 1) % 5 + 5 * y]! &&& b[(x + 2) % 5 + 5 * y]!))
  return r.set! 0 (r[0]! ^^^ rc)

/-- Keccak-f[1600] -/
def f (a : Array UInt64) : Array UInt64 := RC.foldl round a

/-- Section 4 and 6.2: SHAKE with `rate` bytes per block. -/
def shake (rate : Nat) (msg : List UInt8) (n : Nat) : Vector UInt8 n := Id.run do
  let mut m : ByteArray := .mk msg.toArray
  m := m.push 0x1f
  while m.size % rate ≠ 0 do
    m := m.push 0
  m := m.set! (m.size - 1) (m.get! (m.size - 1) ||| 0x80)
  let mut a : Array UInt64 := .replicate 25 0
  for i in [0 : m.size / rate] do
    for j in [0 : rate / 8] do
      let mut w : UInt64 := 0
      for k in [0 : 8] do
        w := w ||| ((m.get! (rate * i + 8 * j + k)).toUInt64 <<< (UInt64.ofNat (8 * k)))
      a := a.set! j (a[j]! ^^^ w)
    a := f a
  let mut out : ByteArray := .empty
  while out.size < n do
    for j in [0 : rate / 8] do
      for k in [0 : 8] do
        out := out.push (a[j]! >>> (UInt64.ofNat (8 * k))).toUInt8
    a := f a
  let o := out
  return Vector.ofFn fun i => o.get! i.val

end Fips205.Exec.Keccak
