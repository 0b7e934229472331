import Verif.Spec.Section11

/-!
# Text: names of parameter sets, hexadecimal

FIPS 205, Table 2, first column; and how byte strings are written in base 16.
-/

namespace Fips205.Spec

/-- The part of the name that says which hash functions are used. -/
def Family.name : Family → String
  | .sha2 => "SHA2"
  | .shake => "SHAKE"

/-- The part of the name that says how large keys and signatures are. -/
def Size.name : Size → String
  | .s128 => "128s"
  | .f128 => "128f"
  | .s192 => "192s"
  | .f192 => "192f"
  | .s256 => "256s"
  | .f256 => "256f"

/-- Table 2, first column. -/
def setName (f : Family) (s : Size) : String := "SLH-DSA-" ++ f.name ++ "-" ++ s.name

/-- `c` is the digit `d` in base 16; letters may be small or large. -/
def HexDigit (c : Char) (d : Nat) : Prop :=
  "0123456789abcdef".toList[d]? = some c ∨ "0123456789ABCDEF".toList[d]? = some c

/-- The characters are the bytes in base 16, two digits each. -/
inductive Hex : List Char → List UInt8 → Prop
  | nil : Hex [] []
  | cons {u v : Char} {h l : Nat} {x : UInt8} {cs : List Char} {xs : List UInt8} (hu : HexDigit u h)
      (hv : HexDigit v l) (hx : x.toNat = 16 * h + l) (hr : Hex cs xs) : Hex (u :: v :: cs) (x :: xs)

end Fips205.Spec
