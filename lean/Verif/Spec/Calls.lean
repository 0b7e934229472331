import Verif.Spec.Section11
import Verif.Spec.Places
import Mathlib.Data.List.Forall2

/-! # The calls of SHA-256, SHA-512 and SHAKE that make up the functions of section 11

Used to state C47. -/

namespace Fips205
open Spec

/-- A call of a hash function. -/
structure Call where
  alg : PreHash
  input : Bytes

/-- `c` is the call by which the functions of section 11 of the standard hash at the place `x`. -/
def CallAt (fam : Family) (r : Row) (pk_seed : Bytes) (x : Place) (c : Call) : Prop :=
  ∃ data, match fam with
  | .shake => c = ⟨.shake256, pk_seed ++ x.adrs ++ data⟩
  | .sha2 =>
    if r.category = 1 ∨ x.kind = .PRF ∨ x.kind = .F then
      c = ⟨.sha256, pk_seed ++ toByte 0 (64 - r.n) ++ compress x.adrs ++ data⟩
    else c = ⟨.sha512, pk_seed ++ toByte 0 (128 - r.n) ++ compress x.adrs ++ data⟩

/-- The calls `L` are calls at the places of `S`, one at each. -/
def EachOnce (At : Place → Call → Prop) (S : Place → Prop) (L : List Call) : Prop :=
  ∃ xs : List Place, xs.Nodup ∧ (∀ x, x ∈ xs ↔ S x) ∧ List.Forall₂ At xs L

/-- The calls that make up `H_msg`. -/
def hMsgLog (P : Prims) (fam : Family) (r : Row) (R pk_seed pk_root M : Bytes) : List Call :=
  match fam with
  | .shake => [⟨.shake256, R ++ pk_seed ++ pk_root ++ M⟩]
  | .sha2 =>
    if r.category = 1 then
      ⟨.sha256, R ++ pk_seed ++ pk_root ++ M⟩ :: (List.range ((r.m + 31) / 32)).map fun c =>
        ⟨.sha256, R ++ pk_seed ++ sha256' P (R ++ pk_seed ++ pk_root ++ M) ++ toByte c 4⟩
    else
      ⟨.sha512, R ++ pk_seed ++ pk_root ++ M⟩ :: (List.range ((r.m + 63) / 64)).map fun c =>
        ⟨.sha512, R ++ pk_seed ++ sha512' P (R ++ pk_seed ++ pk_root ++ M) ++ toByte c 4⟩

/-- The key of HMAC, padded to a block of `B` bytes and combined with the byte `c`. -/
def hmacPad (B : Nat) (key : Bytes) (c : UInt8) : Bytes :=
  (key ++ List.replicate (B - key.length) 0).map (· ^^^ c)

/-- The calls that make up `PRF_msg`. -/
def prfMsgLog (P : Prims) (fam : Family) (r : Row) (sk_prf opt_rand M : Bytes) : List Call :=
  match fam with
  | .shake => [⟨.shake256, sk_prf ++ opt_rand ++ M⟩]
  | .sha2 =>
    if r.category = 1 then
      [⟨.sha256, hmacPad 64 sk_prf 0x36 ++ opt_rand ++ M⟩,
        ⟨.sha256, hmacPad 64 sk_prf 0x5c ++ sha256' P (hmacPad 64 sk_prf 0x36 ++ opt_rand ++ M)⟩]
    else
      [⟨.sha512, hmacPad 128 sk_prf 0x36 ++ opt_rand ++ M⟩,
        ⟨.sha512, hmacPad 128 sk_prf 0x5c ++ sha512' P (hmacPad 128 sk_prf 0x36 ++ opt_rand ++ M)⟩]

end Fips205
