import Verif.Model.Ffi
import Verif.Exec.Sha2
import Verif.Exec.Sha3

/-!
# Running the model

A line-based program around the model with the real hash functions, used by `kat/run.py` to compare the
model with the test vectors of the repository.  It runs a 64-bit build with all checks, so arithmetic
overflow or a failed `debug_assert!` would show.

Nothing is proved here, and no theorem depends on these definitions.
-/

namespace Fips205.Exec
open Fips205.Model

/-- Executions that may panic. -/
abbrev Run := Except Panic

instance : Rust Run where
  panic p := .error p
  leak _ := .ok ()
  build := ⟨true, true, 64, by decide⟩

/-- The crates `sha2` and `sha3`. -/
def realCrypto : Crypto Run where
  sha256 x := .ok (Sha256.hash x.flatten)
  sha512 x := .ok (Sha512.hash x.flatten)
  shake128 x n := .ok (Keccak.shake 168 x.flatten n)
  shake256 x n := .ok (Keccak.shake 136 x.flatten n)

/-- An RNG that hands out the given strings one after the other. -/
def listRng : Rng Run (List (List UInt8)) where
  tryFill s {n} _ := match s with
    | [] => .ok ([], .error ())
    | x :: s => do
      let v ← copyFromSlice n x
      .ok (s, .ok v)

def hexDigit (c : Char) : Nat :=
  if c.isDigit then c.toNat - '0'.toNat else c.toLower.toNat - 'a'.toNat + 10

def unhex (s : String) : List UInt8 :=
  let rec go : List Char → List UInt8 → List UInt8
    | a :: b :: r, acc => go r (UInt8.ofNat (16 * hexDigit a + hexDigit b) :: acc)
    | _, acc => acc.reverse
  go s.toList []

def hex (l : List UInt8) : String :=
  String.ofList (l.flatMap fun b => [Nat.digitChar (b.toNat / 16), Nat.digitChar (b.toNat % 16)])

/-- A string as an array of a given length. -/
def exact (n : Nat) (l : List UInt8) : Except String (Vector UInt8 n) :=
  if h : l.length = n then .ok ⟨l.toArray, by simp [h]⟩ else .error "length"

def setOf : String → Option ParamSet
  | "sha2_128s" => some .slh_dsa_sha2_128s
  | "shake_128s" => some .slh_dsa_shake_128s
  | "sha2_128f" => some .slh_dsa_sha2_128f
  | "shake_128f" => some .slh_dsa_shake_128f
  | "sha2_192s" => some .slh_dsa_sha2_192s
  | "shake_192s" => some .slh_dsa_shake_192s
  | "sha2_192f" => some .slh_dsa_sha2_192f
  | "shake_192f" => some .slh_dsa_shake_192f
  | "sha2_256s" => some .slh_dsa_sha2_256s
  | "shake_256s" => some .slh_dsa_shake_256s
  | "sha2_256f" => some .slh_dsa_sha2_256f
  | "shake_256f" => some .slh_dsa_shake_256f
  | _ => none

def phOf : String → Option Ph
  | "SHA256" => some .SHA256
  | "SHA512" => some .SHA512
  | "SHAKE128" => some .SHAKE128
  | "SHAKE256" => some .SHAKE256
  | _ => none

/-- The outcome of a run. -/
def shown {α : Type} (f : α → String) : Run α → String
  | .ok v => f v
  | .error p => s!"panic {repr p}"

def shownE {α : Type} (f : α → String) : Except String α → String
  | .ok v => f v
  | .error e => s!"error {e}"

/-- One request: a command, a parameter set and byte strings in hexadecimal (`-` for the empty one). -/
def request (words : List String) : String :=
  let bytes (s : String) : List UInt8 := if s = "-" then [] else unhex s
  match words with
  | cmd :: set :: args =>
    match setOf set with
    | none => "error parameter set"
    | some ps =>
      let p := ps.params
      let r : Except String String := match cmd, args with
        -- seeds -> public key, private key
        | "keygen", [a, b, c] => do
          let a ← exact p.N (bytes a)
          let b ← exact p.N (bytes b)
          let c ← exact p.N (bytes c)
          .ok (shown id (do
            let (pk, sk) ← keygen_with_seeds p realCrypto a b c
            let pk ← pk.into_bytes
            let sk ← sk.into_bytes
            pure s!"{hex pk.toList} {hex sk.toList}"))
        -- private key, randomness, message -> signature (raw interface)
        | "rawsign", [sk, o, m] => do
          let sk ← exact p.SK_LEN (bytes sk)
          .ok (shown id (do
            match ← PrivateKey.try_from_bytes (p := p) realCrypto sk with
            | .error e => pure s!"error {e}"
            | .ok sk =>
              let (_, r) ← sk._test_only_raw_sign realCrypto listRng [bytes o] (bytes m) (o ≠ "-")
              pure (shownE (fun v => hex v.toList) r)))
        | "rawverify", [pk, m, sig] => do
          let pk ← exact p.PK_LEN (bytes pk)
          let sig ← exact p.SIG_LEN (bytes sig)
          .ok (shown id (do
            match ← PublicKey.try_from_bytes (p := p) pk with
            | .error e => pure s!"error {e}"
            | .ok pk => pure (shownE toString (← pk._test_only_raw_verify realCrypto (bytes m) sig))))
        -- private key, randomness, message, context, pre-hash function -> signature
        | "sign", [sk, o, m, ctx, ph] => do
          let sk ← exact p.SK_LEN (bytes sk)
          .ok (shown id (do
            match ← PrivateKey.try_from_bytes (p := p) realCrypto sk with
            | .error e => pure s!"error {e}"
            | .ok sk =>
              let (_, r) ← match phOf ph with
                | none => sk.try_sign_with_rng realCrypto listRng [bytes o] (bytes m) (bytes ctx) (o ≠ "-")
                | some ph =>
                  sk.try_hash_sign_with_rng realCrypto listRng [bytes o] (bytes m) (bytes ctx) ph (o ≠ "-")
              pure (shownE (fun v => hex v.toList) r)))
        | "verify", [pk, m, ctx, ph, sig] => do
          let pk ← exact p.PK_LEN (bytes pk)
          let sig ← exact p.SIG_LEN (bytes sig)
          .ok (shown id (do
            match ← PublicKey.try_from_bytes (p := p) pk with
            | .error e => pure s!"error {e}"
            | .ok pk =>
              let r ← match phOf ph with
                | none => pk.verify realCrypto (bytes m) sig (bytes ctx)
                | some ph => pk.hash_verify realCrypto (bytes m) sig (bytes ctx) ph
              pure (toString r)))
        | _, _ => .error "command"
      shownE id r
  | _ => "error request"

end Fips205.Exec
