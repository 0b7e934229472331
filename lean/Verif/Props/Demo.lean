import Verif.Props.Python
import Verif.Props.Programs
import Verif.Props.Suites
import Verif.Model.Demo

/-!
# What the programs that print keys show: C81
-/

namespace Fips205.Props
open Fips205 Fips205.Model

variable {P : Spec.Prims} {b : Build} {σ : Type}

theorem hexEncode_hex : ∀ x : List UInt8, Spec.Hex (hexEncode x) x
  | [] => .nil
  | x :: xs => by
    have hd : ∀ y : UInt8, y.toNat < 16 → Spec.HexDigit (hexChar y) y.toNat := fun y h => by
      refine .inl ?_
      rw [hexChar, List.getD_eq_getElem?_getD, List.getElem?_eq_getElem (by simpa using h)]
      rfl
    have hx := x.toNat_lt
    have e1 : (x >>> 4).toNat = x.toNat / 16 := by
      rw [UInt8.toNat_shiftRight]
      exact Nat.shiftRight_eq_div_pow _ _
    have e2 : (x &&& 0x0f).toNat = x.toNat % 16 := by
      rw [UInt8.toNat_and]
      exact Nat.and_two_pow_sub_one_eq_mod _ 4
    refine .cons (hd _ ?_) (hd _ ?_) ?_ (hexEncode_hex xs)
    · omega
    · omega
    · omega

/-- The text around the keys. -/
def pyLines (pk sk : List Char) : String :=
  "True" ++ "\n" ++ ("<slh_dsa_sha2_128f public key: " ++ String.ofList pk ++ ">") ++ "\n" ++
    ("<slh_dsa_sha2_128f private key: " ++ String.ofList sk ++ ">") ++ "\n"

theorem pyText_eq (k : PyPublicKey) (k' : PyPrivateKey) :
    pyText true k k' = pyLines (hexEncode k.bytes) (hexEncode k'.bytes) := by
  delta pyText pyLines PyPublicKey.repr PyPrivateKey.repr
  rw [if_pos rfl]

/-- **C81** The Python module run as a program raises an exception, if the operating system's RNG fails, or prints
`True` and the generated keys, with all bytes of the private key. -/
theorem C81_python (hb : 32 ≤ b.usizeBits) (os : PureRng σ) (s : σ) :
    (∃ e, py_main (crypto P) (os.lift : Rng (Exec b) σ) s = pure (.raise e) ∧ ¬ os.Works) ∨
    ∃ (pk : PublicKey ffiSet.params) (sk : PrivateKey ffiSet.params) (s' : σ) (pkb skb : _) (u v : List Char),
      Generated P pk sk ∧ (pk.into_bytes : Exec b _) = pure pkb ∧ (sk.into_bytes : Exec b _) = pure skb ∧
      Spec.Hex u pkb.toList ∧ Spec.Hex v skb.toList ∧
      py_main (crypto P) (os.lift : Rng (Exec b) σ) s = pure (.ret (s', pyLines u v)) := by
  have hp : 2 ^ 32 ≤ 2 ^ b.usizeBits := Nat.pow_le_pow_right (by decide) hb
  have h3 : ([1, 2, 3] : List UInt8).length = 3 := rfl
  rcases C52_py_keygen (P := P) b os s with ⟨s1, e, msg, hf, h⟩ | ⟨s1, k, k', pk, sk, h, hg, ⟨pkb, e1, e2⟩, skb, e3, e4⟩
  · refine .inl ⟨msg, by rw [py_main, h]; rfl, fun hw => ?_⟩
    obtain ⟨s2, pk, sk, hk⟩ := hw.keygen (P := P) (b := b) ffiSet s
    rw [hk] at hf
    cases congrArg Prod.snd (Exec.pure_inj hf)
  · have hgen : Generated P pk sk := .rng _ _ _ hg
    obtain ⟨skb', hd⟩ := C12_generated_key_roundtrip hgen
    cases Exec.pure_inj ((hd b).1.symm.trans e3)
    have hkey : k'.rust = skb := Vector.toList_inj.mp e4
    have hdk : (PrivateKey.try_from_bytes (crypto P) k'.rust : Exec b _) = pure (.ok sk) := by
      rw [hkey]; exact (hd b).2
    have hsign := (C52_py_sign (P := P) (os.lift : Rng (Exec b) σ) s1 k' [1, 2, 3] (by omega) (by omega)).2 _ hdk
    cases hfill : os.fill s1 sk.key.pk_seed with
    | mk s2 r =>
      have hf : (os.lift : Rng (Exec b) σ).tryFill s1 sk.key.pk_seed = pure (s2, r) := congrArg pure hfill
      cases r with
      | error e =>
        refine .inl ⟨"slh_dsa_sha2_128f_sign() returned 5", ?_, fun hw => ?_⟩
        · rw [py_main, h]
          simp only [pure_bind]
          rw [hsign.1 s2 e hf]
          rfl
        · obtain ⟨s3, w, hw⟩ := hw s1 sk.key.pk_seed
          rw [hfill] at hw
          cases congrArg Prod.snd hw
      | ok v =>
        obtain ⟨sig, -, hs⟩ := hsign.2 s2 v hf
        have hv : k.verify (crypto P) [1, 2, 3] sig.toList = (pure (.ret true) : Exec b _) := by
          refine C52_py_sign_then_verify ?_ ?_ ?_ ?_ hs
          · obtain ⟨skb'', pkb'', h1, h2⟩ := C15_public_key_bytes sk
            cases Exec.pure_inj ((h1 b).1.symm.trans e3)
            have : sk.get_public_key = pk := hgen.consistent.2
            rw [this] at h1
            cases Exec.pure_inj ((h1 b).2.symm.trans e1)
            rw [e2, h2, e4]
            rfl
          · omega
          · omega
          · omega
        refine .inr ⟨pk, sk, s2, pkb, skb, hexEncode k.bytes, hexEncode k'.bytes, hgen, e1, e3, ?_, ?_, ?_⟩
        · rw [e2]; exact hexEncode_hex _
        · rw [e4]; exact hexEncode_hex _
        · rw [py_main, h]
          simp only [pure_bind]
          rw [hs]
          simp only [pure_bind]
          rw [hv]
          simp only [pure_bind, pyText_eq]

/-- An RNG that works, and the program prints. -/
example : (∃ s t, py_main (crypto demoPrims) (demoRng.lift : Rng (Exec demoBuild) Nat) 0 = pure (.ret (s, t))) ∧
    demoRng.Works := by
  have hw : demoRng.Works := fun _ _ _ => ⟨_, _, rfl⟩
  refine ⟨?_, hw⟩
  rcases C81_python (P := demoPrims) (b := demoBuild) (by decide) demoRng 0 with ⟨e, -, h⟩ | ⟨_, _, s', _, _, u, v, -, -, -, -, -, h⟩
  · exact absurd hw h
  · exact ⟨_, _, h⟩

theorem demo_run {rng : PureRng σ} (hr : rng.Works) (s : σ) (M : List UInt8) :
    ∃ (pk : PublicKey ffiSet.params) (sk : PrivateKey ffiSet.params) (sig : Vector UInt8 ffiSet.params.SIG_LEN)
      (pkb skb : _), Generated P pk sk ∧ SignedBy P sk sig (Spec.pureMsg [] M) ∧
      (pk.into_bytes : Exec b _) = pure pkb ∧ (sk.into_bytes : Exec b _) = pure skb ∧
      (pk.verify (crypto P) M sig [] : Exec b Bool) = pure true ∧
      ∃ s1 s2, try_keygen_with_rng ffiSet.params (crypto P) (rng.lift : Rng (Exec b) σ) s = pure (s1, .ok (pk, sk)) ∧
        sk.try_sign_with_rng (crypto P) (rng.lift : Rng (Exec b) σ) s1 M [] true = pure (s2, .ok sig) := by
  obtain ⟨s1, pk, sk, hk⟩ := hr.keygen (P := P) (b := b) ffiSet s
  obtain ⟨s2, sig, hs⟩ := hr.sign (P := P) (b := b) s1 sk M [] (by simp)
  have hg : Generated P pk sk := .rng _ _ _ hk
  obtain ⟨pkb, hpb, -⟩ := exec_pk_into_bytes (b := b) pk
  obtain ⟨skb, hsb, -⟩ := exec_sk_into_bytes (b := b) sk
  exact ⟨pk, sk, sig, pkb, skb, hg, .pure b _ _ _ _ _ _ hs, hpb, hsb, C01_pure_signatures_verify hg hs, s1, s2, hk, hs⟩

theorem wasmText_eq (message : String) (sk sig pk : List UInt8) : wasmText message sk sig pk =
    "The message to sign is: " ++ message ++ "\n" ++ "The seed used to generate the keys is: 123\n\n" ++
      ("The generated public||private key is: " ++ String.ofList (hexEncode sk) ++ "\n") ++
      ("Using that private key, the calculated signature is: " ++ String.ofList (hexEncode sig) ++ "\n\n") ++
      ("The generated public key is: " ++ String.ofList (hexEncode pk) ++ "\n") ++
      "The public key verifies the signature on the message." := by
  delta wasmText
  dsimp only

/-- **C81** The function for web pages, with its calls adapted to the present version: with an RNG that works it
returns, and shows a generated key pair and a signature that this key pair made for the message, each with all
bytes. -/
theorem C81_wasm {rng : PureRng σ} (hr : rng.Works) (s : σ) (message : String) :
    ∃ (pk : PublicKey ffiSet.params) (sk : PrivateKey ffiSet.params) (sig : Vector UInt8 ffiSet.params.SIG_LEN)
      (pkb skb : _) (u v w : List Char),
      Generated P pk sk ∧ SignedBy P sk sig (Spec.pureMsg [] message.toUTF8.data.toList) ∧
      (pk.into_bytes : Exec b _) = pure pkb ∧ (sk.into_bytes : Exec b _) = pure skb ∧
      Spec.Hex u pkb.toList ∧ Spec.Hex v skb.toList ∧ Spec.Hex w sig.toList ∧
      wasm_sign (crypto P) (rng.lift : Rng (Exec b) σ) s message = pure
        ("The message to sign is: " ++ message ++ "\n" ++ "The seed used to generate the keys is: 123\n\n" ++
          ("The generated public||private key is: " ++ String.ofList v ++ "\n") ++
          ("Using that private key, the calculated signature is: " ++ String.ofList w ++ "\n\n") ++
          ("The generated public key is: " ++ String.ofList u ++ "\n") ++
          "The public key verifies the signature on the message.") := by
  obtain ⟨pk, sk, sig, pkb, skb, hg, hsg, hpb, hsb, hv, s1, s2, hk, hs⟩ :=
    demo_run (P := P) (b := b) hr s message.toUTF8.data.toList
  refine ⟨pk, sk, sig, pkb, skb, hexEncode pkb.toList, hexEncode skb.toList, hexEncode sig.toList, hg, hsg, hpb, hsb,
    hexEncode_hex _, hexEncode_hex _, hexEncode_hex _, ?_⟩
  have hrun : (wasm_sign (crypto P) (rng.lift : Rng (Exec b) σ) s message) = (do
    let (s, r) ← try_keygen_with_rng ffiSet.params (crypto P) rng.lift s
    let (pk, sk) ← unwrap r
    let (_, r) ← sk.try_sign_with_rng (crypto P) rng.lift s message.toUTF8.data.toList [] true
    let sig ← unwrap r
    let result ← pk.verify (crypto P) message.toUTF8.data.toList sig []
    assert result
    let sk ← sk.into_bytes
    let pk ← pk.into_bytes
    pure (wasmText message sk.toList sig.toList pk.toList)) := rfl
  rw [hrun]
  simp only [hk, pure_bind, unwrap, hs, hv, assert, if_true, hpb, hsb]
  exact congrArg _ (wasmText_eq message skb.toList sig.toList pkb.toList)

end Fips205.Props
