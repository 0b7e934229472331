import Verif.Props.Visits
import Verif.Proofs.Counts

/-!
# How many hashes are computed, exactly (C54)

C31, C45 and C46 bound the number of hash calls.  Here are the numbers themselves; they follow from the places
of C47.
-/

namespace Fips205.Props
open Fips205 Fips205.Model

variable {ps : ParamSet} {P : Spec.Prims} {b : Build} {σ : Type}

/-- What it takes to get from a signature of the digits `digit 0`, `digit 1`, ... to the root of an XMSS tree:
the rest of each chain, the WOTS+ public key, and one node for each level. -/
def climbWork (p : Spec.Params) (digit : Nat → Nat) : Nat :=
  ((List.range p.len).map fun i => 15 - digit i).sum + 1 + p.hp

/-- Verification of a signature whose layer `j` signs the digits `digit j`. -/
def verifyCount (ps : ParamSet) (digit : Nat → Nat → Nat) : Nat :=
  hMsgWork ps + (ps.sp.k * (1 + ps.sp.a) + 1) +
    ((List.range ps.sp.d).map fun j => climbWork ps.sp (digit j)).sum

/-- Signing, where the layer at the top signs the digits `digit`: all trees and the FORS key, without what the
signature leaves to the verifier in the tree at the top. -/
def signCount (ps : ParamSet) (digit : Nat → Nat) : Nat :=
  prfMsgWork ps + hMsgWork ps + (ps.sp.k * forsTreeWork ps.sp.a + 1) +
    (ps.sp.d * treeWork ps ps.sp.hp - climbWork ps.sp digit)

/-- The digits a signature of `M` makes the verifier compute. -/
def digitsSeen (P : Spec.Prims) (pk : PublicKey ps.params) (M : List UInt8)
    (sig : Vector UInt8 ps.params.SIG_LEN) : Nat → Nat → Nat :=
  (Spec.attempt ps.sp (ps.hf P) M sig.toList [] pk.key.pk_seed.toList pk.key.pk_root.toList).vDigit

/-- The digits signed by the layer at the top when `sk` makes the signature `sig` of `M`. -/
def topDigits (P : Spec.Prims) (sk : PrivateKey ps.params) (M : List UInt8)
    (sig : Vector UInt8 ps.params.SIG_LEN) : Nat → Nat :=
  (Spec.attempt ps.sp (ps.hf P) M sig.toList sk.key.sk_seed.toList sk.key.pk_seed.toList
    sk.key.pk_root.toList).hDigit (ps.sp.d - 1)

theorem hMsgLog_length (R s r M : List UInt8) :
    (hMsgLog P ps.family ps.row R s r M).length = hMsgWork ps := by
  cases ps <;> simp [hMsgLog, hMsgWork, ParamSet.family, ParamSet.row, ParamSet.sp, ParamSet.size,
    Spec.table2, Spec.Row.params]

theorem prfMsgLog_length (s o M : List UInt8) :
    (prfMsgLog P ps.family ps.row s o M).length = prfMsgWork ps := by
  cases ps <;> rfl

theorem attempt_lt (M SIG s r : List UInt8) (k : List UInt8) :
    let c := Spec.attempt ps.sp (ps.hf P) M SIG k s r
    c.t < 2 ^ (c.p.hp * (c.p.d - 1)) ∧ c.l < 2 ^ c.p.hp := by
  have W := ps.wf
  have h1 := Spec.digestTree_lt (p := ps.sp) ((ps.hf P).Hmsg (Spec.slice SIG 0 ps.sp.n) s r M)
  have h2 := Spec.digestLeaf_lt (p := ps.sp) ((ps.hf P).Hmsg (Spec.slice SIG 0 ps.sp.n) s r M)
  rw [W.hd] at h1 h2
  refine ⟨?_, h2⟩
  have : ps.sp.h - ps.sp.hp = ps.sp.hp * (ps.sp.d - 1) := by rw [W.h_eq, Nat.mul_sub_one, Nat.mul_comm]
  rw [this] at h1
  exact h1

/-! ## Key generation -/

/-- **C54** Key generation computes exactly the hashes of a full tree. -/
theorem C54_try_keygen_with_rng {rng : Rng (LogExec b) σ} (hq : UnloggedRng rng) (s s' : σ)
    (pk : PublicKey ps.params) (sk : PrivateKey ps.params)
    (h : (try_keygen_with_rng ps.params (recording P) rng s).result = .ok (s', .ok (pk, sk))) :
    (try_keygen_with_rng ps.params (recording P) rng s).log.length = treeWork ps ps.sp.hp :=
  ((C47_try_keygen_with_rng hq s).1 s' pk sk h).length (keygenPlaces_count ps.wf.d_pos)

theorem C54_keygen_with_seeds (sk_seed sk_prf pk_seed : Vector UInt8 ps.params.N) :
    (keygen_with_seeds ps.params (recording P) sk_seed sk_prf pk_seed : LogExec b _).log.length =
      treeWork ps ps.sp.hp := by
  have h := (C47_same_seeded (ps := ps) (P := P) (b := b) sk_seed sk_prf pk_seed).trans
    (exec_keygen_with_seeds sk_seed sk_prf pk_seed)
  exact ((C47_keygen_with_seeds sk_seed sk_prf pk_seed).1 _ _ h).length (keygenPlaces_count ps.wf.d_pos)

/-- **C54** So does decoding any bytes as a private key, accepted or not. -/
theorem C54_sk_try_from_bytes (v : Vector UInt8 ps.params.SK_LEN) :
    (PrivateKey.try_from_bytes (recording P) v :
      LogExec b (Except String (PrivateKey ps.params))).log.length = treeWork ps ps.sp.hp :=
  (C47_sk_try_from_bytes v).length (keygenPlaces_count ps.wf.d_pos)

/-! ## Signing -/

theorem SignCalls.length {sk : PrivateKey ps.params} {M opt : List UInt8}
    {sig : Vector UInt8 ps.params.SIG_LEN} {L : List Call} (h : SignCalls P sk M opt sig L) :
    L.length = signCount ps (topDigits P sk M sig) := by
  obtain ⟨L', h, rfl⟩ := h
  obtain ⟨ht, hl⟩ := attempt_lt (ps := ps) (P := P) M sig.toList sk.key.pk_seed.toList
    sk.key.pk_root.toList sk.key.sk_seed.toList
  have h : L'.length = ps.sp.k * forsTreeWork ps.sp.a + 1 + (ps.sp.d * treeWork ps ps.sp.hp -
    climbWork ps.sp (topDigits P sk M sig)) := h.length (signPlaces_count ps.wf.d_pos ht hl)
  rw [List.length_append, List.length_append, prfMsgLog_length, hMsgLog_length, h, signCount]
  omega

/-- **C54** The number of hashes a signature costs; it depends on the digits the layer at the top signs, which
the signature shows. -/
theorem C54_try_sign_with_rng {rng : Rng (LogExec b) σ} (hq : UnloggedRng rng) (s s' : σ)
    (sk : PrivateKey ps.params) (msg ctx : List UInt8) (hedged : Bool)
    (sig : Vector UInt8 ps.params.SIG_LEN)
    (h : (sk.try_sign_with_rng (recording P) rng s msg ctx hedged).result = .ok (s', .ok sig)) :
    (sk.try_sign_with_rng (recording P) rng s msg ctx hedged).log.length =
      signCount ps (topDigits P sk (Spec.pureMsg ctx msg) sig) := by
  obtain ⟨opt, -, h⟩ := (C47_try_sign_with_rng hq s sk msg ctx hedged).1 s' sig h
  exact h.length

theorem C54_raw_sign {rng : Rng (LogExec b) σ} (hq : UnloggedRng rng) (s s' : σ)
    (sk : PrivateKey ps.params) (msg : List UInt8) (hedged : Bool) (sig : Vector UInt8 ps.params.SIG_LEN)
    (h : (sk._test_only_raw_sign (recording P) rng s msg hedged).result = .ok (s', .ok sig)) :
    (sk._test_only_raw_sign (recording P) rng s msg hedged).log.length =
      signCount ps (topDigits P sk msg sig) := by
  obtain ⟨opt, -, h⟩ := (C47_raw_sign hq s sk msg hedged).1 s' sig h
  exact h.length

/-- **C54** Pre-hash signing takes one more. -/
theorem C54_try_hash_sign_with_rng {rng : Rng (LogExec b) σ} (hq : UnloggedRng rng) (s s' : σ)
    (sk : PrivateKey ps.params) (msg ctx : List UInt8) (ph : Ph) (hedged : Bool)
    (sig : Vector UInt8 ps.params.SIG_LEN)
    (h : (sk.try_hash_sign_with_rng (recording P) rng s msg ctx ph hedged).result = .ok (s', .ok sig)) :
    (sk.try_hash_sign_with_rng (recording P) rng s msg ctx ph hedged).log.length =
      signCount ps (topDigits P sk (phMsg P ctx msg ph) sig) + 1 := by
  obtain ⟨opt, L, -, h1, h2⟩ := (C47_try_hash_sign_with_rng hq s sk msg ctx ph hedged).1 s' sig h
  rw [h2, List.length_cons, h1.length]

/-- **C54** Two runs of signing, with any keys and messages, differ by at most `15 * len` hashes. -/
theorem C54_sign_spread {rng : Rng (LogExec b) σ} (hq : UnloggedRng rng) (s s' t t' : σ)
    (sk sk' : PrivateKey ps.params) (msg ctx msg' ctx' : List UInt8) (hedged hedged' : Bool)
    (sig sig' : Vector UInt8 ps.params.SIG_LEN)
    (h : (sk.try_sign_with_rng (recording P) rng s msg ctx hedged).result = .ok (s', .ok sig))
    (h' : (sk'.try_sign_with_rng (recording P) rng t msg' ctx' hedged').result = .ok (t', .ok sig')) :
    (sk.try_sign_with_rng (recording P) rng s msg ctx hedged).log.length ≤
      (sk'.try_sign_with_rng (recording P) rng t msg' ctx' hedged').log.length + 15 * ps.sp.len := by
  rw [C54_try_sign_with_rng hq _ _ _ _ _ _ _ h, C54_try_sign_with_rng hq _ _ _ _ _ _ _ h']
  have hs : ∀ d : Nat → Nat, ∀ n, ((List.range n).map fun i => 15 - d i).sum ≤ 15 * n := by
    intro d n
    induction n with
    | zero => simp
    | succ n ih =>
      rw [List.range_succ, List.map_append, List.sum_append]
      simp only [List.map_cons, List.map_nil, List.sum_cons, List.sum_nil]
      omega
  have h1 := hs (topDigits P sk (Spec.pureMsg ctx msg) sig) ps.sp.len
  have h2 := hs (topDigits P sk' (Spec.pureMsg ctx' msg') sig') ps.sp.len
  simp only [signCount, climbWork]
  omega

/-! ## Verification -/

theorem VerifyCalls.length {pk : PublicKey ps.params} {M : List UInt8}
    {sig : Vector UInt8 ps.params.SIG_LEN} {L : List Call} (h : VerifyCalls P pk M sig L) :
    L.length = verifyCount ps (digitsSeen P pk M sig) := by
  obtain ⟨L', h, rfl⟩ := h
  obtain ⟨ht, hl⟩ := attempt_lt (ps := ps) (P := P) M sig.toList pk.key.pk_seed.toList
    pk.key.pk_root.toList []
  have h : L'.length = ps.sp.k * (1 + ps.sp.a) + 1 + ((List.range ps.sp.d).map fun j =>
    climbWork ps.sp (digitsSeen P pk M sig j)).sum := h.length (verifyPlaces_count ht hl)
  rw [List.length_append, hMsgLog_length, h, verifyCount]
  omega

/-- **C54** The number of hashes it takes to verify any bytes, accepted or not. -/
theorem C54_verify (pk : PublicKey ps.params) (msg ctx : List UInt8) (sig : Vector UInt8 ps.params.SIG_LEN) :
    (pk.verify (recording P) msg sig ctx : LogExec b Bool).log.length =
      if ctx.length ≤ 255 then verifyCount ps (digitsSeen P pk (Spec.pureMsg ctx msg) sig) else 0 := by
  have h := C47_verify (b := b) (P := P) pk msg ctx sig
  split
  · rename_i hc
    simp only [if_pos hc] at h
    exact h.length
  · rename_i hc
    simp only [if_neg hc] at h
    rw [h, List.length_nil]

theorem C54_raw_verify (pk : PublicKey ps.params) (msg : List UInt8)
    (sig : Vector UInt8 ps.params.SIG_LEN) :
    (pk._test_only_raw_verify (recording P) msg sig : LogExec b _).log.length =
      verifyCount ps (digitsSeen P pk msg sig) :=
  (C47_raw_verify pk msg sig).length

theorem C54_hash_verify (pk : PublicKey ps.params) (msg ctx : List UInt8) (ph : Ph)
    (sig : Vector UInt8 ps.params.SIG_LEN) :
    (pk.hash_verify (recording P) msg sig ctx ph : LogExec b Bool).log.length =
      if ctx.length ≤ 255 then verifyCount ps (digitsSeen P pk (phMsg P ctx msg ph) sig) + 1 else 0 := by
  have h := C47_hash_verify (b := b) (P := P) pk msg ctx ph sig
  split
  · rename_i hc
    simp only [if_pos hc] at h
    obtain ⟨L, h1, h2⟩ := h
    rw [h2, List.length_cons, h1.length]
  · rename_i hc
    simp only [if_neg hc] at h
    rw [h, List.length_nil]

/-- The numbers for digits that are all 0, and all 15. -/
example : allSets.map (fun ps => verifyCount ps fun _ _ => 0) = allSets.map verifyWork ∧
    allSets.map (fun ps => verifyCount ps fun _ _ => 15) =
      [255, 254, 323, 321, 328, 327, 388, 387, 405, 404, 438, 437] := by decide

example : allSets.map (fun ps => signCount ps fun _ => 0) =
      [2185689, 2185687, 104670, 104667, 3766502, 3766500, 168493, 168491, 3279857, 3279855, 344831, 344829] ∧
    allSets.map (fun ps => signCount ps fun _ => 15) =
      [2186214, 2186212, 105195, 105192, 3767267, 3767265, 169258, 169256, 3280862, 3280860, 345836, 345834] := by
  decide

/-- The hypotheses of the theorems about signing and key generation are met. -/
example (ps : ParamSet) (hedged : Bool) : UnloggedRng (demoRng.lift : Rng (LogExec demoBuild) Nat) ∧
    (∃ s' pk sk, (try_keygen_with_rng ps.params (recording demoPrims)
      (demoRng.lift : Rng (LogExec demoBuild) Nat) 0).result = .ok (s', .ok (pk, sk))) ∧
    ∃ s' sig, ((demoKeys ps).2.try_sign_with_rng (recording demoPrims)
      (demoRng.lift : Rng (LogExec demoBuild) Nat) 3 [104, 105] [9] hedged).result = .ok (s', .ok sig) := by
  obtain ⟨s1, sig1, h1⟩ := demo_sign ps demoBuild hedged
  refine ⟨fun _ _ _ => rfl, ⟨3, (demoKeys ps).1, (demoKeys ps).2, ?_⟩,
    s1, sig1, (LogExec.erase.map_try_sign_with_rng (recording demoPrims) (demoKeys ps).2
      (demoRng.lift : Rng (LogExec demoBuild) Nat) 3 [104, 105] [9] hedged).trans h1⟩
  exact (LogExec.erase.map_try_keygen_with_rng (p := ps.params) (recording demoPrims)
    (demoRng.lift : Rng (LogExec demoBuild) Nat) 0).trans (demo_keygen ps demoBuild)

end Fips205.Props
