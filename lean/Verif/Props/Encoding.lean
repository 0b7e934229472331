import Verif.Props.Conform

/-! # Encodings: C14, C16, C17, C37 -/

namespace Fips205.Props
open Fips205 Fips205.Model

variable {P : Spec.Prims} {ps : ParamSet} {σ : Type}

/-! ## Signatures -/

/-- A parameter set's signature structure. -/
abbrev Sig (p : Params) := SlhDsaSig p.A p.D p.HP p.K p.LEN p.N

/-- The concatenation of `f 0`, …, `f (k-1)`. -/
def cat {k : Nat} (f : Fin k → List UInt8) : List UInt8 := (List.finRange k).flatMap f

/-- The layout of FIPS 205, Figures 13 and 14 (with Figures 10–12 for the parts). -/
def layout {A D HP K LEN N : Nat} (s : SlhDsaSig A D HP K LEN N) : List UInt8 :=
  s.randomness.toList ++
  (cat fun i : Fin K => s.fors_sig.private_key_value[i].toList ++
    cat fun j : Fin A => (s.fors_sig.auth[i].tree[j]).toList) ++
  (cat fun i : Fin D =>
    (cat fun j : Fin LEN => (s.ht_sig.xmss_sigs[i].sig_wots.data[j]).toList) ++
    cat fun j : Fin HP => (s.ht_sig.xmss_sigs[i].auth[j]).toList)

theorem flatMap_eq_cat {α : Type} {n : Nat} (v : Vector α n) (g : α → List UInt8) :
    v.toList.flatMap g = cat fun i : Fin n => g v[i] := by
  have : v.toList = (List.finRange n).map fun i : Fin n => v[i] := by
    apply List.ext_getElem
    · simp
    · intro i h1 h2; simp
  rw [this, List.flatMap_map]
  rfl

theorem absorbAll_eq_cat {n N : Nat} (v : Vector (Vector UInt8 N) n) :
    absorbAll v = cat fun i : Fin n => v[i].toList := flatMap_eq_cat v _

theorem bytes_eq_layout {A D HP K LEN N : Nat} (s : SlhDsaSig A D HP K LEN N) : s.bytes = layout s := by
  rw [SlhDsaSig.bytes, ForsSig.bytes, HtSig.bytes, flatMap_eq_cat, flatMap_eq_cat, layout]
  simp only [forsPart, XmssSig.bytes, absorbAll_eq_cat]
  simp

/-- **C14** Every signature structure is written in the standard's layout and read back unchanged. -/
theorem C14_signature_encode_decode (s : Sig ps.params) :
    ∃ v : Vector UInt8 ps.params.SIG_LEN, v.toList = layout s ∧ ∀ b : Build,
      (s.serialize ps.params.SIG_LEN : Exec b _) = pure v ∧
      (SlhDsaSig.deserialize _ _ _ _ _ _ v.toList : Exec b (Sig ps.params)) = pure s := by
  have hl : (toVec ps.params.SIG_LEN s.bytes).toList = s.bytes :=
    toVec_toList (by rw [ps.matches.bytes_length, ps.sizes.sig])
  refine ⟨toVec _ s.bytes, hl.trans (bytes_eq_layout s), fun b => ⟨?_, ?_⟩⟩
  · obtain ⟨v, h, hv⟩ := Exec.returns_iff.mp (serialize_returns (m := Exec b) ps.matches s ps.sizes.sig)
    rw [h, eq_toVec hv]
  · obtain ⟨t, h, ht⟩ := Exec.returns_iff.mp (deserialize_returns (m := Exec b) ps.matches
      (bytes := (toVec ps.params.SIG_LEN s.bytes).toList) (by simp [ps.sizes.sig]))
    rw [h, SlhDsaSig.bytes_inj (ht.trans hl)]

/-- **C14** Every byte string of the right length decodes to a signature structure that encodes to the
same bytes. -/
theorem C14_signature_decode_encode (v : Vector UInt8 ps.params.SIG_LEN) :
    ∃ s : Sig ps.params, ∀ b : Build,
      (SlhDsaSig.deserialize _ _ _ _ _ _ v.toList : Exec b (Sig ps.params)) = pure s ∧
      (s.serialize ps.params.SIG_LEN : Exec b _) = pure v := by
  obtain ⟨s, _, hs⟩ := Exec.returns_iff.mp (deserialize_returns (m := Exec demoBuild) ps.matches
      (bytes := v.toList) (by simp [ps.sizes.sig]))
  refine ⟨s, fun b => ⟨?_, ?_⟩⟩
  · obtain ⟨t, h, ht⟩ := Exec.returns_iff.mp (deserialize_returns (m := Exec b) ps.matches
      (bytes := v.toList) (by simp [ps.sizes.sig]))
    rw [h, SlhDsaSig.bytes_inj (ht.trans hs.symm)]
  · obtain ⟨w, h, hw⟩ := Exec.returns_iff.mp (serialize_returns (m := Exec b) ps.matches s ps.sizes.sig)
    rw [h, Vector.toList_inj.mp (hw.trans hs)]

/-- **C14** Every byte is significant: different byte strings decode to different signatures. -/
theorem C14_every_byte_significant {b : Build} {v w : Vector UInt8 ps.params.SIG_LEN}
    {s : Sig ps.params}
    (hv : (SlhDsaSig.deserialize _ _ _ _ _ _ v.toList : Exec b (Sig ps.params)) = pure s)
    (hw : (SlhDsaSig.deserialize _ _ _ _ _ _ w.toList : Exec b (Sig ps.params)) = pure s) : v = w := by
  obtain ⟨s1, h1⟩ := C14_signature_decode_encode v
  obtain ⟨s2, h2⟩ := C14_signature_decode_encode w
  have e1 := Exec.pure_inj (hv.symm.trans (h1 b).1)
  have e2 := Exec.pure_inj (hw.symm.trans (h2 b).1)
  subst e1
  subst e2
  exact Exec.pure_inj ((h1 b).2.symm.trans (h2 b).2)

example (b : Build) (v : Vector UInt8 ps.params.SIG_LEN) : ∃ s,
    (SlhDsaSig.deserialize _ _ _ _ _ _ v.toList : Exec b (Sig ps.params)) = pure s :=
  let ⟨s, h⟩ := C14_signature_decode_encode v
  ⟨s, (h b).1⟩

/-! ## Messages -/

/-- The string signed for a pure request. -/
def pureString (ctx msg : List UInt8) : List UInt8 := 0 :: UInt8.ofNat ctx.length :: (ctx ++ msg)

/-- The string signed for a pre-hash request: the DER-encoded OID of the function and the digest. -/
def prehashString (P : Spec.Prims) (ctx msg : List UInt8) (ph : Ph) : List UInt8 :=
  1 :: UInt8.ofNat ctx.length :: (ctx ++ (Spec.oid ph.spec ++ Spec.preHash P msg ph.spec))

theorem pureMsg_eq (ctx msg : List UInt8) : Spec.pureMsg ctx msg = pureString ctx msg := by
  rw [← pure_flatten]; simp [pureString]

theorem phMsg_eq (ctx msg : List UInt8) (ph : Ph) : phMsg P ctx msg ph = prehashString P ctx msg ph := by
  rw [phMsg, ← prehash_flatten]; simp [prehashString]

/-- Every API request with an acceptable context is the raw operation on the string above. -/
theorem C16_requests_sign_strings {b : Build} (sk : PrivateKey ps.params) (pk : PublicKey ps.params)
    (rng : Rng (Exec b) σ) (s : σ) (msg ctx : List UInt8) (hc : ctx.length ≤ 255) (ph : Ph)
    (hedged : Bool) (sig : Vector UInt8 ps.params.SIG_LEN) :
    sk.try_sign_with_rng (crypto P) rng s msg ctx hedged =
      sk._test_only_raw_sign (crypto P) rng s (pureString ctx msg) hedged ∧
    sk.try_hash_sign_with_rng (crypto P) rng s msg ctx ph hedged =
      sk._test_only_raw_sign (crypto P) rng s (prehashString P ctx msg ph) hedged ∧
    (do let r ← pk.verify (crypto P) msg sig ctx; pure (.ok r) : Exec b (Except String Bool)) =
      pk._test_only_raw_verify (crypto P) (pureString ctx msg) sig ∧
    (do let r ← pk.hash_verify (crypto P) msg sig ctx ph; pure (.ok r) : Exec b (Except String Bool)) =
      pk._test_only_raw_verify (crypto P) (prehashString P ctx msg ph) sig := by
  have hc' : ¬ 255 < ctx.length := by omega
  refine ⟨?_, ?_, ?_, ?_⟩
  · rw [exec_try_sign_with_rng, exec_raw_sign, if_neg hc', pureMsg_eq]
  · rw [exec_try_hash_sign_with_rng, exec_raw_sign, if_neg hc', phMsg_eq]
  · rw [exec_verify, exec_raw_verify, pure_bind, Spec.verify, if_neg hc', pureMsg_eq]
  · rw [exec_hash_verify, exec_raw_verify, pure_bind, Spec.hashVerify, if_neg hc', ← phMsg_eq, phMsg]

theorem ctxByte_inj {c d : List UInt8} (hc : c.length ≤ 255) (hd : d.length ≤ 255)
    (h : UInt8.ofNat c.length = UInt8.ofNat d.length) : c.length = d.length := by
  have := congrArg UInt8.toNat h
  rwa [UInt8.toNat_ofNat', UInt8.toNat_ofNat', Nat.mod_eq_of_lt (by omega),
    Nat.mod_eq_of_lt (by omega)] at this

/-- **C16** The signed string of a pure request determines message and context. -/
theorem C16_pure_injective {ctx ctx' msg msg' : List UInt8} (hc : ctx.length ≤ 255)
    (hc' : ctx'.length ≤ 255) (h : pureString ctx msg = pureString ctx' msg') :
    ctx = ctx' ∧ msg = msg' := by
  rw [pureString, pureString] at h
  injection h with _ h
  injection h with h1 h2
  exact append_inj_len (ctxByte_inj hc hc' h1) h2

example : pureString [1] [2] ≠ pureString [] [1, 2] := by decide

/-- **C16** Pure and pre-hash requests never sign the same string. -/
theorem C16_pure_prehash_disjoint (P : Spec.Prims) (ctx ctx' msg msg' : List UInt8) (ph : Ph) :
    pureString ctx msg ≠ prehashString P ctx' msg' ph := by
  intro h
  rw [pureString, prehashString] at h
  injection h with h _
  exact absurd h (by decide)

/-- The bound on the context is needed: over-long contexts, if accepted, would collide. -/
example : pureString (List.replicate 256 0) [] = pureString [] (List.replicate 256 0) := by
  simp only [pureString, List.append_nil, List.nil_append, List.length_replicate, List.length_nil]
  rw [show UInt8.ofNat 256 = UInt8.ofNat 0 by decide]

theorem oid_length (ph : Ph) : (Spec.oid ph.spec).length = 11 := by cases ph <;> decide

theorem oid_inj {ph ph' : Ph} (h : Spec.oid ph.spec = Spec.oid ph'.spec) : ph = ph' := by
  revert h; cases ph <;> cases ph' <;> decide

/-- **C17** The signed string of a pre-hash request determines the context, the hash function and the
digest. -/
theorem C17_prehash_injective {ctx ctx' msg msg' : List UInt8} {ph ph' : Ph} (hc : ctx.length ≤ 255)
    (hc' : ctx'.length ≤ 255) (h : prehashString P ctx msg ph = prehashString P ctx' msg' ph') :
    ctx = ctx' ∧ ph = ph' ∧ Spec.preHash P msg ph.spec = Spec.preHash P msg' ph'.spec := by
  rw [prehashString, prehashString] at h
  injection h with _ h
  injection h with h1 h2
  obtain ⟨h3, h4⟩ := append_inj_len (ctxByte_inj hc hc' h1) h2
  obtain ⟨h5, h6⟩ := append_inj_len (by rw [oid_length, oid_length]) h4
  exact ⟨h3, oid_inj h5, h6⟩

/-- **C17** (converse) Requests that agree in context, function and digest sign the same string. -/
theorem C17_prehash_determined {ctx msg msg' : List UInt8} {ph : Ph}
    (h : Spec.preHash P msg ph.spec = Spec.preHash P msg' ph.spec) :
    prehashString P ctx msg ph = prehashString P ctx msg' ph := by
  rw [prehashString, prehashString, h]

/-- **C17** The code: there is one encoding of context, function and digest that does not depend on the
message otherwise, signing and verification of pre-hash requests are the raw operations on it, and it is
injective. -/
theorem C17_requests_sign_injective_encoding (ps : ParamSet) :
    ∃ enc : List UInt8 → Ph → List UInt8 → List UInt8,
      (∀ (P : Spec.Prims) (b : Build) (σ : Type) (sk : PrivateKey ps.params) (pk : PublicKey ps.params)
        (rng : Rng (Exec b) σ) (s : σ) (msg ctx : List UInt8) (ph : Ph) (hedged : Bool)
        (sig : Vector UInt8 ps.params.SIG_LEN), ctx.length ≤ 255 →
        let M := enc ctx ph (Spec.preHash P msg ph.spec)
        sk.try_hash_sign_with_rng (crypto P) rng s msg ctx ph hedged =
          sk._test_only_raw_sign (crypto P) rng s M hedged ∧
        (do let r ← pk.hash_verify (crypto P) msg sig ctx ph; pure (.ok r) :
          Exec b (Except String Bool)) = pk._test_only_raw_verify (crypto P) M sig) ∧
      ∀ ctx ctx' ph ph' d d', ctx.length ≤ 255 → ctx'.length ≤ 255 → enc ctx ph d = enc ctx' ph' d' →
        ctx = ctx' ∧ ph = ph' ∧ d = d' := by
  refine ⟨fun ctx ph d => 1 :: UInt8.ofNat ctx.length :: (ctx ++ (Spec.oid ph.spec ++ d)), ?_, ?_⟩
  · intro P b σ sk pk rng s msg ctx ph hedged sig hc
    have h := C16_requests_sign_strings (P := P) sk pk rng s msg ctx hc ph hedged sig
    exact ⟨h.2.1, h.2.2.2⟩
  · intro ctx ctx' ph ph' d d' hc hc' h
    injection h with _ h
    injection h with h1 h2
    obtain ⟨h3, h4⟩ := append_inj_len (ctxByte_inj hc hc' h1) h2
    obtain ⟨h5, h6⟩ := append_inj_len (by rw [oid_length, oid_length]) h4
    exact ⟨h3, oid_inj h5, h6⟩

example : prehashString demoPrims [1] [2] .SHA256 ≠ prehashString demoPrims [1] [2] .SHAKE128 := by
  intro h
  have := (C17_prehash_injective (by decide) (by decide) h).2.1
  exact absurd this (by decide)

/-- The premise of `C17_prehash_injective` is met by messages with equal digests. -/
example : prehashString ⟨fun _ => Vector.replicate 32 5, demoPrims.sha512, demoPrims.shake128, demoPrims.shake256⟩
    [1] [2] .SHA256 = prehashString ⟨fun _ => Vector.replicate 32 5, demoPrims.sha512, demoPrims.shake128,
      demoPrims.shake256⟩ [1] [3] .SHA256 := rfl

/-! ## The raw interface -/

/-- **C37** Raw signatures of generated keys verify with the raw verification. -/
theorem C37_raw_roundtrip {b b' : Build} {pk : PublicKey ps.params} {sk : PrivateKey ps.params}
    (hk : Generated P pk sk) {rng : Rng (Exec b) σ} {s s' : σ} {msg : List UInt8} {hedged : Bool}
    {sig : Vector UInt8 ps.params.SIG_LEN}
    (hs : sk._test_only_raw_sign (crypto P) rng s msg hedged = pure (s', .ok sig)) :
    pk._test_only_raw_verify (crypto P) msg sig = (pure (.ok true) : Exec b' _) := by
  obtain ⟨hc, rfl⟩ := hk.consistent
  obtain ⟨o, _, rfl⟩ := raw_sign_ok hs
  rw [exec_raw_verify]
  exact congrArg (fun x => pure (Except.ok x)) (verifyInternal_sigVec hc _ _)

/-- **C37** The raw interface is not separated from the pure one: a raw signature on
`0, len(ctx), ctx, msg` is a valid pure signature on `(msg, ctx)`. -/
theorem C37_raw_forges_pure {b b' : Build} {pk : PublicKey ps.params} {sk : PrivateKey ps.params}
    (hk : Generated P pk sk) {rng : Rng (Exec b) σ} {s s' : σ} {msg ctx : List UInt8}
    (hc : ctx.length ≤ 255) {hedged : Bool} {sig : Vector UInt8 ps.params.SIG_LEN}
    (hs : sk._test_only_raw_sign (crypto P) rng s (pureString ctx msg) hedged = pure (s', .ok sig)) :
    pk.verify (crypto P) msg sig ctx = (pure true : Exec b' _) := by
  rw [← (C16_requests_sign_strings sk pk rng s msg ctx hc .SHA256 hedged sig).1] at hs
  exact C01_pure_signatures_verify hk hs

/-- **C37** Likewise for pre-hash signatures. -/
theorem C37_raw_forges_prehash {b b' : Build} {pk : PublicKey ps.params} {sk : PrivateKey ps.params}
    (hk : Generated P pk sk) {rng : Rng (Exec b) σ} {s s' : σ} {msg ctx : List UInt8}
    (hc : ctx.length ≤ 255) {ph : Ph} {hedged : Bool} {sig : Vector UInt8 ps.params.SIG_LEN}
    (hs : sk._test_only_raw_sign (crypto P) rng s (prehashString P ctx msg ph) hedged =
      pure (s', .ok sig)) :
    pk.hash_verify (crypto P) msg sig ctx ph = (pure true : Exec b' _) := by
  rw [← (C16_requests_sign_strings sk pk rng s msg ctx hc ph hedged sig).2.1] at hs
  exact C02_prehash_signatures_verify hk hs

example (ps : ParamSet) (b : Build) (msg : List UInt8) (hedged : Bool) : ∃ s' sig,
    (demoKeys ps).2._test_only_raw_sign (crypto demoPrims) (demoRng.lift : Rng (Exec b) Nat) 3 msg
      hedged = pure (s', .ok sig) := by
  rw [exec_raw_sign]
  cases hedged
  · exact ⟨_, _, rfl⟩
  · exact ⟨_, _, rfl⟩

end Fips205.Props
