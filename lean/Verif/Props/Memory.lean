import Verif.Props.Ffi
import Verif.Model.Memory

/-! # C64: what the C entry points read and write in the memory of the caller -/

namespace Fips205.Props
open Fips205 Fips205.Model

variable {P : Spec.Prims} {σ : Type}

/-- Address `x` is one of the `n` bytes from `a`. -/
def Within (x a n : Nat) : Prop := a ≤ x ∧ x < a + n

/-- The memory holds the bytes `bs` from address `a`. -/
def Holds (M : Mem) (a : Nat) (bs : List UInt8) : Prop :=
  ∀ i (h : i < bs.length), M.byte (a + i) = some bs[i]

/-- No address belongs both to the `n` bytes from `a` and to the `k` bytes from `b`. -/
def Apart (a n b k : Nat) : Prop := ∀ x, ¬ (Within x a n ∧ Within x b k)

theorem apart_iff {a n b k : Nat} : Apart a n b k ↔ ¬ Overlap a n b k := by
  constructor
  · rintro h ⟨h1, h2, h3, h4⟩
    exact h (max a b) ⟨⟨by omega, by omega⟩, ⟨by omega, by omega⟩⟩
  · rintro h x ⟨⟨h1, h2⟩, ⟨h3, h4⟩⟩
    exact h ⟨by omega, by omega, by omega, by omega⟩

theorem Holds.mapped {M : Mem} {a : Nat} {bs : List UInt8} (h : Holds M a bs) :
    M.Mapped a bs.length := fun i hi => by rw [h i hi]; rfl

theorem Holds.contents {M : Mem} {a n : Nat} {v : Vector UInt8 n} (h : Holds M a v.toList) :
    M.contents a n = v := by
  ext i hi
  have := h i (by simpa using hi)
  simp only [Mem.contents, Vector.getElem_ofFn, this]
  simp

theorem holds_store (M : Mem) (a : Nat) (bs : List UInt8) : Holds (M.store a bs) a bs := by
  intro i hi
  have : a + i - a = i := by omega
  simp only [Mem.store, this]
  rw [if_pos ⟨by omega, by omega⟩, List.getElem?_eq_getElem hi]

theorem store_byte {M : Mem} {a x : Nat} {bs : List UInt8} (h : ¬ Within x a bs.length) :
    (M.store a bs).byte x = M.byte x := if_neg h

theorem holds_frame {M M' : Mem} {a : Nat} {bs : List UInt8} (h : Holds M a bs)
    (hf : ∀ x, Within x a bs.length → M'.byte x = M.byte x) : Holds M' a bs := fun i hi => by
  rw [hf _ ⟨by omega, by omega⟩, h i hi]

theorem mapped_frame {M M' : Mem} {a n : Nat} (h : M.Mapped a n)
    (hf : ∀ x, Within x a n → M'.byte x = M.byte x) : M'.Mapped a n := fun i hi => by
  rw [hf _ ⟨by omega, by omega⟩]; exact h i hi

theorem arg_null (M : Mem) (n : Nat) : M.arg n 0 = .ret none := if_pos rfl

theorem arg_some {M : Mem} {n a : Nat} (h0 : a ≠ 0) (h : M.Mapped a n) :
    M.arg n a = .ret (some (M.contents a n)) := by rw [Mem.arg, if_neg h0, if_pos h]

theorem arg_bad {M : Mem} {n a : Nat} (h0 : a ≠ 0) (h : ¬ M.Mapped a n) : M.arg n a = .ub := by
  rw [Mem.arg, if_neg h0, if_neg h]

theorem c_message_ok {M : Mem} {buf len : Nat} {refs : List (Nat × Nat)} (h0 : buf ≠ 0)
    (hm : M.Mapped buf len) (ha : ∀ r ∈ refs, Apart buf len r.1 r.2) :
    c_message M buf len refs = .ret (M.contents buf len).toList := by
  rw [c_message, if_neg]
  rintro (h | h | ⟨r, hr, h⟩)
  · exact h0 h
  · exact h hm
  · exact apart_iff.1 (ha r hr) h

/-! ## The entry points by cases -/

/-- Key generation with two usable output buffers. -/
theorem c_keygen_valid {b : Build} (os : Rng (Exec b) σ) (s : σ) {M : Mem} {pub priv : Nat}
    (h1 : pub ≠ 0) (h2 : priv ≠ 0) (hm1 : M.Mapped pub ffiSet.params.PK_LEN)
    (hm2 : M.Mapped priv ffiSet.params.SK_LEN)
    (ha : Apart pub ffiSet.params.PK_LEN priv ffiSet.params.SK_LEN) :
    c_keygen (crypto P) os s M pub priv = (do
      let d ← try_keygen_with_rng ffiSet.params (crypto P) os s
      match d.2 with
      | .error _ => pure (.ret (d.1, SLH_DSA_KEYGEN_ERROR, M))
      | .ok kp => pure (.ret (d.1, SLH_DSA_OK,
          (M.store pub (Spec.encodePK kp.1.key.pk_seed.toList kp.1.key.pk_root.toList)).store priv
            (Spec.encodeSK kp.2.key.sk_seed.toList kp.2.key.sk_prf.toList kp.2.key.pk_seed.toList
              kp.2.key.pk_root.toList))) : Exec b _) := by
  have e1 : M.arg slh_dsa_sha2_128f.PK_LEN pub = _ := arg_some h1 hm1
  have e2 : M.arg slh_dsa_sha2_128f.SK_LEN priv = _ := arg_some h2 hm2
  have e3 : ¬ Overlap pub slh_dsa_sha2_128f.PK_LEN priv slh_dsa_sha2_128f.SK_LEN := apart_iff.1 ha
  simp only [c_keygen, e1, e2, e3, and_false, if_false]
  refine congrArg (fun f => try_keygen slh_dsa_sha2_128f (crypto P) os s >>= f) (funext ?_)
  rintro ⟨s', _ | ⟨pk, sk⟩⟩
  · rfl
  · obtain ⟨pkb, f1, g1⟩ := exec_pk_into_bytes (b := b) (ps := ffiSet) pk
    obtain ⟨skb, f2, g2⟩ := exec_sk_into_bytes (b := b) (ps := ffiSet) sk
    have f1 : (PublicKey.into_bytes (p := slh_dsa_sha2_128f) pk : Exec b _) = pure pkb := f1
    have f2 : (PrivateKey.into_bytes (p := slh_dsa_sha2_128f) sk : Exec b _) = pure skb := f2
    simp only [f1, f2, pure_bind, ← g1, ← g2]
    rfl

/-- A buffer for the key generator that is null. -/
theorem c_keygen_null {b : Build} (os : Rng (Exec b) σ) (s : σ) {M : Mem} {pub priv : Nat}
    (hm1 : pub ≠ 0 → M.Mapped pub ffiSet.params.PK_LEN)
    (hm2 : priv ≠ 0 → M.Mapped priv ffiSet.params.SK_LEN) (h : pub = 0 ∨ priv = 0) :
    c_keygen (crypto P) os s M pub priv = pure (.ret (s, SLH_DSA_NULL_PTR_ERROR, M)) := by
  by_cases h1 : pub = 0
  · subst h1
    by_cases h2 : priv = 0
    · subst h2; rfl
    · have e2 : M.arg slh_dsa_sha2_128f.SK_LEN priv = _ := arg_some h2 (hm2 h2)
      simp only [c_keygen, arg_null, e2]; rfl
  · obtain rfl : priv = 0 := by omega
    have e1 : M.arg slh_dsa_sha2_128f.PK_LEN pub = _ := arg_some h1 (hm1 h1)
    simp only [c_keygen, arg_null, e1, Option.isSome]
    rfl

/-- An address that is neither null nor usable. -/
def BadRef (M : Mem) (a n : Nat) : Prop := a ≠ 0 ∧ ¬ M.Mapped a n

theorem c_keygen_bad {b : Build} (os : Rng (Exec b) σ) (s : σ) {M : Mem} {pub priv : Nat}
    (h : BadRef M pub ffiSet.params.PK_LEN ∨ BadRef M priv ffiSet.params.SK_LEN ∨
      (pub ≠ 0 ∧ priv ≠ 0 ∧ ¬ Apart pub ffiSet.params.PK_LEN priv ffiSet.params.SK_LEN)) :
    c_keygen (crypto P) os s M pub priv = pure .ub := by
  by_cases b1 : BadRef M pub ffiSet.params.PK_LEN
  · have e1 : M.arg slh_dsa_sha2_128f.PK_LEN pub = _ := arg_bad b1.1 b1.2
    simp only [c_keygen, e1]
  by_cases b2 : BadRef M priv ffiSet.params.SK_LEN
  · have e1 : M.arg slh_dsa_sha2_128f.SK_LEN priv = _ := arg_bad b2.1 b2.2
    unfold c_keygen
    split <;> first | rfl | (rename_i h; exact absurd (e1.symm.trans h) (by simp))
  obtain ⟨h1, h2, h3⟩ := (h.resolve_left b1).resolve_left b2
  have e1 : M.arg slh_dsa_sha2_128f.PK_LEN pub = _ := arg_some h1 (not_not.1 fun h => b1 ⟨h1, h⟩)
  have e2 : M.arg slh_dsa_sha2_128f.SK_LEN priv = _ := arg_some h2 (not_not.1 fun h => b2 ⟨h2, h⟩)
  have e3 : Overlap pub slh_dsa_sha2_128f.PK_LEN priv slh_dsa_sha2_128f.SK_LEN :=
    not_not.1 fun h => h3 (apart_iff.2 h)
  simp only [c_keygen, e1, e2, e3, Option.isSome, and_self, if_true]

/-- Signing with a usable key and output buffer and a readable message. -/
theorem c_sign_valid {b : Build} (os : Rng (Exec b) σ) (s : σ) {M : Mem} {buf skp sigp : Nat} {len : Int}
    (h0 : buf ≠ 0) (h1 : skp ≠ 0) (h2 : sigp ≠ 0) (hm1 : M.Mapped skp ffiSet.params.SK_LEN)
    (hm2 : M.Mapped sigp ffiSet.params.SIG_LEN)
    (ha : Apart skp ffiSet.params.SK_LEN sigp ffiSet.params.SIG_LEN)
    (hl : 0 ≤ len) (hw : len < 2 ^ b.usizeBits) (hm : M.Mapped buf len.toNat)
    (ha1 : Apart buf len.toNat skp ffiSet.params.SK_LEN)
    (ha2 : Apart buf len.toNat sigp ffiSet.params.SIG_LEN) :
    c_sign (crypto P) os s M buf len skp sigp = (do
      match ← PrivateKey.try_from_bytes (p := ffiSet.params) (crypto P)
          (M.contents skp ffiSet.params.SK_LEN) with
      | .error _ => pure (.ret (s, SLH_DSA_DESERIALIZATION_ERROR, M))
      | .ok sk =>
        let d ← sk.try_sign_with_rng (crypto P) os s (M.contents buf len.toNat).toList [] true
        match d.2 with
        | .error _ => pure (.ret (d.1, SLH_DSA_SIGN_ERROR, M))
        | .ok sig => pure (.ret (d.1, SLH_DSA_OK, M.store sigp sig.toList)) : Exec b _) := by
  have e1' := arg_some h1 hm1
  have e2' := arg_some h2 hm2
  generalize M.contents skp ffiSet.params.SK_LEN = key at *
  generalize M.contents sigp ffiSet.params.SIG_LEN = out at *
  have e1 : M.arg slh_dsa_sha2_128f.SK_LEN skp = .ret (some key) := e1'
  have e2 : M.arg slh_dsa_sha2_128f.SIG_LEN sigp = .ret (some out) := e2'
  have e3 : ¬ Overlap skp slh_dsa_sha2_128f.SK_LEN sigp slh_dsa_sha2_128f.SIG_LEN := apart_iff.1 ha
  have e4 : (usizeFromCInt len : Exec b Nat) = pure len.toNat := by
    rw [usizeFromCInt]; exact if_pos ⟨hl, hw⟩
  have e5 : c_message M buf len.toNat [(skp, slh_dsa_sha2_128f.SK_LEN),
      (sigp, slh_dsa_sha2_128f.SIG_LEN)] = .ret (M.contents buf len.toNat).toList :=
    c_message_ok h0 hm (by
      intro r hr
      simp only [List.mem_cons, List.not_mem_nil, or_false] at hr
      rcases hr with rfl | rfl
      · exact ha1
      · exact ha2)
  generalize (M.contents buf len.toNat).toList = msg at *
  simp only [c_sign, e1, e2, e3, and_false, if_false, h0, e4, pure_bind, e5]
  rfl

/-- Signing with a null pointer. -/
theorem c_sign_null {b : Build} (os : Rng (Exec b) σ) (s : σ) {M : Mem} {buf skp sigp : Nat} {len : Int}
    (hm1 : skp ≠ 0 → M.Mapped skp ffiSet.params.SK_LEN)
    (hm2 : sigp ≠ 0 → M.Mapped sigp ffiSet.params.SIG_LEN)
    (ha : skp ≠ 0 → sigp ≠ 0 → Apart skp ffiSet.params.SK_LEN sigp ffiSet.params.SIG_LEN)
    (h : skp = 0 ∨ sigp = 0 ∨ buf = 0) :
    c_sign (crypto P) os s M buf len skp sigp = pure (.ret (s, SLH_DSA_NULL_PTR_ERROR, M)) := by
  by_cases h1 : skp = 0
  · subst h1
    by_cases h2 : sigp = 0
    · subst h2; rfl
    · have e2 : M.arg slh_dsa_sha2_128f.SIG_LEN sigp = _ := arg_some h2 (hm2 h2)
      simp only [c_sign, arg_null, e2]; rfl
  have e1 : M.arg slh_dsa_sha2_128f.SK_LEN skp = _ := arg_some h1 (hm1 h1)
  by_cases h2 : sigp = 0
  · subst h2
    simp only [c_sign, arg_null, e1, Option.isSome]
    rfl
  have e2 : M.arg slh_dsa_sha2_128f.SIG_LEN sigp = _ := arg_some h2 (hm2 h2)
  have e3 : ¬ Overlap skp slh_dsa_sha2_128f.SK_LEN sigp slh_dsa_sha2_128f.SIG_LEN :=
    apart_iff.1 (ha h1 h2)
  obtain rfl : buf = 0 := by omega
  simp only [c_sign, e1, e2, e3, and_false, if_false]
  rfl

theorem c_sign_bad {b : Build} (os : Rng (Exec b) σ) (s : σ) {M : Mem} {buf skp sigp : Nat} {len : Int}
    (h : BadRef M skp ffiSet.params.SK_LEN ∨ BadRef M sigp ffiSet.params.SIG_LEN ∨
      (skp ≠ 0 ∧ sigp ≠ 0 ∧ (¬ Apart skp ffiSet.params.SK_LEN sigp ffiSet.params.SIG_LEN ∨
        (buf ≠ 0 ∧ 0 ≤ len ∧ len < 2 ^ b.usizeBits ∧ (¬ M.Mapped buf len.toNat ∨
          ¬ Apart buf len.toNat skp ffiSet.params.SK_LEN ∨
          ¬ Apart buf len.toNat sigp ffiSet.params.SIG_LEN))))) :
    c_sign (crypto P) os s M buf len skp sigp = pure .ub := by
  by_cases b1 : BadRef M skp ffiSet.params.SK_LEN
  · have e1 : M.arg slh_dsa_sha2_128f.SK_LEN skp = _ := arg_bad b1.1 b1.2
    simp only [c_sign, e1]
  by_cases b2 : BadRef M sigp ffiSet.params.SIG_LEN
  · have e1 : M.arg slh_dsa_sha2_128f.SIG_LEN sigp = _ := arg_bad b2.1 b2.2
    unfold c_sign
    split <;> first | rfl | (rename_i h; exact absurd (e1.symm.trans h) (by simp))
  obtain ⟨h1, h2, h3⟩ := (h.resolve_left b1).resolve_left b2
  have e1 : M.arg slh_dsa_sha2_128f.SK_LEN skp = _ := arg_some h1 (not_not.1 fun h => b1 ⟨h1, h⟩)
  have e2 : M.arg slh_dsa_sha2_128f.SIG_LEN sigp = _ := arg_some h2 (not_not.1 fun h => b2 ⟨h2, h⟩)
  by_cases e3 : Overlap skp slh_dsa_sha2_128f.SK_LEN sigp slh_dsa_sha2_128f.SIG_LEN
  · simp only [c_sign, e1, e2, e3, Option.isSome, and_self, if_true]
  obtain ⟨h0, hl, hw, h4⟩ := h3.resolve_left fun h => h (apart_iff.2 e3)
  have e4 : (usizeFromCInt len : Exec b Nat) = pure len.toNat := by
    rw [usizeFromCInt]; exact if_pos ⟨hl, hw⟩
  have e5 : c_message M buf len.toNat [(skp, slh_dsa_sha2_128f.SK_LEN),
      (sigp, slh_dsa_sha2_128f.SIG_LEN)] = .ub := by
    rw [c_message, if_pos]
    rcases h4 with h | h | h
    · exact .inr (.inl h)
    · exact .inr (.inr ⟨_, List.mem_cons_self, not_not.1 fun h' => h (apart_iff.2 h')⟩)
    · exact .inr (.inr ⟨_, List.mem_cons_of_mem _ List.mem_cons_self,
        not_not.1 fun h' => h (apart_iff.2 h')⟩)
  have hlk : ∀ e, (leak e : Exec b Unit) = pure () := fun _ => rfl
  simp only [c_sign, e1, e2, e3, and_false, if_false, h0, e4, pure_bind, e5, hlk]

theorem c_sign_abort {b : Build} (os : Rng (Exec b) σ) (s : σ) {M : Mem} {buf skp sigp : Nat} {len : Int}
    (h0 : buf ≠ 0) (h1 : skp ≠ 0) (h2 : sigp ≠ 0) (hm1 : M.Mapped skp ffiSet.params.SK_LEN)
    (hm2 : M.Mapped sigp ffiSet.params.SIG_LEN)
    (ha : Apart skp ffiSet.params.SK_LEN sigp ffiSet.params.SIG_LEN)
    (hl : ¬ (0 ≤ len ∧ len < 2 ^ b.usizeBits)) :
    c_sign (crypto P) os s M buf len skp sigp = panic .unwrap := by
  have e1 : M.arg slh_dsa_sha2_128f.SK_LEN skp = _ := arg_some h1 hm1
  have e2 : M.arg slh_dsa_sha2_128f.SIG_LEN sigp = _ := arg_some h2 hm2
  have e3 : ¬ Overlap skp slh_dsa_sha2_128f.SK_LEN sigp slh_dsa_sha2_128f.SIG_LEN := apart_iff.1 ha
  have e4 : (usizeFromCInt len : Exec b Nat) = panic .unwrap := by
    rw [usizeFromCInt]; exact if_neg hl
  simp only [c_sign, e1, e2, e3, and_false, if_false, h0, e4]
  rfl

/-- Verification with a usable key and signature and a readable message. -/
theorem c_verify_valid {b : Build} {M : Mem} {buf pkp sigp : Nat} {len : Int}
    (h0 : buf ≠ 0) (h1 : pkp ≠ 0) (h2 : sigp ≠ 0) (hm1 : M.Mapped pkp ffiSet.params.PK_LEN)
    (hm2 : M.Mapped sigp ffiSet.params.SIG_LEN)
    (ha : Apart pkp ffiSet.params.PK_LEN sigp ffiSet.params.SIG_LEN)
    (hl : 0 ≤ len) (hw : len < 2 ^ b.usizeBits) (hm : M.Mapped buf len.toNat)
    (ha1 : Apart buf len.toNat pkp ffiSet.params.PK_LEN)
    (ha2 : Apart buf len.toNat sigp ffiSet.params.SIG_LEN) :
    (c_verify (crypto P) M buf len pkp sigp : Exec b _) =
      slh_dsa_sha2_128f_verify (crypto P) (.to (M.contents buf len.toNat).toList) len
        (some (M.contents pkp ffiSet.params.PK_LEN)) (some (M.contents sigp ffiSet.params.SIG_LEN)) := by
  have e1 : M.arg slh_dsa_sha2_128f.PK_LEN pkp = _ := arg_some h1 hm1
  have e2 : M.arg slh_dsa_sha2_128f.SIG_LEN sigp = _ := arg_some h2 hm2
  have e3 : ¬ Overlap pkp slh_dsa_sha2_128f.PK_LEN sigp slh_dsa_sha2_128f.SIG_LEN := apart_iff.1 ha
  have e4 : (usizeFromCInt len : Exec b Nat) = pure len.toNat := by
    rw [usizeFromCInt]; exact if_pos ⟨hl, hw⟩
  have e5 : c_message M buf len.toNat [(pkp, slh_dsa_sha2_128f.PK_LEN),
      (sigp, slh_dsa_sha2_128f.SIG_LEN)] = .ret (M.contents buf len.toNat).toList :=
    c_message_ok h0 hm (by
      intro r hr
      simp only [List.mem_cons, List.not_mem_nil, or_false] at hr
      rcases hr with rfl | rfl
      · exact ha1
      · exact ha2)
  have e6 : fromRawParts (.to (M.contents buf len.toNat).toList) len.toNat =
      .ret (M.contents buf len.toNat).toList := by
    rw [fromRawParts, if_pos (by simp), List.take_of_length_le (by simp)]
  simp only [c_verify, e1, e2, e3, and_false, if_false, e4, pure_bind, e5, slh_dsa_sha2_128f_verify, e6]
  rfl

theorem c_verify_null {b : Build} {M : Mem} {buf pkp sigp : Nat} {len : Int}
    (hm1 : pkp ≠ 0 → M.Mapped pkp ffiSet.params.PK_LEN)
    (hm2 : sigp ≠ 0 → M.Mapped sigp ffiSet.params.SIG_LEN)
    (h : pkp = 0 ∨ sigp = 0) :
    (c_verify (crypto P) M buf len pkp sigp : Exec b _) = pure (.ret SLH_DSA_NULL_PTR_ERROR) := by
  by_cases h1 : pkp = 0
  · subst h1
    by_cases h2 : sigp = 0
    · subst h2; rfl
    · have e2 : M.arg slh_dsa_sha2_128f.SIG_LEN sigp = _ := arg_some h2 (hm2 h2)
      simp only [c_verify, arg_null, e2]; rfl
  have e1 : M.arg slh_dsa_sha2_128f.PK_LEN pkp = _ := arg_some h1 (hm1 h1)
  obtain rfl : sigp = 0 := by omega
  simp only [c_verify, arg_null, e1, Option.isSome]
  rfl

theorem c_verify_bad {b : Build} {M : Mem} {buf pkp sigp : Nat} {len : Int}
    (h : BadRef M pkp ffiSet.params.PK_LEN ∨ BadRef M sigp ffiSet.params.SIG_LEN ∨
      (pkp ≠ 0 ∧ sigp ≠ 0 ∧ (¬ Apart pkp ffiSet.params.PK_LEN sigp ffiSet.params.SIG_LEN ∨
        (0 ≤ len ∧ len < 2 ^ b.usizeBits ∧ (buf = 0 ∨ ¬ M.Mapped buf len.toNat ∨
          ¬ Apart buf len.toNat pkp ffiSet.params.PK_LEN ∨
          ¬ Apart buf len.toNat sigp ffiSet.params.SIG_LEN))))) :
    (c_verify (crypto P) M buf len pkp sigp : Exec b _) = pure .ub := by
  by_cases b1 : BadRef M pkp ffiSet.params.PK_LEN
  · have e1 : M.arg slh_dsa_sha2_128f.PK_LEN pkp = _ := arg_bad b1.1 b1.2
    simp only [c_verify, e1]
  by_cases b2 : BadRef M sigp ffiSet.params.SIG_LEN
  · have e1 : M.arg slh_dsa_sha2_128f.SIG_LEN sigp = _ := arg_bad b2.1 b2.2
    unfold c_verify
    split <;> first | rfl | (rename_i h; exact absurd (e1.symm.trans h) (by simp))
  obtain ⟨h1, h2, h3⟩ := (h.resolve_left b1).resolve_left b2
  have e1 : M.arg slh_dsa_sha2_128f.PK_LEN pkp = _ := arg_some h1 (not_not.1 fun h => b1 ⟨h1, h⟩)
  have e2 : M.arg slh_dsa_sha2_128f.SIG_LEN sigp = _ := arg_some h2 (not_not.1 fun h => b2 ⟨h2, h⟩)
  by_cases e3 : Overlap pkp slh_dsa_sha2_128f.PK_LEN sigp slh_dsa_sha2_128f.SIG_LEN
  · simp only [c_verify, e1, e2, e3, Option.isSome, and_self, if_true]
  obtain ⟨hl, hw, h4⟩ := h3.resolve_left fun h => h (apart_iff.2 e3)
  have e4 : (usizeFromCInt len : Exec b Nat) = pure len.toNat := by
    rw [usizeFromCInt]; exact if_pos ⟨hl, hw⟩
  have e5 : c_message M buf len.toNat [(pkp, slh_dsa_sha2_128f.PK_LEN),
      (sigp, slh_dsa_sha2_128f.SIG_LEN)] = .ub := by
    rw [c_message, if_pos]
    rcases h4 with h | h | h | h
    · exact .inl h
    · exact .inr (.inl h)
    · exact .inr (.inr ⟨_, List.mem_cons_self, not_not.1 fun h' => h (apart_iff.2 h')⟩)
    · exact .inr (.inr ⟨_, List.mem_cons_of_mem _ List.mem_cons_self,
        not_not.1 fun h' => h (apart_iff.2 h')⟩)
  have hlk : ∀ e, (leak e : Exec b Unit) = pure () := fun _ => rfl
  simp only [c_verify, e1, e2, e3, and_false, if_false, e4, pure_bind, e5, hlk]

theorem c_verify_abort {b : Build} {M : Mem} {buf pkp sigp : Nat} {len : Int}
    (h1 : pkp ≠ 0) (h2 : sigp ≠ 0) (hm1 : M.Mapped pkp ffiSet.params.PK_LEN)
    (hm2 : M.Mapped sigp ffiSet.params.SIG_LEN)
    (ha : Apart pkp ffiSet.params.PK_LEN sigp ffiSet.params.SIG_LEN)
    (hl : ¬ (0 ≤ len ∧ len < 2 ^ b.usizeBits)) :
    (c_verify (crypto P) M buf len pkp sigp : Exec b _) = panic .unwrap := by
  have e1 : M.arg slh_dsa_sha2_128f.PK_LEN pkp = _ := arg_some h1 hm1
  have e2 : M.arg slh_dsa_sha2_128f.SIG_LEN sigp = _ := arg_some h2 hm2
  have e3 : ¬ Overlap pkp slh_dsa_sha2_128f.PK_LEN sigp slh_dsa_sha2_128f.SIG_LEN := apart_iff.1 ha
  have e4 : (usizeFromCInt len : Exec b Nat) = panic .unwrap := by
    rw [usizeFromCInt]; exact if_neg hl
  simp only [c_verify, e1, e2, e3, and_false, if_false, e4]
  rfl

/-! ## C64 -/

/-- The arguments of a key generation call that Rust does not allow. -/
def KeygenMisuse (M : Mem) (pub priv : Nat) : Prop :=
  BadRef M pub 32 ∨ BadRef M priv 64 ∨ (pub ≠ 0 ∧ priv ≠ 0 ∧ ¬ Apart pub 32 priv 64)

/-- The arguments of a signing call that Rust does not allow, if lengths up to `2 ^ w - 1` fit `usize`. -/
def SignMisuse (w : Nat) (M : Mem) (buf : Nat) (len : Int) (skp sigp : Nat) : Prop :=
  BadRef M skp 64 ∨ BadRef M sigp 17088 ∨ (skp ≠ 0 ∧ sigp ≠ 0 ∧ (¬ Apart skp 64 sigp 17088 ∨
    (buf ≠ 0 ∧ 0 ≤ len ∧ len < 2 ^ w ∧ (¬ M.Mapped buf len.toNat ∨
      ¬ Apart buf len.toNat skp 64 ∨ ¬ Apart buf len.toNat sigp 17088))))

/-- The arguments of a verification call that Rust does not allow: here a null message is one. -/
def VerifyMisuse (w : Nat) (M : Mem) (buf : Nat) (len : Int) (pkp sigp : Nat) : Prop :=
  BadRef M pkp 32 ∨ BadRef M sigp 17088 ∨ (pkp ≠ 0 ∧ sigp ≠ 0 ∧ (¬ Apart pkp 32 sigp 17088 ∨
    (0 ≤ len ∧ len < 2 ^ w ∧ (buf = 0 ∨ ¬ M.Mapped buf len.toNat ∨
      ¬ Apart buf len.toNat pkp 32 ∨ ¬ Apart buf len.toNat sigp 17088))))

theorem not_badRef {M : Mem} {a n : Nat} (h : ¬ BadRef M a n) (h0 : a ≠ 0) : M.Mapped a n :=
  not_not.1 fun hn => h ⟨h0, hn⟩

/-- What a key generation call can come to, whatever the arguments and the generator. -/
theorem c_keygen_cases {b : Build} (os : Rng (Exec b) σ) (s : σ) (M : Mem) (pub priv : Nat) :
    (KeygenMisuse M pub priv ∧ c_keygen (crypto P) os s M pub priv = pure .ub) ∨
    ((pub = 0 ∨ priv = 0) ∧
      c_keygen (crypto P) os s M pub priv = pure (.ret (s, SLH_DSA_NULL_PTR_ERROR, M))) ∨
    (pub ≠ 0 ∧ priv ≠ 0 ∧ M.Mapped pub 32 ∧ M.Mapped priv 64 ∧ Apart pub 32 priv 64) := by
  by_cases hb : KeygenMisuse M pub priv
  · exact .inl ⟨hb, c_keygen_bad os s hb⟩
  have b1 : ¬ BadRef M pub 32 := fun h => hb (.inl h)
  have b2 : ¬ BadRef M priv 64 := fun h => hb (.inr (.inl h))
  by_cases h : pub = 0 ∨ priv = 0
  · exact .inr (.inl ⟨h, c_keygen_null os s (not_badRef b1) (not_badRef b2) h⟩)
  · obtain ⟨h1, h2⟩ := not_or.1 h
    exact .inr (.inr ⟨h1, h2, not_badRef b1 h1, not_badRef b2 h2,
      not_not.1 fun ha => hb (.inr (.inr ⟨h1, h2, ha⟩))⟩)

theorem c_sign_cases {b : Build} (os : Rng (Exec b) σ) (s : σ) (M : Mem) (buf : Nat) (len : Int)
    (skp sigp : Nat) :
    (SignMisuse b.usizeBits M buf len skp sigp ∧
      c_sign (crypto P) os s M buf len skp sigp = pure .ub) ∨
    ((skp = 0 ∨ sigp = 0 ∨ buf = 0) ∧
      c_sign (crypto P) os s M buf len skp sigp = pure (.ret (s, SLH_DSA_NULL_PTR_ERROR, M))) ∨
    (¬ (0 ≤ len ∧ len < 2 ^ b.usizeBits) ∧
      c_sign (crypto P) os s M buf len skp sigp = panic .unwrap) ∨
    (buf ≠ 0 ∧ skp ≠ 0 ∧ sigp ≠ 0 ∧ M.Mapped skp 64 ∧ M.Mapped sigp 17088 ∧ Apart skp 64 sigp 17088 ∧
      0 ≤ len ∧ len < 2 ^ b.usizeBits ∧ M.Mapped buf len.toNat ∧ Apart buf len.toNat skp 64 ∧
      Apart buf len.toNat sigp 17088) := by
  by_cases hb : SignMisuse b.usizeBits M buf len skp sigp
  · exact .inl ⟨hb, c_sign_bad os s hb⟩
  have b1 : ¬ BadRef M skp 64 := fun h => hb (.inl h)
  have b2 : ¬ BadRef M sigp 17088 := fun h => hb (.inr (.inl h))
  have b3 : skp ≠ 0 → sigp ≠ 0 → Apart skp 64 sigp 17088 := fun h1 h2 =>
    not_not.1 fun ha => hb (.inr (.inr ⟨h1, h2, .inl ha⟩))
  by_cases h : skp = 0 ∨ sigp = 0 ∨ buf = 0
  · exact .inr (.inl ⟨h, c_sign_null os s (not_badRef b1) (not_badRef b2) b3 h⟩)
  obtain ⟨h1, h⟩ := not_or.1 h
  obtain ⟨h2, h0⟩ := not_or.1 h
  by_cases hl : 0 ≤ len ∧ len < 2 ^ b.usizeBits
  · have b4 : ¬ (¬ M.Mapped buf len.toNat ∨ ¬ Apart buf len.toNat skp 64 ∨
        ¬ Apart buf len.toNat sigp 17088) := fun h =>
      hb (.inr (.inr ⟨h1, h2, .inr ⟨h0, hl.1, hl.2, h⟩⟩))
    simp only [not_or, not_not] at b4
    exact .inr (.inr (.inr ⟨h0, h1, h2, not_badRef b1 h1, not_badRef b2 h2, b3 h1 h2, hl.1, hl.2,
      b4.1, b4.2.1, b4.2.2⟩))
  · exact .inr (.inr (.inl ⟨hl, c_sign_abort os s h0 h1 h2 (not_badRef b1 h1) (not_badRef b2 h2)
      (b3 h1 h2) hl⟩))

theorem c_verify_cases {b : Build} (M : Mem) (buf : Nat) (len : Int) (pkp sigp : Nat) :
    (VerifyMisuse b.usizeBits M buf len pkp sigp ∧
      (c_verify (crypto P) M buf len pkp sigp : Exec b _) = pure .ub) ∨
    ((pkp = 0 ∨ sigp = 0) ∧
      (c_verify (crypto P) M buf len pkp sigp : Exec b _) = pure (.ret SLH_DSA_NULL_PTR_ERROR)) ∨
    (¬ (0 ≤ len ∧ len < 2 ^ b.usizeBits) ∧
      (c_verify (crypto P) M buf len pkp sigp : Exec b _) = panic .unwrap) ∨
    (buf ≠ 0 ∧ pkp ≠ 0 ∧ sigp ≠ 0 ∧ M.Mapped pkp 32 ∧ M.Mapped sigp 17088 ∧ Apart pkp 32 sigp 17088 ∧
      0 ≤ len ∧ len < 2 ^ b.usizeBits ∧ M.Mapped buf len.toNat ∧ Apart buf len.toNat pkp 32 ∧
      Apart buf len.toNat sigp 17088) := by
  by_cases hb : VerifyMisuse b.usizeBits M buf len pkp sigp
  · exact .inl ⟨hb, c_verify_bad hb⟩
  have b1 : ¬ BadRef M pkp 32 := fun h => hb (.inl h)
  have b2 : ¬ BadRef M sigp 17088 := fun h => hb (.inr (.inl h))
  have b3 : pkp ≠ 0 → sigp ≠ 0 → Apart pkp 32 sigp 17088 := fun h1 h2 =>
    not_not.1 fun ha => hb (.inr (.inr ⟨h1, h2, .inl ha⟩))
  by_cases h : pkp = 0 ∨ sigp = 0
  · exact .inr (.inl ⟨h, c_verify_null (not_badRef b1) (not_badRef b2) h⟩)
  obtain ⟨h1, h2⟩ := not_or.1 h
  by_cases hl : 0 ≤ len ∧ len < 2 ^ b.usizeBits
  · have b4 : ¬ (buf = 0 ∨ ¬ M.Mapped buf len.toNat ∨ ¬ Apart buf len.toNat pkp 32 ∨
        ¬ Apart buf len.toNat sigp 17088) := fun h =>
      hb (.inr (.inr ⟨h1, h2, .inr ⟨hl.1, hl.2, h⟩⟩))
    simp only [not_or, not_not] at b4
    exact .inr (.inr (.inr ⟨b4.1, h1, h2, not_badRef b1 h1, not_badRef b2 h2, b3 h1 h2, hl.1, hl.2,
      b4.2.1, b4.2.2.1, b4.2.2.2⟩))
  · exact .inr (.inr (.inl ⟨hl, c_verify_abort h1 h2 (not_badRef b1 h1) (not_badRef b2 h2)
      (b3 h1 h2) hl⟩))

theorem encodePK_length {p : ParamSet} (k : PublicKey p.params) :
    (Spec.encodePK k.key.pk_seed.toList k.key.pk_root.toList).length = 2 * p.params.N := by
  simp [Spec.encodePK]; omega

theorem encodeSK_length {p : ParamSet} (k : PrivateKey p.params) :
    (Spec.encodeSK k.key.sk_seed.toList k.key.sk_prf.toList k.key.pk_seed.toList
      k.key.pk_root.toList).length = 4 * p.params.N := by
  simp [Spec.encodeSK]; omega

/-- **C64** A key generation call that returns has changed a byte only if it returned `OK`, and only in
the two output buffers; with any generator and any arguments. -/
theorem C64_keygen_writes {b : Build} {os : Rng (Exec b) σ} {s s' : σ} {M M' : Mem} {pub priv : Nat}
    {code : UInt8}
    (h : c_keygen (crypto P) os s M pub priv = pure (.ret (s', code, M'))) (x : Nat)
    (hx : M'.byte x ≠ M.byte x) :
    code = SLH_DSA_OK ∧ (Within x pub 32 ∨ Within x priv 64) := by
  rcases c_keygen_cases (P := P) os s M pub priv with ⟨_, e⟩ | ⟨_, e⟩ | ⟨h1, h2, hm1, hm2, ha⟩
  · exact absurd (Exec.pure_inj (e.symm.trans h)) (by simp)
  · have := Exec.pure_inj (e.symm.trans h)
    simp only [Ffi.ret.injEq, Prod.mk.injEq] at this
    exact absurd (by rw [this.2.2]) hx
  · obtain ⟨⟨s1, r⟩, _, h4⟩ := Exec.bind_eq_pure ((c_keygen_valid os s h1 h2 hm1 hm2 ha).symm.trans h)
    cases r with
    | error e =>
      have := Exec.pure_inj h4
      simp only [Ffi.ret.injEq, Prod.mk.injEq] at this
      exact absurd (by rw [this.2.2]) hx
    | ok kp =>
      have := Exec.pure_inj h4
      simp only [Ffi.ret.injEq, Prod.mk.injEq] at this
      obtain ⟨_, rfl, rfl⟩ := this
      refine ⟨rfl, ?_⟩
      by_contra hw
      obtain ⟨w1, w2⟩ := not_or.1 hw
      refine hx ?_
      rw [store_byte (by rw [encodeSK_length (p := ffiSet)]; exact w2),
        store_byte (by rw [encodePK_length (p := ffiSet)]; exact w1)]

/-- **C64** A signing call that returns has changed a byte only if it returned `OK`, and only in the
buffer for the signature. -/
theorem C64_sign_writes {b : Build} {os : Rng (Exec b) σ} {s s' : σ} {M M' : Mem} {buf skp sigp : Nat}
    {len : Int} {code : UInt8}
    (h : c_sign (crypto P) os s M buf len skp sigp = pure (.ret (s', code, M'))) (x : Nat)
    (hx : M'.byte x ≠ M.byte x) : code = SLH_DSA_OK ∧ Within x sigp 17088 := by
  rcases c_sign_cases (P := P) os s M buf len skp sigp with ⟨_, e⟩ | ⟨_, e⟩ | ⟨_, e⟩ |
    ⟨h0, h1, h2, hm1, hm2, ha, hl, hw, hm, ha1, ha2⟩
  · exact absurd (Exec.pure_inj (e.symm.trans h)) (by simp)
  · have := Exec.pure_inj (e.symm.trans h)
    simp only [Ffi.ret.injEq, Prod.mk.injEq] at this
    exact absurd (by rw [this.2.2]) hx
  · exact absurd (e.symm.trans h) Exec.panic_ne_pure
  · obtain ⟨r, _, h4⟩ := Exec.bind_eq_pure
      ((c_sign_valid os s h0 h1 h2 hm1 hm2 ha hl hw hm ha1 ha2).symm.trans h)
    cases r with
    | error e =>
      have := Exec.pure_inj h4
      simp only [Ffi.ret.injEq, Prod.mk.injEq] at this
      exact absurd (by rw [this.2.2]) hx
    | ok sk =>
      obtain ⟨⟨s1, r⟩, _, h6⟩ := Exec.bind_eq_pure h4
      cases r with
      | error e =>
        have := Exec.pure_inj h6
        simp only [Ffi.ret.injEq, Prod.mk.injEq] at this
        exact absurd (by rw [this.2.2]) hx
      | ok sig =>
        have := Exec.pure_inj h6
        simp only [Ffi.ret.injEq, Prod.mk.injEq] at this
        obtain ⟨_, rfl, rfl⟩ := this
        refine ⟨rfl, ?_⟩
        by_contra w
        exact hx (store_byte (by rw [Vector.length_toList]; exact w))

/-- **C64** Key generation with two usable buffers returns; on `OK` the buffers hold the serialised form
of a generated pair. -/
theorem C64_keygen {b : Build} (os : PureRng σ) (s : σ) {M : Mem} {pub priv : Nat} (h1 : pub ≠ 0)
    (h2 : priv ≠ 0) (hm1 : M.Mapped pub 32) (hm2 : M.Mapped priv 64) (ha : Apart pub 32 priv 64) :
    ∃ s' code M', c_keygen (crypto P) (os.lift : Rng (Exec b) σ) s M pub priv =
        pure (.ret (s', code, M')) ∧
      ((code = SLH_DSA_KEYGEN_ERROR ∧ ∃ e, try_keygen_with_rng ffiSet.params (crypto P)
          (os.lift : Rng (Exec b) σ) s = pure (s', .error e)) ∨ (code = SLH_DSA_OK ∧
        ∃ (pk : PublicKey ffiSet.params) (sk : PrivateKey ffiSet.params) (pkb : Vector UInt8 32)
          (skb : Vector UInt8 64),
          try_keygen_with_rng ffiSet.params (crypto P) (os.lift : Rng (Exec b) σ) s =
            pure (s', .ok (pk, sk)) ∧
          (pk.into_bytes : Exec b _) = pure pkb ∧ (sk.into_bytes : Exec b _) = pure skb ∧
          Holds M' pub pkb.toList ∧ Holds M' priv skb.toList)) := by
  rw [c_keygen_valid _ s h1 h2 hm1 hm2 ha]
  have htot : ∃ r, try_keygen_with_rng ffiSet.params (crypto P) (os.lift : Rng (Exec b) σ) s =
      pure r := by
    rw [exec_try_keygen_with_rng]
    simp only [PureRng.lift, pure_bind]
    cases (os.fill s (zeroBytes ffiSet.params.N)).2 with
    | error e => exact ⟨_, rfl⟩
    | ok x =>
      dsimp only
      cases (os.fill (os.fill s (zeroBytes ffiSet.params.N)).1 (zeroBytes ffiSet.params.N)).2 with
      | error e => exact ⟨_, rfl⟩
      | ok y =>
        dsimp only
        split <;> exact ⟨_, rfl⟩
  obtain ⟨⟨s', r⟩, hr⟩ := htot
  rw [hr, pure_bind]
  cases r with
  | error e => exact ⟨_, _, _, rfl, .inl ⟨rfl, _, rfl⟩⟩
  | ok kp =>
    obtain ⟨pk, sk⟩ := kp
    obtain ⟨pkb, f1, g1⟩ := exec_pk_into_bytes (b := b) (ps := ffiSet) pk
    obtain ⟨skb, f2, g2⟩ := exec_sk_into_bytes (b := b) (ps := ffiSet) sk
    refine ⟨_, _, _, rfl, .inr ⟨rfl, pk, sk, pkb, skb, rfl, f1, f2, ?_, ?_⟩⟩
    · dsimp only
      rw [← g1, ← g2]
      refine holds_frame (holds_store _ _ _) fun x hx => store_byte fun hx' => ?_
      have e1 : pkb.toList.length = 32 := pkb.length_toList
      have e2 : skb.toList.length = 64 := skb.length_toList
      exact ha x ⟨e1 ▸ hx, e2 ▸ hx'⟩
    · dsimp only
      rw [← g2]
      exact holds_store _ _ _

/-- **C64** Signing a message in memory with a key in memory: the code says what decoding the key and
drawing randomness gave; on `OK` the buffer holds the signature of the Rust API. -/
theorem C64_sign {b : Build} (os : PureRng σ) (s : σ) {M : Mem} {buf skp sigp : Nat} {msg : List UInt8}
    {skb : Vector UInt8 64} (h0 : buf ≠ 0) (h1 : skp ≠ 0) (h2 : sigp ≠ 0) (hmsg : Holds M buf msg)
    (hskb : Holds M skp skb.toList) (hm2 : M.Mapped sigp 17088) (hw : msg.length < 2 ^ b.usizeBits)
    (ha : Apart skp 64 sigp 17088) (ha1 : Apart buf msg.length skp 64)
    (ha2 : Apart buf msg.length sigp 17088) :
    ∃ s' code M', c_sign (crypto P) (os.lift : Rng (Exec b) σ) s M buf msg.length skp sigp =
        pure (.ret (s', code, M')) ∧
      ((code = SLH_DSA_DESERIALIZATION_ERROR ∧ s' = s ∧ ∃ e,
          (PrivateKey.try_from_bytes (p := ffiSet.params) (crypto P) skb : Exec b _) =
            pure (.error e)) ∨
        ∃ sk, (PrivateKey.try_from_bytes (p := ffiSet.params) (crypto P) skb : Exec b _) =
            pure (.ok sk) ∧
          ((code = SLH_DSA_SIGN_ERROR ∧ ∃ e, os.fill s sk.key.pk_seed = (s', .error e)) ∨
            (code = SLH_DSA_OK ∧ ∃ sig, sk.try_sign_with_rng (crypto P) (os.lift : Rng (Exec b) σ) s
                msg [] true = pure (s', .ok sig) ∧ Holds M' sigp sig.toList))) := by
  have hl : 0 ≤ (msg.length : Int) ∧ (msg.length : Int) < 2 ^ b.usizeBits :=
    ⟨by omega, by exact_mod_cast hw⟩
  have hlen : skb.toList.length = 64 := skb.length_toList
  have hsk : M.contents skp ffiSet.params.SK_LEN = skb := Holds.contents hskb
  have hms : (M.contents buf (msg.length : Int).toNat).toList = msg := by
    have : M.contents buf msg.length = ⟨msg.toArray, by simp⟩ := Holds.contents (by simpa using hmsg)
    rw [Int.toNat_natCast, this]
    simp
  have hmk : M.Mapped skp 64 := hlen ▸ hskb.mapped
  rw [c_sign_valid _ s h0 h1 h2 hmk hm2 ha hl.1 hl.2 hmsg.mapped ha1 ha2, hsk, hms]
  obtain ⟨sk, _, hk⟩ := exec_sk_try_from_bytes (b := b) (P := P) (ps := ffiSet) skb
  have hd : (PrivateKey.try_from_bytes (p := ffiSet.params) (crypto P) skb : Exec b _) =
      pure (.ok sk) ∨ (PrivateKey.try_from_bytes (p := ffiSet.params) (crypto P) skb : Exec b _) =
      pure (.error "Corrupted key") := by
    split at hk
    · exact .inl hk
    · exact .inr hk
  clear hk
  rcases hd with hk | hk
  · rw [hk, pure_bind]
    dsimp only
    rw [exec_try_sign_with_rng, if_neg (by simp), if_pos rfl]
    rcases hf : os.fill s sk.key.pk_seed with ⟨s', e | rnd⟩
    · have hf' : (os.lift : Rng (Exec b) σ).tryFill s sk.key.pk_seed = pure (s', .error e) := by
        rw [← hf]; rfl
      rw [hf', pure_bind, pure_bind]
      exact ⟨_, _, _, rfl, .inr ⟨sk, rfl, .inl ⟨rfl, e, hf⟩⟩⟩
    · have hf' : (os.lift : Rng (Exec b) σ).tryFill s sk.key.pk_seed = pure (s', .ok rnd) := by
        rw [← hf]; rfl
      have hs : sk.try_sign_with_rng (crypto P) (os.lift : Rng (Exec b) σ) s msg [] true =
          pure (s', .ok (sigVec ffiSet P (Spec.pureMsg [] msg) sk.key rnd)) := by
        rw [exec_try_sign_with_rng, if_neg (by simp), if_pos rfl, hf']
        rfl
      rw [hf', pure_bind, pure_bind]
      exact ⟨_, _, _, rfl, .inr ⟨sk, rfl, .inr ⟨rfl, _, hs, holds_store _ _ _⟩⟩⟩
  · rw [hk, pure_bind]
    exact ⟨_, _, _, rfl, .inl ⟨rfl, rfl, _, rfl⟩⟩

/-- **C64** Verifying a message, key and signature in memory says what the Rust API says. -/
theorem C64_verify {b : Build} {M : Mem} {buf pkp sigp : Nat} {msg : List UInt8} {pkb : Vector UInt8 32}
    {sig : Vector UInt8 17088} (h0 : buf ≠ 0) (h1 : pkp ≠ 0) (h2 : sigp ≠ 0) (hmsg : Holds M buf msg)
    (hpkb : Holds M pkp pkb.toList) (hsig : Holds M sigp sig.toList)
    (hw : msg.length < 2 ^ b.usizeBits) (ha : Apart pkp 32 sigp 17088)
    (ha1 : Apart buf msg.length pkp 32) (ha2 : Apart buf msg.length sigp 17088) :
    ∃ (pk : PublicKey ffiSet.params) (r : Bool),
      (PublicKey.try_from_bytes (p := ffiSet.params) pkb : Exec b _) = pure (.ok pk) ∧
      (pk.verify (crypto P) msg sig [] : Exec b _) = pure r ∧
      (c_verify (crypto P) M buf msg.length pkp sigp : Exec b _) =
        pure (.ret (if r then SLH_DSA_OK else SLH_DSA_VERIFY_ERROR)) := by
  have hl : 0 ≤ (msg.length : Int) ∧ (msg.length : Int) < 2 ^ b.usizeBits :=
    ⟨by omega, by exact_mod_cast hw⟩
  have hlen : pkb.toList.length = 32 := pkb.length_toList
  have hlen2 : sig.toList.length = 17088 := sig.length_toList
  have hpk : M.contents pkp ffiSet.params.PK_LEN = pkb := Holds.contents hpkb
  have hsg : M.contents sigp ffiSet.params.SIG_LEN = sig := Holds.contents hsig
  have hms : (M.contents buf (msg.length : Int).toNat).toList = msg := by
    have : M.contents buf msg.length = ⟨msg.toArray, by simp⟩ := Holds.contents (by simpa using hmsg)
    rw [Int.toNat_natCast, this]
    simp
  obtain ⟨pk, r, e1, e2, e3⟩ := C35_verify (P := P) msg msg.length hl.1 (by simp) hl.2 pkb sig
  refine ⟨pk, r, e1, ?_, ?_⟩
  · rw [Int.toNat_natCast, List.take_length] at e2
    exact e2
  · have hmk : M.Mapped pkp 32 := hlen ▸ hpkb.mapped
    have hms' : M.Mapped sigp 17088 := hlen2 ▸ hsig.mapped
    rw [c_verify_valid h0 h1 h2 hmk hms' ha hl.1 hl.2 hmsg.mapped ha1 ha2, hpk, hsg, hms]
    exact e3

/-- **C64** Key generation is undefined behaviour exactly for an output address that is neither null nor
usable, and for two output buffers that overlap. -/
theorem C64_keygen_undefined {b : Build} (os : Rng (Exec b) σ) (s : σ) (M : Mem) (pub priv : Nat) :
    c_keygen (crypto P) os s M pub priv = pure .ub ↔ KeygenMisuse M pub priv := by
  refine ⟨fun h => ?_, fun h => c_keygen_bad os s h⟩
  rcases c_keygen_cases (P := P) os s M pub priv with ⟨hb, _⟩ | ⟨_, e⟩ | ⟨h1, h2, hm1, hm2, ha⟩
  · exact hb
  · exact absurd (Exec.pure_inj (e.symm.trans h)) (by simp)
  · obtain ⟨⟨s1, r⟩, _, h4⟩ := Exec.bind_eq_pure ((c_keygen_valid os s h1 h2 hm1 hm2 ha).symm.trans h)
    cases r <;> exact absurd (Exec.pure_inj h4) (by simp)

/-- **C64** When signing is undefined behaviour. -/
theorem C64_sign_undefined {b : Build} (os : Rng (Exec b) σ) (s : σ) (M : Mem) (buf : Nat) (len : Int)
    (skp sigp : Nat) : c_sign (crypto P) os s M buf len skp sigp = pure .ub ↔
      SignMisuse b.usizeBits M buf len skp sigp := by
  refine ⟨fun h => ?_, fun h => c_sign_bad os s h⟩
  rcases c_sign_cases (P := P) os s M buf len skp sigp with ⟨hb, _⟩ | ⟨_, e⟩ | ⟨_, e⟩ |
    ⟨h0, h1, h2, hm1, hm2, ha, hl, hw, hm, ha1, ha2⟩
  · exact hb
  · exact absurd (Exec.pure_inj (e.symm.trans h)) (by simp)
  · exact absurd (e.symm.trans h) Exec.panic_ne_pure
  · obtain ⟨r, _, h4⟩ := Exec.bind_eq_pure
      ((c_sign_valid os s h0 h1 h2 hm1 hm2 ha hl hw hm ha1 ha2).symm.trans h)
    cases r with
    | error e => exact absurd (Exec.pure_inj h4) (by simp)
    | ok sk =>
      obtain ⟨⟨s1, r⟩, _, h6⟩ := Exec.bind_eq_pure h4
      cases r <;> exact absurd (Exec.pure_inj h6) (by simp)

/-- **C64** When verification is undefined behaviour. -/
theorem C64_verify_undefined {b : Build} (M : Mem) (buf : Nat) (len : Int) (pkp sigp : Nat) :
    (c_verify (crypto P) M buf len pkp sigp : Exec b _) = pure .ub ↔
      VerifyMisuse b.usizeBits M buf len pkp sigp := by
  refine ⟨fun h => ?_, fun h => c_verify_bad h⟩
  rcases c_verify_cases (P := P) (b := b) M buf len pkp sigp with ⟨hb, _⟩ | ⟨_, e⟩ | ⟨_, e⟩ |
    ⟨h0, h1, h2, hm1, hm2, ha, hl, hw, hm, ha1, ha2⟩
  · exact hb
  · exact absurd (Exec.pure_inj (e.symm.trans h)) (by simp)
  · exact absurd (e.symm.trans h) Exec.panic_ne_pure
  · rw [c_verify_valid h0 h1 h2 hm1 hm2 ha hl hw hm ha1 ha2] at h
    obtain ⟨_, r, _, _, e⟩ := C35_verify (P := P) (b := b) (M.contents buf len.toNat).toList len hl
      (by simp) hw (M.contents pkp _) (M.contents sigp _)
    exact absurd (Exec.pure_inj (e.symm.trans h)) (by simp)

/-- A memory with every address but null in use. -/
def demoMem : Mem := ⟨fun a => if a = 0 then none else some 7⟩

theorem demoMem_mapped {a : Nat} (h : a ≠ 0) (n : Nat) : demoMem.Mapped a n := fun i _ => by
  simp [demoMem, h]

/-- Some calls are misuse and some are not. -/
example : KeygenMisuse demoMem 1000 1031 ∧ ¬ KeygenMisuse demoMem 1000 1032 ∧
    ¬ KeygenMisuse demoMem 0 1000 ∧ KeygenMisuse ⟨fun _ => none⟩ 0 1000 := by
  simp only [KeygenMisuse, BadRef, apart_iff]
  refine ⟨.inr (.inr ⟨by decide, by decide, by simp [Overlap]⟩), ?_, ?_, .inr (.inl ⟨by decide, ?_⟩)⟩
  · simp [Overlap, demoMem_mapped]
  · simp [demoMem_mapped]
  · intro h; simpa using h 0 (by decide)

example : SignMisuse 64 demoMem 1000 10 2000 1009 ∧ ¬ SignMisuse 64 demoMem 1000 10 2000 3000 ∧
    ¬ SignMisuse 64 demoMem 0 10 2000 3000 ∧ VerifyMisuse 64 demoMem 0 0 2000 3000 ∧
    ¬ VerifyMisuse 64 demoMem 1 0 2000 3000 := by
  simp only [SignMisuse, VerifyMisuse, BadRef, apart_iff]
  simp [Overlap, demoMem_mapped]

/-- An RNG that never fails. -/
def PureRng.Reliable (os : PureRng σ) : Prop :=
  ∀ s {n : Nat} (v : Vector UInt8 n), ∃ s' w, os.fill s v = (s', .ok w)

theorem demoRng_reliable : demoRng.Reliable := fun _ _ _ => ⟨_, _, rfl⟩

/-- **C64** A C program that makes a key pair, signs a message and verifies the signature, in four
non-null buffers that do not overlap, with a generator that does not fail: the three calls return `OK`
and no byte outside the three output buffers has changed. -/
theorem C64_session {b : Build} {os : PureRng σ} (hos : os.Reliable) (s : σ) {M : Mem}
    {buf pub priv sigp : Nat} {msg : List UInt8} (h0 : buf ≠ 0) (h1 : pub ≠ 0) (h2 : priv ≠ 0)
    (h3 : sigp ≠ 0) (hmsg : Holds M buf msg) (hw : msg.length < 2 ^ b.usizeBits)
    (hm1 : M.Mapped pub 32) (hm2 : M.Mapped priv 64) (hm3 : M.Mapped sigp 17088)
    (a1 : Apart pub 32 priv 64) (a2 : Apart pub 32 sigp 17088) (a3 : Apart priv 64 sigp 17088)
    (a4 : Apart buf msg.length pub 32) (a5 : Apart buf msg.length priv 64)
    (a6 : Apart buf msg.length sigp 17088) :
    ∃ s1 M1 s2 M2,
      c_keygen (crypto P) (os.lift : Rng (Exec b) σ) s M pub priv = pure (.ret (s1, SLH_DSA_OK, M1)) ∧
      c_sign (crypto P) (os.lift : Rng (Exec b) σ) s1 M1 buf msg.length priv sigp =
        pure (.ret (s2, SLH_DSA_OK, M2)) ∧
      (c_verify (crypto P) M2 buf msg.length pub sigp : Exec b _) = pure (.ret SLH_DSA_OK) ∧
      ∀ x, M2.byte x ≠ M.byte x → Within x pub 32 ∨ Within x priv 64 ∨ Within x sigp 17088 := by
  obtain ⟨s1, c1, M1, e1, hk⟩ := C64_keygen (P := P) (b := b) os s h1 h2 hm1 hm2 a1
  have w1 := fun x => C64_keygen_writes e1 x
  have f1 : ∀ x, ¬ Within x pub 32 → ¬ Within x priv 64 → M1.byte x = M.byte x := fun x n1 n2 =>
    not_not.1 fun hx => (w1 x hx).2.elim n1 n2
  rcases hk with ⟨_, e, hk⟩ | ⟨rfl, pk, sk, pkb, skb, hk, i1, i2, l1, l2⟩
  · exfalso
    rw [exec_try_keygen_with_rng] at hk
    obtain ⟨t1, x1, q1⟩ := hos s (zeroBytes ffiSet.params.N)
    obtain ⟨t2, x2, q2⟩ := hos t1 (zeroBytes ffiSet.params.N)
    obtain ⟨t3, x3, q3⟩ := hos t2 (zeroBytes ffiSet.params.N)
    simp only [PureRng.lift, pure_bind, q1, q2, q3] at hk
    have := Exec.pure_inj hk
    simp at this
  have gen : Generated P pk sk := .rng _ _ _ hk
  obtain ⟨v, hv⟩ := C12_generated_key_roundtrip gen
  obtain rfl : v = skb := Exec.pure_inj ((hv b).1.symm.trans i2)
  have hmsg1 : Holds M1 buf msg := holds_frame hmsg fun x hx =>
    f1 x (fun h => a4 x ⟨hx, h⟩) (fun h => a5 x ⟨hx, h⟩)
  have hm31 : M1.Mapped sigp 17088 := mapped_frame hm3 fun x hx =>
    f1 x (fun h => a2 x ⟨h, hx⟩) (fun h => a3 x ⟨h, hx⟩)
  obtain ⟨s2, c2, M2, e2, hs⟩ := C64_sign (P := P) (b := b) os s1 h0 h2 h3 hmsg1 l2 hm31 hw a3 a5 a6
  have w2 := fun x => C64_sign_writes e2 x
  have f2 : ∀ x, ¬ Within x sigp 17088 → M2.byte x = M1.byte x := fun x n1 =>
    not_not.1 fun hx => n1 (w2 x hx).2
  rcases hs with ⟨_, _, e, hs⟩ | ⟨sk', hs, ⟨_, e, hs'⟩ | ⟨rfl, sig, hs', l3⟩⟩
  · exact absurd (Exec.pure_inj ((hv b).2.symm.trans hs)) (by simp)
  · obtain ⟨t, x, q⟩ := hos s1 sk'.key.pk_seed
    exact absurd (q.symm.trans hs') (by simp)
  obtain rfl : sk = sk' := by
    have := Exec.pure_inj ((hv b).2.symm.trans hs)
    simpa using this
  have lp : pkb.toList.length = 32 := pkb.length_toList
  have hmsg2 : Holds M2 buf msg := holds_frame hmsg1 fun x hx => f2 x (fun h => a6 x ⟨hx, h⟩)
  have l1' : Holds M2 pub pkb.toList := holds_frame l1 fun x hx => f2 x (fun h => a2 x ⟨lp ▸ hx, h⟩)
  obtain ⟨pk', r, j1, j2, e3⟩ := C64_verify (P := P) (b := b) h0 h1 h3 hmsg2 l1' l3 hw a2 a4 a6
  obtain rfl : pk = pk' := by
    obtain ⟨pk2, hp⟩ := C11_public_key_decode_encode (ps := ffiSet) pkb
    obtain rfl : pk2 = pk' := by simpa using Exec.pure_inj ((hp b).1.symm.trans j1)
    obtain ⟨u, k1, k2⟩ := exec_pk_into_bytes (b := b) (ps := ffiSet) pk
    obtain ⟨u', k3, k4⟩ := exec_pk_into_bytes (b := b) (ps := ffiSet) pk2
    apply PublicKey.encode_inj
    rw [← k2, ← k4, Exec.pure_inj (k1.symm.trans i1), Exec.pure_inj (k3.symm.trans (hp b).2)]
  obtain rfl : true = r :=
    Exec.pure_inj ((C01_pure_signatures_verify (b' := b) gen hs').symm.trans j2)
  refine ⟨s1, M1, s2, M2, e1, e2, e3, fun x hx => ?_⟩
  by_contra hn
  simp only [not_or] at hn
  exact hx ((f2 x hn.2.2).trans (f1 x hn.1 hn.2.1))

/-- The hypotheses are met: four buffers in the memory above. -/
example (b : Build) : ∃ s1 M1 s2 M2,
    c_keygen (crypto demoPrims) (demoRng.lift : Rng (Exec b) Nat) 0 demoMem 1000 2000 =
      pure (.ret (s1, SLH_DSA_OK, M1)) ∧
    c_sign (crypto demoPrims) (demoRng.lift : Rng (Exec b) Nat) s1 M1 3000 3 2000 4000 =
      pure (.ret (s2, SLH_DSA_OK, M2)) ∧
    (c_verify (crypto demoPrims) M2 3000 3 1000 4000 : Exec b _) = pure (.ret SLH_DSA_OK) := by
  have hm : Holds demoMem 3000 [7, 7, 7] := by
    intro i hi
    have : i = 0 ∨ i = 1 ∨ i = 2 := by simp at hi; omega
    rcases this with rfl | rfl | rfl <;> rfl
  have hw : [(7 : UInt8), 7, 7].length < 2 ^ b.usizeBits :=
    lt_of_lt_of_le (by decide : 3 < 2 ^ 16) (Nat.pow_le_pow_right (by decide) b.usizeBits_ge)
  obtain ⟨s1, M1, s2, M2, e1, e2, e3, _⟩ := C64_session (P := demoPrims) demoRng_reliable 0
    (by decide) (by decide) (by decide) (by decide) hm hw
    (demoMem_mapped (a := 1000) (by decide) _) (demoMem_mapped (a := 2000) (by decide) _)
    (demoMem_mapped (a := 4000) (by decide) _) (apart_iff.2 (by decide)) (apart_iff.2 (by decide))
    (apart_iff.2 (by decide)) (apart_iff.2 (by decide)) (apart_iff.2 (by decide))
    (apart_iff.2 (by decide))
  exact ⟨s1, M1, s2, M2, e1, e2, e3⟩

end Fips205.Props
