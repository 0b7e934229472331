import Verif.Props.Memory
import Verif.Props.Sessions

/-! # The C entry points in the memory of the caller, for every observer (C53, C64)

`Model/Memory.lean` describes the entry points with addresses, `Model/Ffi.lean` with the contents of the buffers.  Where
the arguments are allowed, the two are the same program followed by the stores, whatever is observed; so what C53 says
about the second holds for the first. -/

namespace Fips205.Props
open Fips205 Fips205.Model

variable {P P' : Spec.Prims} {b : Build} {σ τ : Type}

/-- The buffer of `n` bytes at an address, if it is not null. -/
def refAt (M : Mem) (n a : Nat) : Option (Vector UInt8 n) := if a = 0 then none else some (M.contents a n)

/-- The message at an address. -/
def ptrAt (M : Mem) (a : Nat) (len : Int) : Ptr := if a = 0 then .null else .to (M.contents a len.toNat).toList

/-- The memory with new contents of a buffer. -/
def putAt {n : Nat} (M : Mem) (a : Nat) : Option (Vector UInt8 n) → Mem
  | none => M
  | some v => M.store a v.toList

theorem store_contents {M : Mem} {a n : Nat} (h : M.Mapped a n) : M.store a (M.contents a n).toList = M := by
  cases M with
  | mk byte =>
    simp only [Mem.store, Mem.mk.injEq]
    funext x
    split
    · rename_i hx
      simp only [Vector.length_toList] at hx
      have h1 := h (x - a) (by omega)
      have e : a + (x - a) = x := by omega
      have hlt : x - a < (Mem.contents ⟨byte⟩ a n).toList.length := by
        rw [Vector.length_toList]
        omega
      rw [List.getElem?_eq_getElem hlt, Vector.getElem_toList]
      simp only [Mem.contents, Vector.getElem_ofFn]
      rw [e] at h1 ⊢
      obtain ⟨v, hv⟩ := Option.isSome_iff_exists.mp h1
      have hv : byte x = some v := hv
      rw [hv, Option.getD_some]
    · rfl

theorem refAt_eq {M : Mem} {a n : Nat} {v : Vector UInt8 n} (h : refAt M n a = some v) : v = M.contents a n := by
  unfold refAt at h
  split at h
  · cases h
  · exact (Option.some.inj h).symm

theorem contents_putAt {M : Mem} {a n : Nat} (v : Vector UInt8 n) : (putAt M a (some v)).contents a n = v :=
  (holds_store M a v.toList).contents

theorem mapped_store {M : Mem} {a n c : Nat} {bs : List UInt8} (h : M.Mapped a n) : (M.store c bs).Mapped a n := by
  intro i hi
  by_cases hx : c ≤ a + i ∧ a + i < c + bs.length
  · simp only [Mem.store, if_pos hx]
    rw [List.getElem?_eq_getElem (by omega)]
    rfl
  · simp only [Mem.store, if_neg hx]
    exact h i hi

theorem holds_apart {M : Mem} {a c : Nat} {xs bs : List UInt8} (h : Holds M a xs)
    (ha : Apart a xs.length c bs.length) : Holds (M.store c bs) a xs :=
  holds_frame h fun x hx => store_byte fun hc => ha x ⟨hx, hc⟩

theorem put_refAt {M : Mem} {a n : Nat} (h : ¬ BadRef M a n) : putAt M a (refAt M n a) = M := by
  unfold refAt
  split
  · rfl
  · rename_i h0
    exact store_contents (not_badRef h h0)

theorem arg_refAt {M : Mem} {a n : Nat} (h : ¬ BadRef M a n) : M.arg n a = .ret (refAt M n a) := by
  unfold Mem.arg refAt
  split
  · rfl
  · rename_i h0
    rw [if_pos (not_badRef h h0)]

section
variable (C : Crypto (TraceExec b))

/-- **C64** Key generation with addresses is key generation with buffers, then the stores. -/
theorem C64_keygen_agrees (os : Rng (TraceExec b) σ) (s : σ) (M : Mem) (pub priv : Nat) (h : ¬ KeygenMisuse M pub priv) :
    c_keygen C os s M pub priv = (do
      let d ← slh_dsa_sha2_128f_keygen C os s (refAt M slh_dsa_sha2_128f.PK_LEN pub) (refAt M slh_dsa_sha2_128f.SK_LEN priv)
      pure (.ret (d.1, d.2.1, putAt (putAt M pub d.2.2.1) priv d.2.2.2))) := by
  obtain ⟨b1, h⟩ := not_or.1 h
  obtain ⟨b2, h⟩ := not_or.1 h
  have e1 : M.arg slh_dsa_sha2_128f.PK_LEN pub = _ := arg_refAt b1
  have e2 : M.arg slh_dsa_sha2_128f.SK_LEN priv = _ := arg_refAt b2
  have p1 : putAt M pub (refAt M slh_dsa_sha2_128f.PK_LEN pub) = M := put_refAt b1
  have p2 : putAt M priv (refAt M slh_dsa_sha2_128f.SK_LEN priv) = M := put_refAt b2
  have e3 : ¬ ((refAt M slh_dsa_sha2_128f.PK_LEN pub).isSome = true ∧ (refAt M slh_dsa_sha2_128f.SK_LEN priv).isSome = true ∧
      Overlap pub slh_dsa_sha2_128f.PK_LEN priv slh_dsa_sha2_128f.SK_LEN) := by
    rintro ⟨h1, h2, h3⟩
    refine h ⟨?_, ?_, fun ha => apart_iff.1 ha h3⟩ <;> rintro rfl
    · cases h1
    · cases h2
  unfold c_keygen slh_dsa_sha2_128f_keygen
  simp only [e1, e2]
  rw [if_neg e3]
  generalize refAt M slh_dsa_sha2_128f.PK_LEN pub = po at *
  generalize refAt M slh_dsa_sha2_128f.SK_LEN priv = qo at *
  rw [bind_assoc]
  refine congrArg _ (funext fun _ => ?_)
  cases po with
  | none => cases qo <;> simp only [pure_bind, p1, p2]
  | some x =>
  cases qo with
  | none => simp only [pure_bind, p1, p2]
  | some y =>
    simp only [bind_assoc]
    refine congrArg _ (funext ?_)
    rintro ⟨s1, r⟩
    refine congrArg _ (funext fun _ => ?_)
    cases r with
    | error e => simp only [pure_bind, p1, p2]
    | ok kp => simp only [bind_assoc, pure_bind, putAt]

/-- **C64** Signing with addresses is signing with buffers, then the store. -/
theorem C64_sign_agrees (os : Rng (TraceExec b) σ) (s : σ) (M : Mem) (buf : Nat) (len : Int) (skp sigp : Nat)
    (h : ¬ SignMisuse b.usizeBits M buf len skp sigp) :
    c_sign C os s M buf len skp sigp = (do
      match ← slh_dsa_sha2_128f_sign C os s (ptrAt M buf len) len (refAt M slh_dsa_sha2_128f.SK_LEN skp) (refAt M slh_dsa_sha2_128f.SIG_LEN sigp) with
      | .ub => pure .ub
      | .ret d => pure (.ret (d.1, d.2.1, putAt M sigp d.2.2))) := by
  obtain ⟨b1, h⟩ := not_or.1 h
  obtain ⟨b2, h⟩ := not_or.1 h
  have e1 : M.arg slh_dsa_sha2_128f.SK_LEN skp = _ := arg_refAt b1
  have e2 : M.arg slh_dsa_sha2_128f.SIG_LEN sigp = _ := arg_refAt b2
  have p2 : putAt M sigp (refAt M slh_dsa_sha2_128f.SIG_LEN sigp) = M := put_refAt b2
  have e3 : ¬ ((refAt M slh_dsa_sha2_128f.SK_LEN skp).isSome = true ∧ (refAt M slh_dsa_sha2_128f.SIG_LEN sigp).isSome = true ∧
      Overlap skp slh_dsa_sha2_128f.SK_LEN sigp slh_dsa_sha2_128f.SIG_LEN) := by
    rintro ⟨h1, h2, h3⟩
    refine h ⟨?_, ?_, .inl fun ha => apart_iff.1 ha h3⟩ <;> rintro rfl
    · cases h1
    · cases h2
  have n1 : (refAt M slh_dsa_sha2_128f.SK_LEN skp).isSome = true → skp ≠ 0 := by rintro h rfl; cases h
  have n2 : (refAt M slh_dsa_sha2_128f.SIG_LEN sigp).isSome = true → sigp ≠ 0 := by rintro h rfl; cases h
  unfold c_sign slh_dsa_sha2_128f_sign
  simp only [e1, e2]
  rw [if_neg e3]
  generalize refAt M slh_dsa_sha2_128f.SK_LEN skp = ko at *
  generalize refAt M slh_dsa_sha2_128f.SIG_LEN sigp = so at *
  rw [bind_assoc]
  refine congrArg _ (funext fun _ => ?_)
  cases ko with
  | none => cases so <;> simp only [pure_bind, p2]
  | some key =>
  cases so with
  | none => simp only [pure_bind, p2]
  | some out =>
    have n1 := n1 rfl
    have n2 := n2 rfl
    simp only [bind_assoc]
    by_cases h0 : buf = 0
    · subst h0
      refine congrArg _ (funext fun _ => ?_)
      simp only [ptrAt, if_pos, pure_bind, p2]
    · have hb : (buf == 0) = false := beq_eq_false_iff_ne.2 h0
      simp only [ptrAt, if_neg h0, Ptr.isNull, hb]
      refine congrArg _ (funext fun _ => ?_)
      simp only [usizeFromCInt]
      split
      · rename_i hl
        have hg : ¬ (¬ M.Mapped buf len.toNat ∨ ¬ Apart buf len.toNat skp 64 ∨ ¬ Apart buf len.toNat sigp 17088) :=
          fun hb => h ⟨n1, n2, .inr ⟨h0, hl.1, hl.2, hb⟩⟩
        simp only [not_or, not_not] at hg
        obtain ⟨g1, g2, g3⟩ := hg
        have e5 : c_message M buf len.toNat [(skp, slh_dsa_sha2_128f.SK_LEN),
            (sigp, slh_dsa_sha2_128f.SIG_LEN)] = .ret (M.contents buf len.toNat).toList :=
          c_message_ok h0 g1 (by
            intro r hr
            simp only [List.mem_cons, List.not_mem_nil, or_false] at hr
            rcases hr with rfl | rfl
            · exact g2
            · exact g3)
        have e6 : fromRawParts (.to (M.contents buf len.toNat).toList) len.toNat =
            .ret (M.contents buf len.toNat).toList := by
          simp [fromRawParts, List.take_of_length_le]
        simp only [pure_bind, e5, e6, bind_assoc]
        refine congrArg _ (funext fun r => congrArg _ (funext fun _ => ?_))
        cases r with
        | error e => simp only [pure_bind, p2]
        | ok sk =>
          simp only [bind_assoc]
          refine congrArg _ (funext ?_)
          rintro ⟨s1, r⟩
          refine congrArg _ (funext fun _ => ?_)
          cases r with
          | error e => simp only [pure_bind, p2]
          | ok sig => simp only [pure_bind, putAt]
      · rfl

/-- **C64** Verification with addresses is verification with buffers. -/
theorem C64_verify_agrees (M : Mem) (buf : Nat) (len : Int) (pkp sigp : Nat)
    (h : ¬ VerifyMisuse b.usizeBits M buf len pkp sigp) :
    (c_verify C M buf len pkp sigp : TraceExec b _) = slh_dsa_sha2_128f_verify C (ptrAt M buf len) len
      (refAt M slh_dsa_sha2_128f.PK_LEN pkp) (refAt M slh_dsa_sha2_128f.SIG_LEN sigp) := by
  obtain ⟨b1, h⟩ := not_or.1 h
  obtain ⟨b2, h⟩ := not_or.1 h
  have e1 : M.arg slh_dsa_sha2_128f.PK_LEN pkp = _ := arg_refAt b1
  have e2 : M.arg slh_dsa_sha2_128f.SIG_LEN sigp = _ := arg_refAt b2
  have e3 : ¬ ((refAt M slh_dsa_sha2_128f.PK_LEN pkp).isSome = true ∧
      (refAt M slh_dsa_sha2_128f.SIG_LEN sigp).isSome = true ∧
      Overlap pkp slh_dsa_sha2_128f.PK_LEN sigp slh_dsa_sha2_128f.SIG_LEN) := by
    rintro ⟨h1, h2, h3⟩
    refine h ⟨?_, ?_, .inl fun ha => apart_iff.1 ha h3⟩ <;> rintro rfl
    · cases h1
    · cases h2
  have n1 : (refAt M slh_dsa_sha2_128f.PK_LEN pkp).isSome = true → pkp ≠ 0 := by rintro h rfl; cases h
  have n2 : (refAt M slh_dsa_sha2_128f.SIG_LEN sigp).isSome = true → sigp ≠ 0 := by rintro h rfl; cases h
  unfold c_verify slh_dsa_sha2_128f_verify
  simp only [e1, e2]
  rw [if_neg e3]
  generalize refAt M slh_dsa_sha2_128f.PK_LEN pkp = ko at *
  generalize refAt M slh_dsa_sha2_128f.SIG_LEN sigp = so at *
  refine congrArg _ (funext fun _ => ?_)
  cases ko with
  | none => cases so <;> rfl
  | some key =>
  cases so with
  | none => rfl
  | some out =>
    have n1 := n1 rfl
    have n2 := n2 rfl
    simp only [usizeFromCInt]
    split
    · rename_i hl
      have hg : ¬ (buf = 0 ∨ ¬ M.Mapped buf len.toNat ∨ ¬ Apart buf len.toNat pkp 32 ∨
          ¬ Apart buf len.toNat sigp 17088) := fun hb => h ⟨n1, n2, .inr ⟨hl.1, hl.2, hb⟩⟩
      simp only [not_or, not_not] at hg
      obtain ⟨h0, g1, g2, g3⟩ := hg
      have e5 : c_message M buf len.toNat [(pkp, slh_dsa_sha2_128f.PK_LEN),
          (sigp, slh_dsa_sha2_128f.SIG_LEN)] = .ret (M.contents buf len.toNat).toList :=
        c_message_ok h0 g1 (by
          intro r hr
          simp only [List.mem_cons, List.not_mem_nil, or_false] at hr
          rcases hr with rfl | rfl
          · exact g2
          · exact g3)
      have e6 : fromRawParts (.to (M.contents buf len.toNat).toList) len.toNat =
          .ret (M.contents buf len.toNat).toList := by
        simp [fromRawParts, List.take_of_length_le]
      simp only [ptrAt, if_neg h0, pure_bind, e5, e6]
      rfl
    · rfl

end

/-- A step that shows nothing. -/
theorem trace_then {α β : Type} (x : TraceExec b α) (f : α → TraceExec b β) (hf : ∀ v, (f v).trace = []) :
    (x >>= f).trace = x.trace := by
  obtain ⟨L, r⟩ := x
  cases r with
  | error e => rfl
  | ok v => exact (congrArg (L ++ ·) (hf v)).trans (List.append_nil L)

theorem result_then {α β : Type} {x : TraceExec b α} {f : α → TraceExec b β} {v : α} {w : β} (h : x.result = .ok v)
    (hf : (f v).result = .ok w) : (x >>= f).result = .ok w := by
  obtain ⟨L, r⟩ := x
  cases h
  exact hf

theorem sign_ok_some {C : Crypto (TraceExec b)} {os : Rng (TraceExec b) σ} {s s1 : σ} {buf : Ptr} {len : Int}
    {k : Option (Vector UInt8 slh_dsa_sha2_128f.SK_LEN)} {sig0 o : Option (Vector UInt8 slh_dsa_sha2_128f.SIG_LEN)}
    (h : (slh_dsa_sha2_128f_sign C os s buf len k sig0).result = .ok (.ret (s1, SLH_DSA_OK, o))) : ∃ v, o = some v := by
  unfold slh_dsa_sha2_128f_sign at h
  obtain ⟨-, -, h⟩ := bind_result h
  split at h
  · obtain ⟨-, -, h⟩ := bind_result h
    split at h
    · cases h
    · obtain ⟨n, -, h⟩ := bind_result h
      split at h
      · cases h
      · obtain ⟨r, -, h⟩ := bind_result h
        obtain ⟨-, -, h⟩ := bind_result h
        split at h
        · cases h
        · obtain ⟨⟨s2, r⟩, -, h⟩ := bind_result h
          obtain ⟨-, -, h⟩ := bind_result h
          cases r with
          | error e => cases h
          | ok sig => cases h; exact ⟨_, rfl⟩
  · cases h

/-- **C53** Key generation for C in memory: what is seen depends on which addresses are null, and on whether the
operating system delivers random bytes. -/
theorem C53_c_keygen_memory (S : σ → τ → Prop) (os : Rng (TraceExec b) σ) (os' : Rng (TraceExec b) τ)
    (hr : AlikeRngs S os os') (s : σ) (t : τ) (h0 : S s t) (M M' : Mem) (pub priv pub' priv' : Nat)
    (h : ¬ KeygenMisuse M pub priv) (h' : ¬ KeygenMisuse M' pub' priv')
    (hp : pub = 0 ↔ pub' = 0) (hk : priv = 0 ↔ priv' = 0) :
    (c_keygen (crypto P) os s M pub priv).trace = (c_keygen (crypto P') os' t M' pub' priv').trace := by
  have key : ∀ {n a a' : Nat}, (a = 0 ↔ a' = 0) → (refAt M n a).isSome = (refAt M' n a').isSome := by
    intro n a a' h
    unfold refAt
    by_cases h1 : a = 0
    · rw [if_pos h1, if_pos (h.1 h1)]
    · rw [if_neg h1, if_neg (fun h2 => h1 (h.2 h2))]; rfl
  rw [C64_keygen_agrees _ _ _ _ _ _ h, C64_keygen_agrees _ _ _ _ _ _ h', trace_then _ _ fun _ => rfl,
    trace_then _ _ fun _ => rfl]
  exact C53_c_keygen S os os' hr s t h0 _ _ _ _ (key hp) (key hk)

/-- **C53** Signing for C in memory: two calls on the same message, with private keys whose second halves (the public
keys) are the same, that return the same code and, on success, leave the same signature, look alike. -/
theorem C53_c_sign_memory (S : σ → τ → Prop) (os : Rng (TraceExec b) σ) (os' : Rng (TraceExec b) τ)
    (hr : AlikeRngs S os os') (s s1 : σ) (t t1 : τ) (h0 : S s t) (M M1 M' M1' : Mem) (buf buf' : Nat) (len : Int)
    (skp sigp skp' sigp' : Nat) (h : ¬ SignMisuse b.usizeBits M buf len skp sigp)
    (h' : ¬ SignMisuse b.usizeBits M' buf' len skp' sigp') (hb : buf = 0 ↔ buf' = 0) (hk : skp = 0 ↔ skp' = 0)
    (hs : sigp = 0 ↔ sigp' = 0) (hm : M.contents buf len.toNat = M'.contents buf' len.toNat)
    (hpub : (M.contents skp 64).toList.drop 32 = (M'.contents skp' 64).toList.drop 32)
    (code : UInt8) (hcode : code ≠ SLH_DSA_DESERIALIZATION_ERROR)
    (hsig : code = SLH_DSA_OK → M1.contents sigp 17088 = M1'.contents sigp' 17088)
    (hx : (c_sign (crypto P) os s M buf len skp sigp).result = .ok (.ret (s1, code, M1)))
    (hy : (c_sign (crypto P) os' t M' buf' len skp' sigp').result = .ok (.ret (t1, code, M1'))) :
    (c_sign (crypto P) os s M buf len skp sigp).trace = (c_sign (crypto P) os' t M' buf' len skp' sigp').trace := by
  have key : ∀ {n a a' : Nat}, (a = 0 ↔ a' = 0) → (refAt M n a).isSome = (refAt M' n a').isSome := by
    intro n a a' h
    unfold refAt
    by_cases h1 : a = 0
    · rw [if_pos h1, if_pos (h.1 h1)]
    · rw [if_neg h1, if_neg (fun h2 => h1 (h.2 h2))]; rfl
  have hptr : ptrAt M buf len = ptrAt M' buf' len := by
    unfold ptrAt
    by_cases h1 : buf = 0
    · rw [if_pos h1, if_pos (hb.1 h1)]
    · rw [if_neg h1, if_neg (fun h2 => h1 (hb.2 h2)), hm]
  rw [C64_sign_agrees _ _ _ _ _ _ _ _ h] at hx ⊢
  rw [C64_sign_agrees _ _ _ _ _ _ _ _ h', ← hptr] at hy ⊢
  rw [trace_then _ _ (by rintro (_ | _) <;> rfl), trace_then _ _ (by rintro (_ | _) <;> rfl)]
  obtain ⟨d, hd, hx⟩ := bind_result hx
  obtain ⟨d', hd', hy⟩ := bind_result hy
  cases d with
  | ub => cases hx
  | ret d =>
  cases d' with
  | ub => cases hy
  | ret d' =>
    obtain ⟨s2, c, o⟩ := d
    obtain ⟨t2, c', o'⟩ := d'
    cases hx
    cases hy
    refine C53_c_sign S os os' hr s _ t _ h0 _ len _ _ (key hk) ?_ _ _ _ _ (key hs) _ hcode (fun e => ?_) hd hd'
    · intro v v' hv hv'
      rw [refAt_eq hv, refAt_eq hv']
      exact hpub
    · subst e
      obtain ⟨v, rfl⟩ := sign_ok_some hd
      obtain ⟨v', rfl⟩ := sign_ok_some hd'
      have e1 : (putAt M sigp (some v)).contents sigp 17088 = v := contents_putAt v
      have e2 : (putAt M' sigp' (some v')).contents sigp' 17088 = v' := contents_putAt v'
      have := hsig rfl
      rw [e1, e2] at this
      rw [this]

/-! ## The hypotheses are met -/

/-- Key generation into different buffers of different memories. -/
example : demoMem ≠ demoMem.store 1000 [1] ∧ ¬ KeygenMisuse demoMem 1000 1032 ∧
    ¬ KeygenMisuse (demoMem.store 1000 [1]) 2000 3000 := by
  have hm : ∀ a n, a ≠ 0 → (demoMem.store 1000 [1]).Mapped a n := fun a n h0 => mapped_store (demoMem_mapped h0 n)
  refine ⟨fun h => ?_, ?_, ?_⟩
  · have := congrArg (fun M => M.byte 1000) h
    simp [Mem.store, demoMem] at this
  · simp [KeygenMisuse, BadRef, apart_iff, Overlap, demoMem_mapped]
  · simp [KeygenMisuse, BadRef, apart_iff, Overlap, hm]

/-- Two signing calls with different private keys that meet the hypotheses of `C53_c_sign_memory`. -/
example : ∃ M M' M1 M1' : Mem, M.contents 2000 64 ≠ M'.contents 2000 64 ∧
    ¬ SignMisuse 64 M 1000 2 2000 3000 ∧ ¬ SignMisuse 64 M' 1000 2 2000 3000 ∧
    M.contents 1000 2 = M'.contents 1000 2 ∧
    (M.contents 2000 64).toList.drop 32 = (M'.contents 2000 64).toList.drop 32 ∧
    M1.contents 3000 17088 = M1'.contents 3000 17088 ∧
    (c_sign (crypto zeroPrims) (demoRng.lift : Rng (TraceExec demoBuild) Nat) 5 M 1000 2 2000 3000).result =
      .ok (.ret (6, SLH_DSA_OK, M1)) ∧
    (c_sign (crypto zeroPrims) (demoRng.lift : Rng (TraceExec demoBuild) Nat) 7 M' 1000 2 2000 3000).result =
      .ok (.ret (8, SLH_DSA_OK, M1')) := by
  obtain ⟨v, v', sig, hne, hdrop, h, h'⟩ := demo_c_sign
  have key : ∀ (v : Vector UInt8 64) (s s1 : Nat),
      (slh_dsa_sha2_128f_sign (crypto zeroPrims) (demoRng.lift : Rng (TraceExec demoBuild) Nat) s (.to [1, 2])
        2 (some v) (some (zeroBytes _))).result = .ok (.ret (s1, SLH_DSA_OK, some sig)) →
      ∃ M M1 : Mem, M.contents 2000 64 = v ∧ ¬ SignMisuse 64 M 1000 2 2000 3000 ∧
        M.contents 1000 2 = #v[1, 2] ∧ M1.contents 3000 17088 = sig ∧
        (c_sign (crypto zeroPrims) (demoRng.lift : Rng (TraceExec demoBuild) Nat) s M 1000 2 2000 3000).result =
          .ok (.ret (s1, SLH_DSA_OK, M1)) := by
    intro v s s1 h
    have h1 : Holds (demoMem.store 1000 [1, 2]) 1000 (#v[1, 2] : Vector UInt8 2).toList := holds_store _ _ _
    have h1 := holds_apart (c := 2000) (bs := v.toList) h1 (by simp [apart_iff, Overlap])
    have h2 : Holds ((demoMem.store 1000 [1, 2]).store 2000 v.toList) 2000 v.toList := holds_store _ _ _
    have h1 := holds_apart (c := 3000) (bs := (zeroBytes 17088).toList) h1 (by simp [apart_iff, Overlap])
    have h2 := holds_apart (c := 3000) (bs := (zeroBytes 17088).toList) h2 (by simp [apart_iff, Overlap])
    have h3 := holds_store ((demoMem.store 1000 [1, 2]).store 2000 v.toList) 3000 (zeroBytes 17088).toList
    have hm : ∀ a n, a ≠ 0 → (((demoMem.store 1000 [1, 2]).store 2000 v.toList).store 3000
        (zeroBytes 17088).toList).Mapped a n := fun a n h0 =>
      mapped_store (mapped_store (mapped_store (demoMem_mapped h0 n)))
    generalize ((demoMem.store 1000 [1, 2]).store 2000 v.toList).store 3000 (zeroBytes 17088).toList = M at *
    have hno : ¬ SignMisuse 64 M 1000 2 2000 3000 := by
      simp [SignMisuse, BadRef, apart_iff, Overlap, hm]
    refine ⟨M, putAt M 3000 (some sig), h2.contents, hno, h1.contents, contents_putAt sig, ?_⟩
    rw [C64_sign_agrees (b := demoBuild) _ _ _ _ _ _ _ _ hno]
    have e1 : ptrAt M 1000 2 = .to [1, 2] := by
      rw [ptrAt, if_neg (by decide)]
      exact congrArg (fun w : Vector UInt8 2 => Ptr.to w.toList) h1.contents
    have e2 : refAt M slh_dsa_sha2_128f.SK_LEN 2000 = some v := by
      rw [refAt, if_neg (by decide)]
      exact congrArg some h2.contents
    have e3 : refAt M slh_dsa_sha2_128f.SIG_LEN 3000 = some (zeroBytes _) := by
      rw [refAt, if_neg (by decide)]
      exact congrArg some h3.contents
    rw [e1, e2, e3]
    exact result_then h rfl
  obtain ⟨M, M1, a1, a2, a3, a4, a5⟩ := key v 5 6 h
  obtain ⟨M', M1', b1, b2, b3, b4, b5⟩ := key v' 7 8 h'
  refine ⟨M, M', M1, M1', by rw [a1, b1]; exact hne, a2, b2, by rw [a3, b3], by rw [a1, b1]; exact hdrop,
    by rw [a4, b4], a5, b5⟩

end Fips205.Props
