import Verif.Proofs.Helpers
import Verif.Model.Lib
import Verif.Spec.Section11

/-! # Refinement of `src/hashers.rs` -/

namespace Fips205.Model
open Fips205

section
variable {m : Type → Type} [Rust m]

/-- The external hash crates computing the functions `P`; the observer sees the shape of each call. -/
def crypto (P : Spec.Prims) : Crypto m where
  sha256 x := do leak (.hash .sha256 (x.map List.length) 32); pure (P.sha256 x.flatten)
  sha512 x := do leak (.hash .sha512 (x.map List.length) 64); pure (P.sha512 x.flatten)
  shake128 x n := do leak (.hash .shake128 (x.map List.length) n); pure (P.shake128 x.flatten n)
  shake256 x n := do leak (.hash .shake256 (x.map List.length) n); pure (P.shake256 x.flatten n)

/-- The bytes of an array of byte strings. -/
def absorbAll {X Y : Nat} (ml : Vector (Vector UInt8 Y) X) : List UInt8 :=
  (ml.toList.map Vector.toList).flatten

/-- A record of function pointers that computes the functions `hf`. -/
structure HashersRefine {K LEN M N : Nat} (hs : Hashers m K LEN M N) (hf : Spec.HashFns) : Prop where
  h_msg : ∀ r pk_seed pk_root ms, ms.length ≤ 5 →
    Returns (hs.h_msg r pk_seed pk_root ms) (fun v => v.toList = hf.Hmsg r pk_seed pk_root ms.flatten)
  prf : ∀ pk_seed sk_seed adrs, Returns (hs.prf pk_seed sk_seed adrs)
    (fun v => v.toList = hf.PRF pk_seed sk_seed adrs.bytes32)
  prf_msg : ∀ sk_prf opt_rand ms, sk_prf.length ≤ 64 → ms.length ≤ 5 →
    Returns (hs.prf_msg sk_prf opt_rand ms) (fun v => v.toList = hf.PRFmsg sk_prf opt_rand ms.flatten)
  f : ∀ pk_seed adrs m1, Returns (hs.f pk_seed adrs m1)
    (fun v => v.toList = hf.F pk_seed adrs.bytes32 m1)
  h : ∀ pk_seed adrs m1 m2, Returns (hs.h pk_seed adrs m1 m2)
    (fun v => v.toList = hf.H pk_seed adrs.bytes32 (m1 ++ m2))
  t_l : ∀ pk_seed adrs ml, Returns (hs.t_l pk_seed adrs ml)
    (fun v => v.toList = hf.T pk_seed adrs.bytes32 (absorbAll ml))
  t_len : ∀ pk_seed adrs ml, Returns (hs.t_len pk_seed adrs ml)
    (fun v => v.toList = hf.T pk_seed adrs.bytes32 (absorbAll ml))

variable [LawfulMonad m] (P : Spec.Prims)

theorem Returns.sha256 {P : Spec.Prims} {x : List (List UInt8)} {β : Type} {f : Vector UInt8 32 → m β}
    {Q : β → Prop} (hf : Returns (f (P.sha256 x.flatten)) Q) : Returns ((crypto P).sha256 x >>= f) Q := by
  simp only [crypto, bind_assoc, pure_bind]
  exact Returns.leak hf

theorem Returns.sha512 {P : Spec.Prims} {x : List (List UInt8)} {β : Type} {f : Vector UInt8 64 → m β}
    {Q : β → Prop} (hf : Returns (f (P.sha512 x.flatten)) Q) : Returns ((crypto P).sha512 x >>= f) Q := by
  simp only [crypto, bind_assoc, pure_bind]
  exact Returns.leak hf

theorem Returns.shake128 {P : Spec.Prims} {x : List (List UInt8)} {n : Nat} {β : Type}
    {f : Vector UInt8 n → m β} {Q : β → Prop} (hf : Returns (f (P.shake128 x.flatten n)) Q) :
    Returns ((crypto P).shake128 x n >>= f) Q := by
  simp only [crypto, bind_assoc, pure_bind]
  exact Returns.leak hf

theorem Returns.shake256 {P : Spec.Prims} {x : List (List UInt8)} {n : Nat} {β : Type}
    {f : Vector UInt8 n → m β} {Q : β → Prop} (hf : Returns (f (P.shake256 x.flatten n)) Q) :
    Returns ((crypto P).shake256 x n >>= f) Q := by
  simp only [crypto, bind_assoc, pure_bind]
  exact Returns.leak hf

theorem shake256_tail {P : Spec.Prims} {x : List (List UInt8)} {n : Nat} {Q : Vector UInt8 n → Prop}
    (h : Q (P.shake256 x.flatten n)) : Returns ((crypto P : Crypto m).shake256 x n) Q :=
  Returns.tail (Returns.shake256 (Returns.pure h))

theorem shake256_returns {P : Spec.Prims} {x : List (List UInt8)} {n : Nat}
    {Q : Vector UInt8 n → Prop} (h : Q (P.shake256 x.flatten n)) :
    Returns (shake.shake256 (crypto P : Crypto m) x n) Q :=
  Returns.leak (shake256_tail h)

/-! ## Truncated digests -/

theorem sha256_trunc {P : Spec.Prims} {x : List (List UInt8)} {n : Nat} (hn : n ≤ 32)
    {Q : Vector UInt8 n → Prop}
    (hQ : ∀ v : Vector UInt8 n, v.toList = Spec.trunc n (Spec.sha256' P x.flatten) → Q v) :
    Returns (do
      let result ← (crypto P : Crypto m).sha256 x
      let sl ← slice result.toList 0 n
      copyFromSlice n sl) Q := by
  refine Returns.sha256 ?_
  refine Returns.slice (by omega) (by simpa using hn) ?_
  refine Returns.tail ?_
  refine Returns.copyFromSlice (by simpa using hn) ?_
  intro v hv
  exact Returns.pure (hQ v (by simpa [Spec.trunc, Spec.sha256', Spec.sha512'] using hv))

theorem sha512_trunc {P : Spec.Prims} {x : List (List UInt8)} {n : Nat} (hn : n ≤ 64)
    {Q : Vector UInt8 n → Prop}
    (hQ : ∀ v : Vector UInt8 n, v.toList = Spec.trunc n (Spec.sha512' P x.flatten) → Q v) :
    Returns (do
      let result ← (crypto P : Crypto m).sha512 x
      let sl ← slice result.toList 0 n
      copyFromSlice n sl) Q := by
  refine Returns.sha512 ?_
  refine Returns.slice (by omega) (by simpa using hn) ?_
  refine Returns.tail ?_
  refine Returns.copyFromSlice (by simpa using hn) ?_
  intro v hv
  exact Returns.pure (hQ v (by simpa [Spec.trunc, Spec.sha256', Spec.sha512'] using hv))

theorem sha2_256_returns {P : Spec.Prims} {x : List (List UInt8)} {n : Nat} (hn : n ≤ 32)
    {Q : Vector UInt8 n → Prop}
    (hQ : ∀ v : Vector UInt8 n, v.toList = Spec.trunc n (Spec.sha256' P x.flatten) → Q v) :
    Returns (sha2_cat_1.sha2_256 (crypto P : Crypto m) x n) Q :=
  Returns.leak (sha256_trunc hn hQ)

theorem sha2_512_returns {P : Spec.Prims} {x : List (List UInt8)} {n : Nat} (hn : n ≤ 64)
    {Q : Vector UInt8 n → Prop}
    (hQ : ∀ v : Vector UInt8 n, v.toList = Spec.trunc n (Spec.sha512' P x.flatten) → Q v) :
    Returns (sha2_cat_3_5.sha2_512 (crypto P : Crypto m) x n) Q :=
  Returns.leak (sha512_trunc hn hQ)

/-! ## MGF1 -/

/-- The MGF1 loop with a hash function of `HL` output bytes. -/
theorem mgf_loop_returns {M HL : Nat} (hM : M + HL < 2 ^ 16) (hHL : 0 < HL)
    (tmpOf : UInt32 → m (Vector UInt8 HL)) (g : Nat → List UInt8)
    (ht : ∀ c : UInt32, Returns (tmpOf c) (fun v => v.toList = g c.toNat)) :
    Returns (whileFuel (fun st : MgfState M => decide (st.start < M)) (fun st => do
      let tmp ← tmpOf st.counter
      let d ← subUsize M st.start
      let len := min d HL
      let e ← addUsize st.start len
      let src ← slice tmp.toList 0 len
      let result ← writeSlice st.result st.start e src
      let start ← addUsize st.start HL
      let counter ← addU32 st.counter 1
      pure { result, start, counter }) (M + 1) { result := zeroBytes M, start := 0, counter := 0 })
    (fun st => st.result.toList = (Spec.concat ((M + HL - 1) / HL) g).take M) := by
  have hgl : ∀ c < 2 ^ 32, (g c).length = HL := by
    intro c hc
    obtain ⟨_, v, _, hv⟩ := ht (UInt32.ofNat c)
    rw [UInt32.toNat_ofNat', Nat.mod_eq_of_lt hc] at hv
    rw [← hv]; simp
  refine (Returns.whileFuel (fun st : MgfState M => ∃ c, st.counter.toNat = c ∧ st.start = c * HL ∧
    c * HL < M + HL ∧
    st.result.toList.take (c * HL) = (Spec.concat c g).take M) (fun st => M - st.start) ?_ _ _
    ⟨0, by simp, by simp, by omega, by simp [Spec.concat_zero]⟩ (by simp)).mono ?_
  · rintro ⟨res, start, ctr⟩ ⟨c, h1, h2, h2', h3⟩ hc
    simp only at h1 h2 h3
    simp only [decide_eq_true_eq] at hc
    subst h2
    have hcHL : c ≤ c * HL := Nat.le_mul_of_pos_right _ hHL
    have hmul : (c + 1) * HL = c * HL + HL := Nat.succ_mul _ _
    refine (ht ctr).bind fun tmp htmp => ?_
    have hlen : tmp.toList.length = HL := by simp
    rw [h1] at htmp
    dsimp only
    refine Returns.subUsize (by omega) (by omega) ?_
    refine Returns.addUsize (by omega) ?_
    refine Returns.slice (by omega) (by omega) ?_
    refine Returns.writeSlice (by omega) (by omega) (by simp) ?_
    intro w hw
    refine Returns.addUsize (by omega) ?_
    refine Returns.addU32 (by rw [h1]; simp; omega) ?_
    refine Returns.pure ⟨⟨c + 1, ?_, ?_, ?_, ?_⟩, ?_⟩
    · show (ctr + 1).toNat = c + 1
      rw [UInt32.toNat_add, h1]; simp; omega
    · show c * HL + HL = _
      omega
    · omega
    · show w.toList.take _ = _
      have hcl : (Spec.concat c g).length = c * HL :=
        Spec.concat_length fun i hi => hgl i (by omega)
      rw [List.take_of_length_le (l := Spec.concat c g) (by omega)] at h3
      have e := take_writeSlice (by omega) (by omega) (by simp) hw
      rw [h3] at e
      rw [Spec.concat_succ, List.take_append, hcl, List.take_of_length_le (l := Spec.concat c g)
        (by omega), ← htmp]
      by_cases hcase : (c + 1) * HL ≤ M
      · rw [Nat.min_eq_right (by omega)] at e
        rw [hmul, e, List.drop_zero, List.take_of_length_le (by omega),
          List.take_of_length_le (by omega)]
      · rw [Nat.min_eq_left (by omega)] at e
        rw [show c * HL + (M - c * HL) = M by omega] at e
        rw [List.take_of_length_le (by simp; omega)]
        rw [List.take_of_length_le (by simp)] at e
        rw [e, List.drop_zero, Nat.sub_zero]
    · show M - (c * HL + HL) < M - c * HL
      omega
  · rintro ⟨res, start, ctr⟩ ⟨⟨c, h1, h2, h2', h3⟩, hc⟩
    simp only at h1 h2 h3
    simp only [decide_eq_false_iff_not, Nat.not_lt] at hc
    subst h2
    rw [List.take_of_length_le (by simp; omega)] at h3
    have : (M + HL - 1) / HL = c := by
      apply Nat.div_eq_of_lt_le
      · omega
      · rw [Nat.succ_mul]; omega
    rw [this, ← h3]

/-! ## HMAC -/

theorem xorZip_eq (c : UInt8) (key : List UInt8) (B : Nat) (h : key.length ≤ B) :
    xorZip (List.replicate B c) key = (key ++ List.replicate (B - key.length) 0).map (· ^^^ c) := by
  induction key generalizing B with
  | nil => cases B <;> simp [xorZip, List.replicate_succ]
  | cons k ks ih =>
    obtain ⟨B, rfl⟩ : ∃ B', B = B' + 1 := ⟨B - 1, by simp at h; omega⟩
    rw [List.replicate_succ, xorZip, ih B (by simpa using h)]
    simp [UInt8.xor_comm]

theorem xor_map (l : List UInt8) :
    ((l.map (· ^^^ (0x36 : UInt8))).map (· ^^^ (0x6a : UInt8))) = l.map (· ^^^ (0x5c : UInt8)) := by
  rw [List.map_map]
  apply List.map_congr_left
  intro a _
  simp only [Function.comp_apply, UInt8.xor_assoc]
  rfl

theorem hmac_sha_256_returns (key a0 : List UInt8) (ms : List (List UInt8)) (hk : key.length ≤ 64) :
    Returns (sha2_cat_1.hmac_sha_256 (crypto P : Crypto m) key a0 ms)
      (fun v => v.toList = Spec.hmac (Spec.sha256' P) 64 key (a0 ++ ms.flatten)) := by
  unfold sha2_cat_1.hmac_sha_256
  refine Returns.leak (Returns.leak (Returns.leak ?_))
  refine Returns.sha256 ?_
  refine Returns.tail (Returns.sha256 (Returns.pure ?_))
  rw [xorZip_eq _ _ _ hk, xor_map, Spec.hmac, if_pos hk, Spec.sha256', Spec.sha256']
  simp

theorem hmac_sha_512_returns (key a0 : List UInt8) (ms : List (List UInt8)) (hk : key.length ≤ 128) :
    Returns (sha2_cat_3_5.hmac_sha_512 (crypto P : Crypto m) key a0 ms)
      (fun v => v.toList = Spec.hmac (Spec.sha512' P) 128 key (a0 ++ ms.flatten)) := by
  unfold sha2_cat_3_5.hmac_sha_512
  refine Returns.leak (Returns.leak (Returns.leak ?_))
  refine Returns.sha512 ?_
  refine Returns.tail (Returns.sha512 (Returns.pure ?_))
  rw [xorZip_eq _ _ _ hk, xor_map, Spec.hmac, if_pos hk, Spec.sha512', Spec.sha512']
  simp

/-! ## The functions of the three families -/

theorem write8_flatten {a b c : List UInt8} {ms : List (List UInt8)} {e : Nat} (he : e = 3 + ms.length)
    {w : Vector (List UInt8) 8}
    (hw : w.toList = (#v[a, b, c, [], [], [], [], []] : Vector (List UInt8) 8).toList.take 3 ++ ms ++
      (#v[a, b, c, [], [], [], [], []] : Vector (List UInt8) 8).toList.drop e) :
    w.toList.flatten = a ++ b ++ c ++ ms.flatten := by
  have h1 : (#v[a, b, c, [], [], [], [], []] : Vector (List UInt8) 8).toList =
    [a, b, c, [], [], [], [], []] := rfl
  have h2 : ([a, b, c, [], [], [], [], []] : List (List UInt8)).drop e =
      List.replicate (5 - ms.length) [] := by
    subst he
    rw [← List.drop_drop]
    exact List.drop_replicate (n := 5) (a := ([] : List UInt8))
  rw [hw, h1, h2]
  simp

theorem write7_flatten {a b : List UInt8} {ms : List (List UInt8)} {e : Nat} (he : e = 2 + ms.length)
    {w : Vector (List UInt8) 7}
    (hw : w.toList = (#v[a, b, [], [], [], [], []] : Vector (List UInt8) 7).toList.take 2 ++ ms ++
      (#v[a, b, [], [], [], [], []] : Vector (List UInt8) 7).toList.drop e) :
    w.toList.flatten = a ++ b ++ ms.flatten := by
  have h1 : (#v[a, b, [], [], [], [], []] : Vector (List UInt8) 7).toList =
    [a, b, [], [], [], [], []] := rfl
  have h2 : ([a, b, [], [], [], [], []] : List (List UInt8)).drop e =
      List.replicate (5 - ms.length) [] := by
    subst he
    rw [← List.drop_drop]
    exact List.drop_replicate (n := 5) (a := ([] : List UInt8))
  rw [hw, h1, h2]
  simp

variable {K LEN M N : Nat}

theorem shake_refine :
    HashersRefine (m := m) (K := K) (LEN := LEN) (M := M) (N := N)
      { h_msg := shake.h_msg (crypto P) M, prf := shake.prf (crypto P) N,
        prf_msg := shake.prf_msg (crypto P) N, f := shake.f (crypto P) N,
        h := shake.h (crypto P) N, t_l := shake.t_l (crypto P), t_len := shake.t_l (crypto P) }
      (Spec.shakeFns P N M) where
  h_msg r pk_seed pk_root ms hms := by
    refine Returns.addUsize (by omega) ?_
    refine Returns.writeSlice (by omega) (by omega) (by omega) ?_
    intro w hw
    refine shake256_returns ?_
    rw [write8_flatten rfl hw]
    rfl
  prf pk_seed sk_seed adrs :=
    (to_32_bytes_returns adrs).bind fun a ha => shake256_returns (by simp [Spec.shakeFns, ha])
  prf_msg sk_prf opt_rand ms _ hms := by
    refine Returns.addUsize (by omega) ?_
    refine Returns.writeSlice (by omega) (by omega) (by omega) ?_
    intro w hw
    refine shake256_returns ?_
    rw [write7_flatten rfl hw]
    rfl
  f pk_seed adrs m1 :=
    (to_32_bytes_returns adrs).bind fun a ha => shake256_returns (by simp [Spec.shakeFns, ha])
  h pk_seed adrs m1 m2 :=
    (to_32_bytes_returns adrs).bind fun a ha => shake256_returns (by simp [Spec.shakeFns, ha])
  t_l pk_seed adrs ml :=
    (to_32_bytes_returns adrs).bind fun a ha =>
      Returns.leak (shake256_tail (by simp [Spec.shakeFns, ha, items, absorbAll]))
  t_len pk_seed adrs ml :=
    (to_32_bytes_returns adrs).bind fun a ha =>
      Returns.leak (shake256_tail (by simp [Spec.shakeFns, ha, items, absorbAll]))

theorem zeros_slice {Z l : Nat} (h : l ≤ Z) :
    ((zeroBytes Z).toList.drop 0).take (l - 0) = Spec.toByte 0 l := by
  rw [Spec.toByte_zero]
  simp [zeroBytes, h]

theorem sha2_cat_1_refine (hN1 : 16 ≤ N) (hN2 : N ≤ 32) (hM : M < 2 ^ 15) :
    HashersRefine (m := m) (K := K) (LEN := LEN) (M := M) (N := N)
      { h_msg := sha2_cat_1.h_msg (crypto P) M, prf := sha2_cat_1.prf (crypto P) N,
        prf_msg := sha2_cat_1.prf_msg (crypto P) N, f := sha2_cat_1.f (crypto P) N,
        h := sha2_cat_1.h (crypto P) N, t_l := sha2_cat_1.t_l (crypto P),
        t_len := sha2_cat_1.t_l (crypto P) }
      (Spec.sha2Cat1Fns P N M) where
  h_msg r pk_seed pk_root ms hms := by
    refine Returns.addUsize (by omega) ?_
    refine Returns.writeSlice (by omega) (by omega) (by omega) ?_
    intro w hw
    refine Returns.bind (sha2_256_returns (by omega) fun v hv => hv) ?_
    intro d1 hd1
    rw [write8_flatten rfl hw] at hd1
    refine Returns.bind (mgf_loop_returns (M := M) (HL := 32) (by omega) (by omega)
      (fun c => sha2_cat_1.sha2_256 (crypto P) [r, pk_seed, d1.toList, (u32ToBe c).toList] 32)
      (fun c => Spec.sha256' P (r ++ pk_seed ++ d1.toList ++ Spec.toByte c 4)) ?_) ?_
    · intro c
      refine sha2_256_returns (by omega) fun v hv => ?_
      rw [hv, Spec.trunc, List.take_of_length_le (by simp [Spec.sha256']), u32ToBe_toList]
      simp
    · intro st hst
      refine Returns.pure ?_
      rw [Spec.trunc, List.take_of_length_le (by simp [Spec.sha256'])] at hd1
      rw [hst, hd1]
      rfl
  prf pk_seed sk_seed adrs := by
    refine Returns.subUsize (by omega) (by omega) ?_
    refine Returns.slice (by omega) (by simp; omega) ?_
    refine (to_22_bytes_returns adrs).bind fun a ha => ?_
    refine sha2_256_returns (by omega) fun v hv => ?_
    rw [hv, zeros_slice (by omega), ha, Adrs.bytes22_eq]
    simp [Spec.sha2Cat1Fns]
  prf_msg sk_prf opt_rand ms hk hms := by
    refine Returns.bind (hmac_sha_256_returns P sk_prf opt_rand ms (by omega)) ?_
    intro d hd
    refine Returns.slice (by omega) (by simp; omega) ?_
    refine Returns.tail (Returns.copyFromSlice (by simp; omega) fun v hv => Returns.pure ?_)
    rw [hv, hd]
    rfl
  f pk_seed adrs m1 := by
    refine Returns.subUsize (by omega) (by omega) ?_
    refine Returns.slice (by omega) (by simp; omega) ?_
    refine (to_22_bytes_returns adrs).bind fun a ha => ?_
    refine sha2_256_returns (by omega) fun v hv => ?_
    rw [hv, zeros_slice (by omega), ha, Adrs.bytes22_eq]
    simp [Spec.sha2Cat1Fns]
  h pk_seed adrs m1 m2 := by
    refine Returns.subUsize (by omega) (by omega) ?_
    refine Returns.slice (by omega) (by simp; omega) ?_
    refine (to_22_bytes_returns adrs).bind fun a ha => ?_
    refine sha2_256_returns (by omega) fun v hv => ?_
    rw [hv, zeros_slice (by omega), ha, Adrs.bytes22_eq]
    simp [Spec.sha2Cat1Fns]
  t_l pk_seed adrs ml := by
    refine Returns.subUsize (by omega) (by omega) ?_
    refine Returns.slice (by omega) (by simp; omega) ?_
    refine (to_22_bytes_returns adrs).bind fun a ha => ?_
    refine Returns.leak ?_
    refine sha256_trunc (by omega) fun v hv => ?_
    rw [hv, zeros_slice (by omega), ha, Adrs.bytes22_eq]
    simp [items, absorbAll, Spec.sha2Cat1Fns]
  t_len pk_seed adrs ml := by
    refine Returns.subUsize (by omega) (by omega) ?_
    refine Returns.slice (by omega) (by simp; omega) ?_
    refine (to_22_bytes_returns adrs).bind fun a ha => ?_
    refine Returns.leak ?_
    refine sha256_trunc (by omega) fun v hv => ?_
    rw [hv, zeros_slice (by omega), ha, Adrs.bytes22_eq]
    simp [items, absorbAll, Spec.sha2Cat1Fns]

theorem sha2_cat_3_5_refine (hN1 : 24 ≤ N) (hN2 : N ≤ 32) (hM : M < 2 ^ 15) :
    HashersRefine (m := m) (K := K) (LEN := LEN) (M := M) (N := N)
      { h_msg := sha2_cat_3_5.h_msg (crypto P) M, prf := sha2_cat_3_5.prf (crypto P) N,
        prf_msg := sha2_cat_3_5.prf_msg (crypto P) N, f := sha2_cat_3_5.f (crypto P) N,
        h := sha2_cat_3_5.h (crypto P) N, t_l := sha2_cat_3_5.t_l (crypto P),
        t_len := sha2_cat_3_5.t_l (crypto P) }
      (Spec.sha2Cat35Fns P N M) where
  h_msg r pk_seed pk_root ms hms := by
    refine Returns.addUsize (by omega) ?_
    refine Returns.writeSlice (by omega) (by omega) (by omega) ?_
    intro w hw
    refine Returns.bind (sha2_512_returns (by omega) fun v hv => hv) ?_
    intro d1 hd1
    rw [write8_flatten rfl hw] at hd1
    refine Returns.bind (mgf_loop_returns (M := M) (HL := 64) (by omega) (by omega)
      (fun c => sha2_cat_3_5.sha2_512 (crypto P) [r, pk_seed, d1.toList, (u32ToBe c).toList] 64)
      (fun c => Spec.sha512' P (r ++ pk_seed ++ d1.toList ++ Spec.toByte c 4)) ?_) ?_
    · intro c
      refine sha2_512_returns (by omega) fun v hv => ?_
      rw [hv, Spec.trunc, List.take_of_length_le (by simp [Spec.sha512']), u32ToBe_toList]
      simp
    · intro st hst
      refine Returns.pure ?_
      rw [Spec.trunc, List.take_of_length_le (by simp [Spec.sha512'])] at hd1
      rw [hst, hd1]
      rfl
  prf pk_seed sk_seed adrs := by
    refine Returns.subUsize (by omega) (by omega) ?_
    refine Returns.slice (by omega) (by simp; omega) ?_
    refine (to_22_bytes_returns adrs).bind fun a ha => ?_
    refine sha2_256_returns (by omega) fun v hv => ?_
    rw [hv, zeros_slice (by omega), ha, Adrs.bytes22_eq]
    simp [Spec.sha2Cat35Fns]
  prf_msg sk_prf opt_rand ms hk hms := by
    refine Returns.bind (hmac_sha_512_returns P sk_prf opt_rand ms (by omega)) ?_
    intro d hd
    refine Returns.slice (by omega) (by simp; omega) ?_
    refine Returns.tail (Returns.copyFromSlice (by simp; omega) fun v hv => Returns.pure ?_)
    rw [hv, hd]
    rfl
  f pk_seed adrs m1 := by
    refine Returns.subUsize (by omega) (by omega) ?_
    refine Returns.slice (by omega) (by simp; omega) ?_
    refine (to_22_bytes_returns adrs).bind fun a ha => ?_
    refine sha2_256_returns (by omega) fun v hv => ?_
    rw [hv, zeros_slice (by omega), ha, Adrs.bytes22_eq]
    simp [Spec.sha2Cat35Fns]
  h pk_seed adrs m1 m2 := by
    refine Returns.subUsize (by omega) (by omega) ?_
    refine Returns.slice (by omega) (by simp; omega) ?_
    refine (to_22_bytes_returns adrs).bind fun a ha => ?_
    refine sha2_512_returns (by omega) fun v hv => ?_
    rw [hv, zeros_slice (by omega), ha, Adrs.bytes22_eq]
    simp [Spec.sha2Cat35Fns]
  t_l pk_seed adrs ml := by
    refine Returns.subUsize (by omega) (by omega) ?_
    refine Returns.slice (by omega) (by simp; omega) ?_
    refine (to_22_bytes_returns adrs).bind fun a ha => ?_
    refine Returns.leak ?_
    refine sha512_trunc (by omega) fun v hv => ?_
    rw [hv, zeros_slice (by omega), ha, Adrs.bytes22_eq]
    simp [items, absorbAll, Spec.sha2Cat35Fns]
  t_len pk_seed adrs ml := by
    refine Returns.subUsize (by omega) (by omega) ?_
    refine Returns.slice (by omega) (by simp; omega) ?_
    refine (to_22_bytes_returns adrs).bind fun a ha => ?_
    refine Returns.leak ?_
    refine sha512_trunc (by omega) fun v hv => ?_
    rw [hv, zeros_slice (by omega), ha, Adrs.bytes22_eq]
    simp [items, absorbAll, Spec.sha2Cat35Fns]

end

end Fips205.Model
