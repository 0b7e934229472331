import Verif.Proofs.VisitHash

/-! # The calls made by `PRF_msg`, `H_msg` and the pre-hash functions -/

namespace Fips205.Model
open Fips205

variable {b : Build} {α β σ : Type}

/-- The run returns a value satisfying `Q` after the calls `L`. -/
def Makes (L : List Call) (Q : α → Prop) (x : LogExec b α) : Prop := ∃ v, x = (L, .ok v) ∧ Q v

namespace Makes

theorem bind {L L' : List Call} {P : α → Prop} {Q : β → Prop} {x : LogExec b α}
    {f : α → LogExec b β} (h : Makes L P x) (hf : ∀ v, P v → Makes L' Q (f v)) :
    Makes (L ++ L') Q (x >>= f) := by
  obtain ⟨v, rfl, hv⟩ := h
  obtain ⟨w, hw, hq⟩ := hf v hv
  exact ⟨w, by rw [LogExec.bind_ok rfl, hw], hq⟩

theorem ret {L : List Call} {P : α → Prop} {Q : β → Prop} {x : LogExec b α} {f : α → LogExec b β}
    (h : Returns x P) (hf : ∀ v, P v → Makes L Q (f v)) : Makes L Q (x >>= f) := by
  obtain ⟨v, rfl, hv⟩ := LogExec.returns_iff.mp h
  exact hf v hv

theorem of_returns {Q : α → Prop} {x : LogExec b α} (h : Returns x Q) : Makes [] Q x := by
  obtain ⟨v, rfl, hv⟩ := LogExec.returns_iff.mp h
  exact ⟨v, rfl, hv⟩

theorem last {L : List Call} {P : α → Prop} {Q : β → Prop} {x : LogExec b α} {f : α → LogExec b β}
    (h : Makes L P x) (hf : ∀ v, P v → Returns (f v) Q) : Makes L Q (x >>= f) := by
  have := h.bind (L' := []) fun v hv => of_returns (hf v hv)
  rwa [List.append_nil] at this

theorem call {alg : Spec.PreHash} {input : List UInt8} {v : α} {Q : α → Prop} (h : Q v) :
    Makes [⟨alg, input⟩] Q (LogExec.call alg input v : LogExec b α) := ⟨v, rfl, h⟩

theorem leak {L : List Call} {Q : β → Prop} {e : Leak} {f : Unit → LogExec b β}
    (hf : Makes L Q (f ())) : Makes L Q (Rust.leak e >>= f) := hf

theorem whileFuel {cond : σ → Bool} {body : σ → LogExec b σ} {n : Nat} (I : Nat → σ → Prop)
    (c : Nat → Call) (hc : ∀ i s, I i s → cond s = decide (i < n))
    (hb : ∀ i s, I i s → i < n → Makes [c i] (I (i + 1)) (body s)) :
    ∀ (r i : Nat) (s : σ) (fuel : Nat), I i s → i + r = n → r < fuel →
      Makes ((List.range' i r).map c) (fun _ => True) (Model.whileFuel cond body fuel s)
  | r, i, s, 0, _, _, h => absurd h (Nat.not_lt_zero _)
  | 0, i, s, fuel + 1, hI, h, _ => by
    rw [Model.whileFuel, hc i s hI, decide_eq_false (by omega)]
    exact ⟨s, rfl, trivial⟩
  | r + 1, i, s, fuel + 1, hI, h, hf => by
    rw [Model.whileFuel, hc i s hI, decide_eq_true (by omega : i < n)]
    exact bind (hb i s hI (by omega)) fun s' hs' =>
      whileFuel I c hc hb r (i + 1) s' fuel hs' (by omega) (by omega)

/-! ### One call -/

variable {P : Spec.Prims} {x : List (List UInt8)} {y : List UInt8}

theorem sha256 (h : x.flatten = y) :
    Makes [⟨.sha256, y⟩] (· = P.sha256 y) ((recording P : Crypto (LogExec b)).sha256 x) :=
  h ▸ call rfl

theorem sha512 (h : x.flatten = y) :
    Makes [⟨.sha512, y⟩] (· = P.sha512 y) ((recording P : Crypto (LogExec b)).sha512 x) :=
  h ▸ call rfl

theorem shake128 {n : Nat} (h : x.flatten = y) :
    Makes [⟨.shake128, y⟩] (· = P.shake128 y n) ((recording P : Crypto (LogExec b)).shake128 x n) :=
  h ▸ call rfl

theorem shake256 {n : Nat} (h : x.flatten = y) :
    Makes [⟨.shake256, y⟩] (· = P.shake256 y n) ((recording P : Crypto (LogExec b)).shake256 x n) :=
  h ▸ call rfl

theorem mono {L : List Call} {P Q : α → Prop} {x : LogExec b α} (h : Makes L P x)
    (hq : ∀ v, P v → Q v) : Makes L Q x := by
  obtain ⟨v, h, hv⟩ := h
  exact ⟨v, h, hq v hv⟩

end Makes

/-- The two functions that hash the message make these calls. -/
structure HashersMsg {K LEN M N : Nat} (pm : List UInt8 → List UInt8 → List UInt8 → List Call)
    (hm : List UInt8 → List UInt8 → List UInt8 → List UInt8 → List Call)
    (hs : Hashers (LogExec b) K LEN M N) : Prop where
  prf_msg : ∀ sk_prf opt_rand ms, sk_prf.length ≤ 64 → ms.length ≤ 5 →
    Makes (pm sk_prf opt_rand ms.flatten) (fun _ => True) (hs.prf_msg sk_prf opt_rand ms)
  h_msg : ∀ r pk_seed pk_root ms, ms.length ≤ 5 →
    Makes (hm r pk_seed pk_root ms.flatten) (fun _ => True) (hs.h_msg r pk_seed pk_root ms)

variable {K LEN M N : Nat} (P : Spec.Prims) {r : Spec.Row}

/-- The MGF1 loop with a hash function of `HL` output bytes. -/
theorem mgf_loop_makes {HL : Nat} (hM : M + HL < 2 ^ 16) (hHL : 0 < HL)
    (tmpOf : UInt32 → LogExec b (Vector UInt8 HL)) (g : Nat → Call)
    (ht : ∀ c : UInt32, Makes [g c.toNat] (fun _ => True) (tmpOf c)) :
    Makes ((List.range ((M + HL - 1) / HL)).map g) (fun _ => True)
      (whileFuel (fun st : MgfState M => decide (st.start < M)) (fun st => do
      let tmp ← tmpOf st.counter
      let d ← subUsize M st.start
      let len := min d HL
      let e ← addUsize st.start len
      let src ← slice tmp.toList 0 len
      let result ← writeSlice st.result st.start e src
      let start ← addUsize st.start HL
      let counter ← addU32 st.counter 1
      pure { result, start, counter }) (M + 1) { result := zeroBytes M, start := 0, counter := 0 }) := by
  have hn : ∀ i, i < (M + HL - 1) / HL ↔ i * HL < M := by
    intro i
    rw [Nat.lt_iff_add_one_le, Nat.le_div_iff_mul_le hHL, Nat.succ_mul]
    omega
  have hle : (M + HL - 1) / HL ≤ M := by
    by_contra h
    have := (hn M).mp (by omega)
    have := Nat.le_mul_of_pos_right M hHL
    omega
  rw [List.range_eq_range']
  refine Makes.whileFuel (fun i st => st.counter.toNat = i ∧ st.start = i * HL) g ?_ ?_ _ _ _ _
    ⟨by simp, by simp⟩ (Nat.zero_add _) (by omega)
  · rintro i st ⟨_, h⟩
    simp only [h, hn]
  · rintro i ⟨res, start, ctr⟩ ⟨h1, h2⟩ hi
    simp only at h1 h2
    subst h2
    rw [hn] at hi
    have hcHL : i ≤ i * HL := Nat.le_mul_of_pos_right _ hHL
    refine Makes.last (h1 ▸ ht ctr) fun tmp _ => ?_
    dsimp only
    refine Returns.subUsize (by omega) (by omega) ?_
    refine Returns.addUsize (by omega) ?_
    refine Returns.slice (by omega) (by simp) ?_
    refine Returns.writeSlice (by omega) (by omega) (by simp) ?_
    intro w _
    refine Returns.addUsize (by omega) ?_
    refine Returns.addU32 (by rw [h1]; simp; omega) ?_
    refine Returns.pure ⟨?_, ?_⟩
    · show (ctr + 1).toNat = i + 1
      rw [UInt32.toNat_add, h1]; simp; omega
    · show i * HL + HL = (i + 1) * HL
      rw [Nat.succ_mul]

theorem makes_sha256_trunc {input : List (List UInt8)} {n : Nat} (hn : n ≤ 32) :
    Makes [⟨.sha256, input.flatten⟩] (fun v => v.toList = Spec.trunc n (Spec.sha256' P input.flatten)) (do
      let result ← (recording P : Crypto (LogExec b)).sha256 input
      let sl ← slice result.toList 0 n
      copyFromSlice n sl) := by
  refine Makes.last (P := (· = P.sha256 input.flatten)) (Makes.call rfl) ?_
  rintro _ rfl
  refine Returns.slice (by omega) (by simpa using hn) ?_
  refine Returns.tail (Returns.copyFromSlice (by simpa using hn) fun v hv => Returns.pure ?_)
  simpa [Spec.trunc, Spec.sha256'] using hv

theorem makes_sha512_trunc {input : List (List UInt8)} {n : Nat} (hn : n ≤ 64) :
    Makes [⟨.sha512, input.flatten⟩] (fun v => v.toList = Spec.trunc n (Spec.sha512' P input.flatten)) (do
      let result ← (recording P : Crypto (LogExec b)).sha512 input
      let sl ← slice result.toList 0 n
      copyFromSlice n sl) := by
  refine Makes.last (P := (· = P.sha512 input.flatten)) (Makes.call rfl) ?_
  rintro _ rfl
  refine Returns.slice (by omega) (by simpa using hn) ?_
  refine Returns.tail (Returns.copyFromSlice (by simpa using hn) fun v hv => Returns.pure ?_)
  simpa [Spec.trunc, Spec.sha512'] using hv

theorem shake_msg :
    HashersMsg (b := b) (K := K) (LEN := LEN) (M := M) (N := N) (prfMsgLog P .shake r)
      (hMsgLog P .shake r)
      { h_msg := shake.h_msg (recording P) M, prf := shake.prf (recording P) N,
        prf_msg := shake.prf_msg (recording P) N, f := shake.f (recording P) N,
        h := shake.h (recording P) N, t_l := shake.t_l (recording P),
        t_len := shake.t_l (recording P) } where
  prf_msg sk_prf opt_rand ms _ hms := by
    refine Makes.ret (P := (· = 2 + ms.length)) (Returns.tail (Returns.addUsize (by omega)
      (Returns.pure rfl))) ?_
    rintro _ rfl
    refine Makes.ret (Returns.tail (Returns.writeSlice (by omega) (by omega) (by omega) fun w hw =>
      Returns.pure hw)) fun w hw => ?_
    exact Makes.leak ((Makes.shake256 (write7_flatten rfl hw)).mono fun _ _ => trivial)
  h_msg R pk_seed pk_root ms hms := by
    refine Makes.ret (P := (· = 3 + ms.length)) (Returns.tail (Returns.addUsize (by omega)
      (Returns.pure rfl))) ?_
    rintro _ rfl
    refine Makes.ret (Returns.tail (Returns.writeSlice (by omega) (by omega) (by omega) fun w hw =>
      Returns.pure hw)) fun w hw => ?_
    exact Makes.leak ((Makes.shake256 (write8_flatten rfl hw)).mono fun _ _ => trivial)

theorem sha2_cat_1_msg (hm : r.m = M) (hc : r.category = 1) (hN2 : N ≤ 32) (hM : M < 2 ^ 15) :
    HashersMsg (b := b) (K := K) (LEN := LEN) (M := M) (N := N) (prfMsgLog P .sha2 r)
      (hMsgLog P .sha2 r)
      { h_msg := sha2_cat_1.h_msg (recording P) M, prf := sha2_cat_1.prf (recording P) N,
        prf_msg := sha2_cat_1.prf_msg (recording P) N, f := sha2_cat_1.f (recording P) N,
        h := sha2_cat_1.h (recording P) N, t_l := sha2_cat_1.t_l (recording P),
        t_len := sha2_cat_1.t_l (recording P) } where
  prf_msg sk_prf opt_rand ms hk hms := by
    dsimp only [prfMsgLog]
    rw [if_pos hc]
    refine Makes.last (P := fun _ => True) ?_ fun v _ => ?_
    · unfold sha2_cat_1.hmac_sha_256
      dsimp only
      rw [xorZip_eq _ _ _ hk, xor_map]
      refine Makes.leak (Makes.leak (Makes.leak ?_))
      refine Makes.bind (L := [_]) (Makes.sha256 (by simp [hmacPad])) ?_
      rintro _ rfl
      exact (Makes.sha256 (by simp [hmacPad, Spec.sha256'])).mono fun _ _ => trivial
    · refine Returns.slice (by omega) (by simpa using hN2) ?_
      exact Returns.tail (Returns.copyFromSlice (by simpa using hN2) fun _ _ => Returns.pure trivial)
  h_msg R pk_seed pk_root ms hms := by
    dsimp only [hMsgLog]
    rw [if_pos hc]
    refine Makes.ret (P := (· = 3 + ms.length)) (Returns.tail (Returns.addUsize (by omega)
      (Returns.pure rfl))) ?_
    rintro _ rfl
    refine Makes.ret (Returns.tail (Returns.writeSlice (by omega) (by omega) (by omega) fun w hw =>
      Returns.pure hw)) fun w hw => ?_
    refine Makes.bind (L := [_]) (Makes.leak (write8_flatten rfl hw ▸ makes_sha256_trunc P (by omega)))
      fun d hd => ?_
    rw [Spec.trunc, List.take_of_length_le (by simp [Spec.sha256'])] at hd
    refine Makes.last (P := fun _ => True) ?_ fun _ _ => Returns.pure trivial
    rw [← hd, hm]
    refine mgf_loop_makes (M := M) (HL := 32) (by omega) (by omega)
      (fun c => sha2_cat_1.sha2_256 (recording P) [R, pk_seed, d.toList, (u32ToBe c).toList] 32) _ fun c => ?_
    obtain ⟨v, hv, _⟩ := makes_sha256_trunc (b := b) P
      (input := [R, pk_seed, d.toList, (u32ToBe c).toList]) (n := 32) (by omega)
    refine ⟨v, hv.trans (Prod.ext ?_ rfl), trivial⟩
    rw [u32ToBe_toList]
    simp

theorem sha2_cat_3_5_msg (hm : r.m = M) (hc : r.category ≠ 1) (hN2 : N ≤ 32) (hM : M < 2 ^ 15) :
    HashersMsg (b := b) (K := K) (LEN := LEN) (M := M) (N := N) (prfMsgLog P .sha2 r)
      (hMsgLog P .sha2 r)
      { h_msg := sha2_cat_3_5.h_msg (recording P) M, prf := sha2_cat_3_5.prf (recording P) N,
        prf_msg := sha2_cat_3_5.prf_msg (recording P) N, f := sha2_cat_3_5.f (recording P) N,
        h := sha2_cat_3_5.h (recording P) N, t_l := sha2_cat_3_5.t_l (recording P),
        t_len := sha2_cat_3_5.t_l (recording P) } where
  prf_msg sk_prf opt_rand ms hk hms := by
    dsimp only [prfMsgLog]
    rw [if_neg hc]
    refine Makes.last (P := fun _ => True) ?_ fun v _ => ?_
    · unfold sha2_cat_3_5.hmac_sha_512
      dsimp only
      rw [xorZip_eq _ _ _ (by omega), xor_map]
      refine Makes.leak (Makes.leak (Makes.leak ?_))
      refine Makes.bind (L := [_]) (Makes.sha512 (by simp [hmacPad])) ?_
      rintro _ rfl
      exact (Makes.sha512 (by simp [hmacPad, Spec.sha512'])).mono fun _ _ => trivial
    · refine Returns.slice (by omega) (by simp; omega) ?_
      exact Returns.tail (Returns.copyFromSlice (by simp; omega) fun _ _ => Returns.pure trivial)
  h_msg R pk_seed pk_root ms hms := by
    dsimp only [hMsgLog]
    rw [if_neg hc]
    refine Makes.ret (P := (· = 3 + ms.length)) (Returns.tail (Returns.addUsize (by omega)
      (Returns.pure rfl))) ?_
    rintro _ rfl
    refine Makes.ret (Returns.tail (Returns.writeSlice (by omega) (by omega) (by omega) fun w hw =>
      Returns.pure hw)) fun w hw => ?_
    refine Makes.bind (L := [_]) (Makes.leak (write8_flatten rfl hw ▸ makes_sha512_trunc P (by omega)))
      fun d hd => ?_
    rw [Spec.trunc, List.take_of_length_le (by simp [Spec.sha512'])] at hd
    refine Makes.last (P := fun _ => True) ?_ fun _ _ => Returns.pure trivial
    rw [← hd, hm]
    refine mgf_loop_makes (M := M) (HL := 64) (by omega) (by omega)
      (fun c => sha2_cat_3_5.sha2_512 (recording P) [R, pk_seed, d.toList, (u32ToBe c).toList] 64) _ fun c => ?_
    obtain ⟨v, hv, _⟩ := makes_sha512_trunc (b := b) P
      (input := [R, pk_seed, d.toList, (u32ToBe c).toList]) (n := 64) (by omega)
    refine ⟨v, hv.trans (Prod.ext ?_ rfl), trivial⟩
    rw [u32ToBe_toList]
    simp

theorem ParamSet.hashersMsg (ps : ParamSet) :
    HashersMsg (b := b) (prfMsgLog P ps.family ps.row) (hMsgLog P ps.family ps.row)
      (HASHERS ps.params (recording P)) := by
  cases ps
  · exact sha2_cat_1_msg P rfl rfl (by decide) (by decide)
  · exact shake_msg P
  · exact sha2_cat_1_msg P rfl rfl (by decide) (by decide)
  · exact shake_msg P
  · exact sha2_cat_3_5_msg P rfl (by decide) (by decide) (by decide)
  · exact shake_msg P
  · exact sha2_cat_3_5_msg P rfl (by decide) (by decide) (by decide)
  · exact shake_msg P
  · exact sha2_cat_3_5_msg P rfl (by decide) (by decide) (by decide)
  · exact shake_msg P
  · exact sha2_cat_3_5_msg P rfl (by decide) (by decide) (by decide)
  · exact shake_msg P

theorem hash_message_makes (message : List UInt8) (ph : Ph) (phm : Vector UInt8 64) :
    Makes [⟨ph.spec, message⟩] (fun _ => True)
      (hash_message (recording P : Crypto (LogExec b)) message ph phm) := by
  cases ph
  · refine Makes.last (Makes.sha256 (by simp)) fun d _ => ?_
    exact Returns.writeSlice (by omega) (by omega) (by simp) fun _ _ => Returns.pure trivial
  · refine Makes.last (Makes.sha512 (by simp)) fun d _ => ?_
    exact Returns.copyFromSlice (by simp) fun _ _ => Returns.pure trivial
  · refine Makes.last (Makes.shake128 (by simp)) fun d _ => ?_
    exact Returns.writeSlice (by omega) (by omega) (by simp) fun _ _ => Returns.pure trivial
  · exact Makes.last (Makes.shake256 (by simp)) fun d _ => Returns.pure trivial

end Fips205.Model
