import Verif.Proofs.Faults

/-!
# Nothing panics whatever the hash unit answers

The functions of the crate, layer by layer, run with a unit that answers as it likes.
-/

namespace Fips205.Model
open Fips205

set_option linter.unusedSectionVars false

variable {bd : Build} {τ : Type}

local notation "m" => UnitExec bd τ

/-- Every function pointer returns. -/
structure HashersEnd {K LEN M N : Nat} (hs : Hashers m K LEN M N) : Prop where
  h_msg : ∀ r pk_seed pk_root ms, ms.length ≤ 5 → Ends (hs.h_msg r pk_seed pk_root ms) (fun _ => True)
  prf : ∀ pk_seed sk_seed adrs, Ends (hs.prf pk_seed sk_seed adrs) (fun _ => True)
  prf_msg : ∀ sk_prf opt_rand ms, ms.length ≤ 5 → Ends (hs.prf_msg sk_prf opt_rand ms) (fun _ => True)
  f : ∀ pk_seed adrs m1, Ends (hs.f pk_seed adrs m1) (fun _ => True)
  h : ∀ pk_seed adrs m1 m2, Ends (hs.h pk_seed adrs m1 m2) (fun _ => True)
  t_l : ∀ pk_seed adrs ml, Ends (hs.t_l pk_seed adrs ml) (fun _ => True)
  t_len : ∀ pk_seed adrs ml, Ends (hs.t_len pk_seed adrs ml) (fun _ => True)

section
variable (U : HashUnit τ)

theorem sha256_ends (x : List (List UInt8)) : Ends ((U.crypto : Crypto m).sha256 x) (fun _ => True) :=
  fun _ => ⟨_, _, rfl, trivial⟩

theorem sha512_ends (x : List (List UInt8)) : Ends ((U.crypto : Crypto m).sha512 x) (fun _ => True) :=
  fun _ => ⟨_, _, rfl, trivial⟩

theorem shake128_ends (x : List (List UInt8)) (n : Nat) :
    Ends ((U.crypto : Crypto m).shake128 x n) (fun _ => True) :=
  fun _ => ⟨_, _, rfl, trivial⟩

theorem shake256_ends (x : List (List UInt8)) (n : Nat) :
    Ends ((U.crypto : Crypto m).shake256 x n) (fun _ => True) :=
  fun _ => ⟨_, _, rfl, trivial⟩

theorem sha256_trunc_ends (x : List (List UInt8)) {n : Nat} (hn : n ≤ 32) :
    Ends (do
      let result ← (U.crypto : Crypto m).sha256 x
      let sl ← slice result.toList 0 n
      copyFromSlice n sl) (fun _ => True) :=
  (sha256_ends U x).bind fun _ _ => Ends.slice (by omega) (by simpa using hn)
    (Ends.tail (Ends.copyFromSlice (by simpa using hn) fun _ _ => Ends.pure trivial))

theorem sha512_trunc_ends (x : List (List UInt8)) {n : Nat} (hn : n ≤ 64) :
    Ends (do
      let result ← (U.crypto : Crypto m).sha512 x
      let sl ← slice result.toList 0 n
      copyFromSlice n sl) (fun _ => True) :=
  (sha512_ends U x).bind fun _ _ => Ends.slice (by omega) (by simpa using hn)
    (Ends.tail (Ends.copyFromSlice (by simpa using hn) fun _ _ => Ends.pure trivial))

theorem mgf_loop_ends {M HL : Nat} (hM : M + HL < 2 ^ 16) (hHL : 0 < HL)
    (tmpOf : UInt32 → m (Vector UInt8 HL)) (ht : ∀ c : UInt32, Ends (tmpOf c) (fun _ => True)) :
    Ends (whileFuel (fun st : MgfState M => decide (st.start < M)) (fun st => do
      let tmp ← tmpOf st.counter
      let d ← subUsize M st.start
      let len := min d HL
      let e ← addUsize st.start len
      let src ← slice tmp.toList 0 len
      let result ← writeSlice st.result st.start e src
      let start ← addUsize st.start HL
      let counter ← addU32 st.counter 1
      pure { result, start, counter }) (M + 1) { result := zeroBytes M, start := 0, counter := 0 })
    (fun _ => True) := by
  refine (Ends.whileFuel (fun st : MgfState M => ∃ c, st.counter.toNat = c ∧ st.start = c * HL ∧
    c * HL < M + HL) (fun st => M - st.start) ?_ _ _
    ⟨0, by simp, by simp, by omega⟩ (by simp)).mono fun _ _ => trivial
  rintro ⟨res, start, ctr⟩ ⟨c, h1, h2, h2'⟩ hc
  simp only at h1 h2
  simp only [decide_eq_true_eq] at hc
  subst h2
  have hcHL : c ≤ c * HL := Nat.le_mul_of_pos_right _ hHL
  have hmul : (c + 1) * HL = c * HL + HL := Nat.succ_mul _ _
  refine (ht ctr).bind fun tmp _ => ?_
  have hlen : tmp.toList.length = HL := by simp
  dsimp only
  refine Ends.subUsize (by omega) (by omega) ?_
  refine Ends.addUsize (by omega) ?_
  refine Ends.slice (by omega) (by omega) ?_
  refine Ends.writeSlice (by omega) (by omega) (by simp) ?_
  intro w hw
  refine Ends.addUsize (by omega) ?_
  refine Ends.addU32 (by rw [h1]; simp; omega) ?_
  refine Ends.pure ⟨⟨c + 1, ?_, ?_, ?_⟩, ?_⟩
  · show (ctr + 1).toNat = c + 1
    rw [UInt32.toNat_add, h1]; simp; omega
  · show c * HL + HL = _
    omega
  · omega
  · show M - (c * HL + HL) < M - c * HL
    omega

variable {K LEN M N : Nat}

theorem shake_ends :
    HashersEnd (bd := bd) (K := K) (LEN := LEN) (M := M) (N := N)
      { h_msg := shake.h_msg U.crypto M, prf := shake.prf U.crypto N,
        prf_msg := shake.prf_msg U.crypto N, f := shake.f U.crypto N,
        h := shake.h U.crypto N, t_l := shake.t_l U.crypto, t_len := shake.t_l U.crypto } where
  h_msg r pk_seed pk_root ms hms :=
    Ends.addUsize (by omega) (Ends.writeSlice (by omega) (by omega) (by omega) fun _ _ =>
      Ends.leak (shake256_ends U _ _))
  prf pk_seed sk_seed adrs := (Ends.of (to_32_bytes_returns adrs)).bind fun _ _ => Ends.leak (shake256_ends U _ _)
  prf_msg sk_prf opt_rand ms hms :=
    Ends.addUsize (by omega) (Ends.writeSlice (by omega) (by omega) (by omega) fun _ _ =>
      Ends.leak (shake256_ends U _ _))
  f pk_seed adrs m1 := (Ends.of (to_32_bytes_returns adrs)).bind fun _ _ => Ends.leak (shake256_ends U _ _)
  h pk_seed adrs m1 m2 := (Ends.of (to_32_bytes_returns adrs)).bind fun _ _ => Ends.leak (shake256_ends U _ _)
  t_l pk_seed adrs ml := (Ends.of (to_32_bytes_returns adrs)).bind fun _ _ => Ends.leak (shake256_ends U _ _)
  t_len pk_seed adrs ml := (Ends.of (to_32_bytes_returns adrs)).bind fun _ _ => Ends.leak (shake256_ends U _ _)

theorem sha2_cat_1_ends (hN1 : 16 ≤ N) (hN2 : N ≤ 32) (hM : M < 2 ^ 15) :
    HashersEnd (bd := bd) (K := K) (LEN := LEN) (M := M) (N := N)
      { h_msg := sha2_cat_1.h_msg U.crypto M, prf := sha2_cat_1.prf U.crypto N,
        prf_msg := sha2_cat_1.prf_msg U.crypto N, f := sha2_cat_1.f U.crypto N,
        h := sha2_cat_1.h U.crypto N, t_l := sha2_cat_1.t_l U.crypto,
        t_len := sha2_cat_1.t_l U.crypto } where
  h_msg r pk_seed pk_root ms hms :=
    Ends.addUsize (by omega) (Ends.writeSlice (by omega) (by omega) (by omega) fun _ _ =>
      Ends.bind (Ends.leak (sha256_trunc_ends U _ (by omega))) fun d1 _ =>
      Ends.bind (mgf_loop_ends (M := M) (HL := 32) (by omega) (by omega)
        (fun c => sha2_cat_1.sha2_256 U.crypto [r, pk_seed, d1.toList, (u32ToBe c).toList] 32)
        fun c => Ends.leak (sha256_trunc_ends U _ (by omega))) fun _ _ => Ends.pure trivial)
  prf pk_seed sk_seed adrs :=
    Ends.subUsize (by omega) (by omega) (Ends.slice (by omega) (by simp; omega)
      ((Ends.of (to_22_bytes_returns adrs)).bind fun _ _ => Ends.leak (sha256_trunc_ends U _ (by omega))))
  prf_msg sk_prf opt_rand ms hms :=
    Ends.bind (P := fun _ => True) (Ends.leak (Ends.leak (Ends.leak
      ((sha256_ends U _).bind fun _ _ => sha256_ends U _)))) fun d _ =>
      Ends.slice (by omega) (by simp; omega)
        (Ends.tail (Ends.copyFromSlice (by simp; omega) fun _ _ => Ends.pure trivial))
  f pk_seed adrs m1 :=
    Ends.subUsize (by omega) (by omega) (Ends.slice (by omega) (by simp; omega)
      ((Ends.of (to_22_bytes_returns adrs)).bind fun _ _ => Ends.leak (sha256_trunc_ends U _ (by omega))))
  h pk_seed adrs m1 m2 :=
    Ends.subUsize (by omega) (by omega) (Ends.slice (by omega) (by simp; omega)
      ((Ends.of (to_22_bytes_returns adrs)).bind fun _ _ => Ends.leak (sha256_trunc_ends U _ (by omega))))
  t_l pk_seed adrs ml :=
    Ends.subUsize (by omega) (by omega) (Ends.slice (by omega) (by simp; omega)
      ((Ends.of (to_22_bytes_returns adrs)).bind fun _ _ => Ends.leak (sha256_trunc_ends U _ (by omega))))
  t_len pk_seed adrs ml :=
    Ends.subUsize (by omega) (by omega) (Ends.slice (by omega) (by simp; omega)
      ((Ends.of (to_22_bytes_returns adrs)).bind fun _ _ => Ends.leak (sha256_trunc_ends U _ (by omega))))

theorem sha2_cat_3_5_ends (hN1 : 24 ≤ N) (hN2 : N ≤ 32) (hM : M < 2 ^ 15) :
    HashersEnd (bd := bd) (K := K) (LEN := LEN) (M := M) (N := N)
      { h_msg := sha2_cat_3_5.h_msg U.crypto M, prf := sha2_cat_3_5.prf U.crypto N,
        prf_msg := sha2_cat_3_5.prf_msg U.crypto N, f := sha2_cat_3_5.f U.crypto N,
        h := sha2_cat_3_5.h U.crypto N, t_l := sha2_cat_3_5.t_l U.crypto,
        t_len := sha2_cat_3_5.t_l U.crypto } where
  h_msg r pk_seed pk_root ms hms :=
    Ends.addUsize (by omega) (Ends.writeSlice (by omega) (by omega) (by omega) fun _ _ =>
      Ends.bind (Ends.leak (sha512_trunc_ends U _ (by omega))) fun d1 _ =>
      Ends.bind (mgf_loop_ends (M := M) (HL := 64) (by omega) (by omega)
        (fun c => sha2_cat_3_5.sha2_512 U.crypto [r, pk_seed, d1.toList, (u32ToBe c).toList] 64)
        fun c => Ends.leak (sha512_trunc_ends U _ (by omega))) fun _ _ => Ends.pure trivial)
  prf pk_seed sk_seed adrs :=
    Ends.subUsize (by omega) (by omega) (Ends.slice (by omega) (by simp; omega)
      ((Ends.of (to_22_bytes_returns adrs)).bind fun _ _ => Ends.leak (sha256_trunc_ends U _ (by omega))))
  prf_msg sk_prf opt_rand ms hms :=
    Ends.bind (P := fun _ => True) (Ends.leak (Ends.leak (Ends.leak
      ((sha512_ends U _).bind fun _ _ => sha512_ends U _)))) fun d _ =>
      Ends.slice (by omega) (by simp; omega)
        (Ends.tail (Ends.copyFromSlice (by simp; omega) fun _ _ => Ends.pure trivial))
  f pk_seed adrs m1 :=
    Ends.subUsize (by omega) (by omega) (Ends.slice (by omega) (by simp; omega)
      ((Ends.of (to_22_bytes_returns adrs)).bind fun _ _ => Ends.leak (sha256_trunc_ends U _ (by omega))))
  h pk_seed adrs m1 m2 :=
    Ends.subUsize (by omega) (by omega) (Ends.slice (by omega) (by simp; omega)
      ((Ends.of (to_22_bytes_returns adrs)).bind fun _ _ => Ends.leak (sha512_trunc_ends U _ (by omega))))
  t_l pk_seed adrs ml :=
    Ends.subUsize (by omega) (by omega) (Ends.slice (by omega) (by simp; omega)
      ((Ends.of (to_22_bytes_returns adrs)).bind fun _ _ => Ends.leak (sha512_trunc_ends U _ (by omega))))
  t_len pk_seed adrs ml :=
    Ends.subUsize (by omega) (by omega) (Ends.slice (by omega) (by simp; omega)
      ((Ends.of (to_22_bytes_returns adrs)).bind fun _ _ => Ends.leak (sha512_trunc_ends U _ (by omega))))

theorem ParamSet.ends (ps : ParamSet) : HashersEnd (HASHERS ps.params U.crypto : Hashers m _ _ _ _) := by
  cases ps
  · exact sha2_cat_1_ends U (by decide) (by decide) (by decide)
  · exact shake_ends U
  · exact sha2_cat_1_ends U (by decide) (by decide) (by decide)
  · exact shake_ends U
  · exact sha2_cat_3_5_ends U (by decide) (by decide) (by decide)
  · exact shake_ends U
  · exact sha2_cat_3_5_ends U (by decide) (by decide) (by decide)
  · exact shake_ends U
  · exact sha2_cat_3_5_ends U (by decide) (by decide) (by decide)
  · exact shake_ends U
  · exact sha2_cat_3_5_ends U (by decide) (by decide) (by decide)
  · exact shake_ends U

theorem hash_message_ends (msg : List UInt8) (ph : Ph) (buf : Vector UInt8 64) :
    Ends (hash_message U.crypto msg ph buf : m _) (fun v => v.2.1 ≤ 64) := by
  unfold hash_message
  cases ph
  · exact (sha256_ends U _).bind fun _ _ => Ends.writeSlice (by omega) (by omega) (by simp)
      fun _ _ => Ends.pure (by simp)
  · exact (sha512_ends U _).bind fun _ _ => Ends.copyFromSlice (by simp) fun _ _ => Ends.pure (by simp)
  · exact (shake128_ends U _ _).bind fun _ _ => Ends.writeSlice (by omega) (by omega) (by simp)
      fun _ _ => Ends.pure (by simp)
  · exact (shake256_ends U _ _).bind fun _ _ => Ends.pure (by simp)

end

/-! ## WOTS+ -/

variable {K LEN M N A D H HP : Nat} {p : Spec.Params} {hs : Hashers (UnitExec bd τ) K LEN M N}

theorem chain_ends (E : HashersEnd hs) (x : Vector UInt8 N) {i s : UInt32}
    (h : i.toNat + s.toNat < 2 ^ 32 - 1) (pk_seed : List UInt8) (adrs : Adrs) :
    Ends (chain hs x i s pk_seed adrs) (fun _ => True) := by
  unfold chain
  have hadd : (i + s).toNat = i.toNat + s.toNat := by
    rw [UInt32.toNat_add, Nat.mod_eq_of_lt (by omega)]
  refine Ends.debugAssert ?_ ?_
  · refine Ends.addU32 (by omega) (Ends.pure ?_)
    simp only [decide_eq_true_eq, UInt32.lt_iff_toNat_lt, hadd]
    simpa using h
  refine Ends.addU32 (by omega) ?_
  refine Ends.bind (Ends.forU32 (fun _ _ => True) (by omega) trivial ?_) fun _ _ => Ends.pure trivial
  rintro j ⟨a, t⟩ - - -
  exact (E.f _ _ _).bind fun _ _ => Ends.pure trivial

theorem wots_pkgen_ends (hp : Matches p K LEN M N A D H HP) (E : HashersEnd hs)
    (sk_seed pk_seed : List UInt8) (adrs : Adrs) :
    Ends (wots_pkgen hs sk_seed pk_seed adrs) (fun _ => True) := by
  unfold wots_pkgen
  have hlen := hp.len
  have hN := hp.N_le
  refine Ends.u32TryFromUnwrap (by omega) fun len32 hl => ?_
  refine Ends.bind (Ends.forU32 (fun _ _ => True) (by simp) trivial ?_) ?_
  · rintro i ⟨ska, a, t⟩ - hi -
    dsimp only
    rw [hl] at hi
    exact (E.prf _ _ _).bind fun sk _ => Ends.subU32 (by decide)
      ((chain_ends E sk (i := 0) (s := W - 1) (by decide) _ _).bind fun c _ =>
      Ends.asUsize (by omega) (Ends.vset hi (Ends.pure trivial)))
  · rintro ⟨ska, a, t⟩ -
    exact (E.t_l _ _ _).bind fun _ _ => Ends.pure trivial

theorem wots_sign_ends (hp : Matches p K LEN M N A D H HP) (E : HashersEnd hs)
    {msg : List UInt8} (hmsg : msg.length = N) (sk_seed pk_seed : List UInt8) (adrs : Adrs) :
    Ends (wots_sign hs msg sk_seed pk_seed adrs) (fun _ => True) := by
  unfold wots_sign
  have hlen := hp.len
  have hN := hp.N_le
  refine Ends.u32TryFromUnwrap (by omega) fun n32 hn => ?_
  refine (Ends.of (wots_sign_digits_returns hp hmsg hn)).bind fun v hv => ?_
  refine Ends.bind (Ends.forEach
    (fun i (st : UInt32 × Adrs × Adrs × Vector (Vector UInt8 N) LEN) => st.1.toNat = i) rfl ?_)
    fun _ _ => Ends.pure trivial
  rintro i ⟨i32, ska, a, t⟩ hi h0
  simp only at h0
  dsimp only
  have hi' : i < LEN := by simpa using hi
  have hd : v.toList[i].toNat = (Spec.wotsDigits p msg).getD i 0 := by
    rw [← digit_of hv hi']; simp
  have hd2 := wotsDigits_lt (p := p) (msg := msg) i
  refine (E.prf _ _ _).bind fun sk _ => ?_
  refine (chain_ends E sk (i := 0) (by rw [hd, show (0 : UInt32).toNat = 0 from rfl]; omega) _ _).bind
    fun c _ => ?_
  refine Ends.asUsize (by omega) ?_
  refine Ends.vset (by omega) ?_
  refine Ends.addU32 (by simp; omega) (Ends.pure ?_)
  show (i32 + 1).toNat = i + 1
  rw [UInt32.toNat_add, h0, Nat.mod_eq_of_lt (by simp; omega)]; rfl

theorem wots_pk_from_sig_ends (hp : Matches p K LEN M N A D H HP) (E : HashersEnd hs)
    (sig : WotsSig LEN N) {msg : List UInt8} (hmsg : msg.length = N) (pk_seed : List UInt8)
    (adrs : Adrs) : Ends (wots_pk_from_sig hs sig msg pk_seed adrs) (fun _ => True) := by
  unfold wots_pk_from_sig
  have hlen := hp.len
  have hN := hp.N_le
  refine Ends.u32TryFromUnwrap (by omega) fun n32 hn => ?_
  refine (Ends.of (wots_sign_digits_returns hp hmsg hn)).bind fun v hv => ?_
  refine Ends.bind (Ends.forUsize (fun _ _ => True) (by omega) trivial ?_) ?_
  · rintro i ⟨a, t⟩ - hi -
    dsimp only
    have hd := digit_of hv hi
    have hd2 := wotsDigits_lt (p := p) (msg := msg) i
    have e : (W - 1 - v[i]).toNat = 15 - v[i].toNat := by
      rw [UInt32.toNat_sub_of_le _ _ (by rw [UInt32.le_iff_toNat_le, w_sub_one]; omega), w_sub_one]
    refine Ends.vget hi ?_
    refine Ends.vget hi ?_
    refine Ends.subU32 (by decide) ?_
    refine Ends.vget hi ?_
    refine Ends.subU32 (by rw [w_sub_one]; omega) ?_
    refine (chain_ends E _ (by rw [e]; omega) _ _).bind fun c _ => ?_
    exact Ends.vset hi (Ends.pure trivial)
  · rintro ⟨a, t⟩ -
    exact (E.t_l _ _ _).bind fun _ _ => Ends.pure trivial

/-! ## XMSS -/

theorem xmss_node_ends (hp : Matches p K LEN M N A D H HP) (E : HashersEnd hs)
    (sk_seed pk_seed : List UInt8) (adrs : Adrs) : ∀ (n : Nat) (i z : UInt32), z.toNat = n →
    (i.toNat + 1) * 2 ^ n ≤ 2 ^ 32 →
    Ends (xmss_node hs sk_seed i z pk_seed adrs) (fun _ => True) := by
  intro n
  induction n with
  | zero =>
    intro i z hz _
    have := u32_eq_zero hz
    subst this
    rw [xmss_node]
    refine Ends.leak ?_
    simp only [dite_true]
    exact (wots_pkgen_ends hp E _ _ _).bind fun pk _ => Ends.pure trivial
  | succ n ih =>
    intro i z hz hi
    rw [xmss_node]
    refine Ends.leak ?_
    have hz0 : z ≠ 0 := by rintro rfl; simp at hz
    rw [dif_neg hz0]
    have hz1 : (z - 1).toNat = n := by
      rw [UInt32.toNat_sub_of_le _ _ (by rw [UInt32.le_iff_toNat_le]; simp; omega), hz]; simp
    have hpow : 1 ≤ 2 ^ n := Nat.one_le_two_pow
    have hi2 : (2 * i.toNat + 2) * 2 ^ n ≤ 2 ^ 32 := by
      rw [Nat.pow_succ] at hi
      calc (2 * i.toNat + 2) * 2 ^ n = (i.toNat + 1) * (2 ^ n * 2) := by ring
        _ ≤ _ := hi
    have hi3 : 2 * i.toNat + 2 ≤ 2 ^ 32 :=
      Nat.le_trans (Nat.le_mul_of_pos_right _ (by omega)) hi2
    have e1 : (2 * i).toNat = 2 * i.toNat := by
      rw [UInt32.toNat_mul, Nat.mod_eq_of_lt (by simp; omega)]; simp
    have e2 : (2 * i + 1).toNat = 2 * i.toNat + 1 := by
      rw [UInt32.toNat_add, e1, Nat.mod_eq_of_lt (by simp; omega)]; simp
    refine Ends.mulU32 (by simp; omega) ?_
    refine (ih (2 * i) (z - 1) hz1 ?_).bind fun l _ => ?_
    · rw [e1]
      exact Nat.le_trans (Nat.mul_le_mul_right _ (by omega)) hi2
    refine Ends.mulU32 (by simp; omega) ?_
    refine Ends.addU32 (by rw [e1]; simp; omega) ?_
    refine (ih (2 * i + 1) (z - 1) hz1 ?_).bind fun r _ => E.h _ _ _ _
    rw [e2]; exact hi2

theorem xmss_sign_ends (hp : Matches p K LEN M N A D H HP) (E : HashersEnd hs)
    {msg : List UInt8} (hmsg : msg.length = N) (sk_seed : List UInt8) {idx : UInt32}
    (hidx : idx.toNat < 2 ^ HP) (pk_seed : List UInt8) (adrs : Adrs) :
    Ends (xmss_sign HP hs msg sk_seed idx pk_seed adrs) (fun _ => True) := by
  unfold xmss_sign
  have hHP := hp.HP_le
  refine Ends.u32TryFromUnwrap (by omega) fun hp32 hh => ?_
  refine Ends.bind (Ends.forU32 (fun _ _ => True) (by simp) trivial ?_) ?_
  · intro j auth _ hj _
    rw [hh] at hj
    have hk := shr_toNat idx j (by omega)
    have hks : (idx >>> j ^^^ 1).toNat = Spec.sibling (idx.toNat / 2 ^ j.toNat) := by
      rw [xor_one_toNat, hk]
    have hlt : idx.toNat / 2 ^ j.toNat < 2 ^ (HP - j.toNat) := by
      rw [Nat.div_lt_iff_lt_mul (Nat.two_pow_pos _), ← Nat.pow_add]
      rwa [show HP - j.toNat + j.toNat = HP by omega]
    have hsl := sibling_lt (by omega) hlt
    refine Ends.shrU32 (by omega) ?_
    refine (xmss_node_ends hp E _ _ _ j.toNat _ j rfl ?_).bind fun node _ => ?_
    · rw [hks]
      calc _ ≤ 2 ^ (HP - j.toNat) * 2 ^ j.toNat := Nat.mul_le_mul_right _ hsl
        _ = 2 ^ HP := by rw [← Nat.pow_add]; congr 1; omega
        _ ≤ 2 ^ 32 := Nat.pow_le_pow_right (by decide) (by omega)
    exact Ends.asUsize (by omega) (Ends.tail (Ends.vset hj (Ends.pure trivial)))
  · intro auth _
    exact (wots_sign_ends hp E hmsg _ _ _).bind fun sw _ => Ends.pure trivial

/-- The tree index of an address, after the height was set. -/
theorem get_index_height (a : Adrs) (x : UInt32) : (a.set_tree_height x).get_tree_index = a.get_tree_index := by
  apply UInt32.toNat_inj.mp
  rw [Adrs.toNat_get_tree_index, Adrs.toNat_get_tree_index, Adrs.to_32_set_tree_height,
    Spec.getTreeIndex_setTreeHeight (Adrs.length_bytes32 _)]

theorem get_index_index (a : Adrs) (x : UInt32) : (a.set_tree_index x).get_tree_index = x := by
  apply UInt32.toNat_inj.mp
  rw [Adrs.toNat_get_tree_index, Adrs.to_32_set_tree_index,
    Spec.getTreeIndex_setTreeIndex (Adrs.length_bytes32 _) x.toNat_lt]

theorem xmss_pk_from_sig_ends (hp : Matches p K LEN M N A D H HP) (E : HashersEnd hs)
    {idx : UInt32} (sig : XmssSig HP LEN N) {msg : List UInt8} (hmsg : msg.length = N)
    (pk_seed : List UInt8) (adrs : Adrs) :
    Ends (xmss_pk_from_sig hs idx sig msg pk_seed adrs) (fun _ => True) := by
  unfold xmss_pk_from_sig
  have hHP := hp.HP_le
  refine Ends.u32TryFromUnwrap (by omega) fun hp32 hh => ?_
  refine (wots_pk_from_sig_ends hp E _ hmsg _ _).bind fun pk _ => ?_
  refine Ends.bind (Ends.forU32 (fun k (st : Adrs × Vector UInt8 N) =>
    st.1.get_tree_index.toNat = idx.toNat / 2 ^ k) (by simp) (by rw [get_index_index]; simp) ?_)
    fun _ _ => Ends.pure trivial
  rintro k ⟨a, node⟩ - hk hst
  rw [hh] at hk
  simp only at hst
  dsimp only
  refine Ends.addU32 (by simp; omega) ?_
  refine Ends.shrU32 (by omega) ?_
  refine Ends.leak ?_
  have hsh := shr_toNat idx k (by omega)
  have hpow : idx.toNat / 2 ^ (k.toNat + 1) = idx.toNat / 2 ^ k.toNat / 2 := by
    rw [Nat.pow_succ, Nat.div_div_eq_div_mul]
  rw [and_one_eq, hsh]
  by_cases hbit : idx.toNat / 2 ^ k.toNat % 2 = 0
  · rw [if_pos (by simpa using hbit)]
    refine Ends.divU32 (by decide) ?_
    refine Ends.asUsize (by omega) ?_
    refine Ends.vget hk ?_
    refine (E.h _ _ _ _).bind fun v _ => Ends.pure ?_
    dsimp only
    rw [get_index_index, UInt32.toNat_div, get_index_height, hst, hpow]
    rfl
  · rw [if_neg (by simpa using hbit)]
    have h1 : (1 : UInt32) ≤ (a.set_tree_height (k + 1)).get_tree_index := by
      rw [UInt32.le_iff_toNat_le, get_index_height, hst]; simp; omega
    refine Ends.subU32 (by rwa [UInt32.le_iff_toNat_le] at h1) ?_
    refine Ends.divU32 (by decide) ?_
    refine Ends.asUsize (by omega) ?_
    refine Ends.vget hk ?_
    refine (E.h _ _ _ _).bind fun v _ => Ends.pure ?_
    dsimp only
    rw [get_index_index, UInt32.toNat_div, UInt32.toNat_sub_of_le _ _ h1, get_index_height, hst, hpow]
    simp only [UInt32.reduceToNat]
    omega

/-! ## The hypertree -/

theorem ht_sign_ends (hp : Matches p K LEN M N A D H HP) (E : HashersEnd hs)
    {msg : List UInt8} (hmsg : msg.length = N) (sk_seed pk_seed : List UInt8) (idx_tree : UInt64)
    {idx_leaf : UInt32} (hleaf : idx_leaf.toNat < 2 ^ HP) :
    Ends (ht_sign D HP hs msg sk_seed pk_seed idx_tree idx_leaf) (fun r => ∃ v, r = .ok v) := by
  unfold ht_sign
  have hHP := hp.HP_le
  have hHP1 := hp.HP_ge
  have hD := hp.D_le
  have hD2 := hp.D_ge
  refine Ends.u32TryFromUnwrap (by omega) fun d32 hd => ?_
  refine Ends.u32TryFromUnwrap (by omega) fun hp32 hh => ?_
  refine (xmss_sign_ends hp E hmsg _ hleaf _ _).bind fun sig0 _ => ?_
  refine Ends.vset (by omega) ?_
  refine (xmss_pk_from_sig_ends hp E sig0 hmsg _ _).bind fun root0 _ => ?_
  refine Ends.bind (Ends.forU32E (fun _ (_ : HtSignState D HP LEN N) => True)
    (by rw [hd]; simp; omega) trivial ?_) ?_
  · rintro j ⟨itree, a, sigs, root⟩ hj1 hj2 -
    rw [hd] at hj2
    dsimp only
    obtain ⟨m1, m2⟩ := mask64 (hp32 := hp32) (by omega) (by omega)
    have m2 := m2 itree
    rw [hh] at m2
    refine Ends.shlU64 (by omega) ?_
    refine Ends.subU64 (by rwa [UInt64.le_iff_toNat_le] at m1) ?_
    have hlt : (itree &&& ((1 <<< hp32.toUInt64) - 1)).toNat < 2 ^ HP := by
      rw [m2]; exact Nat.mod_lt _ (Nat.two_pow_pos _)
    have h2HP : 2 ^ HP ≤ 2 ^ 31 := Nat.pow_le_pow_right (by decide) (by omega)
    rw [u32TryFromU64, if_pos (by omega)]
    refine Ends.leak ?_
    dsimp only
    refine Ends.shrU64 (by omega) ?_
    refine (xmss_sign_ends hp E (by simp) _
      (by rw [UInt64.toNat_toUInt32, Nat.mod_eq_of_lt (by omega)]; exact hlt) _ _).bind fun sig _ => ?_
    refine Ends.asUsize (by omega) ?_
    refine Ends.vset hj2 ?_
    refine Ends.subU32 (by rw [hd]; simp; omega) ?_
    refine Ends.leak ?_
    split
    · exact (xmss_pk_from_sig_ends hp E sig (by simp) _ _).bind fun root' _ => Ends.pure ⟨_, rfl, trivial⟩
    · exact Ends.pure ⟨_, rfl, trivial⟩
  · rintro _ ⟨st, rfl, -⟩
    exact Ends.pure ⟨_, rfl⟩

theorem ht_verify_ends (hp : Matches p K LEN M N A D H HP) (E : HashersEnd hs)
    {msg : List UInt8} (hmsg : msg.length = N) (sig : HtSig D HP LEN N) (pk_seed : List UInt8)
    (idx_tree : UInt64) (idx_leaf : UInt32) (pk_root : Vector UInt8 N) :
    Ends (ht_verify hs msg sig pk_seed idx_tree idx_leaf pk_root) (fun _ => True) := by
  unfold ht_verify
  have hHP := hp.HP_le
  have hHP1 := hp.HP_ge
  have hD := hp.D_le
  have hD2 := hp.D_ge
  refine Ends.u32TryFromUnwrap (by omega) fun d32 hd => ?_
  refine Ends.u32TryFromUnwrap (by omega) fun hp32 hh => ?_
  refine Ends.vget (by omega) ?_
  refine (xmss_pk_from_sig_ends hp E _ hmsg _ _).bind fun root0 _ => ?_
  refine Ends.bind (Ends.forU32E (fun _ (_ : HtVerifyState N) => True)
    (by rw [hd]; simp; omega) trivial ?_) ?_
  · rintro j ⟨itree, a, root⟩ hj1 hj2 -
    rw [hd] at hj2
    dsimp only
    obtain ⟨m1, m2⟩ := mask64 (hp32 := hp32) (by omega) (by omega)
    have m2 := m2 itree
    rw [hh] at m2
    refine Ends.shlU64 (by omega) ?_
    refine Ends.subU64 (by rwa [UInt64.le_iff_toNat_le] at m1) ?_
    have hlt : (itree &&& ((1 <<< hp32.toUInt64) - 1)).toNat < 2 ^ HP := by
      rw [m2]; exact Nat.mod_lt _ (Nat.two_pow_pos _)
    have h2HP : 2 ^ HP ≤ 2 ^ 31 := Nat.pow_le_pow_right (by decide) (by omega)
    rw [u32TryFromU64, if_pos (by omega)]
    refine Ends.leak ?_
    dsimp only
    refine Ends.shrU64 (by omega) ?_
    refine Ends.asUsize (by omega) ?_
    refine Ends.vget hj2 ?_
    exact (xmss_pk_from_sig_ends hp E _ (by simp) _ _).bind fun root' _ => Ends.pure ⟨_, rfl, trivial⟩
  · rintro _ ⟨st, rfl, -⟩
    exact Ends.leak (Ends.pure trivial)

/-! ## FORS -/

theorem fors_node_ends (E : HashersEnd hs) (sk_seed pk_seed : List UInt8) (adrs : Adrs) :
    ∀ (n : Nat) (i z : UInt32), z.toNat = n → (i.toNat + 1) * 2 ^ n ≤ 2 ^ 32 →
    Ends (fors_node hs sk_seed i z pk_seed adrs) (fun r => ∃ v, r = .ok v) := by
  intro n
  induction n with
  | zero =>
    intro i z hz _
    have := u32_eq_zero hz
    subst this
    rw [fors_node]
    refine Ends.leak ?_
    simp only [dite_true]
    exact (E.prf _ _ _).bind fun sk _ => (E.f _ _ _).bind fun v _ => Ends.pure ⟨v, rfl⟩
  | succ n ih =>
    intro i z hz hi
    rw [fors_node]
    refine Ends.leak ?_
    have hz0 : z ≠ 0 := by rintro rfl; simp at hz
    rw [dif_neg hz0]
    have hz1 : (z - 1).toNat = n := by
      rw [UInt32.toNat_sub_of_le _ _ (by rw [UInt32.le_iff_toNat_le]; simp; omega), hz]; simp
    have hpow : 1 ≤ 2 ^ n := Nat.one_le_two_pow
    have hi2 : (2 * i.toNat + 2) * 2 ^ n ≤ 2 ^ 32 := by
      rw [Nat.pow_succ] at hi
      calc (2 * i.toNat + 2) * 2 ^ n = (i.toNat + 1) * (2 ^ n * 2) := by ring
        _ ≤ _ := hi
    have hi3 : 2 * i.toNat + 2 ≤ 2 ^ 32 :=
      Nat.le_trans (Nat.le_mul_of_pos_right _ (by omega)) hi2
    have e1 : (2 * i).toNat = 2 * i.toNat := by
      rw [UInt32.toNat_mul, Nat.mod_eq_of_lt (by simp; omega)]; simp
    have e2 : (2 * i + 1).toNat = 2 * i.toNat + 1 := by
      rw [UInt32.toNat_add, e1, Nat.mod_eq_of_lt (by simp; omega)]; simp
    refine Ends.mulU32 (by simp; omega) ?_
    refine (ih (2 * i) (z - 1) hz1 ?_).bind ?_
    · rw [e1]
      exact Nat.le_trans (Nat.mul_le_mul_right _ (by omega)) hi2
    rintro _ ⟨l, rfl⟩
    refine Ends.leak ?_
    dsimp only
    refine Ends.mulU32 (by simp; omega) ?_
    refine Ends.addU32 (by rw [e1]; simp; omega) ?_
    refine (ih (2 * i + 1) (z - 1) hz1 ?_).bind ?_
    · rw [e2]; exact hi2
    rintro _ ⟨r, rfl⟩
    refine Ends.leak ?_
    dsimp only
    exact (E.h _ _ _ _).bind fun v _ => Ends.pure ⟨v, rfl⟩

/-- The digits of the digest, for code that goes on to call the unit. -/
theorem fors_digits_ends (hp : Matches p K LEN M N A D H HP) {md : List UInt8}
    (hmd : md.length = (K * A + 7) / 8) {a32 k32 : UInt32} (ha : a32.toNat = A) (hk : k32.toNat = K) :
    Ends (base_2b md a32 k32 (Vector.replicate K (0 : UInt32)).toList : m _)
      (fun new => new.length = K ∧ new.map UInt32.toNat = Spec.base2b md p.a p.k) :=
  Ends.of (Returns.tail (fors_digits_returns hp hmd ha hk fun _ h1 h2 => Returns.pure ⟨h1, h2⟩))

theorem fors_sign_ends (hp : Matches p K LEN M N A D H HP) (E : HashersEnd hs)
    {md : List UInt8} (hmd : md.length = (K * A + 7) / 8) (sk_seed : List UInt8) (adrs : Adrs)
    (pk_seed : List UInt8) :
    Ends (fors_sign A hs md sk_seed adrs pk_seed) (fun r => ∃ v, r = .ok v) := by
  unfold fors_sign
  have hA := hp.A_lt
  have hK := hp.K_le
  have hb := hp.fors_bound
  refine Ends.u32TryFromUnwrap (by omega) fun a32 ha => ?_
  refine Ends.u32TryFromUnwrap (by omega) fun k32 hk => ?_
  refine (fors_digits_ends hp hmd ha hk).bind ?_
  rintro new ⟨hl, hnew⟩
  refine Ends.copyFromSlice hl fun indices hind => ?_
  have hdlt : ∀ i (hi : i < K), indices[i].toNat < 2 ^ A := by
    intro i hi; rw [digit_of (by rw [hind, hnew]) hi, hp.a]; exact base2b_getD_lt
  refine Ends.mono (Ends.forU32E (fun _ (_ : ForsSig A K N) => True) (by simp) trivial ?_) ?_
  · rintro i s - hi -
    rw [hk] at hi
    have hbi := fors_index_bound hi (Nat.zero_le A) (hdlt i.toNat hi)
    simp only [Nat.sub_zero, Nat.pow_zero, Nat.mul_one] at hbi
    have hsh := shl_toNat (x := i) (j := a32) (by omega) (by rw [ha]; omega)
    rw [ha] at hsh
    refine Ends.shlU32 (by omega) ?_
    refine Ends.asUsize (by omega) ?_
    refine Ends.vget hi ?_
    refine Ends.addU32 (by omega) ?_
    refine (E.prf _ _ _).bind fun sk _ => ?_
    refine Ends.asUsize (by omega) ?_
    refine Ends.vset hi ?_
    refine Ends.mono (Ends.forU32E (fun _ (_ : ForsSig A K N) => True) (by simp) trivial ?_) ?_
    · rintro j s - hj -
      rw [ha] at hj
      have hbs : Spec.sibling (indices[i.toNat].toNat / 2 ^ j.toNat) < 2 ^ (A - j.toNat) := by
        refine sibling_lt (by omega) ?_
        rw [Nat.div_lt_iff_lt_mul (Nat.two_pow_pos _), ← Nat.pow_add,
          show A - j.toNat + j.toNat = A by omega]
        exact hdlt _ hi
      have hbj := fors_index_bound hi (Nat.le_of_lt hj) hbs
      have hbj2 : i.toNat * 2 ^ (A - j.toNat) +
          Spec.sibling (indices[i.toNat].toNat / 2 ^ j.toNat) + 1 ≤ K * 2 ^ A :=
        Nat.le_trans (Nat.le_mul_of_pos_right _ (Nat.two_pow_pos _)) hbj
      have haj : (a32 - j).toNat = A - j.toNat := by
        rw [UInt32.toNat_sub_of_le _ _ (by rw [UInt32.le_iff_toNat_le]; omega), ha]
      have hsh2 := shl_toNat (x := i) (j := a32 - j) (by omega) (by rw [haj]; omega)
      rw [haj] at hsh2
      have hx : (indices[i.toNat] >>> j ^^^ 1).toNat =
          Spec.sibling (indices[i.toNat].toNat / 2 ^ j.toNat) := by
        rw [xor_one_toNat, shr_toNat _ _ (by omega)]
      have hidx2 : (i <<< (a32 - j) + (indices[i.toNat] >>> j ^^^ 1)).toNat =
          i.toNat * 2 ^ (A - j.toNat) +
            Spec.sibling (indices[i.toNat].toNat / 2 ^ j.toNat) := by
        rw [UInt32.toNat_add, hsh2, hx, Nat.mod_eq_of_lt (by omega)]
      refine Ends.asUsize (by omega) ?_
      refine Ends.vget hi ?_
      refine Ends.shrU32 (by omega) ?_
      refine Ends.subU32 (by omega) ?_
      refine Ends.shlU32 (by omega) ?_
      refine Ends.addU32 (by rw [hsh2, hx]; omega) ?_
      refine (fors_node_ends E _ _ _ j.toNat _ j rfl (by rw [hidx2]; omega)).bind ?_
      rintro _ ⟨node, rfl⟩
      refine Ends.leak ?_
      dsimp only
      refine Ends.asUsize (by omega) ?_
      refine Ends.asUsize (by omega) ?_
      refine Ends.vget hi ?_
      refine Ends.vset hj ?_
      exact Ends.vset hi (Ends.pure ⟨_, rfl, trivial⟩)
    · rintro _ ⟨s', rfl, -⟩
      exact ⟨s', rfl, trivial⟩
  · rintro _ ⟨s, rfl, -⟩
    exact ⟨s, rfl⟩

theorem fors_pk_from_sig_ends (hp : Matches p K LEN M N A D H HP) (E : HashersEnd hs)
    (sig : ForsSig A K N) {md : List UInt8} (hmd : md.length = (K * A + 7) / 8)
    (pk_seed : List UInt8) (adrs : Adrs) :
    Ends (fors_pk_from_sig hs sig md pk_seed adrs) (fun _ => True) := by
  unfold fors_pk_from_sig
  have hA := hp.A_lt
  have hK := hp.K_le
  have hb := hp.fors_bound
  refine Ends.u32TryFromUnwrap (by omega) fun a32 ha => ?_
  refine Ends.u32TryFromUnwrap (by omega) fun k32 hk => ?_
  refine (fors_digits_ends hp hmd ha hk).bind ?_
  rintro new ⟨hl, hnew⟩
  refine Ends.copyFromSlice hl fun indices hind => ?_
  have hdlt : ∀ i (hi : i < K), indices[i].toNat < 2 ^ A := by
    intro i hi; rw [digit_of (by rw [hind, hnew]) hi, hp.a]; exact base2b_getD_lt
  refine Ends.bind (Ends.forU32 (fun _ (_ : Adrs × Vector (Vector UInt8 N) K) => True)
    (by simp) trivial ?_) ?_
  · rintro i ⟨a, root⟩ - hi -
    rw [hk] at hi
    dsimp only
    have hbi := fors_index_bound hi (Nat.zero_le A) (hdlt i.toNat hi)
    simp only [Nat.sub_zero, Nat.pow_zero, Nat.mul_one] at hbi
    have hsh := shl_toNat (x := i) (j := a32) (by omega) (by rw [ha]; omega)
    rw [ha] at hsh
    have hidx : (i <<< a32 + indices[i.toNat]).toNat = i.toNat * 2 ^ A + indices[i.toNat].toNat := by
      rw [UInt32.toNat_add, hsh, Nat.mod_eq_of_lt (by omega)]
    refine Ends.asUsize (by omega) ?_
    refine Ends.vget hi ?_
    refine Ends.shlU32 (by omega) ?_
    refine Ends.asUsize (by omega) ?_
    refine Ends.vget hi ?_
    refine Ends.addU32 (by omega) ?_
    refine (E.f _ _ _).bind fun node0 _ => ?_
    refine Ends.asUsize (by omega) ?_
    refine Ends.vget hi ?_
    refine Ends.bind (Ends.forU32 (fun j (st : Adrs × Vector UInt8 N) =>
      st.1.get_tree_index.toNat = (i.toNat * 2 ^ A + indices[i.toNat].toNat) / 2 ^ j)
      (by simp) (by rw [get_index_index, hidx]; simp) ?_) ?_
    · rintro j ⟨a, node⟩ - hj hst
      rw [ha] at hj
      simp only at hst
      dsimp only
      refine Ends.addU32 (by simp; omega) ?_
      refine Ends.asUsize (by omega) ?_
      refine Ends.vget hi ?_
      refine Ends.shrU32 (by omega) ?_
      refine Ends.leak ?_
      have hsh' := shr_toNat indices[i.toNat] j (by omega)
      have hbit := fors_bits (i := i.toNat) (d := indices[i.toNat].toNat) (k := j.toNat) (a := A) hj
      have hpow : (i.toNat * 2 ^ A + indices[i.toNat].toNat) / 2 ^ (j.toNat + 1) =
          (i.toNat * 2 ^ A + indices[i.toNat].toNat) / 2 ^ j.toNat / 2 := by
        rw [Nat.pow_succ, Nat.div_div_eq_div_mul]
      rw [and_one_eq, hsh']
      by_cases hc : indices[i.toNat].toNat / 2 ^ j.toNat % 2 = 0
      · rw [if_pos (by simpa using hc)]
        refine Ends.divU32 (by decide) ?_
        refine Ends.asUsize (by omega) ?_
        refine Ends.vget hj ?_
        refine (E.h _ _ _ _).bind fun v _ => Ends.pure ?_
        dsimp only
        rw [get_index_index, UInt32.toNat_div, get_index_height, hst, hpow]
        rfl
      · rw [if_neg (by simpa using hc)]
        have h1 : (1 : UInt32) ≤ (a.set_tree_height (j + 1)).get_tree_index := by
          rw [UInt32.le_iff_toNat_le, get_index_height, hst, show (1 : UInt32).toNat = 1 from rfl]; omega
        refine Ends.subU32 (by rwa [UInt32.le_iff_toNat_le] at h1) ?_
        refine Ends.divU32 (by decide) ?_
        refine Ends.asUsize (by omega) ?_
        refine Ends.vget hj ?_
        refine (E.h _ _ _ _).bind fun v _ => Ends.pure ?_
        dsimp only
        rw [get_index_index, UInt32.toNat_div, UInt32.toNat_sub_of_le _ _ h1, get_index_height, hst, hpow]
        simp only [UInt32.reduceToNat]
        omega
    · rintro ⟨a, node⟩ -
      exact Ends.asUsize (by omega) (Ends.vset hi (Ends.pure trivial))
  · rintro ⟨a, root⟩ -
    exact (E.t_len _ _ _).bind fun pk _ => Ends.pure trivial

/-! ## SLH-DSA -/

theorem slh_keygen_internal_ends (hp : Matches p K LEN M N A D H HP) (E : HashersEnd hs)
    (sk_seed sk_prf pk_seed : Vector UInt8 N) :
    Ends (slh_keygen_internal D HP hs sk_seed sk_prf pk_seed)
      (fun v => ∃ root : Vector UInt8 N, v = (⟨sk_seed, sk_prf, pk_seed, root⟩, ⟨pk_seed, root⟩)) := by
  unfold slh_keygen_internal
  have hHP := hp.HP_le
  have hD := hp.D_le
  have hD2 := hp.D_ge
  refine Ends.u32TryFromUnwrap (by omega) fun d32 hd => ?_
  refine Ends.u32TryFromUnwrap (by omega) fun hp32 hh => ?_
  refine Ends.subU32 (by rw [hd]; simp; omega) ?_
  have h2 : 2 ^ HP ≤ 2 ^ 31 := Nat.pow_le_pow_right (by decide) (by omega)
  exact (xmss_node_ends hp E _ _ _ HP 0 hp32 hh (by simp; omega)).bind fun root _ =>
    Ends.pure ⟨root, rfl⟩

theorem slh_sign_internal_ends (hp : Matches p K LEN M N A D H HP) (E : HashersEnd hs)
    {msg : List (List UInt8)} (hmsg : msg.length ≤ 5) (sk : SlhPrivateKey N)
    (opt_rand : Vector UInt8 N) :
    Ends (slh_sign_internal A D H HP hs msg sk opt_rand) (fun r => ∃ sig, r = .ok sig) := by
  unfold slh_sign_internal
  have hDl := hp.D_le
  have hHeq := hp.H_eq
  have hDHP : D * HP ≤ 255 * 31 := Nat.mul_le_mul hp.D_le hp.HP_le
  refine Ends.u32TryFromUnwrap (by omega) fun d32 hd => ?_
  refine Ends.u32TryFromUnwrap (by omega) fun h32 hh => ?_
  refine (E.prf_msg _ _ _ hmsg).bind fun r _ => ?_
  refine (E.h_msg _ _ _ _ hmsg).bind fun digest _ => ?_
  refine (Ends.of (slh_split_returns hp hd hh digest)).bind ?_
  rintro ⟨md, itree, ileaf⟩ ⟨-, h2, -, -, h5⟩
  simp only at h2 h5
  dsimp only
  have h2HP : 2 ^ HP ≤ 2 ^ 31 := Nat.pow_le_pow_right (by decide) hp.HP_le
  have hl : ileaf.toUInt32.toNat = ileaf.toNat := by
    rw [UInt64.toNat_toUInt32, Nat.mod_eq_of_lt (by omega)]
  refine (fors_sign_ends hp E h2 _ _ _).bind ?_
  rintro _ ⟨fs, rfl⟩
  refine Ends.leak ?_
  dsimp only
  refine (fors_pk_from_sig_ends hp E fs h2 _ _).bind fun pkf _ => ?_
  refine (ht_sign_ends hp E (by simp) _ _ _ (by rw [hl]; exact h5)).bind ?_
  rintro _ ⟨hts, rfl⟩
  exact Ends.leak (Ends.pure ⟨_, rfl⟩)

theorem slh_verify_internal_ends (hp : Matches p K LEN M N A D H HP) (E : HashersEnd hs)
    {msg : List (List UInt8)} (hmsg : msg.length ≤ 5) (sig : SlhDsaSig A D HP K LEN N)
    (pk : SlhPublicKey N) : Ends (slh_verify_internal H hs msg sig pk) (fun _ => True) := by
  unfold slh_verify_internal
  have hDl := hp.D_le
  have hHeq := hp.H_eq
  have hDHP : D * HP ≤ 255 * 31 := Nat.mul_le_mul hp.D_le hp.HP_le
  refine Ends.u32TryFromUnwrap (by omega) fun d32 hd => ?_
  refine Ends.u32TryFromUnwrap (by omega) fun h32 hh => ?_
  refine (E.h_msg _ _ _ _ hmsg).bind fun digest _ => ?_
  rw [slh_verify_split_eq]
  refine (Ends.of (slh_split_returns hp hd hh digest)).bind ?_
  rintro ⟨md, itree, ileaf⟩ ⟨-, h2, -, -, h5⟩
  simp only at h2 h5
  dsimp only
  have h2HP : 2 ^ HP ≤ 2 ^ 31 := Nat.pow_le_pow_right (by decide) hp.HP_le
  rw [u32TryFromU64, if_pos (by omega)]
  refine Ends.leak ?_
  dsimp only
  exact (fors_pk_from_sig_ends hp E _ h2 _ _).bind fun pkf _ => ht_verify_ends hp E (by simp) _ _ _ _ _

end Fips205.Model
