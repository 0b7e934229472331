import Verif.Proofs.RunLogic
import Verif.Proofs.VisitSlh

/-! # The calls and values of the hash functions -/

namespace Fips205.Model
open Fips205

variable {b : Build} {K LEN M N : Nat} (P : Spec.Prims) {r : Spec.Row}

/-- The functions that hash at an address make the calls of `hr`. -/
structure HashersLog (hs : Hashers (LogExec b) K LEN M N) (hr : Spec.Run.Fns) : Prop where
  prf : ∀ pk_seed sk_seed adrs, Makes (hr.PRF pk_seed sk_seed adrs.bytes32).log (fun _ => True)
    (hs.prf pk_seed sk_seed adrs)
  f : ∀ pk_seed adrs m1, Makes (hr.F pk_seed adrs.bytes32 m1).log (fun _ => True) (hs.f pk_seed adrs m1)
  h : ∀ pk_seed adrs m1 m2, Makes (hr.H pk_seed adrs.bytes32 (m1 ++ m2)).log (fun _ => True)
    (hs.h pk_seed adrs m1 m2)
  t_l : ∀ pk_seed adrs ml, Makes (hr.T pk_seed adrs.bytes32 (absorbAll ml)).log (fun _ => True)
    (hs.t_l pk_seed adrs ml)
  t_len : ∀ pk_seed adrs ml, Makes (hr.T pk_seed adrs.bytes32 (absorbAll ml)).log (fun _ => True)
    (hs.t_len pk_seed adrs ml)

theorem Makes.one {L : List Call} {α : Type} {alg : Spec.PreHash} {input : List UInt8} {v : α}
    (h : L = [⟨alg, input⟩]) : Makes L (fun _ => True) (LogExec.call alg input v : LogExec b α) :=
  h ▸ Makes.call trivial

theorem shake_log :
    HashersLog (b := b) (K := K) (LEN := LEN) (M := M) (N := N)
      { h_msg := shake.h_msg (recording P) M, prf := shake.prf (recording P) N,
        prf_msg := shake.prf_msg (recording P) N, f := shake.f (recording P) N,
        h := shake.h (recording P) N, t_l := shake.t_l (recording P),
        t_len := shake.t_l (recording P) } (Spec.Run.hashFns P .shake r) where
  prf _ _ _ := Makes.ret (to_32_bytes_returns _) fun a ha =>
    Makes.leak (Makes.one (input := List.flatten _) (by simp [ha, Spec.Run.hashFns, Spec.Run.shakeFns, Spec.Run.shake256]))
  f _ _ _ := Makes.ret (to_32_bytes_returns _) fun a ha =>
    Makes.leak (Makes.one (input := List.flatten _) (by simp [ha, Spec.Run.hashFns, Spec.Run.shakeFns, Spec.Run.shake256]))
  h _ _ _ _ := Makes.ret (to_32_bytes_returns _) fun a ha =>
    Makes.leak (Makes.one (input := List.flatten _) (by simp [ha, Spec.Run.hashFns, Spec.Run.shakeFns, Spec.Run.shake256]))
  t_l _ _ _ := Makes.ret (to_32_bytes_returns _) fun a ha =>
    Makes.leak (Makes.one (input := List.flatten _)
      (by simp [ha, absorbAll, items, Spec.Run.hashFns, Spec.Run.shakeFns, Spec.Run.shake256]))
  t_len _ _ _ := Makes.ret (to_32_bytes_returns _) fun a ha =>
    Makes.leak (Makes.one (input := List.flatten _)
      (by simp [ha, absorbAll, items, Spec.Run.hashFns, Spec.Run.shakeFns, Spec.Run.shake256]))

theorem makes_trunc256 {input : List (List UInt8)} {n : Nat} {L : List Call} (hn : n ≤ 32)
    (h : L = [⟨.sha256, input.flatten⟩]) :
    Makes L (fun _ => True) (do
      let result ← (recording P : Crypto (LogExec b)).sha256 input
      let sl ← slice result.toList 0 n
      copyFromSlice n sl) := h ▸ (makes_sha256_trunc P hn).mono fun _ _ => trivial

theorem makes_trunc512 {input : List (List UInt8)} {n : Nat} {L : List Call} (hn : n ≤ 64)
    (h : L = [⟨.sha512, input.flatten⟩]) :
    Makes L (fun _ => True) (do
      let result ← (recording P : Crypto (LogExec b)).sha512 input
      let sl ← slice result.toList 0 n
      copyFromSlice n sl) := h ▸ (makes_sha512_trunc P hn).mono fun _ _ => trivial

theorem sha2_cat_1_log (hr : r.n = N) (hc : r.category = 1) (hN1 : 16 ≤ N) (hN2 : N ≤ 32) :
    HashersLog (b := b) (K := K) (LEN := LEN) (M := M) (N := N)
      { h_msg := sha2_cat_1.h_msg (recording P) M, prf := sha2_cat_1.prf (recording P) N,
        prf_msg := sha2_cat_1.prf_msg (recording P) N, f := sha2_cat_1.f (recording P) N,
        h := sha2_cat_1.h (recording P) N, t_l := sha2_cat_1.t_l (recording P),
        t_len := sha2_cat_1.t_l (recording P) } (Spec.Run.hashFns P .sha2 r) := by
  rw [Spec.Run.hashFns, if_pos hc, hr]
  constructor
  all_goals
    intros
    refine Makes.subUsize (by omega) (by omega) ?_
    refine Makes.slice (by omega) (by simp; omega) ?_
    refine Makes.ret (to_22_bytes_returns _) fun a ha => Makes.leak ?_
    refine makes_trunc256 P (by omega) ?_
    rw [zeros_slice (by omega), ha, Adrs.bytes22_eq]
    simp [Spec.Run.sha2Cat1Fns, Spec.Run.sha256, absorbAll, items]

theorem sha2_cat_3_5_log (hr : r.n = N) (hc : r.category ≠ 1) (hN1 : 24 ≤ N) (hN2 : N ≤ 32) :
    HashersLog (b := b) (K := K) (LEN := LEN) (M := M) (N := N)
      { h_msg := sha2_cat_3_5.h_msg (recording P) M, prf := sha2_cat_3_5.prf (recording P) N,
        prf_msg := sha2_cat_3_5.prf_msg (recording P) N, f := sha2_cat_3_5.f (recording P) N,
        h := sha2_cat_3_5.h (recording P) N, t_l := sha2_cat_3_5.t_l (recording P),
        t_len := sha2_cat_3_5.t_l (recording P) } (Spec.Run.hashFns P .sha2 r) := by
  rw [Spec.Run.hashFns, if_neg hc, hr]
  constructor
  all_goals
    intros
    refine Makes.subUsize (by omega) (by omega) ?_
    refine Makes.slice (by omega) (by simp; omega) ?_
    refine Makes.ret (to_22_bytes_returns _) fun a ha => Makes.leak ?_
    first
    | refine makes_trunc256 P (by omega) ?_
    | refine makes_trunc512 P (by omega) ?_
    rw [zeros_slice (by omega), ha, Adrs.bytes22_eq]
    simp [Spec.Run.sha2Cat35Fns, Spec.Run.sha256, Spec.Run.sha512, absorbAll, items]

theorem ParamSet.hashersLog (ps : ParamSet) :
    HashersLog (b := b) (HASHERS ps.params (recording P)) (Spec.Run.hashFns P ps.family ps.row) := by
  cases ps
  · exact sha2_cat_1_log P rfl rfl (by decide) (by decide)
  · exact shake_log P
  · exact sha2_cat_1_log P rfl rfl (by decide) (by decide)
  · exact shake_log P
  · exact sha2_cat_3_5_log P rfl (by decide) (by decide) (by decide)
  · exact shake_log P
  · exact sha2_cat_3_5_log P rfl (by decide) (by decide) (by decide)
  · exact shake_log P
  · exact sha2_cat_3_5_log P rfl (by decide) (by decide) (by decide)
  · exact shake_log P
  · exact sha2_cat_3_5_log P rfl (by decide) (by decide) (by decide)
  · exact shake_log P

/-! ## `H_msg` and `PRF_msg` -/

theorem hMsgLog_eq (fam : Spec.Family) (R pk_seed pk_root ms : List UInt8) :
    hMsgLog P fam r R pk_seed pk_root ms = ((Spec.Run.hashFns P fam r).Hmsg R pk_seed pk_root ms).log := by
  cases fam with
  | shake => rfl
  | sha2 =>
    simp only [hMsgLog, Spec.Run.hashFns]
    split
    · simp [Spec.Run.sha2Cat1Fns, Spec.Run.mgf1, Spec.Run.concat_log, Spec.Run.sha256, Spec.sha256',
        List.map_eq_flatMap]
    · simp [Spec.Run.sha2Cat35Fns, Spec.Run.mgf1, Spec.Run.concat_log, Spec.Run.sha512, Spec.sha512',
        List.map_eq_flatMap]

theorem prfMsgLog_eq (fam : Spec.Family) {sk_prf : List UInt8} (hk : sk_prf.length ≤ 64)
    (opt_rand ms : List UInt8) :
    prfMsgLog P fam r sk_prf opt_rand ms = ((Spec.Run.hashFns P fam r).PRFmsg sk_prf opt_rand ms).log := by
  cases fam with
  | shake => rfl
  | sha2 =>
    simp only [prfMsgLog, Spec.Run.hashFns]
    split
    · simp [Spec.Run.sha2Cat1Fns, Spec.Run.hmac, Spec.Run.sha256, Spec.sha256', hmacPad, if_pos hk]
    · simp [Spec.Run.sha2Cat35Fns, Spec.Run.hmac, Spec.Run.sha512, Spec.sha512', hmacPad,
        if_pos (show sk_prf.length ≤ 128 by omega)]

/-- The functions of section 11 of a parameter set, with their calls. -/
abbrev ParamSet.hr (ps : ParamSet) (P : Spec.Prims) : Spec.Run.Fns := Spec.Run.hashFns P ps.family ps.row

theorem ParamSet.hr_vals (ps : ParamSet) : (ps.hr P).vals = ps.hf P := by
  rw [Spec.Run.hashFns_vals]
  cases ps <;> rfl

theorem ParamSet.hashersRun (ps : ParamSet) :
    HashersRun (b := b) (HASHERS ps.params (recording P)) (ps.hr P) := by
  have R := ps.hashersErase (b := b) P
  have Rm := ps.hashersMsg (b := b) P
  have Rl := ps.hashersLog (b := b) P
  rw [← ps.hr_vals P] at R
  constructor
  · intro x y z ms h
    exact (hMsgLog_eq P ps.family x y z ms.flatten ▸ (Rm.h_msg x y z ms h).value rfl (R.h_msg x y z ms h)).mono
      fun _ h => h.2
  · intro x y z
    exact ((Rl.prf x y z).value rfl (R.prf x y z)).mono fun _ h => h.2
  · intro x y ms hk h
    exact (prfMsgLog_eq P ps.family hk y ms.flatten ▸
      (Rm.prf_msg x y ms hk h).value rfl (R.prf_msg x y ms hk h)).mono fun _ h => h.2
  · intro x y z
    exact ((Rl.f x y z).value rfl (R.f x y z)).mono fun _ h => h.2
  · intro x y z w
    exact ((Rl.h x y z w).value rfl (R.h x y z w)).mono fun _ h => h.2
  · intro x y z
    exact ((Rl.t_l x y z).value rfl (R.t_l x y z)).mono fun _ h => h.2
  · intro x y z
    exact ((Rl.t_len x y z).value rfl (R.t_len x y z)).mono fun _ h => h.2

end Fips205.Model
