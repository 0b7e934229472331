import Verif.Proofs.Visit
import Verif.Proofs.Lib
import Verif.Proofs.Places

/-! # The calls made by the hash functions -/

namespace Fips205.Model
open Fips205

/-- Each function makes one call, at the place of its address. -/
structure HashersAt {b : Build} {K LEN M N : Nat} (At : Place → Call → Prop) (pk_seed : List UInt8)
    (hs : Hashers (LogExec b) K LEN M N) : Prop where
  prf : ∀ {x : Place} {adrs : Adrs} (sk_seed : List UInt8), x.kind = .PRF → adrs.bytes32 = x.adrs →
    Visits At (· = x) (fun _ => True) (hs.prf pk_seed sk_seed adrs)
  f : ∀ {x : Place} {adrs : Adrs} (m1 : List UInt8), x.kind = .F → adrs.bytes32 = x.adrs →
    Visits At (· = x) (fun _ => True) (hs.f pk_seed adrs m1)
  h : ∀ {x : Place} {adrs : Adrs} (m1 m2 : List UInt8), x.kind = .H → adrs.bytes32 = x.adrs →
    Visits At (· = x) (fun _ => True) (hs.h pk_seed adrs m1 m2)
  t_l : ∀ {x : Place} {adrs : Adrs} (ml : Vector (Vector UInt8 N) LEN), x.kind = .T →
    adrs.bytes32 = x.adrs → Visits At (· = x) (fun _ => True) (hs.t_l pk_seed adrs ml)
  t_len : ∀ {x : Place} {adrs : Adrs} (ml : Vector (Vector UInt8 N) K), x.kind = .T →
    adrs.bytes32 = x.adrs → Visits At (· = x) (fun _ => True) (hs.t_len pk_seed adrs ml)

variable {b : Build} {K LEN M N : Nat} (P : Spec.Prims) {r : Spec.Row} {pk_seed : List UInt8}

theorem shake_at :
    HashersAt (b := b) (K := K) (LEN := LEN) (M := M) (N := N) (CallAt .shake r pk_seed) pk_seed
      { h_msg := shake.h_msg (recording P) M, prf := shake.prf (recording P) N,
        prf_msg := shake.prf_msg (recording P) N, f := shake.f (recording P) N,
        h := shake.h (recording P) N, t_l := shake.t_l (recording P),
        t_len := shake.t_l (recording P) } where
  prf sk_seed _ h := Visits.ret (to_32_bytes_returns _) fun a ha =>
    Visits.leak (Visits.call (input := List.flatten _) ⟨sk_seed, by simp [h, ha]⟩ trivial)
  f m1 _ h := Visits.ret (to_32_bytes_returns _) fun a ha =>
    Visits.leak (Visits.call (input := List.flatten _) ⟨m1, by simp [h, ha]⟩ trivial)
  h m1 m2 _ h := Visits.ret (to_32_bytes_returns _) fun a ha =>
    Visits.leak (Visits.call (input := List.flatten _) ⟨m1 ++ m2, by simp [h, ha]⟩ trivial)
  t_l ml _ h := Visits.ret (to_32_bytes_returns _) fun a ha =>
    Visits.leak (Visits.call (input := List.flatten _)
      ⟨absorbAll ml, by simp [h, ha, absorbAll, items]⟩ trivial)
  t_len ml _ h := Visits.ret (to_32_bytes_returns _) fun a ha =>
    Visits.leak (Visits.call (input := List.flatten _)
      ⟨absorbAll ml, by simp [h, ha, absorbAll, items]⟩ trivial)

theorem visits_sha256_trunc {At : Place → Call → Prop} {x : Place} {input : List (List UInt8)} {n : Nat}
    (hn : n ≤ 32) (h : At x ⟨.sha256, input.flatten⟩) :
    Visits At (· = x) (fun _ => True) (do
      let result ← (recording P : Crypto (LogExec b)).sha256 input
      let sl ← slice result.toList 0 n
      copyFromSlice n sl) := by
  refine Visits.last (P := fun _ => True) (Visits.call h trivial) fun v _ => ?_
  refine Returns.slice (by omega) (by simpa using hn) ?_
  exact Returns.tail (Returns.copyFromSlice (by simpa using hn) fun _ _ => Returns.pure trivial)

theorem visits_sha512_trunc {At : Place → Call → Prop} {x : Place} {input : List (List UInt8)} {n : Nat}
    (hn : n ≤ 64) (h : At x ⟨.sha512, input.flatten⟩) :
    Visits At (· = x) (fun _ => True) (do
      let result ← (recording P : Crypto (LogExec b)).sha512 input
      let sl ← slice result.toList 0 n
      copyFromSlice n sl) := by
  refine Visits.last (P := fun _ => True) (Visits.call h trivial) fun v _ => ?_
  refine Returns.slice (by omega) (by simpa using hn) ?_
  exact Returns.tail (Returns.copyFromSlice (by simpa using hn) fun _ _ => Returns.pure trivial)

theorem sha2_cat_1_at (hr : r.n = N) (hc : r.category = 1) (hN1 : 16 ≤ N) (hN2 : N ≤ 32) :
    HashersAt (b := b) (K := K) (LEN := LEN) (M := M) (N := N) (CallAt .sha2 r pk_seed) pk_seed
      { h_msg := sha2_cat_1.h_msg (recording P) M, prf := sha2_cat_1.prf (recording P) N,
        prf_msg := sha2_cat_1.prf_msg (recording P) N, f := sha2_cat_1.f (recording P) N,
        h := sha2_cat_1.h (recording P) N, t_l := sha2_cat_1.t_l (recording P),
        t_len := sha2_cat_1.t_l (recording P) } where
  prf sk_seed _ h := by
    refine Visits.subUsize (by omega) (by omega) ?_
    refine Visits.slice (by omega) (by simp; omega) ?_
    refine Visits.ret (to_22_bytes_returns _) fun a ha => Visits.leak ?_
    exact visits_sha256_trunc P (by omega) ⟨sk_seed, by
      rw [zeros_slice (by omega), ha, Adrs.bytes22_eq, h]; simp [hc, hr]⟩
  f m1 _ h := by
    refine Visits.subUsize (by omega) (by omega) ?_
    refine Visits.slice (by omega) (by simp; omega) ?_
    refine Visits.ret (to_22_bytes_returns _) fun a ha => Visits.leak ?_
    exact visits_sha256_trunc P (by omega) ⟨m1, by
      rw [zeros_slice (by omega), ha, Adrs.bytes22_eq, h]; simp [hc, hr]⟩
  h m1 m2 _ h := by
    refine Visits.subUsize (by omega) (by omega) ?_
    refine Visits.slice (by omega) (by simp; omega) ?_
    refine Visits.ret (to_22_bytes_returns _) fun a ha => Visits.leak ?_
    exact visits_sha256_trunc P (by omega) ⟨m1 ++ m2, by
      rw [zeros_slice (by omega), ha, Adrs.bytes22_eq, h]; simp [hc, hr]⟩
  t_l ml _ h := by
    refine Visits.subUsize (by omega) (by omega) ?_
    refine Visits.slice (by omega) (by simp; omega) ?_
    refine Visits.ret (to_22_bytes_returns _) fun a ha => Visits.leak ?_
    exact visits_sha256_trunc P (by omega) ⟨absorbAll ml, by
      rw [zeros_slice (by omega), ha, Adrs.bytes22_eq, h]; simp [hc, hr, absorbAll, items]⟩
  t_len ml _ h := by
    refine Visits.subUsize (by omega) (by omega) ?_
    refine Visits.slice (by omega) (by simp; omega) ?_
    refine Visits.ret (to_22_bytes_returns _) fun a ha => Visits.leak ?_
    exact visits_sha256_trunc P (by omega) ⟨absorbAll ml, by
      rw [zeros_slice (by omega), ha, Adrs.bytes22_eq, h]; simp [hc, hr, absorbAll, items]⟩

theorem sha2_cat_3_5_at (hr : r.n = N) (hc : r.category ≠ 1) (hN1 : 24 ≤ N) (hN2 : N ≤ 32) :
    HashersAt (b := b) (K := K) (LEN := LEN) (M := M) (N := N) (CallAt .sha2 r pk_seed) pk_seed
      { h_msg := sha2_cat_3_5.h_msg (recording P) M, prf := sha2_cat_3_5.prf (recording P) N,
        prf_msg := sha2_cat_3_5.prf_msg (recording P) N, f := sha2_cat_3_5.f (recording P) N,
        h := sha2_cat_3_5.h (recording P) N, t_l := sha2_cat_3_5.t_l (recording P),
        t_len := sha2_cat_3_5.t_l (recording P) } where
  prf sk_seed hk h := by
    refine Visits.subUsize (by omega) (by omega) ?_
    refine Visits.slice (by omega) (by simp; omega) ?_
    refine Visits.ret (to_22_bytes_returns _) fun a ha => Visits.leak ?_
    exact visits_sha256_trunc P (by omega) ⟨sk_seed, by
      rw [zeros_slice (by omega), ha, Adrs.bytes22_eq, h]; simp [hk, hr]⟩
  f m1 hk h := by
    refine Visits.subUsize (by omega) (by omega) ?_
    refine Visits.slice (by omega) (by simp; omega) ?_
    refine Visits.ret (to_22_bytes_returns _) fun a ha => Visits.leak ?_
    exact visits_sha256_trunc P (by omega) ⟨m1, by
      rw [zeros_slice (by omega), ha, Adrs.bytes22_eq, h]; simp [hk, hr]⟩
  h m1 m2 hk h := by
    refine Visits.subUsize (by omega) (by omega) ?_
    refine Visits.slice (by omega) (by simp; omega) ?_
    refine Visits.ret (to_22_bytes_returns _) fun a ha => Visits.leak ?_
    exact visits_sha512_trunc P (by omega) ⟨m1 ++ m2, by
      rw [zeros_slice (by omega), ha, Adrs.bytes22_eq, h]; simp [hk, hr, hc]⟩
  t_l ml hk h := by
    refine Visits.subUsize (by omega) (by omega) ?_
    refine Visits.slice (by omega) (by simp; omega) ?_
    refine Visits.ret (to_22_bytes_returns _) fun a ha => Visits.leak ?_
    exact visits_sha512_trunc P (by omega) ⟨absorbAll ml, by
      rw [zeros_slice (by omega), ha, Adrs.bytes22_eq, h]; simp [hk, hr, hc, absorbAll, items]⟩
  t_len ml hk h := by
    refine Visits.subUsize (by omega) (by omega) ?_
    refine Visits.slice (by omega) (by simp; omega) ?_
    refine Visits.ret (to_22_bytes_returns _) fun a ha => Visits.leak ?_
    exact visits_sha512_trunc P (by omega) ⟨absorbAll ml, by
      rw [zeros_slice (by omega), ha, Adrs.bytes22_eq, h]; simp [hk, hr, hc, absorbAll, items]⟩

theorem ParamSet.hashersAt (ps : ParamSet) (pk_seed : List UInt8) :
    HashersAt (b := b) (CallAt ps.family ps.row pk_seed) pk_seed
      (HASHERS ps.params (recording P)) := by
  cases ps
  · exact sha2_cat_1_at P rfl rfl (by decide) (by decide)
  · exact shake_at P
  · exact sha2_cat_1_at P rfl rfl (by decide) (by decide)
  · exact shake_at P
  · exact sha2_cat_3_5_at P rfl (by decide) (by decide) (by decide)
  · exact shake_at P
  · exact sha2_cat_3_5_at P rfl (by decide) (by decide) (by decide)
  · exact shake_at P
  · exact sha2_cat_3_5_at P rfl (by decide) (by decide) (by decide)
  · exact shake_at P
  · exact sha2_cat_3_5_at P rfl (by decide) (by decide) (by decide)
  · exact shake_at P

end Fips205.Model
