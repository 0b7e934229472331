import Verif.Proofs.SpecCorrect

/-! # Consistent keys and inversion of the API equations -/

namespace Fips205.Model
open Fips205

variable {b : Build} {P : Spec.Prims} {ps : ParamSet} {σ : Type}

/-- The root of the private key is the one its seeds determine. -/
def Consistent (P : Spec.Prims) (ps : ParamSet) (sk : PrivateKey ps.params) : Prop :=
  sk.key.pk_root = rootVec ps P sk.key.sk_seed sk.key.pk_seed

theorem keyPair_consistent (a c d : Vector UInt8 ps.params.N) :
    Consistent P ps (keyPair ps P a c d).2 := rfl

theorem keyPair_public (a c d : Vector UInt8 ps.params.N) :
    (keyPair ps P a c d).2.get_public_key = (keyPair ps P a c d).1 := rfl

/-- Signatures of consistent keys verify. -/
theorem verifyInternal_sigVec {sk : PrivateKey ps.params} (h : Consistent P ps sk) (M : List UInt8)
    (o : Vector UInt8 ps.params.N) :
    Spec.verifyInternal ps.sp (ps.hf P) M (sigVec ps P M sk.key o).toList sk.key.pk_seed.toList
      sk.key.pk_root.toList = true := by
  rw [sigVec_toList, h, rootVec_toList]
  exact Spec.signInternal_correct ps.wf (ps.valid P) _ _ _ _ _

theorem Exec.bind_eq_pure {α β : Type} {x : Exec b α} {f : α → Exec b β} {v : β}
    (h : (x >>= f) = pure v) : ∃ a, x = pure a ∧ f a = pure v := by
  match x, h with
  | .ok a, h => exact ⟨a, rfl, h⟩

theorem Exec.pure_bind_inj {α : Type} {v w : α} : (pure v : Exec b α) = pure w ↔ v = w :=
  ⟨Exec.pure_inj, fun h => by rw [h]⟩

theorem signOutcome_ok {M : List UInt8} {sk : SlhPrivateKey ps.params.N}
    {d : Except Unit (Vector UInt8 ps.params.N)} {sig : Vector UInt8 ps.params.SIG_LEN}
    (h : signOutcome ps P M sk d = .ok sig) : ∃ o, d = .ok o ∧ sig = sigVec ps P M sk o := by
  cases d with
  | error e => cases h
  | ok o => exact ⟨o, rfl, (Except.ok.inj h).symm⟩

/-- The randomness a signing call used: the RNG's draw, or `PK.seed`. -/
def Drew (rng : Rng (Exec b) σ) (s s' : σ) (hedged : Bool) (pk_seed o : Vector UInt8 ps.params.N) :
    Prop :=
  if hedged then rng.tryFill s pk_seed = pure (s', .ok o) else s' = s ∧ o = pk_seed

theorem sign_eq_ok {M : List UInt8} {sk : PrivateKey ps.params} {rng : Rng (Exec b) σ} {s s' : σ}
    {hedged : Bool} {sig : Vector UInt8 ps.params.SIG_LEN}
    (h : (if hedged then do
        let d ← rng.tryFill s sk.key.pk_seed
        pure (d.1, signOutcome ps P M sk.key d.2)
      else pure (s, .ok (sigVec ps P M sk.key sk.key.pk_seed)) : Exec b _) = pure (s', .ok sig)) :
    ∃ o, Drew rng s s' hedged sk.key.pk_seed o ∧ sig = sigVec ps P M sk.key o := by
  cases hedged
  · have := Exec.pure_inj h
    rw [Prod.mk.injEq] at this
    exact ⟨_, ⟨this.1.symm, rfl⟩, (Except.ok.inj this.2).symm⟩
  · obtain ⟨⟨s1, d⟩, h1, h2⟩ := Exec.bind_eq_pure h
    have := Exec.pure_inj h2
    rw [Prod.mk.injEq] at this
    obtain ⟨rfl, h3⟩ := this
    obtain ⟨o, h4, h5⟩ := signOutcome_ok h3
    simp only at h4
    rw [h4] at h1
    exact ⟨o, h1, h5⟩

theorem try_sign_ok {sk : PrivateKey ps.params} {rng : Rng (Exec b) σ} {s s' : σ}
    {msg ctx : List UInt8} {hedged : Bool} {sig : Vector UInt8 ps.params.SIG_LEN}
    (h : sk.try_sign_with_rng (crypto P) rng s msg ctx hedged = pure (s', .ok sig)) :
    ctx.length ≤ 255 ∧ ∃ o, Drew rng s s' hedged sk.key.pk_seed o ∧
      sig = sigVec ps P (Spec.pureMsg ctx msg) sk.key o := by
  rw [exec_try_sign_with_rng] at h
  split at h
  · have := Exec.pure_inj h; simp at this
  · exact ⟨by omega, sign_eq_ok h⟩

theorem try_hash_sign_ok {sk : PrivateKey ps.params} {rng : Rng (Exec b) σ} {s s' : σ}
    {msg ctx : List UInt8} {ph : Ph} {hedged : Bool} {sig : Vector UInt8 ps.params.SIG_LEN}
    (h : sk.try_hash_sign_with_rng (crypto P) rng s msg ctx ph hedged = pure (s', .ok sig)) :
    ctx.length ≤ 255 ∧ ∃ o, Drew rng s s' hedged sk.key.pk_seed o ∧
      sig = sigVec ps P (phMsg P ctx msg ph) sk.key o := by
  rw [exec_try_hash_sign_with_rng] at h
  split at h
  · have := Exec.pure_inj h; simp at this
  · exact ⟨by omega, sign_eq_ok h⟩

theorem raw_sign_ok {sk : PrivateKey ps.params} {rng : Rng (Exec b) σ} {s s' : σ}
    {msg : List UInt8} {hedged : Bool} {sig : Vector UInt8 ps.params.SIG_LEN}
    (h : sk._test_only_raw_sign (crypto P) rng s msg hedged = pure (s', .ok sig)) :
    ∃ o, Drew rng s s' hedged sk.key.pk_seed o ∧ sig = sigVec ps P msg sk.key o := by
  rw [exec_raw_sign] at h
  exact sign_eq_ok h

/-- A successful key generation. -/
theorem try_keygen_ok {rng : Rng (Exec b) σ} {s s' : σ} {pk : PublicKey ps.params}
    {sk : PrivateKey ps.params}
    (h : try_keygen_with_rng ps.params (crypto P) rng s = pure (s', .ok (pk, sk))) :
    ∃ s1 s2 a c d, rng.tryFill s (zeroBytes ps.params.N) = pure (s1, .ok a) ∧
      rng.tryFill s1 (zeroBytes ps.params.N) = pure (s2, .ok c) ∧
      rng.tryFill s2 (zeroBytes ps.params.N) = pure (s', .ok d) ∧ (pk, sk) = keyPair ps P a c d := by
  rw [exec_try_keygen_with_rng] at h
  obtain ⟨⟨s1, r1⟩, h1, h⟩ := Exec.bind_eq_pure h
  cases r1 with
  | error e => have := Exec.pure_inj h; simp at this
  | ok a =>
    obtain ⟨⟨s2, r2⟩, h2, h⟩ := Exec.bind_eq_pure h
    cases r2 with
    | error e => have := Exec.pure_inj h; simp at this
    | ok c =>
      obtain ⟨⟨s3, r3⟩, h3, h⟩ := Exec.bind_eq_pure h
      cases r3 with
      | error e => have := Exec.pure_inj h; simp at this
      | ok d =>
        have := Exec.pure_inj h
        rw [Prod.mk.injEq, Except.ok.injEq] at this
        obtain ⟨rfl, h4⟩ := this
        exact ⟨s1, s2, a, c, d, h1, h2, h3, h4.symm⟩

/-! ## Seeded key generation -/

theorem copyFromSlice_toList {n : Nat} (v : Vector UInt8 n) :
    (copyFromSlice n v.toList : Exec b _) = pure v := by
  rw [copyFromSlice, dif_pos (by simp)]
  rfl

theorem dummy_fill {n : Nat} (v : Vector (Vector UInt8 n) 3) {i : Nat} (hi : i < 3)
    (out : Vector UInt8 n) : ((dummyRng n).tryFill ⟨v, i⟩ out : Exec b _) =
      pure (⟨v, i + 1⟩, .ok v[i]) := by
  have hv : (vget v i : Exec b _) = pure v[i] := by
    have hl : ∀ e, (leak e : Exec b Unit) = pure () := fun _ => rfl
    rw [vget, hl, pure_bind, dif_pos hi]
  have ha : (addUsize i 1 : Exec b _) = pure (i + 1) := addUsize_ok (by omega)
  simp only [dummyRng, hv, pure_bind, copyFromSlice_toList, ha]

theorem exec_keygen_with_seeds (a c d : Vector UInt8 ps.params.N) :
    (keygen_with_seeds ps.params (crypto P) a c d : Exec b _) = pure (keyPair ps P a c d) := by
  unfold keygen_with_seeds
  rw [exec_try_keygen_with_rng]
  simp only [dummy_fill _ (show 0 < 3 by decide), pure_bind,
    dummy_fill _ (show 0 + 1 < 3 by decide), dummy_fill _ (show 0 + 1 + 1 < 3 by decide)]
  rfl

theorem exec_keygen_with_seeds_panics {n : Nat} (hn : n ≠ ps.params.N) (a c d : Vector UInt8 n) :
    (keygen_with_seeds ps.params (crypto P) a c d : Exec b _) = panic .copyLen := by
  unfold keygen_with_seeds
  have h : ((dummyRng n).tryFill ⟨#v[a, c, d], 0⟩ (zeroBytes ps.params.N) : Exec b _) =
      panic .copyLen := by
    have hl : ∀ e, (leak e : Exec b Unit) = pure () := fun _ => rfl
    have hv : (vget #v[a, c, d] 0 : Exec b _) = pure a := by
      rw [vget, hl, pure_bind, dif_pos (by decide)]; rfl
    have hc : (copyFromSlice ps.params.N a.toList : Exec b _) = panic .copyLen := by
      rw [copyFromSlice, dif_neg (by simpa using hn)]
    simp only [dummyRng, hv, pure_bind, hc]
    rfl
  rw [exec_try_keygen_with_rng, h]
  rfl

end Fips205.Model
