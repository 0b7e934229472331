import Verif.Props.Ffi
import Verif.Props.Unforgeable
import Verif.Model.Clients

/-! # The fuzz targets: C51 -/

namespace Fips205.Props
open Fips205 Fips205.Model

variable {P : Spec.Prims} {σ : Type}

/-! ## Runs without a panic -/

/-- The run returns. -/
def Total {b : Build} {α : Type} (x : Exec b α) : Prop := ∃ r, x = pure r

theorem Total.pure {b : Build} {α : Type} (a : α) : Total (Pure.pure a : Exec b α) := ⟨a, rfl⟩

theorem Total.bind {b : Build} {α β : Type} {x : Exec b α} {f : α → Exec b β} (h : Total x)
    (h' : ∀ a, x = Pure.pure a → Total (f a)) : Total (x >>= f) := by
  obtain ⟨a, rfl⟩ := h
  obtain ⟨r, hr⟩ := h' a rfl
  exact ⟨r, by rw [pure_bind, hr]⟩

theorem Total.keygen (ps : ParamSet) (b : Build) (os : PureRng σ) (s : σ) :
    Total (try_keygen_with_rng ps.params (crypto P) (os.lift : Rng (Exec b) σ) s) := by
  rw [exec_try_keygen_with_rng]
  simp only [PureRng.lift, pure_bind]
  repeat' first | exact Total.pure _ | split

theorem Total.sign (ps : ParamSet) (b : Build) (os : PureRng σ) (s : σ) (sk : PrivateKey ps.params)
    (msg ctx : List UInt8) (hedged : Bool) :
    Total (sk.try_sign_with_rng (crypto P) (os.lift : Rng (Exec b) σ) s msg ctx hedged) := by
  rw [exec_try_sign_with_rng]
  simp only [PureRng.lift, pure_bind]
  repeat' first | exact Total.pure _ | split

theorem Total.hash_sign (ps : ParamSet) (b : Build) (os : PureRng σ) (s : σ)
    (sk : PrivateKey ps.params) (msg ctx : List UInt8) (ph : Ph) (hedged : Bool) :
    Total (sk.try_hash_sign_with_rng (crypto P) (os.lift : Rng (Exec b) σ) s msg ctx ph hedged) := by
  rw [exec_try_hash_sign_with_rng]
  simp only [PureRng.lift, pure_bind]
  repeat' first | exact Total.pure _ | split

theorem exec_slice {b : Build} {α : Type} {l : List α} {lo hi : Nat} (h : lo ≤ hi) (h' : hi ≤ l.length) :
    (slice l lo hi : Exec b _) = pure ((l.drop lo).take (hi - lo)) := by
  have hl : ∀ e, (leak e : Exec b Unit) = pure () := fun _ => rfl
  rw [slice, hl, pure_bind, if_pos ⟨h, h'⟩]

theorem exec_lget {b : Build} {α : Type} {l : List α} {i : Nat} (h : i < l.length) :
    (lget l i : Exec b _) = pure l[i] := by
  have hl : ∀ e, (leak e : Exec b Unit) = pure () := fun _ => rfl
  rw [lget, hl, pure_bind, dif_pos h]

/-! ## Fuzz targets -/

/-- **C51** The signing fuzz target never panics, whatever its input, in any build and with any RNG that
does not panic itself. -/
theorem C51_fuzz_sign_total (b : Build) (os : PureRng σ) (s : σ) (message context : List UInt8)
    (hedged use_hash : Bool) (hash_function : UInt8) :
    ∃ r, fuzz_sign (crypto P) (os.lift : Rng (Exec b) σ) s message context hedged use_hash hash_function =
      pure r := by
  have hs : Total (slice context 0 (context.length % 255) : Exec b _) :=
    ⟨_, exec_slice (Nat.zero_le _) (Nat.mod_le _ _)⟩
  refine Total.bind (Total.keygen ffiSet b os s) fun ⟨s1, r⟩ _ => ?_
  cases r with
  | error e => exact Total.pure _
  | ok kp =>
    obtain ⟨pk, sk⟩ := kp
    refine Total.bind hs fun ctx _ => Total.bind (Total.sign ffiSet b os _ sk _ _ _) fun ⟨s2, r⟩ _ => ?_
    dsimp only
    split
    · exact Total.bind hs fun ctx _ => Total.bind (Total.hash_sign ffiSet b os _ sk _ _ _ _)
        fun _ _ => Total.pure _
    · exact Total.pure _

theorem Total.test1 {b : Build} (pk : PublicKey ffiSet.params) (message context : List UInt8) (r) :
    Total (fuzz_test1 (crypto P) pk message context r : Exec b _) := by
  cases r with
  | error e => exact Total.pure _
  | ok sig => exact Total.bind ⟨_, exec_verify (ps := ffiSet) _ _ _ _⟩ fun _ _ => Total.pure _

theorem Total.test2 {b : Build} (pk : PublicKey ffiSet.params) (message context : List UInt8) (ph : Ph) (r) :
    Total (fuzz_test2 (crypto P) pk message context ph r : Exec b _) := by
  cases r with
  | error e => exact Total.pure _
  | ok sig => exact Total.bind ⟨_, exec_hash_verify (ps := ffiSet) _ _ _ _ _⟩ fun _ _ => Total.pure _

theorem Total.test3 {b : Build} (os : PureRng σ) (s : σ) (sk : PrivateKey ffiSet.params)
    (message context : List UInt8) (r) :
    Total (fuzz_test3 (crypto P) (os.lift : Rng (Exec b) σ) s sk message context r) := by
  cases r with
  | error e => exact Total.pure _
  | ok pk' =>
    refine Total.bind (Total.sign ffiSet b os _ sk _ _ _) fun ⟨s5, r⟩ _ => ?_
    cases r with
    | error e => exact Total.pure _
    | ok sig => exact Total.bind ⟨_, exec_verify (ps := ffiSet) _ _ _ _⟩ fun _ _ => Total.pure _

theorem Total.test4 {b : Build} (pk : PublicKey ffiSet.params) (message context : List UInt8) (r) :
    Total (fuzz_test4 (crypto P) pk message context r : Exec b _) := by
  cases r with
  | error e => exact Total.pure _
  | ok sig =>
    cases message with
    | nil => exact Total.pure _
    | cons x xs => exact Total.bind ⟨_, exec_verify (ps := ffiSet) _ _ _ _⟩ fun _ _ => Total.pure _

/-- **C51** The same for the verification target. -/
theorem C51_fuzz_verify_total (b : Build) (os : PureRng σ) (s : σ) (data : List UInt8) :
    ∃ r, fuzz_verify (crypto P) (os.lift : Rng (Exec b) σ) s data = pure r := by
  change Total _
  rw [fuzz_verify]
  split
  · exact Total.pure _
  · have hl : (lget data 0 : Exec b _) = pure (data[0]'(by omega)) := exec_lget (by omega)
    refine Total.bind ⟨_, hl⟩ fun x _ => Total.bind (Total.keygen ffiSet b os s) fun ⟨s1, r⟩ _ => ?_
    cases r with
    | error e => exact Total.pure _
    | ok kp =>
      obtain ⟨pk, sk⟩ := kp
      refine Total.bind ⟨_, exec_slice (Nat.mod_le _ _) (Nat.le_refl _)⟩ fun msg _ =>
        Total.bind ⟨_, exec_slice (Nat.zero_le _) (Nat.mod_le _ _)⟩ fun ctx _ =>
        Total.bind (Total.sign ffiSet b os _ sk _ _ _) fun ⟨s2, r⟩ _ =>
        Total.bind (Total.test1 _ _ _ _) fun t1 _ => ?_
      refine Total.bind (Total.hash_sign ffiSet b os _ sk _ _ _ _) fun ⟨s3, r⟩ _ =>
        Total.bind (Total.test2 _ _ _ _ _) fun t2 _ => ?_
      obtain ⟨v, hv, _⟩ := exec_pk_into_bytes (b := b) (ps := ffiSet) pk
      refine Total.bind ⟨v, hv⟩ fun v _ => ?_
      obtain ⟨pk', h'⟩ := C11_public_key_decode_encode (ps := ffiSet) v
      refine Total.bind ⟨_, (h' b).1⟩ fun r _ => Total.bind (Total.test3 _ _ _ _ _ _) fun ⟨s4, t3⟩ _ => ?_
      exact Total.bind (Total.sign ffiSet b os _ sk _ _ _) fun ⟨s5, r⟩ _ =>
        Total.bind (Total.test4 _ _ _ _) fun t4 _ => Total.pure _

/-- The pre-hash function the targets choose by a byte. -/
def chosenPh (x : UInt8) : Ph :=
  if x.toNat % 3 = 0 then .SHA256 else if x.toNat % 3 = 1 then .SHA512 else .SHAKE256

theorem fuzzPh_eq (x : UInt8) : fuzzPh x = chosenPh x := by
  have h : (x % 3).toNat = x.toNat % 3 := rfl
  rw [fuzzPh, chosenPh, h]
  split
  · rename_i h; rw [if_pos h]
  · rename_i h; rw [if_neg (by omega), if_pos h]
  · rename_i h0 h1; rw [if_neg h0, if_neg h1]

/-- **C51** What the signing target computes: the key is a generated one, every signature it makes is
accepted by that key for the message and the context cut to at most 254 bytes, and without hedging no
signing call fails. -/
theorem C51_fuzz_sign_results {b : Build} {os : Rng (Exec b) σ} {s s' : σ} {message context : List UInt8}
    {hedged use_hash : Bool} {hash_function : UInt8} {r : FuzzSign}
    (h : fuzz_sign (crypto P) os s message context hedged use_hash hash_function = pure (s', some r)) :
    ∃ sk : PrivateKey ffiSet.params, Generated P (ps := ffiSet) r.pk sk ∧
      let ctx := context.take (context.length % 255)
      let ph := chosenPh hash_function
      (∀ sig, r.sign = .ok sig → ∀ b' : Build,
        PublicKey.verify (p := ffiSet.params) (crypto P) r.pk message sig ctx = (pure true : Exec b' _)) ∧
      (∀ sig, r.hash_sign = some (.ok sig) → ∀ b' : Build,
        PublicKey.hash_verify (p := ffiSet.params) (crypto P) r.pk message sig ctx ph =
          (pure true : Exec b' _)) ∧
      (r.hash_sign = none ↔ use_hash = false) ∧
      (hedged = false → (∃ sig, r.sign = .ok sig) ∧ (use_hash = true → ∃ sig, r.hash_sign = some (.ok sig))) := by
  obtain ⟨⟨s1, r1⟩, h1, h2⟩ := Exec.bind_eq_pure h
  cases r1 with
  | error e => have := Exec.pure_inj h2; simp at this
  | ok kp =>
    obtain ⟨pk, sk⟩ := kp
    have hk : Generated P (ps := ffiSet) pk sk := .rng _ _ _ h1
    have hsl : (slice context 0 (context.length % 255) : Exec b _) =
        pure (context.take (context.length % 255)) := exec_slice (Nat.zero_le _) (Nat.mod_le _ _)
    have hctx : (context.take (context.length % 255)).length ≤ 255 := by
      rw [List.length_take]
      have := Nat.mod_lt context.length (show 255 > 0 by decide)
      omega
    obtain ⟨ctx, h3, h4⟩ := Exec.bind_eq_pure h2
    obtain rfl := Exec.pure_inj (h3.symm.trans hsl)
    obtain ⟨⟨s2, sign⟩, h5, h6⟩ := Exec.bind_eq_pure h4
    have hpk : sk.get_public_key = pk := hk.consistent.2
    have hv : ∀ sig, sign = .ok sig → ∀ b' : Build, PublicKey.verify (p := ffiSet.params) (crypto P) pk
        message sig (context.take (context.length % 255)) = (pure true : Exec b' _) := by
      rintro sig rfl b'
      exact C01_pure_signatures_verify hk h5
    have ht : hedged = false → ∃ sig, sign = .ok sig := by
      rintro rfl
      obtain ⟨⟨sig, h7, _⟩, _⟩ := C04_short_context_accepted hk os s1 message _ .SHA256 hctx
      have := Exec.pure_inj (h7.symm.trans h5)
      exact ⟨sig, (congrArg Prod.snd this).symm⟩
    dsimp only at h6
    split at h6
    · rename_i hu
      obtain ⟨ctx, h3, h7⟩ := Exec.bind_eq_pure h6
      obtain rfl := Exec.pure_inj (h3.symm.trans hsl)
      obtain ⟨⟨s3, hash_sign⟩, h8, h9⟩ := Exec.bind_eq_pure h7
      have := Exec.pure_inj h9
      simp only [Prod.mk.injEq, Option.some.injEq] at this
      obtain ⟨_, rfl⟩ := this
      refine ⟨sk, by rw [hpk]; exact hk, by rw [hpk]; exact hv, ?_, by simp [hu], ?_⟩
      · rintro sig he b'
        simp only [Option.some.injEq] at he
        subst he
        rw [hpk, ← fuzzPh_eq]
        exact C02_prehash_signatures_verify hk h8
      · intro hh
        refine ⟨ht hh, fun _ => ?_⟩
        subst hh
        obtain ⟨_, sig, h7, _⟩ := C04_short_context_accepted hk os s2 message _ (fuzzPh hash_function) hctx
        have := Exec.pure_inj (h7.symm.trans h8)
        exact ⟨sig, congrArg some (congrArg Prod.snd this).symm⟩
    · rename_i hu
      have := Exec.pure_inj h6
      simp only [Prod.mk.injEq, Option.some.injEq] at this
      obtain ⟨_, rfl⟩ := this
      refine ⟨sk, by rw [hpk]; exact hk, by rw [hpk]; exact hv, ?_, by simp [hu], ?_⟩
      · intro sig he; simp at he
      · exact fun hh => ⟨ht hh, fun h => absurd h hu⟩

/-- The hypothesis is met by a run with a key. -/
example (b : Build) (context : List UInt8) (hedged use_hash : Bool) : ∃ s' r,
    fuzz_sign (crypto demoPrims) (demoRng.lift : Rng (Exec b) Nat) 0 [1, 2] context hedged use_hash 7 =
      pure (s', some r) := by
  obtain ⟨⟨s', r⟩, h⟩ := C51_fuzz_sign_total (P := demoPrims) b demoRng 0 [1, 2] context hedged use_hash 7
  cases r with
  | some r => exact ⟨_, _, h⟩
  | none =>
    exfalso
    obtain ⟨⟨s1, r1⟩, h1, h2⟩ := Exec.bind_eq_pure h
    cases Exec.pure_inj (h1.symm.trans (demo_keygen ffiSet b))
    obtain ⟨ctx, h3, h4⟩ := Exec.bind_eq_pure h2
    obtain ⟨⟨s2, sign⟩, h5, h6⟩ := Exec.bind_eq_pure h4
    dsimp only at h6
    split at h6
    · obtain ⟨ctx, h3, h7⟩ := Exec.bind_eq_pure h6
      obtain ⟨⟨s3, hash_sign⟩, h8, h9⟩ := Exec.bind_eq_pure h7
      have := Exec.pure_inj h9
      simp at this
    · have := Exec.pure_inj h6
      simp at this

/-- **C51** What the verification target computes.  It makes a generated key pair; the tests with valid
signatures never answer `false`, and are left out only if a signing call failed; test 4, if made, uses a signature the key made for the message, and a
different message of the same length; an answer `true` shows a break, a PRF collision, or that `H_msg`
selects the same secrets for both messages.  For inputs of less than 255 bytes the message is empty
and test 4 is not made. -/
theorem C51_fuzz_verify_results {b : Build} {os : Rng (Exec b) σ} {s s' : σ} {data : List UInt8}
    {r : FuzzVerify} (h : fuzz_verify (crypto P) os s data = pure (s', some r)) :
    let message := data.drop (data.length % 255)
    let ctx := data.take (data.length % 255)
    let M := Spec.pureMsg ctx message
    let pk : PublicKey ffiSet.params := r.pk
    let sk : PrivateKey ffiSet.params := r.sk
    let fails := ∃ s1 s2 e, sk.try_sign_with_rng (crypto P) os s1 message ctx true = pure (s2, .error e)
    Generated P pk sk ∧ 32 ≤ data.length ∧
    (r.test1 = some true ∨ r.test1 = none ∧ fails) ∧
    (r.test2 = some true ∨ r.test2 = none ∧ ∃ s1 s2 e, sk.try_hash_sign_with_rng (crypto P) os s1 message ctx
      (chosenPh (data.headD 0)) true = pure (s2, .error e)) ∧
    (r.test3 = some true ∨ r.test3 = none ∧ fails) ∧
    (r.test4 = none → message = [] ∨ fails) ∧
    (∀ (sig : Vector UInt8 ffiSet.params.SIG_LEN) message' ok, r.test4 = some (sig, message', ok) →
      message' ≠ message ∧ message'.length = message.length ∧ message'.drop 1 = message.drop 1 ∧
      (∃ s1 s2, sk.try_sign_with_rng (crypto P) os s1 message ctx true = pure (s2, .ok sig)) ∧
      pk.verify (crypto P) message' sig ctx = (pure ok : Exec b _) ∧
      (ok = true →
        let M' := Spec.pureMsg ctx message'
        (against P sk sig M').Break ∨
        (∃ i < ffiSet.sp.k, let x := opened P pk sig M i; let y := opened P pk sig M' i
          x ≠ y ∧ prfInput ffiSet pk.key.pk_seed.toList sk.key.sk_seed.toList x ≠
            prfInput ffiSet pk.key.pk_seed.toList sk.key.sk_seed.toList y ∧
            secretAt P sk x = secretAt P sk y) ∨
        ∀ i < ffiSet.sp.k, opened P pk sig M i = opened P pk sig M' i)) ∧
    (data.length < 255 → message = [] ∧ r.test4 = none) := by
  dsimp only
  rw [fuzz_verify] at h
  split at h
  · have := Exec.pure_inj h; simp at this
  rename_i hlen
  have hlen : 32 ≤ data.length := Nat.le_of_not_lt hlen
  have hmod : data.length % 255 < 255 := Nat.mod_lt _ (by decide)
  obtain ⟨x, hx, h⟩ := Exec.bind_eq_pure h
  have hx0 : data.headD 0 = x := by
    have h0 : 0 < data.length := by omega
    rw [← Exec.pure_inj ((exec_lget h0).symm.trans hx)]
    match data, h0 with
    | y :: ys, _ => rfl
  obtain ⟨⟨s1, r1⟩, h1, h⟩ := Exec.bind_eq_pure h
  cases r1 with
  | error e => have := Exec.pure_inj h; simp at this
  | ok kp =>
    obtain ⟨pk, sk⟩ := kp
    have hk : Generated P (ps := ffiSet) pk sk := .rng _ _ _ h1
    obtain ⟨msg, h2, h⟩ := Exec.bind_eq_pure h
    have : (slice data (data.length % 255) data.length : Exec b _) = pure (data.drop (data.length % 255)) := by
      rw [exec_slice (Nat.mod_le _ _) (Nat.le_refl _), List.take_of_length_le (by rw [List.length_drop])]
    obtain rfl := Exec.pure_inj (h2.symm.trans this)
    obtain ⟨ctx, h3, h⟩ := Exec.bind_eq_pure h
    obtain rfl := Exec.pure_inj (h3.symm.trans (exec_slice (Nat.zero_le _) (Nat.mod_le _ _)))
    rw [List.drop_zero, Nat.sub_zero] at h
    generalize hm : data.drop (data.length % 255) = msg at h ⊢
    generalize hc : data.take (data.length % 255) = ctx at h ⊢
    obtain ⟨⟨s2, sig1⟩, g1, h⟩ := Exec.bind_eq_pure h
    obtain ⟨t1, e1, h⟩ := Exec.bind_eq_pure h
    obtain ⟨⟨s3, sig2⟩, g2, h⟩ := Exec.bind_eq_pure h
    obtain ⟨t2, e2, h⟩ := Exec.bind_eq_pure h
    obtain ⟨pkb, g3, h⟩ := Exec.bind_eq_pure h
    obtain ⟨maybe, g4, h⟩ := Exec.bind_eq_pure h
    obtain ⟨⟨s4, t3⟩, e3, h⟩ := Exec.bind_eq_pure h
    obtain ⟨⟨s5, sig4⟩, g5, h⟩ := Exec.bind_eq_pure h
    obtain ⟨t4, e4, h⟩ := Exec.bind_eq_pure h
    have := Exec.pure_inj h
    simp only [Prod.mk.injEq, Option.some.injEq] at this
    obtain ⟨_, rfl⟩ := this
    refine ⟨hk, hlen, ?_, ?_, ?_, ?_, ?_, ?_⟩
    · cases sig1 with
      | error e => exact .inr ⟨(Exec.pure_inj e1).symm, _, _, _, g1⟩
      | ok sig =>
        obtain ⟨v, hv, e⟩ := Exec.bind_eq_pure e1
        obtain rfl := Exec.pure_inj (hv.symm.trans (C01_pure_signatures_verify hk g1))
        exact .inl (Exec.pure_inj e).symm
    · cases sig2 with
      | error e =>
        refine .inr ⟨(Exec.pure_inj e2).symm, s2, s3, e, ?_⟩
        rw [fuzzPh_eq, ← hx0] at g2
        exact g2
      | ok sig =>
        obtain ⟨v, hv, e⟩ := Exec.bind_eq_pure e2
        obtain rfl := Exec.pure_inj (hv.symm.trans (C02_prehash_signatures_verify hk g2))
        exact .inl (Exec.pure_inj e).symm
    · cases maybe with
      | error e =>
        obtain ⟨_, hd⟩ := C11_public_key_decode_encode (ps := ffiSet) pkb
        cases Exec.pure_inj (g4.symm.trans (hd b).1)
      | ok pk' =>
        have hpk : pk' = pk := by
          obtain ⟨pk'', hd⟩ := C11_public_key_decode_encode (ps := ffiSet) pkb
          cases Exec.pure_inj (g4.symm.trans (hd b).1)
          obtain ⟨v, hv1, hv2⟩ := exec_pk_into_bytes (b := b) (ps := ffiSet) pk'
          obtain ⟨w, hw1, hw2⟩ := exec_pk_into_bytes (b := b) (ps := ffiSet) pk
          have h2 := Exec.pure_inj (hv1.symm.trans (hd b).2)
          have h3 := Exec.pure_inj (hw1.symm.trans g3)
          subst h2 h3
          exact PublicKey.encode_inj (hv2.symm.trans hw2)
        subst hpk
        obtain ⟨⟨s6, sig3⟩, g6, e⟩ := Exec.bind_eq_pure e3
        cases sig3 with
        | error e' => exact .inr ⟨(congrArg Prod.snd (Exec.pure_inj e)).symm, _, _, _, g6⟩
        | ok sig =>
          obtain ⟨v, hv, e⟩ := Exec.bind_eq_pure e
          obtain rfl := Exec.pure_inj (hv.symm.trans (C01_pure_signatures_verify hk g6))
          exact .inl (congrArg Prod.snd (Exec.pure_inj e)).symm
    · rintro rfl
      cases sig4 with
      | error e => exact .inr ⟨_, _, _, g5⟩
      | ok sig =>
        match msg, e4 with
        | [], _ => exact .inl rfl
        | x :: xs, e4 =>
          obtain ⟨v, _, e⟩ := Exec.bind_eq_pure e4
          have := Exec.pure_inj e
          simp at this
    · rintro sig message' ok rfl
      cases sig4 with
      | error e => have := Exec.pure_inj e4; simp at this
      | ok sig' =>
        match msg, e4, g5 with
        | [], e4, _ => have := Exec.pure_inj e4; simp at this
        | x :: xs, e4, g5 =>
          obtain ⟨v, hv, e⟩ := Exec.bind_eq_pure e4
          cases Exec.pure_inj e
          refine ⟨?_, rfl, rfl, ⟨_, _, g5⟩, hv, ?_⟩
          · intro h
            have hx := (List.cons.inj h).1
            have : ∀ x : UInt8, x ^^^ 1 ≠ x := by
              intro x hx
              have := congrArg (x ^^^ ·) hx
              simp [← UInt8.xor_assoc] at this
            exact this x hx
          · rintro rfl
            exact C49_signed_for_another hk (.pure b _ _ _ _ _ _ g5) (.pure b _ _ hv)
    · intro hlt
      have : data.length % 255 = data.length := Nat.mod_eq_of_lt hlt
      rw [this, List.drop_length] at hm
      subst hm
      refine ⟨rfl, ?_⟩
      cases sig4 with
      | error e => exact (Exec.pure_inj e4).symm
      | ok sig => exact (Exec.pure_inj e4).symm

/-- The hypothesis is met, and with enough input test 4 is made. -/
example (b : Build) (data : List UInt8) (hd : 255 < data.length) : ∃ s' r,
    fuzz_verify (crypto demoPrims) (demoRng.lift : Rng (Exec b) Nat) 0 data = pure (s', some r) ∧
    r.test4 ≠ none := by
  obtain ⟨⟨s', r⟩, h⟩ := C51_fuzz_verify_total (P := demoPrims) b demoRng 0 data
  cases r with
  | some r =>
    refine ⟨_, _, h, fun h4 => ?_⟩
    rcases (C51_fuzz_verify_results h).2.2.2.2.2.1 h4 with h | ⟨s1, s2, e, h⟩
    · have := congrArg List.length h
      have hlt := Nat.mod_lt data.length (show 255 > 0 by decide)
      rw [List.length_drop, List.length_nil] at this
      omega
    · have hk : ∀ (sk : PrivateKey ffiSet.params) msg ctx, sk.try_sign_with_rng (crypto demoPrims)
          (demoRng.lift : Rng (Exec b) Nat) s1 msg ctx true = pure (s2, .error e) → ¬ ctx.length ≤ 255 := by
        intro sk msg ctx h hc
        rw [exec_try_sign_with_rng, if_neg (by omega), if_pos rfl] at h
        cases Exec.pure_inj h
      refine hk _ _ _ h ?_
      rw [List.length_take]
      have hlt := Nat.mod_lt data.length (show 255 > 0 by decide)
      omega
  | none =>
    exfalso
    rw [fuzz_verify, if_neg (by omega)] at h
    obtain ⟨x, _, h⟩ := Exec.bind_eq_pure h
    obtain ⟨⟨s1, r1⟩, h1, h⟩ := Exec.bind_eq_pure h
    cases Exec.pure_inj (h1.symm.trans (demo_keygen ffiSet b))
    obtain ⟨_, _, h⟩ := Exec.bind_eq_pure h
    obtain ⟨_, _, h⟩ := Exec.bind_eq_pure h
    obtain ⟨_, _, h⟩ := Exec.bind_eq_pure h
    obtain ⟨_, _, h⟩ := Exec.bind_eq_pure h
    obtain ⟨_, _, h⟩ := Exec.bind_eq_pure h
    obtain ⟨_, _, h⟩ := Exec.bind_eq_pure h
    obtain ⟨_, _, h⟩ := Exec.bind_eq_pure h
    obtain ⟨_, _, h⟩ := Exec.bind_eq_pure h
    obtain ⟨_, _, h⟩ := Exec.bind_eq_pure h
    obtain ⟨_, _, h⟩ := Exec.bind_eq_pure h
    obtain ⟨_, _, h⟩ := Exec.bind_eq_pure h
    cases Exec.pure_inj h

end Fips205.Props
