import Verif.Props.GenForgery

/-!
# What arrives damaged or mixed up is refused (C95)

A key is generated and requests are signed, all with the API.  What was signed goes through a channel, which may damage
it, mix it up, cut it off or replace it, but does not evaluate the hash functions.  All that arrives and is not what was
sent is refused, but for a negligible chance.
-/

namespace Fips205.Props
open Fips205 Fips205.Model

variable {ps : ParamSet} {L B w T : Nat}

/-- A call of a signing function: the request, whether it is hedged, and what the random number generator does. -/
structure SignCall (ps : ParamSet) (L : Nat) where
  req : SigRequest L
  hedged : Bool
  rnd : Except Unit (Vector UInt8 ps.params.N)

/-- What is sent and what arrives: what was signed, and the signature. -/
abbrev Parcel (ps : ParamSet) (L : Nat) : Type := SigRequest L × Vector UInt8 ps.params.SIG_LEN

/-- The answers of the signing functions. -/
abbrev Answers (ps : ParamSet) : Type := List (Except String (Vector UInt8 ps.params.SIG_LEN))

/-- A channel: what arrives, in `T` parcels, depends in any way on the public key and the signatures. -/
abbrev Channel (ps : ParamSet) (L T : Nat) : Type := PublicKey ps.params → Answers ps → Fin T → Parcel ps L

/-- The parcel is one of those sent. -/
def Sent (calls : List (SignCall ps L)) (rs : Answers ps) (x : Parcel ps L) : Prop :=
  ∃ i : Nat, (calls[i]?.map SignCall.req) = some x.1 ∧ rs[i]? = some (Except.ok x.2)

/-- Key generation (`src/lib.rs:186-203`), the signing calls one after the other, and the verdict about what arrives. -/
def delivery {m : Type → Type} [Rust m] (C : Crypto m) (calls : List (SignCall ps L)) (ch : Channel ps L T)
    (coins : Fin (256 ^ ps.sp.n) × Fin (256 ^ ps.sp.n) × Fin (256 ^ ps.sp.n)) :
    m (Option (Answers ps × List (Parcel ps L × Bool))) := do
  let (_, r) ← try_keygen_with_rng ps.params C tapeRng
    [Spec.toByte coins.1 ps.sp.n, Spec.toByte coins.2.1 ps.sp.n, Spec.toByte coins.2.2 ps.sp.n]
  match r with
  | .error _ => pure none
  | .ok (pk, sk) => do
    let rs ← calls.mapM fun c => do
      let (_, r) ← c.req.sign C sk c.hedged c.rnd
      pure r
    let vs ← (List.finRange T).mapM fun i => do
      let ok ← (ch pk rs i).1.verify C pk (ch pk rs i).2
      pure (ch pk rs i, ok)
    pure (some (rs, vs))

/-! ## The channel as a forger -/

/-- Ask for all signatures, then stop with a parcel. -/
def courier (B w : Nat) : (calls : List (SignCall ps L)) → (Answers ps → Parcel ps L) → ApiForger ps L B w calls.length 0
  | [], k => .forge (k []).1 (k []).2
  | c :: cs, k => .sign c.req c.hedged c.rnd fun r => courier B w cs fun rs => k (r :: rs)

theorem mem_handed {x : SigRequest L} {r : Except String (Vector UInt8 ps.params.SIG_LEN)} {asked : List (Parcel ps L)}
    {y : Parcel ps L} : y ∈ handed x r asked ↔ (x = y.1 ∧ r = .ok y.2) ∨ y ∈ asked := by
  cases r with
  | error e => simp [handed]
  | ok s => simp [handed, Prod.ext_iff, eq_comm]

theorem courier_outcome (P : Spec.Prims) (O : Query B → Fin (256 ^ w)) (pk : PublicKey ps.params) (sk : PrivateKey ps.params)
    (calls : List (SignCall ps L)) : ∀ (k : Answers ps → Parcel ps L) (asked : List (Parcel ps L)),
    ∃ asked', (courier B w calls k).outcome P O pk sk asked =
      { x := (k (calls.map fun c => c.req.answer P sk c.hedged c.rnd)).1,
        sig := (k (calls.map fun c => c.req.answer P sk c.hedged c.rnd)).2,
        accepted := (k (calls.map fun c => c.req.answer P sk c.hedged c.rnd)).1.check P pk
          (k (calls.map fun c => c.req.answer P sk c.hedged c.rnd)).2,
        asked := asked' } ∧
      ∀ y, y ∈ asked' ↔ Sent calls (calls.map fun c => c.req.answer P sk c.hedged c.rnd) y ∨ y ∈ asked := by
  induction calls with
  | nil =>
    intro k asked
    exact ⟨asked, rfl, fun y => by simp [Sent]⟩
  | cons c cs ih =>
    intro k asked
    obtain ⟨asked', h1, h2⟩ := ih (fun rs => k (c.req.answer P sk c.hedged c.rnd :: rs))
      (handed c.req (c.req.answer P sk c.hedged c.rnd) asked)
    refine ⟨asked', h1, fun y => ?_⟩
    rw [h2, mem_handed, ← or_assoc]
    refine or_congr_left ⟨?_, ?_⟩
    · rintro (⟨i, h⟩ | ⟨h, h'⟩)
      · exact ⟨i + 1, h⟩
      · exact ⟨0, by simp [h], by simp [h']⟩
    · rintro ⟨i, h, h'⟩
      cases i with
      | zero => exact .inr ⟨by simpa using h, by simpa using h'⟩
      | succ i => exact .inl ⟨i, h, h'⟩

theorem mapM_exec {b : Build} {α β : Type} (f : α → Exec b β) (g : α → β) (h : ∀ a, f a = pure (g a)) (l : List α) :
    l.mapM f = pure (l.map g) := by
  rw [show f = fun a => pure (g a) from funext h]
  exact List.mapM_pure

theorem delivery_eq (b : Build) (P : Spec.Prims) (calls : List (SignCall ps L)) (ch : Channel ps L T) (s k p : D ps) :
    (delivery (crypto P) calls ch (s, k, p) : Exec b _) =
      let x := keyPair ps P (toVec ps.params.N (Spec.toByte s ps.sp.n)) (toVec ps.params.N (Spec.toByte k ps.sp.n))
        (toVec ps.params.N (Spec.toByte p ps.sp.n))
      let rs := calls.map fun c => c.req.answer P x.2 c.hedged c.rnd
      pure (some (rs, (List.finRange T).map fun i => (ch x.1 rs i, (ch x.1 rs i).1.check P x.1 (ch x.1 rs i).2))) := by
  rw [delivery, exec_try_keygen_with_rng]
  simp only [tapeRng, pure_bind]
  rw [mapM_exec _ (fun c : SignCall ps L => c.req.answer P _ c.hedged c.rnd) fun c => by
    rw [exec_request_sign, pure_bind], pure_bind, mapM_exec _ _ fun i => by rw [exec_request_verify, pure_bind], pure_bind]

/-! ## The verdicts -/

/-- **C95** Nothing panics and key generation succeeds; one verdict is given for each parcel that arrives. -/
theorem C95_runs (b : Build) (P : Spec.Prims) (calls : List (SignCall ps L)) (ch : Channel ps L T)
    (coins : Fin (256 ^ ps.sp.n) × Fin (256 ^ ps.sp.n) × Fin (256 ^ ps.sp.n)) :
    ∃ r, (delivery (crypto P) calls ch coins : Exec b _) = pure (some r) ∧ r.1.length = calls.length ∧ r.2.length = T :=
  ⟨_, delivery_eq b P calls ch coins.1 coins.2.1 coins.2.2, by simp, by simp⟩

theorem answer_ok {P : Spec.Prims} {sk : PrivateKey ps.params} (h : Consistent P ps sk) {x : SigRequest L} {hedged : Bool}
    {rnd : Except Unit (Vector UInt8 ps.params.N)} {sig : Vector UInt8 ps.params.SIG_LEN}
    (hs : x.answer P sk hedged rnd = .ok sig) : x.check P sk.get_public_key sig = true := by
  unfold SigRequest.answer at hs
  unfold SigRequest.check
  split at hs
  · cases hs
  · rename_i hc
    rw [if_neg hc]
    cases hr : coins hedged rnd with
    | error e => rw [hr] at hs; cases hs
    | ok o =>
      rw [hr] at hs
      obtain rfl := Except.ok.inj hs
      exact verifyInternal_sigVec h _ _

/-- **C95** What arrives as it was sent is accepted, whatever the hash functions are. -/
theorem C95_intact (b : Build) (P : Spec.Prims) (calls : List (SignCall ps L)) (ch : Channel ps L T)
    (coins : Fin (256 ^ ps.sp.n) × Fin (256 ^ ps.sp.n) × Fin (256 ^ ps.sp.n)) {rs : Answers ps}
    {vs : List (Parcel ps L × Bool)} (h : (delivery (crypto P) calls ch coins : Exec b _) = pure (some (rs, vs)))
    {x : Parcel ps L} {ok : Bool} (hx : (x, ok) ∈ vs) (hs : Sent calls rs x) : ok = true := by
  rw [delivery_eq b P calls ch coins.1 coins.2.1 coins.2.2] at h
  obtain ⟨rfl, rfl⟩ := Prod.mk.inj (Option.some.inj (Exec.pure_inj h))
  obtain ⟨i, -, hi⟩ := List.mem_map.mp hx
  obtain ⟨rfl, rfl⟩ := Prod.mk.inj hi
  obtain ⟨j, h1, h2⟩ := hs
  rw [List.getElem?_map] at h2
  cases hc : calls[j]? with
  | none => rw [hc] at h1; cases h1
  | some c =>
    rw [hc] at h1 h2
    obtain h1 := Option.some.inj h1
    obtain h2 := Option.some.inj h2
    rw [← h1]
    exact answer_ok (keyPair_consistent _ _ _) h2

/-- One parcel. -/
theorem parcel_le (P0 : Spec.Prims) (b : Build) (hw : 64 ≤ w) (hL : 492 + L ≤ B)
    (hB : 160 + (ps.sp.len + ps.sp.k) * ps.sp.n ≤ B) (calls : List (SignCall ps L)) (ch : Channel ps L T) {t : Nat}
    (ht : 22 ≤ t) (htn : t ≤ 8 * ps.sp.n) (hq : calls.length ≤ 2 ^ 63) (hqt : (calls.length + 1) * 2 ^ 22 ≤ 2 ^ t)
    (i : Fin T) :
    prob (fun ω : (D ps × D ps × D ps) × (Query B → Fin (256 ^ w)) =>
      ∃ rs vs, (delivery (crypto (withHash P0 ω.2)) calls ch ω.1 : Exec b _) = pure (some (rs, vs)) ∧
        ∃ x, vs[i.val]? = some (x, true) ∧ ¬ Sent calls rs x) ≤
    2 ^ (t + 5) / 2 ^ (8 * ps.sp.n) + 2 ^ (2 * t + 3) / 2 ^ 256 + 1 / 2 ^ 170 := by
  have hqt' : calls.length * 2 ^ 22 ≤ 2 ^ t := (Nat.mul_le_mul_right _ (Nat.le_succ _)).trans hqt
  have hQ : 0 + calls.length + 1 < 2 ^ t := by
    rw [Nat.zero_add]
    exact (lt_mul_of_one_lt_right (Nat.succ_pos _) (by decide)).trans_le hqt
  refine le_trans ?_ (C71_bits P0 b hw hL hB ht htn hq hqt' hQ
    fun pk => courier B w calls fun rs => ch pk rs i)
  rw [prob_eq, prob_eq]
  refine Oracle.avg_mono fun ω => Oracle.ind_mono ?_
  rintro ⟨rs, vs, h, x, hx, hs⟩
  rw [delivery_eq b _ calls ch ω.1.1 ω.1.2.1 ω.1.2.2] at h
  obtain ⟨rfl, rfl⟩ := Prod.mk.inj (Option.some.inj (Exec.pure_inj h))
  refine ⟨_, romGenGame_eq b P0 _ ω.1.1 ω.1.2.1 ω.1.2.2 ω.2, ?_⟩
  rw [List.getElem?_map, List.getElem?_eq_getElem (by simp)] at hx
  obtain ⟨rfl, h2⟩ := Prod.mk.inj (Option.some.inj hx)
  rw [List.getElem_finRange] at h2 hs
  obtain ⟨asked, h3, h4⟩ := courier_outcome (withHash P0 ω.2) ω.2
    (widePair P0 (toVec _ (Spec.toByte ω.1.2.2 ps.sp.n)) ω.1.1 ω.1.2.1 ω.2).1
    (widePair P0 (toVec _ (Spec.toByte ω.1.2.2 ps.sp.n)) ω.1.1 ω.1.2.1 ω.2).2 calls
    (fun rs => ch (widePair P0 (toVec _ (Spec.toByte ω.1.2.2 ps.sp.n)) ω.1.1 ω.1.2.1 ω.2).1 rs i) []
  rw [apiOutcome, h3]
  exact ⟨h2, fun h => ((h4 _).mp h).elim hs List.not_mem_nil⟩

/-- **C95** Take the hash functions to be random functions and the three strings that key generation draws to be random.
Whatever is signed and whatever the channel does: the verdicts about all `T` parcels that arrive are right (accepted is
what was sent, and nothing else), except with a chance of at most `T (2^(t+5-8n) + 2^(2t+3-256) + 2^(-170))`, where
`2^(t-22)` is more than the number of signatures. -/
theorem C95_verdicts (P0 : Spec.Prims) (b : Build) (hw : 64 ≤ w) (hL : 492 + L ≤ B)
    (hB : 160 + (ps.sp.len + ps.sp.k) * ps.sp.n ≤ B) (calls : List (SignCall ps L)) (ch : Channel ps L T) {t : Nat}
    (htn : t ≤ 8 * ps.sp.n) (hq : calls.length ≤ 2 ^ 63) (hqt : (calls.length + 1) * 2 ^ 22 ≤ 2 ^ t) :
    prob (fun ω : (Fin (256 ^ ps.sp.n) × Fin (256 ^ ps.sp.n) × Fin (256 ^ ps.sp.n)) × (Query B → Fin (256 ^ w)) =>
      ¬ ∃ rs vs, (delivery (crypto (withHash P0 ω.2)) calls ch ω.1 : Exec b _) = pure (some (rs, vs)) ∧
        ∀ x ok, (x, ok) ∈ vs → (ok = true ↔ Sent calls rs x)) ≤
    T * (2 ^ (t + 5) / 2 ^ (8 * ps.sp.n) + 2 ^ (2 * t + 3) / 2 ^ 256 + 1 / 2 ^ 170) := by
  have ht : 22 ≤ t := by
    have h : 2 ^ 22 ≤ 2 ^ t := (Nat.le_mul_of_pos_left _ (Nat.succ_pos _)).trans hqt
    exact (Nat.pow_le_pow_iff_right (by decide)).mp h
  refine le_trans ?_ (le_trans (Finset.sum_le_sum fun i (_ : i ∈ (Finset.univ : Finset (Fin T))) =>
    parcel_le P0 b hw hL hB calls ch ht htn hq hqt i) (le_of_eq (by
      rw [Finset.sum_const, Finset.card_univ, Fintype.card_fin, nsmul_eq_mul])))
  simp only [prob_eq]
  rw [← Oracle.avg_sum]
  refine Oracle.avg_mono fun ω => ?_
  by_cases hE : ∃ i : Fin T, ∃ rs vs, (delivery (crypto (withHash P0 ω.2)) calls ch ω.1 : Exec b _) = pure (some (rs, vs)) ∧
        ∃ x, vs[i.val]? = some (x, true) ∧ ¬ Sent calls rs x
  · obtain ⟨i, hi⟩ := hE
    refine (Oracle.ind_le_one _).trans (le_trans (le_of_eq ?_) (Finset.single_le_sum (fun i _ => Oracle.ind_nonneg _)
      (Finset.mem_univ i)))
    exact ((Oracle.ind_congr (iff_true_intro hi)).trans (by simp [Oracle.ind])).symm
  · refine le_trans (le_of_eq ?_) (Finset.sum_nonneg fun i _ => Oracle.ind_nonneg _)
    refine (Oracle.ind_congr (iff_false_intro (not_not_intro ?_))).trans (by simp [Oracle.ind])
    obtain ⟨⟨rs, vs⟩, h, -, hT⟩ := C95_runs b (withHash P0 ω.2) calls ch ω.1
    refine ⟨rs, vs, h, fun x ok hx => ⟨fun hok => ?_, C95_intact b _ calls ch ω.1 h hx⟩⟩
    by_contra hs
    obtain ⟨j, hj, e⟩ := List.mem_iff_getElem.mp hx
    refine hE ⟨⟨j, hT ▸ hj⟩, rs, vs, h, x, ?_, hs⟩
    rw [List.getElem?_eq_getElem hj, e, hok]

/-- **C95** The same for a channel with noise of any kind, drawn at random from a set `Z`. -/
theorem C95_noise {Z : Type} [Fintype Z] [Nonempty Z] (P0 : Spec.Prims) (b : Build) (hw : 64 ≤ w) (hL : 492 + L ≤ B)
    (hB : 160 + (ps.sp.len + ps.sp.k) * ps.sp.n ≤ B) (calls : List (SignCall ps L)) (ch : Z → Channel ps L T) {t : Nat}
    (htn : t ≤ 8 * ps.sp.n) (hq : calls.length ≤ 2 ^ 63) (hqt : (calls.length + 1) * 2 ^ 22 ≤ 2 ^ t) :
    prob (fun ω : Z × (Fin (256 ^ ps.sp.n) × Fin (256 ^ ps.sp.n) × Fin (256 ^ ps.sp.n)) × (Query B → Fin (256 ^ w)) =>
      ¬ ∃ rs vs, (delivery (crypto (withHash P0 ω.2.2)) calls (ch ω.1) ω.2.1 : Exec b _) = pure (some (rs, vs)) ∧
        ∀ x ok, (x, ok) ∈ vs → (ok = true ↔ Sent calls rs x)) ≤
    T * (2 ^ (t + 5) / 2 ^ (8 * ps.sp.n) + 2 ^ (2 * t + 3) / 2 ^ 256 + 1 / 2 ^ 170) := by
  rw [prob_eq, Oracle.avg_prod]
  refine le_trans (Oracle.avg_mono fun z => ?_) (le_of_eq (Oracle.avg_const _))
  exact (prob_eq _).symm.trans_le (C95_verdicts P0 b hw hL hB calls (ch z) htn hq hqt)

/-! ## Examples -/

/-- A channel that turns around the last bit of each signature. -/
def flipLast (ps : ParamSet) (L : Nat) (calls : List (SignCall ps L)) : Channel ps L calls.length := fun _ rs i =>
  (calls[i].req, toVec _ (match rs[i.val]? with
    | some (.ok sig) => sig.toList.modify (ps.params.SIG_LEN - 1) (· ^^^ 1)
    | _ => []))

/-- The hypotheses can be met: a thousand signatures, all damaged; all are refused but for a chance of `2^(-80)`. -/
example (b : Build) (call : SignCall ps 100) :
    prob (fun ω : (Fin (256 ^ ps.sp.n) × Fin (256 ^ ps.sp.n) × Fin (256 ^ ps.sp.n)) × (Query 4000 → Fin (256 ^ 64)) =>
      ¬ ∃ rs vs, (delivery (crypto (withHash demoPrims ω.2)) (List.replicate 1000 call)
          (flipLast ps 100 (List.replicate 1000 call)) ω.1 : Exec b _) = pure (some (rs, vs)) ∧
        ∀ x ok, (x, ok) ∈ vs → (ok = true ↔ Sent (List.replicate 1000 call) rs x)) ≤ 1 / 2 ^ 80 := by
  have hl : (List.replicate 1000 call).length = 1000 := List.length_replicate
  refine (C95_verdicts (t := 32) demoPrims b (by decide) (by decide) (by cases ps <;> decide) _ _ (by cases ps <;> decide)
    (by rw [hl]; decide) (by rw [hl]; decide)).trans ?_
  have h16 : 16 ≤ ps.sp.n := sixteen_le_n ps
  have h : (2 : ℚ) ^ 128 ≤ 2 ^ (8 * ps.sp.n) := pow_le_pow_right₀ (by norm_num) (by omega)
  rw [hl]
  have h2 : (2 : ℚ) ^ (32 + 5) / 2 ^ (8 * ps.sp.n) ≤ 2 ^ (32 + 5) / 2 ^ 128 :=
    div_le_div_of_nonneg_left (by positivity) (by positivity) h
  refine (mul_le_mul_of_nonneg_left (add_le_add_left (add_le_add_left h2 _) _) (by positivity)).trans ?_
  norm_num

/-- What this channel delivers was not sent. -/
example (call : SignCall ps L) (pk : PublicKey ps.params) (sig : Vector UInt8 ps.params.SIG_LEN) :
    ¬ Sent [call] [.ok sig] (flipLast ps L [call] pk [.ok sig] ⟨0, Nat.zero_lt_one⟩) := by
  rintro ⟨i, -, h⟩
  have hpos : 0 < ps.params.SIG_LEN := by cases ps <;> decide
  have hlen : (sig.toList.modify (ps.params.SIG_LEN - 1) (· ^^^ 1)).length = ps.params.SIG_LEN := by simp
  cases i with
  | succ i => simp at h
  | zero =>
    have h1 : sig = toVec _ (sig.toList.modify (ps.params.SIG_LEN - 1) (· ^^^ 1)) := Except.ok.inj (Option.some.inj h)
    have h2 := congrArg (fun v : Vector UInt8 _ => v.toList[ps.params.SIG_LEN - 1]?) h1
    simp only [toVec_toList hlen] at h2
    rw [List.getElem?_modify, List.getElem?_eq_getElem (by simp; omega)] at h2
    simp only [if_true] at h2
    have h3 := congrArg (fun x => sig.toList[ps.params.SIG_LEN - 1]'(by simp; omega) ^^^ x) (Option.some.inj h2)
    simp [← UInt8.xor_assoc] at h3

end Fips205.Props
