import Verif.Proofs.Fresh
import Verif.Proofs.OwnCases
import Verif.Proofs.ApiForge
import Verif.Props.Spread

/-!
# Signatures do not repeat (C98)

A signature begins with a randomizer, `n` bytes that are drawn by a keyed hash of the random bytes (or of `PK.seed`) and the
message.  It should come only once, and hedged signing is meant to give another signature each time, even of the same
message by the same key.
-/

namespace Fips205.Props
open Fips205 Fips205.Model Oracle

variable {ps : ParamSet} {L B w : Nat} {b : Build}

/-- A signature that is made: the seeds of the key, the request, and what the random number generator provides if signing is
hedged. -/
structure SigJob (ps : ParamSet) (L : Nat) where
  sk_seed : Vector UInt8 ps.params.N
  sk_prf : Vector UInt8 ps.params.N
  pk_seed : Vector UInt8 ps.params.N
  req : SigRequest L
  rnd : Option (Vector UInt8 ps.params.N)

/-- The generator.  It fails if it is not needed. -/
def SigJob.gen (j : SigJob ps L) : Except Unit (Vector UInt8 ps.params.N) :=
  match j.rnd with
  | some o => .ok o
  | none => .error ()

/-- The key with these seeds, in the build `b`, signs the request with `sig`. -/
def SigJob.Signs (P : Spec.Prims) (b : Build) (j : SigJob ps L) (sig : Vector UInt8 ps.params.SIG_LEN) : Prop :=
  ∃ pk sk, (keygen_with_seeds ps.params (crypto P) j.sk_seed j.sk_prf j.pk_seed : Exec b _) = pure (pk, sk) ∧
    (j.req.sign (crypto P) sk j.rnd.isSome j.gen : Exec b _) = pure ((), .ok sig)

/-- The signatures begin with the same randomizer. -/
def SameR (P : Spec.Prims) (b : Build) (j j' : SigJob ps L) : Prop :=
  ∃ sig sig', j.Signs P b sig ∧ j'.Signs P b sig' ∧ sig.toList.take ps.sp.n = sig'.toList.take ps.sp.n

/-- The signatures are the same. -/
def SameSig (P : Spec.Prims) (b : Build) (j j' : SigJob ps L) : Prop := ∃ sig, j.Signs P b sig ∧ j'.Signs P b sig

theorem SameSig.same {P : Spec.Prims} {j j' : SigJob ps L} : SameSig P b j j' → SameR P b j j' :=
  fun ⟨sig, h, h'⟩ => ⟨sig, sig, h, h', rfl⟩

/-- What the randomizer is drawn for: the secret `SK.prf`, the random bytes or `PK.seed`, and the request. -/
def SigJob.input (j : SigJob ps L) : Vector UInt8 ps.params.N × Vector UInt8 ps.params.N × SigRequest L :=
  (j.sk_prf, j.rnd.getD j.pk_seed, j.req)

/-- If the message is hashed before it is signed, then it does not begin with the secret `SK.prf` of this key (as a block of
HMAC, for the SHA2 parameter sets). -/
def SigJob.Clear (j key : SigJob ps L) : Prop :=
  j.req.ph ≠ none → ∀ X ∈ keyBlocks ps key.sk_prf.toList, ¬ X <+: j.req.msg

/-- What a signature of this key is. -/
def SigJob.made (P : Spec.Prims) (j : SigJob ps L) : Vector UInt8 ps.params.SIG_LEN :=
  sigVec ps P (j.req.str P) (keyPair ps P j.sk_seed j.sk_prf j.pk_seed).2.key (j.rnd.getD j.pk_seed)

theorem job_signs_iff {P : Spec.Prims} {j : SigJob ps L} (hc : j.req.ctx.length ≤ 255)
    {sig : Vector UInt8 ps.params.SIG_LEN} : j.Signs P b sig ↔ sig = j.made P := by
  have key : ∀ sk : PrivateKey ps.params, j.req.answer P sk j.rnd.isSome j.gen =
      .ok (sigVec ps P (j.req.str P) sk.key (j.rnd.getD sk.key.pk_seed)) := by
    intro sk
    rw [SigRequest.answer, if_neg (by omega), SigJob.gen]
    cases j.rnd <;> rfl
  constructor
  · rintro ⟨pk, sk, h1, h2⟩
    rw [exec_keygen_with_seeds] at h1
    obtain rfl : (keyPair ps P j.sk_seed j.sk_prf j.pk_seed).2 = sk := congrArg Prod.snd (Exec.pure_inj h1)
    rw [exec_request_sign, key] at h2
    exact (Except.ok.inj (congrArg Prod.snd (Exec.pure_inj h2))).symm
  · rintro rfl
    exact ⟨_, _, exec_keygen_with_seeds _ _ _, by rw [exec_request_sign, key]; rfl⟩

theorem made_head (P : Spec.Prims) (j : SigJob ps L) : (j.made P).toList.take ps.sp.n =
    (ps.hf P).PRFmsg j.sk_prf.toList (j.rnd.getD j.pk_seed).toList (j.req.str P) := by
  rw [SigJob.made, sigVec_toList, Spec.signInternal, Spec.signWithR, List.append_assoc,
    List.take_left' ((ps.valid P).PRFmsg _ _ _)]
  rfl

theorem sameR_iff {P : Spec.Prims} {j j' : SigJob ps L} (hc : j.req.ctx.length ≤ 255) (hc' : j'.req.ctx.length ≤ 255) :
    SameR P b j j' ↔ (ps.hf P).PRFmsg j.sk_prf.toList (j.rnd.getD j.pk_seed).toList (j.req.str P) =
      (ps.hf P).PRFmsg j'.sk_prf.toList (j'.rnd.getD j'.pk_seed).toList (j'.req.str P) := by
  simp only [SameR, job_signs_iff hc, job_signs_iff hc', ← made_head]
  exact ⟨fun ⟨_, _, h1, h2, h⟩ => h1 ▸ h2 ▸ h, fun h => ⟨_, _, rfl, rfl, h⟩⟩

theorem str_room {P : Spec.Prims} {x : SigRequest L} (hc : x.ctx.length ≤ 255) (hB : 600 + L ≤ B) :
    192 + (x.str P).length ≤ B := by
  have := str_length (P := P) hc
  omega

/-- The string that is signed does not depend on the hashes that draw the randomizer. -/
theorem str_off {P0 : Spec.Prims} {j key : SigJob ps L} (hj : j.Clear key) (hB : 600 + L ≤ B)
    {O O' : Query B → Fin (256 ^ w)} (h : ∀ q, ¬ Keyed ps key.sk_prf.toList q → O' q = O q) :
    j.req.str (withHash P0 O') = j.req.str (withHash P0 O) := by
  cases hp : j.req.ph with
  | none => simp only [SigRequest.str, hp]
  | some ph =>
    have hm := j.req.short
    have hq : ∀ a : Spec.PreHash, O' (.of B ⟨a, j.req.msg⟩) = O (.of B ⟨a, j.req.msg⟩) := fun a =>
      h _ fun ⟨X, hX, hp'⟩ => by
        rw [of_short (show (Call.mk a j.req.msg).input.length ≤ B by dsimp only; omega)] at hp'
        exact hj (by rw [hp]; exact nofun) X hX hp'
    have : Spec.preHash (withHash P0 O') j.req.msg ph.spec = Spec.preHash (withHash P0 O) j.req.msg ph.spec := by
      cases ph.spec <;> simp only [Spec.preHash, withHash, hq]
    simp only [SigRequest.str, hp, phMsg, this]

/-- The hashes of two messages are not likely to be the same. -/
theorem avg_preHash (P0 : Spec.Prims) (hw : 64 ≤ w) (hB : 600 + L ≤ B) (x y : SigRequest L) :
    (avg fun O : Query B → Fin (256 ^ w) => ind (∃ ph, x.ph = some ph ∧ y.ph = some ph ∧ x.msg ≠ y.msg ∧
      Spec.preHash (withHash P0 O) x.msg ph.spec = Spec.preHash (withHash P0 O) y.msg ph.spec)) ≤ 1 / 2 ^ 256 := by
  have hO : Nonempty (Query B → Fin (256 ^ w)) := ⟨fun _ => ⟨0, Nat.pow_pos (by decide)⟩⟩
  by_cases h : ∃ ph, x.ph = some ph ∧ y.ph = some ph ∧ x.msg ≠ y.msg
  · obtain ⟨ph, h1, h2, hne⟩ := h
    have hx := x.short
    have hy := y.short
    have hq : Query.of B ⟨ph.spec, x.msg⟩ ≠ Query.of B ⟨ph.spec, y.msg⟩ := by
      intro h
      have h := congrArg Subtype.val h
      rw [of_short (by dsimp only; omega), of_short (by dsimp only; omega)] at h
      exact hne (Call.mk.inj h).2
    have h256 : (1 / 2 ^ 256 : ℚ) = 1 / 256 ^ 32 := by norm_num
    rw [h256, ← avg_apart (w := w) (n := 32) (by omega) hq]
    refine avg_mono fun O => ind_mono ?_
    rintro ⟨ph', h1', -, -, hd⟩
    obtain rfl : ph = ph' := Option.some.inj (h1.symm.trans h1')
    rw [wide_preHash hw, wide_preHash hw] at hd
    rw [headOf, headOf]
    have h32 : 32 ≤ phLen ph := by cases ph <;> decide
    have := congrArg (List.take 32) hd
    rw [List.take_take, List.take_take, Nat.min_eq_left h32] at this
    rw [this]
  · refine le_trans (avg_mono (g := fun _ => 0) fun O => ?_) (by rw [avg_const]; positivity)
    rw [ind, if_neg fun ⟨ph, h1, h2, h3, _⟩ => h ⟨ph, h1, h2, h3⟩]

/-- The inputs of the keyed hash are different, or messages have the same hash. -/
theorem job_ne {P : Spec.Prims} {j j' : SigJob ps L} (hc : j.req.ctx.length ≤ 255) (hc' : j'.req.ctx.length ≤ 255)
    (hne : j.input ≠ j'.input) :
    (j.sk_prf.toList, (j.rnd.getD j.pk_seed).toList, j.req.str P) ≠
      (j'.sk_prf.toList, (j'.rnd.getD j'.pk_seed).toList, j'.req.str P) ∨
    ∃ ph, j.req.ph = some ph ∧ j'.req.ph = some ph ∧ j.req.msg ≠ j'.req.msg ∧
      Spec.preHash P j.req.msg ph.spec = Spec.preHash P j'.req.msg ph.spec := by
  refine or_iff_not_imp_left.mpr fun h => ?_
  rw [not_not] at h
  obtain ⟨h1, h⟩ := Prod.mk.inj h
  obtain ⟨h2, h3⟩ := Prod.mk.inj h
  rcases str_inj hc hc' h3 with h4 | h4
  · exact absurd (by rw [SigJob.input, SigJob.input, Vector.toList_inj.mp h1, Vector.toList_inj.mp h2, h4]) hne
  · exact h4

/-- **C98** Let the hash functions be random functions.  A signature by a key with any seeds, of any request, begins with each
of the `256^n` randomizers with the same probability. -/
theorem C98_uniform (P0 : Spec.Prims) (b : Build) (hw : 64 ≤ w) (hB : 600 + L ≤ B) {j : SigJob ps L}
    (hc : j.req.ctx.length ≤ 255) (hj : j.Clear j) {R : List UInt8} (hR : R.length = ps.sp.n) :
    prob (fun O : Query B → Fin (256 ^ w) => ∃ sig, j.Signs (withHash P0 O) b sig ∧ sig.toList.take ps.sp.n = R) =
      1 / 256 ^ ps.sp.n := by
  rw [prob_eq]
  simp only [job_signs_iff hc, exists_eq_left, made_head]
  exact prf_uniform P0 hw (M' := fun _ => []) (length_N _) (length_N _) (fun O => str_room hc hB)
    (fun O O' h => ⟨str_off hj hB h, rfl⟩) hR

/-- **C98** Take any two signatures, by keys with any seeds, and suppose that they differ in `SK.prf`, the random bytes, or the
request.  For the SHAKE parameter sets and pure signing, their randomizers are the same with probability `1 / 256^n`, as if
they were drawn at random. -/
theorem C98_pair (P0 : Spec.Prims) (b : Build) (hw : 64 ≤ w) (hB : 600 + L ≤ B) (hps : ps.family = .shake)
    {j j' : SigJob ps L} (hc : j.req.ctx.length ≤ 255) (hc' : j'.req.ctx.length ≤ 255) (hp : j.req.ph = none)
    (hp' : j'.req.ph = none) (hne : j.input ≠ j'.input) :
    prob (fun O : Query B → Fin (256 ^ w) => SameR (withHash P0 O) b j j') = 1 / 256 ^ ps.sp.n := by
  have hO : Nonempty (Query B → Fin (256 ^ w)) := ⟨fun _ => ⟨0, Nat.pow_pos (by decide)⟩⟩
  have h := prf_apart_shake P0 hw (M := fun O => j.req.str (withHash P0 O)) (M' := fun O => j'.req.str (withHash P0 O))
    (length_N j.sk_prf) (length_N j'.sk_prf) (length_N (j.rnd.getD j.pk_seed)) (length_N (j'.rnd.getD j'.pk_seed))
    (fun O => str_room hc hB) (fun O => str_room hc' hB)
    (fun O O' h => ⟨str_off (key := j) (fun h => absurd hp h) hB h, str_off (fun h => absurd hp' h) hB h⟩) hps
  have h1 : ∀ O : Query B → Fin (256 ^ w),
      ind ((j.sk_prf.toList, (j.rnd.getD j.pk_seed).toList, j.req.str (withHash P0 O)) ≠
        (j'.sk_prf.toList, (j'.rnd.getD j'.pk_seed).toList, j'.req.str (withHash P0 O))) = 1 := by
    intro O
    rcases job_ne (P := withHash P0 O) hc hc' hne with h | ⟨ph, h, -⟩
    · rw [ind, if_pos h]
    · rw [hp] at h
      cases h
  simp only [h1, one_mul] at h
  rw [prob_eq]
  simp only [sameR_iff hc hc']
  exact h.trans (avg_const _)

/-- **C98** For all parameter sets, and pre-hash signing as well, it is at most `1 / 256^n + 1 / 2^255`. -/
theorem C98_pair_le (P0 : Spec.Prims) (b : Build) (hw : 64 ≤ w) (hB : 600 + L ≤ B) {j j' : SigJob ps L}
    (hc : j.req.ctx.length ≤ 255) (hc' : j'.req.ctx.length ≤ 255) (hj : j.Clear j) (hj' : j'.Clear j)
    (hne : j.input ≠ j'.input) :
    prob (fun O : Query B → Fin (256 ^ w) => SameR (withHash P0 O) b j j') ≤ 1 / 256 ^ ps.sp.n + 1 / 2 ^ 255 := by
  have hO : Nonempty (Query B → Fin (256 ^ w)) := ⟨fun _ => ⟨0, Nat.pow_pos (by decide)⟩⟩
  let W : (Query B → Fin (256 ^ w)) → Prop := fun O =>
    (j.sk_prf.toList, (j.rnd.getD j.pk_seed).toList, j.req.str (withHash P0 O)) ≠
      (j'.sk_prf.toList, (j'.rnd.getD j'.pk_seed).toList, j'.req.str (withHash P0 O))
  let E : (Query B → Fin (256 ^ w)) → Prop := fun O =>
    (ps.hf (withHash P0 O)).PRFmsg j.sk_prf.toList (j.rnd.getD j.pk_seed).toList (j.req.str (withHash P0 O)) =
      (ps.hf (withHash P0 O)).PRFmsg j'.sk_prf.toList (j'.rnd.getD j'.pk_seed).toList (j'.req.str (withHash P0 O))
  have hst : ∀ O O' : Query B → Fin (256 ^ w), (∀ q, ¬ Keyed ps j.sk_prf.toList q → O' q = O q) →
      j.req.str (withHash P0 O') = j.req.str (withHash P0 O) ∧
      j'.req.str (withHash P0 O') = j'.req.str (withHash P0 O) := fun O O' h => ⟨str_off hj hB h, str_off hj' hB h⟩
  have h1 : (avg fun O => ind (W O) * ind (E O)) ≤ 1 / 256 ^ ps.sp.n + 1 / 2 ^ 256 := by
    cases hps : ps.family with
    | shake =>
      refine (prf_apart_shake P0 hw (M := fun O => j.req.str (withHash P0 O)) (M' := fun O => j'.req.str (withHash P0 O))
        (length_N j.sk_prf) (length_N j'.sk_prf) (length_N (j.rnd.getD j.pk_seed)) (length_N (j'.rnd.getD j'.pk_seed))
        (fun O => str_room hc hB) (fun O => str_room hc' hB) hst hps).le.trans ?_
      refine le_trans (avg_mono fun O => mul_le_of_le_one_left (by positivity) (ind_le_one _)) ?_
      rw [avg_const]
      exact le_add_of_nonneg_right (by positivity)
    | sha2 =>
      refine (prf_apart_sha2 P0 hw (M := fun O => j.req.str (withHash P0 O)) (M' := fun O => j'.req.str (withHash P0 O))
        (length_N j.sk_prf) (length_N j'.sk_prf) (length_N (j.rnd.getD j.pk_seed)) (length_N (j'.rnd.getD j'.pk_seed))
        (fun O => str_room hc hB) (fun O => str_room hc' hB) hst hps).trans (add_le_add le_rfl ?_)
      have h32 : 32 ≤ hlen ps := by rw [hlen]; split <;> decide
      refine one_div_le_one_div_of_le (by positivity) ?_
      calc (2 : ℚ) ^ 256 = 256 ^ 32 := by norm_num
        _ ≤ 256 ^ hlen ps := pow_le_pow_right₀ (by norm_num) h32
  have h2 := avg_preHash (w := w) P0 hw hB j.req j'.req
  rw [prob_eq]
  simp only [sameR_iff hc hc']
  have h3 : (1 / 256 ^ ps.sp.n + 1 / 2 ^ 255 : ℚ) = (1 / 256 ^ ps.sp.n + 1 / 2 ^ 256) + 1 / 2 ^ 256 := by norm_num; ring
  rw [h3]
  refine le_trans (avg_mono fun O => ?_) ((avg_add _ _).le.trans (add_le_add h1 h2))
  change ind (E O) ≤ _
  rcases job_ne (P := withHash P0 O) hc hc' hne with h | h
  · have h4 : ind (W O) = 1 := by rw [ind, if_pos h]
    rw [h4, one_mul]
    exact le_add_of_nonneg_right (ind_nonneg _)
  · refine le_trans (ind_le_one _) (le_trans (le_of_eq ?_) (le_add_of_nonneg_left (mul_nonneg (ind_nonneg _) (ind_nonneg _))))
    rw [ind, if_pos h]

/-- The union over the pairs of a list. -/
theorem pairs_le {Ω α : Type} [Fintype Ω] (E : Ω → α → α → Prop) (D : α → α → Prop) {c : ℚ} (l : List α)
    (h : ∀ a ∈ l, ∀ a' ∈ l, D a a' → (avg fun ω => ind (E ω a a')) ≤ c) (hl : l.Pairwise D) :
    (avg fun ω => ind (¬ l.Pairwise fun a a' => ¬ E ω a a')) ≤ l.length.choose 2 * c := by
  have hsum : ∀ (a : α) (l : List α), (∀ a' ∈ l, (avg fun ω => ind (E ω a a')) ≤ c) →
      (avg fun ω => ind (∃ a' ∈ l, E ω a a')) ≤ l.length * c := by
    intro a l hl
    induction l with
    | nil => simp [ind, avg]
    | cons a' l ih =>
      refine le_trans (le_trans (avg_mono fun ω => le_trans (ind_mono fun h => ?_) (ind_or_le _ _))
        (avg_add (fun ω => ind (E ω a a')) _).le)
        (le_trans (add_le_add (hl a' List.mem_cons_self) (ih fun x h => hl x (List.mem_cons_of_mem _ h))) (le_of_eq ?_))
      · obtain ⟨x, hx, h⟩ := h
        rcases List.mem_cons.mp hx with rfl | hx
        · exact .inl h
        · exact .inr ⟨x, hx, h⟩
      · rw [List.length_cons]
        push_cast
        ring
  induction l with
  | nil => simp [ind, avg]
  | cons a l ih =>
    obtain ⟨hd, hp⟩ := List.pairwise_cons.mp hl
    have h1 := hsum a l fun a' ha' => h a List.mem_cons_self a' (List.mem_cons_of_mem _ ha') (hd a' ha')
    have h2 := ih (fun x hx y hy => h x (List.mem_cons_of_mem _ hx) y (List.mem_cons_of_mem _ hy)) hp
    refine le_trans (le_trans (avg_mono fun ω => le_trans (ind_mono fun h => ?_) (ind_or_le _ _))
      (avg_add (fun ω => ind (∃ a' ∈ l, E ω a a')) _).le) (le_trans (add_le_add h1 h2) (le_of_eq ?_))
    · by_contra hno
      rw [not_or, not_not] at hno
      exact h (List.pairwise_cons.mpr ⟨fun x hx hk => hno.1 ⟨x, hx, hk⟩, hno.2⟩)
    · rw [List.length_cons, Nat.choose_succ_succ, Nat.choose_one_right]
      push_cast
      ring

/-- **C98** Of `q` such signatures any two begin with the same randomizer with probability at most `q (q - 1) / 2` times that. -/
theorem C98_apart (P0 : Spec.Prims) (b : Build) (hw : 64 ≤ w) (hB : 600 + L ≤ B) (jobs : List (SigJob ps L))
    (hc : ∀ j ∈ jobs, j.req.ctx.length ≤ 255) (hj : ∀ j ∈ jobs, ∀ j' ∈ jobs, j'.Clear j)
    (hne : jobs.Pairwise fun j j' => j.input ≠ j'.input) :
    prob (fun O : Query B → Fin (256 ^ w) => ¬ jobs.Pairwise fun j j' => ¬ SameR (withHash P0 O) b j j') ≤
      jobs.length.choose 2 * (1 / 256 ^ ps.sp.n + 1 / 2 ^ 255) := by
  rw [prob_eq]
  refine pairs_le (fun O j j' => SameR (withHash P0 O) b j j') (fun j j' => j.input ≠ j'.input) jobs
    (fun j h j' h' hd => ?_) hne
  have := C98_pair_le (w := w) P0 b hw hB (hc j h) (hc j' h') (hj j h j h) (hj j h j' h') hd
  rwa [prob_eq] at this

/-! ## Hedged signing -/

/-- The job with these random bytes. -/
def SigJob.hedged (j : SigJob ps L) (d : D ps) : SigJob ps L :=
  { j with rnd := some (toVec ps.params.N (Spec.toByte d ps.sp.n)) }

theorem hedged_input {j j' : SigJob ps L} {d d' : D ps} (h : d ≠ d') : (j.hedged d).input ≠ (j'.hedged d').input := by
  intro e
  have e : toVec ps.params.N (Spec.toByte d ps.sp.n) = toVec ps.params.N (Spec.toByte d' ps.sp.n) :=
    congrArg (fun x => x.2.1) e
  have e := congrArg Vector.toList e
  have hl : ∀ d : D ps, (Spec.toByte d ps.sp.n).length = ps.params.N := fun d => by
    rw [Spec.toByte_length]; cases ps <;> rfl
  rw [toVec_toList (hl _), toVec_toList (hl _)] at e
  exact h (by rw [← number_toByte d, e, number_toByte])

theorem avg_meet {Z : Type} [Fintype Z] [Nonempty Z] {q : Nat} {i i' : Fin q} (h : i ≠ i') :
    (avg fun d : Fin q → Z => ind (d i = d i')) = 1 / Fintype.card Z := by
  classical
  rw [avg_update i]
  have key : ∀ (x : Z) (H : Fin q → Z), ind (Function.update H i x i = Function.update H i x i') = ind (x = H i') := by
    intro x H
    rw [Function.update_self, Function.update_of_ne h.symm]
  simp only [key]
  rw [avg_comm]
  simp only [avg_point, avg_const]

/-- **C98** Let the random number generator draw its bytes at random.  Then of `q` hedged signatures, by keys with any seeds, of
any messages, all of them the same if you like, any two begin with the same randomizer with probability at most `q (q - 1) / 2`
times `2 / 256^n + 1 / 2^255`. -/
theorem C98_hedged (P0 : Spec.Prims) (b : Build) (hw : 64 ≤ w) (hB : 600 + L ≤ B) {q : Nat} (jobs : Fin q → SigJob ps L)
    (hc : ∀ i, (jobs i).req.ctx.length ≤ 255) (hj : ∀ i i', (jobs i).Clear (jobs i')) :
    prob (fun x : (Fin q → D ps) × (Query B → Fin (256 ^ w)) =>
      ∃ i i', i ≠ i' ∧ SameR (withHash P0 x.2) b ((jobs i).hedged (x.1 i)) ((jobs i').hedged (x.1 i'))) ≤
      q.choose 2 * (2 / 256 ^ ps.sp.n + 1 / 2 ^ 255) := by
  have hO : Nonempty (Query B → Fin (256 ^ w)) := ⟨fun _ => ⟨0, Nat.pow_pos (by decide)⟩⟩
  have hD : Nonempty (D ps) := ⟨⟨0, Nat.pow_pos (by decide)⟩⟩
  have hcard : (Fintype.card (D ps) : ℚ) = 256 ^ ps.sp.n := by rw [Fintype.card_fin]; push_cast; rfl
  rw [prob_eq]
  have key := pairs_le (Ω := (Fin q → D ps) × (Query B → Fin (256 ^ w)))
    (fun x i i' => SameR (withHash P0 x.2) b ((jobs i).hedged (x.1 i)) ((jobs i').hedged (x.1 i'))) (· ≠ ·)
    (c := 2 / 256 ^ ps.sp.n + 1 / 2 ^ 255) (List.finRange q) (fun i _ i' _ h => ?_) (List.nodup_finRange q)
  · rw [List.length_finRange] at key
    refine le_trans (avg_mono fun x => ind_mono fun ⟨i, i', hne, hs⟩ hp => ?_) key
    have hsym : Std.Symm (fun i i' => ¬ SameR (withHash P0 x.2) b ((jobs i).hedged (x.1 i)) ((jobs i').hedged (x.1 i'))) :=
      ⟨fun i i' h ⟨s, s', h1, h2, h3⟩ => h ⟨s', s, h2, h1, h3.symm⟩⟩
    exact hp.forall (List.mem_finRange i) (List.mem_finRange i') hne hs
  · have h2 := avg_two_le (X := Fin q → D ps) (Y := Query B → Fin (256 ^ w))
      (E := fun d O => SameR (withHash P0 O) b ((jobs i).hedged (d i)) ((jobs i').hedged (d i')))
      (F := fun d _ => d i = d i')
      (G := fun d O => d i ≠ d i' ∧ SameR (withHash P0 O) b ((jobs i).hedged (d i)) ((jobs i').hedged (d i')))
      (fun d O h => (em (d i = d i')).imp id fun hn => ⟨hn, h⟩) (a := 1 / 256 ^ ps.sp.n)
      (c := 1 / 256 ^ ps.sp.n + 1 / 2 ^ 255) (fun O => ?_) (fun d => ?_)
    · refine h2.trans (le_of_eq ?_)
      ring
    · rw [avg_meet h, hcard]
    · by_cases hd : d i = d i'
      · have h0 : ∀ O : Query B → Fin (256 ^ w), ind (d i ≠ d i' ∧
            SameR (withHash P0 O) b ((jobs i).hedged (d i)) ((jobs i').hedged (d i'))) = 0 := fun O => by simp [ind, hd]
        simp only [h0, avg_const]
        positivity
      · have := C98_pair_le (w := w) P0 b hw hB (j := (jobs i).hedged (d i)) (j' := (jobs i').hedged (d i')) (hc i) (hc i')
          (hj i i) (hj i' i) (hedged_input hd)
        rw [prob_eq] at this
        exact le_trans (avg_mono fun O => ind_mono fun h => h.2) this

/-- **C98** So hedged signing gives another signature each time. -/
theorem C98_signatures (P0 : Spec.Prims) (b : Build) (hw : 64 ≤ w) (hB : 600 + L ≤ B) {q : Nat}
    (jobs : Fin q → SigJob ps L) (hc : ∀ i, (jobs i).req.ctx.length ≤ 255) (hj : ∀ i i', (jobs i).Clear (jobs i')) :
    prob (fun x : (Fin q → D ps) × (Query B → Fin (256 ^ w)) =>
      ∃ i i', i ≠ i' ∧ SameSig (withHash P0 x.2) b ((jobs i).hedged (x.1 i)) ((jobs i').hedged (x.1 i'))) ≤
      q.choose 2 * (2 / 256 ^ ps.sp.n + 1 / 2 ^ 255) := by
  refine le_trans ?_ (C98_hedged P0 b hw hB jobs hc hj)
  rw [prob_eq, prob_eq]
  exact avg_mono fun x => ind_mono fun ⟨i, i', h, hs⟩ => ⟨i, i', h, hs.same⟩

/-- **C98** Every job is done: these statements are about signatures that exist. -/
theorem C98_made (P : Spec.Prims) (b : Build) (j : SigJob ps L) (hc : j.req.ctx.length ≤ 255) : ∃ sig, j.Signs P b sig :=
  ⟨_, (job_signs_iff hc).mpr rfl⟩

/-! ## The hypotheses can be met -/

/-- The same message signed twice by one key, deterministically and hedged. -/
example (ps : ParamSet) (P0 : Spec.Prims) (b : Build) (sk_seed sk_prf : Vector UInt8 ps.params.N) :
    prob (fun O : Query 4096 → Fin (256 ^ 64) => SameR (withHash P0 O) b
      (⟨sk_seed, sk_prf, Vector.replicate _ 2, ⟨none, [9], [1, 2, 3], by decide⟩, none⟩ : SigJob ps 100)
      ⟨sk_seed, sk_prf, Vector.replicate _ 2, ⟨none, [9], [1, 2, 3], by decide⟩, some (Vector.replicate _ 7)⟩) ≤
      1 / 256 ^ ps.sp.n + 1 / 2 ^ 255 := by
  refine C98_pair_le P0 b (by decide) (by decide) (by simp) (by simp) (fun h => absurd rfl h) (fun h => absurd rfl h)
    fun h => ?_
  have h : Vector.replicate ps.params.N (2 : UInt8) = Vector.replicate ps.params.N 7 := congrArg (fun x => x.2.1) h
  have h := congrArg Vector.toList h
  obtain ⟨k, hk⟩ : ∃ k, ps.params.N = k + 1 := ⟨ps.params.N - 1, by cases ps <;> rfl⟩
  rw [Vector.toList_replicate, Vector.toList_replicate, hk, List.replicate_succ, List.replicate_succ] at h
  exact absurd (List.cons.inj h).1 (by decide)

theorem keyBlocks_length {k X : List UInt8} (hk : k.length = ps.sp.n) (hX : X ∈ keyBlocks ps k) : ps.sp.n ≤ X.length := by
  have hb := n_le_blen ps
  rw [keyBlocks] at hX
  split at hX
  · rw [List.mem_singleton.mp hX, hk]
  · rcases List.mem_cons.mp hX with rfl | hX
    · rw [padBy_length hk]
      omega
    · rw [List.mem_singleton.mp hX, padBy_length hk]
      omega

/-- Short messages are clear of all keys. -/
theorem clear_of_short {j key : SigJob ps L} (h : j.req.msg.length < 16) : j.Clear key := by
  intro _ X hX hp
  have h1 := keyBlocks_length (length_N _) hX
  have h2 := hp.length_le
  have h3 := sixteen_le_n ps
  omega

/-- A short message signed with its hash: the randomizer is uniform. -/
example (ps : ParamSet) (P0 : Spec.Prims) (b : Build) (sk_seed sk_prf pk_seed : Vector UInt8 ps.params.N) (ph : Ph) :
    prob (fun O : Query 4096 → Fin (256 ^ 64) => ∃ sig,
      (⟨sk_seed, sk_prf, pk_seed, ⟨some ph, [9], [1, 2, 3], by decide⟩, none⟩ : SigJob ps 100).Signs (withHash P0 O) b sig ∧
        sig.toList.take ps.sp.n = List.replicate ps.sp.n 5) = 1 / 256 ^ ps.sp.n :=
  C98_uniform P0 b (by decide) (by decide) (by simp) (clear_of_short (show [1, 2, 3].length < 16 by decide)) (by simp)

/-- The same message signed `2^32` times by one key: no signature comes twice, except with probability `2^-63`. -/
example (ps : ParamSet) (P0 : Spec.Prims) (b : Build) (j : SigJob ps 100) (hc : j.req.ctx.length ≤ 255) (hj : j.Clear j) :
    prob (fun x : (Fin (2 ^ 32) → D ps) × (Query 4096 → Fin (256 ^ 64)) =>
      ∃ i i', i ≠ i' ∧ SameSig (withHash P0 x.2) b (j.hedged (x.1 i)) (j.hedged (x.1 i'))) ≤ 1 / 2 ^ 63 := by
  refine (C98_signatures P0 b (by decide) (by decide) (fun _ => j) (fun _ => hc) fun _ _ => hj).trans ?_
  have hn := sixteen_le_n ps
  have h1 : (2 : ℚ) / 256 ^ ps.sp.n ≤ 2 / 256 ^ 16 :=
    div_le_div_of_nonneg_left (by norm_num) (by positivity) (pow_le_pow_right₀ (by norm_num) hn)
  refine le_trans (mul_le_mul_of_nonneg_left (add_le_add h1 le_rfl) (Nat.cast_nonneg _)) ?_
  rw [Nat.choose_two_right]
  norm_num

end Fips205.Props
