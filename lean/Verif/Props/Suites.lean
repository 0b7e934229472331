import Verif.Props.Vectors
import Verif.Model.Suites
import Verif.Spec.Text
import Mathlib.Tactic.IntervalCases

/-!
# What it means that the ACVP test suites pass: C80
-/

namespace Fips205.Props
open Fips205 Fips205.Model

variable {ps : ParamSet} {P : Spec.Prims} {b : Build} {T : Type}

/-! ## Hexadecimal -/

theorem hexVal_iff (c : Char) (x : UInt8) : hexVal c = some x ↔ Spec.HexDigit c x.toNat := by
  have hd : ∀ d : Nat, Spec.HexDigit c d → d < 16 := by
    intro d h
    by_contra hlt
    push Not at hlt
    rcases h with h | h
    · rw [List.getElem?_eq_none (by simpa using hlt)] at h
      cases h
    · rw [List.getElem?_eq_none (by simpa using hlt)] at h
      cases h
  constructor
  · intro h
    rw [hexVal] at h
    have hlow : ∀ a : Char, a ≤ c → a.toNat ≤ c.toNat := fun a h => UInt32.le_iff_toNat_le.mp h
    have hup : ∀ a : Char, c ≤ a → c.toNat ≤ a.toNat := fun a h => UInt32.le_iff_toNat_le.mp h
    have hc : ∀ k, c.toNat = k → c = Char.ofNat k := by
      rintro k rfl
      exact (Char.ofNat_toNat c).symm
    split at h
    · rename_i hr
      have h1 : 65 ≤ c.toNat := hlow 'A' hr.1
      have h2 : c.toNat ≤ 70 := hup 'F' hr.2
      obtain rfl := Option.some.inj h
      have h3 : c.toNat = 65 ∨ c.toNat = 66 ∨ c.toNat = 67 ∨ c.toNat = 68 ∨ c.toNat = 69 ∨ c.toNat = 70 := by omega
      rcases h3 with e | e | e | e | e | e <;> obtain rfl := hc _ e <;> exact Or.inr (by rfl)
    · split at h
      · rename_i hr
        have h1 : 97 ≤ c.toNat := hlow 'a' hr.1
        have h2 : c.toNat ≤ 102 := hup 'f' hr.2
        obtain rfl := Option.some.inj h
        have h3 : c.toNat = 97 ∨ c.toNat = 98 ∨ c.toNat = 99 ∨ c.toNat = 100 ∨ c.toNat = 101 ∨ c.toNat = 102 := by
          omega
        rcases h3 with e | e | e | e | e | e <;> obtain rfl := hc _ e <;> exact Or.inl (by rfl)
      · split at h
        · rename_i hr
          have h1 : 48 ≤ c.toNat := hlow '0' hr.1
          have h2 : c.toNat ≤ 57 := hup '9' hr.2
          obtain rfl := Option.some.inj h
          have h3 : c.toNat = 48 ∨ c.toNat = 49 ∨ c.toNat = 50 ∨ c.toNat = 51 ∨ c.toNat = 52 ∨ c.toNat = 53 ∨
            c.toNat = 54 ∨ c.toNat = 55 ∨ c.toNat = 56 ∨ c.toNat = 57 := by omega
          rcases h3 with e | e | e | e | e | e | e | e | e | e <;> obtain rfl := hc _ e <;> exact Or.inl (by rfl)
        · cases h
  · intro h
    have hlt := hd _ h
    have hx : x = UInt8.ofNat x.toNat := by simp
    rw [hx]
    generalize x.toNat = d at h hlt
    have : ∀ d < 16, ∀ c, Spec.HexDigit c d → hexVal c = some (UInt8.ofNat d) := by
      intro d hlt c h
      interval_cases d <;> rcases h with h | h <;>
        (obtain rfl := Option.some.inj h; rfl)
    exact this d hlt c h

theorem hexVal_lt {c : Char} {x : UInt8} (h : hexVal c = some x) : x.toNat < 16 := by
  rcases (hexVal_iff c x).mp h with h | h <;>
    simpa using (List.getElem?_eq_some_iff.mp h).1

theorem hex_byte : ∀ h < 16, ∀ l < 16,
    ((UInt8.ofNat h) <<< 4 ||| UInt8.ofNat l).toNat = 16 * h + l := by decide

theorem hexDecode_iff : ∀ (s : List Char) (x : List UInt8), hexDecode s = some x ↔ Spec.Hex s x
  | [], x => by
    rw [hexDecode]
    constructor
    · intro h
      obtain rfl := Option.some.inj h
      exact .nil
    · rintro ⟨⟩
      rfl
  | [_], x => by
    rw [hexDecode]
    constructor
    · intro h
      cases h
    · intro h
      cases h
  | u :: v :: cs, x => by
    have key : ∀ h l : UInt8, h.toNat < 16 → l.toNat < 16 → (h <<< 4 ||| l).toNat = 16 * h.toNat + l.toNat :=
      fun h l hh hl => by simpa using hex_byte h.toNat hh l.toNat hl
    rw [hexDecode]
    simp only [Option.bind_eq_bind, Option.bind_eq_some_iff, Option.some.injEq]
    constructor
    · rintro ⟨h, hh, l, hl, xs, hxs, rfl⟩
      exact .cons ((hexVal_iff _ _).mp hh) ((hexVal_iff _ _).mp hl) (key h l (hexVal_lt hh) (hexVal_lt hl))
        ((hexDecode_iff cs xs).mp hxs)
    · intro hx
      cases hx with
      | @cons _ _ h l x _ xs hu hv hx hr =>
        have hd : ∀ {c : Char} {d : Nat}, Spec.HexDigit c d → d < 16 := fun {c d} h => by
          rcases h with h | h <;> simpa using (List.getElem?_eq_some_iff.mp h).1
        have hh := hd hu
        have hl := hd hv
        have e1 : (UInt8.ofNat h).toNat = h := by simp; omega
        have e2 : (UInt8.ofNat l).toNat = l := by simp; omega
        have h1 := (hexVal_iff u (UInt8.ofNat h)).mpr (by rwa [e1])
        have h2 := (hexVal_iff v (UInt8.ofNat l)).mpr (by rwa [e2])
        refine ⟨_, h1, _, h2, _, (hexDecode_iff cs xs).mpr hr, ?_⟩
        rw [List.cons.injEq]
        refine ⟨UInt8.toNat_inj.mp ?_, rfl⟩
        rw [key _ _ (by omega) (by omega), e1, e2, hx]

theorem dehex_bind {α : Type} {s : List Char} {f : List UInt8 → Exec b α} {v : α} :
    ((dehex s : Exec b _) >>= f) = pure v ↔ ∃ x, Spec.Hex s x ∧ f x = pure v := by
  rw [dehex]
  cases h : hexDecode s with
  | none =>
    refine ⟨fun e => (by cases e), ?_⟩
    rintro ⟨x, hx, -⟩
    rw [(hexDecode_iff s x).mpr hx] at h
    cases h
  | some y =>
    simp only [pure_bind]
    refine ⟨fun e => ⟨y, (hexDecode_iff s y).mp h, e⟩, ?_⟩
    rintro ⟨x, hx, e⟩
    rw [(hexDecode_iff s x).mpr hx] at h
    obtain rfl := Option.some.inj h
    exact e

/-! ## Counting failures -/

/-- Running `f` adds some failures, at most `size`: none exactly if `good`; or it panics, if not `good`. -/
def Counts (f : Int32 → Exec b Int32) (size : Nat) (good : Prop) : Prop :=
  ∀ c : Int32, 0 ≤ c.toInt → (b.overflowChecks = true ∨ c.toInt + size < 2 ^ 31) →
    (∃ (c' : Int32) (k : Nat), f c = pure c' ∧ k ≤ size ∧ c'.toInt = c.toInt + k ∧ (k = 0 ↔ good)) ∨
    (∃ e, f c = Model.panic e ∧ ¬ good)

theorem exec_addI32 {c : Int32} (h0 : 0 ≤ c.toInt) (h1 : c.toInt + 1 < 2 ^ 31) :
    ∃ c' : Int32, (addI32 c 1 : Exec b _) = pure c' ∧ c'.toInt = c.toInt + 1 := by
  have e1 : (1 : Int32).toInt = 1 := by decide
  refine ⟨c + 1, ?_, ?_⟩
  · rw [addI32, ovf, e1, decide_eq_false (by omega)]
    rfl
  · rw [Int32.toInt_add, e1]
    exact Int.bmod_eq_of_le (by omega) (by omega)

theorem Counts.one {x : Exec b Bool} {good : Prop} (h : x = pure true ↔ good) :
    Counts (fun c => x >>= count_failure c) 1 good := by
  intro c h0 h1
  match x, h with
  | .ok true, h => exact .inl ⟨c, 0, rfl, by omega, by omega, fun _ => h.mp rfl, fun _ => rfl⟩
  | .ok false, h =>
    by_cases hlt : c.toInt + 1 < 2 ^ 31
    · obtain ⟨c', e, hc⟩ := exec_addI32 (b := b) h0 hlt
      exact .inl ⟨c', 1, e, le_rfl, hc, fun h => absurd h (by omega), fun g => by cases h.mpr g⟩
    · refine .inr ⟨.overflow, ?_, fun g => by cases h.mpr g⟩
      have hb := h1.resolve_right fun h => hlt (by omega)
      have e1 : (1 : Int32).toInt = 1 := by decide
      have : (addI32 c 1 : Exec b _) = Model.panic .overflow := by
        rw [addI32, ovf, e1, decide_eq_true (by omega)]
        show (if (true && b.overflowChecks) = true then _ else _) = _
        rw [hb]
        rfl
      exact this
  | .error e, h => exact .inr ⟨e, rfl, fun g => by cases h.mpr g⟩

theorem exec_forEach_cons {ε τ : Type} (x : ε) (xs : List ε) (s : τ) (f : ε → τ → Exec b τ) :
    forEach (x :: xs) s f = f x s >>= fun s => forEach xs s f := rfl

theorem Counts.list {ε : Type} {f : ε → Int32 → Exec b Int32} {size : ε → Nat} {good : ε → Prop} :
    ∀ {l : List ε}, (∀ a ∈ l, Counts (f a) (size a) (good a)) →
      Counts (fun c => forEach l c f) (l.map size).sum (∀ a ∈ l, good a)
  | [], _ => fun c _ _ => .inl ⟨c, 0, rfl, by simp, by simp, fun _ _ h => absurd h (by simp), fun _ => rfl⟩
  | a :: l, h => by
    intro c h0 h1
    simp only [List.map_cons, List.sum_cons] at h1 ⊢
    rw [exec_forEach_cons]
    rcases h a (by simp) c h0 (h1.imp_right fun h => by omega) with ⟨c1, k1, e1, hk1, hc1, hg1⟩ | ⟨e, he, hg⟩
    · rw [e1, pure_bind]
      rcases Counts.list (l := l) (fun a' ha' => h a' (by simp [ha'])) c1 (by omega)
        (h1.imp_right fun h => by omega) with
        ⟨c2, k2, e2, hk2, hc2, hg2⟩ | ⟨e, he, hg⟩
      · refine .inl ⟨c2, k1 + k2, e2, by omega, by omega, ?_⟩
        rw [List.forall_mem_cons, ← hg1, ← hg2]
        omega
      · exact .inr ⟨e, he, fun hall => hg fun a' ha' => hall a' (by simp [ha'])⟩
    · refine .inr ⟨e, by rw [he]; rfl, fun hall => hg (hall a (by simp))⟩

/-! ## Groups -/

theorem acvpSet_name (ps : ParamSet) : acvpSet (Spec.setName ps.family ps.size) = some ps.params := by
  cases ps <;> simp [acvpSet, Spec.setName, ParamSet.family, ParamSet.size, Spec.Family.name, Spec.Size.name,
    ParamSet.params]

theorem acvpSet_some {s : String} {p : Model.Params} (h : acvpSet s = some p) :
    ∃ ps : ParamSet, s = Spec.setName ps.family ps.size ∧ p = ps.params := by
  have key : ∀ ps : ParamSet, s = Spec.setName ps.family ps.size →
      ∃ ps : ParamSet, s = Spec.setName ps.family ps.size ∧ p = ps.params := fun ps e =>
    ⟨ps, e, by rw [e, acvpSet_name] at h; exact (Option.some.inj h).symm⟩
  unfold acvpSet at h
  split at h
  · exact key .slh_dsa_sha2_128s rfl
  · exact key .slh_dsa_shake_128s rfl
  · exact key .slh_dsa_sha2_128f rfl
  · exact key .slh_dsa_shake_128f rfl
  · exact key .slh_dsa_sha2_192s rfl
  · exact key .slh_dsa_shake_192s rfl
  · exact key .slh_dsa_sha2_192f rfl
  · exact key .slh_dsa_shake_192f rfl
  · exact key .slh_dsa_sha2_256s rfl
  · exact key .slh_dsa_shake_256s rfl
  · exact key .slh_dsa_sha2_256f rfl
  · exact key .slh_dsa_shake_256f rfl
  · cases h

theorem setName_inj {ps ps' : ParamSet}
    (h : Spec.setName ps.family ps.size = Spec.setName ps'.family ps'.size) : ps = ps' := by
  cases ps <;> cases ps' <;>
    first
      | rfl
      | simp [Spec.setName, ParamSet.family, ParamSet.size, Spec.Family.name, Spec.Size.name] at h

/-- The body of the loop over the groups. -/
def groupRun (test : Model.Params → TestGroup T → Int32 → Exec b Int32) (group : TestGroup T)
    (fail_count : Int32) : Exec b Int32 :=
  match acvpSet group.parameterSet with
  | some p => test p group fail_count
  | none => pure fail_count

theorem run_groups_eq (test : Model.Params → TestGroup T → Int32 → Exec b Int32) (groups : List (TestGroup T)) :
    (run_groups groups test : Exec b Unit) = forEach groups (0 : Int32) (groupRun test) >>= fun c => assert (c == 0) :=
  rfl

/-- A group counts if its name is one of Table 2. -/
theorem Counts.groups {test : Model.Params → TestGroup T → Int32 → Exec b Int32}
    {good : ParamSet → TestGroup T → T → Prop} {groups : List (TestGroup T)}
    (h : ∀ ps, ∀ g ∈ groups, Counts (test ps.params g) g.tests.length (∀ t ∈ g.tests, good ps g t))
    (hsize : b.overflowChecks = true ∨ (groups.map fun g => g.tests.length).sum < 2 ^ 31) :
    (run_groups groups test : Exec b Unit) = pure () ↔
      ∀ g ∈ groups, ∀ ps : ParamSet, g.parameterSet = Spec.setName ps.family ps.size → ∀ t ∈ g.tests, good ps g t := by
  have hl := Counts.list (b := b) (l := groups) (f := groupRun test) (size := fun g => g.tests.length)
    (good := fun g => ∀ ps : ParamSet, g.parameterSet = Spec.setName ps.family ps.size → ∀ t ∈ g.tests, good ps g t)
    (by
      intro g hg
      cases hs : acvpSet g.parameterSet with
      | none =>
        intro c _ _
        refine .inl ⟨c, 0, by rw [groupRun, hs], by omega, by omega, fun _ ps e => ?_, fun _ => rfl⟩
        rw [e, acvpSet_name] at hs
        cases hs
      | some p =>
        obtain ⟨ps, e, rfl⟩ := acvpSet_some hs
        have := h ps g hg
        intro c h0 h1
        rw [groupRun, hs]
        dsimp only
        rcases this c h0 h1 with ⟨c', k, e1, hk, hc, hg'⟩ | ⟨e1, he, hg'⟩
        · refine .inl ⟨c', k, e1, hk, hc, hg'.trans ⟨fun hall ps' e' => ?_, fun hall => hall ps e⟩⟩
          obtain rfl := setName_inj (e.symm.trans e')
          exact hall
        · exact .inr ⟨e1, he, fun hall => hg' (hall ps e)⟩)
    0 (by decide) (hsize.imp_right fun h => by
      have : (0 : Int32).toInt = 0 := by decide
      omega)
  have h00 : (0 : Int32).toInt = 0 := by decide
  beta_reduce at hl
  rw [run_groups_eq]
  rcases hl with ⟨c, k, e, hk, hc, hg⟩ | ⟨e, he, hg⟩
  · rw [e, pure_bind, ← hg, assert]
    by_cases h0 : k = 0
    · have : c = 0 := Int32.toInt_inj.mp (by omega)
      simp [h0, this]
    · have : c ≠ 0 := fun e => by rw [e] at hc; omega
      rw [if_neg (by simpa using this)]
      exact ⟨fun e => (by cases e), fun e => absurd e h0⟩
  · rw [he]
    exact ⟨fun e => (by cases e), fun hall => absurd hall hg⟩

theorem check_header_iff {kat : KatFile T} {mode : String} {x : Exec b Unit} :
    ((check_header kat mode : Exec b Unit) >>= fun _ => x) = pure () ↔
      kat.algorithm = "SLH-DSA" ∧ kat.mode = mode ∧ kat.revision = "FIPS205" ∧ x = pure () := by
  have ha : ∀ (c : Bool) (y : Exec b Unit), ((assert c : Exec b Unit) >>= fun _ => y) = pure () ↔
      c = true ∧ y = pure () := by
    intro c y
    cases c
    · exact ⟨fun e => (by cases e), fun e => (by cases e.1)⟩
    · exact ⟨fun e => ⟨rfl, e⟩, fun e => e.2⟩
  rw [check_header]
  simp only [bind_assoc]
  rw [ha, ha, ha]
  simp only [beq_iff_eq]

/-! ## C80 -/

/-- A key generation vector of FIPS 205: seeds of `n` bytes and the keys of Algorithm 18. -/
def KeygenVector (ps : ParamSet) (P : Spec.Prims) (t : KeyGenTest) : Prop :=
  ∃ sk_seed sk_prf pk_seed sk pk, Spec.Hex t.sk_seed sk_seed ∧ Spec.Hex t.sk_prf sk_prf ∧
    Spec.Hex t.pk_seed pk_seed ∧ Spec.Hex t.sk sk ∧ Spec.Hex t.pk pk ∧
    (sk_seed.length = ps.sp.n ∧ sk_prf.length = ps.sp.n ∧ pk_seed.length = ps.sp.n) ∧
    (sk, pk) = Spec.keygenInternal ps.sp (ps.hf P) sk_seed sk_prf pk_seed

/-- **C80** The key generation suite passes exactly if the file has the right header and every test of every group
that is named after a parameter set is a vector of FIPS 205.  (Without overflow checks, `2^32` failures would
bring the counter back to 0.) -/
theorem C80_keygen_suite (kat : KatFile KeyGenTest)
    (hsize : b.overflowChecks = true ∨ (kat.testGroups.map fun g => g.tests.length).sum < 2 ^ 31) :
    (run_keygen_tests (crypto P) kat : Exec b Unit) = pure () ↔
      kat.algorithm = "SLH-DSA" ∧ kat.mode = "keyGen" ∧ kat.revision = "FIPS205" ∧
      ∀ g ∈ kat.testGroups, ∀ ps : ParamSet, g.parameterSet = Spec.setName ps.family ps.size →
        ∀ t ∈ g.tests, KeygenVector ps P t := by
  rw [run_keygen_tests, check_header_iff, Counts.groups (good := fun ps _ t => KeygenVector ps P t) _ hsize]
  intro ps g _
  have hs : g.tests.length = (g.tests.map fun _ => 1).sum := by simp
  rw [hs]
  refine Counts.list fun t _ => ?_
  have := Counts.one (b := b) (good := KeygenVector ps P t) (x := do
    let sk_seed ← dehex t.sk_seed
    let sk_prf ← dehex t.sk_prf
    let pk_seed ← dehex t.pk_seed
    let sk ← dehex t.sk
    let pk ← dehex t.pk
    acvp_keygen ps.params (crypto P) sk_seed sk_prf pk_seed sk pk) (by
      simp only [dehex_bind, C58_acvp_keygen]
      constructor
      · rintro ⟨a, ha, c, hc, d, hd, sk, hsk, pk, hpk, h⟩
        split at h
        · rename_i hl
          refine ⟨a, c, d, sk, pk, ha, hc, hd, hsk, hpk, hl, ?_⟩
          exact of_decide_eq_true (Exec.pure_inj h)
        · cases h
      · rintro ⟨a, c, d, sk, pk, ha, hc, hd, hsk, hpk, hl, h⟩
        refine ⟨a, ha, c, hc, d, hd, sk, hsk, pk, hpk, ?_⟩
        rw [if_pos hl, decide_eq_true h])
  simpa only [bind_assoc] using this

/-- The additional randomness of a signing test; without any it is empty. -/
def Randomness : Option (List Char) → List UInt8 → Prop
  | some s, x => Spec.Hex s x
  | none, x => x = []

/-- A signing vector of FIPS 205: a private key whose root is that of its seeds, and the signature of
Algorithm 19 with the additional randomness or, if `deterministic`, with `PK.seed`. -/
def SignVector (ps : ParamSet) (P : Spec.Prims) (deterministic : Bool) (t : SignTest) : Prop :=
  ∃ sk rnd message signature, Spec.Hex t.sk sk ∧ Randomness t.additional_randomness rnd ∧
    Spec.Hex t.message message ∧ Spec.Hex t.signature signature ∧
    ∃ a c d r, (a.length = ps.sp.n ∧ c.length = ps.sp.n ∧ d.length = ps.sp.n ∧ r.length = ps.sp.n) ∧
      sk = Spec.encodeSK a c d r ∧ r = Spec.pkRoot ps.sp (ps.hf P) a d ∧
      (deterministic = false → rnd.length = ps.sp.n) ∧
      signature = Spec.signInternal ps.sp (ps.hf P) message a c d r (if deterministic then d else rnd)

theorem acvp_sign_iff (deterministic : Bool) (sk rnd message signature : List UInt8) :
    (acvp_sign ps.params (crypto P) deterministic sk rnd message signature : Exec b Bool) = pure true ↔
    ∃ a c d r, (a.length = ps.sp.n ∧ c.length = ps.sp.n ∧ d.length = ps.sp.n ∧ r.length = ps.sp.n) ∧
      sk = Spec.encodeSK a c d r ∧ r = Spec.pkRoot ps.sp (ps.hf P) a d ∧
      (deterministic = false → rnd.length = ps.sp.n) ∧
      signature = Spec.signInternal ps.sp (ps.hf P) message a c d r (if deterministic then d else rnd) := by
  by_cases hlen : sk.length = 4 * ps.sp.n
  · obtain ⟨a, c, d, r, ha, hc, hd, hr, rfl⟩ : ∃ a c d r : List UInt8, a.length = ps.sp.n ∧ c.length = ps.sp.n ∧
        d.length = ps.sp.n ∧ r.length = ps.sp.n ∧ sk = Spec.encodeSK a c d r := by
      refine ⟨sk.take ps.sp.n, (sk.drop ps.sp.n).take ps.sp.n, (sk.drop (2 * ps.sp.n)).take ps.sp.n,
        sk.drop (3 * ps.sp.n), ?_, ?_, ?_, ?_, ?_⟩
      · rw [List.length_take]; omega
      · rw [List.length_take, List.length_drop]; omega
      · rw [List.length_take, List.length_drop]; omega
      · rw [List.length_drop]; omega
      · have e2 : sk.drop (2 * ps.sp.n) = (sk.drop ps.sp.n).drop ps.sp.n := by rw [List.drop_drop, Nat.two_mul]
        have e3 : sk.drop (3 * ps.sp.n) = ((sk.drop ps.sp.n).drop ps.sp.n).drop ps.sp.n := by
          rw [List.drop_drop, List.drop_drop]
          congr 1
          omega
        rw [Spec.encodeSK, e2, e3, List.append_assoc, List.append_assoc, List.take_append_drop,
          List.take_append_drop, List.take_append_drop]
    rw [C58_acvp_sign (b := b) (P := P) deterministic ha hc hd hr rnd message signature]
    constructor
    · intro h
      split at h
      · cases h
      · rename_i hroot
        rw [not_not] at hroot
        refine ⟨a, c, d, r, ⟨ha, hc, hd, hr⟩, rfl, hroot, ?_⟩
        split at h
        · rename_i hdet
          subst hdet
          exact ⟨fun h => (by cases h), of_decide_eq_true (Exec.pure_inj h)⟩
        · rename_i hdet
          rw [Bool.not_eq_true] at hdet
          subst hdet
          split at h
          · rename_i hl
            exact ⟨fun _ => hl, of_decide_eq_true (Exec.pure_inj h)⟩
          · cases h
    · rintro ⟨a', c', d', r', ⟨ha', hc', hd', hr'⟩, e, hroot, hl, hsig⟩
      obtain ⟨rfl, rfl, rfl, rfl⟩ : a = a' ∧ c = c' ∧ d = d' ∧ r = r' := by
        simp only [Spec.encodeSK] at e
        obtain ⟨e, e4⟩ := List.append_inj' e (by rw [hr, hr'])
        obtain ⟨e, e3⟩ := List.append_inj' e (by rw [hd, hd'])
        obtain ⟨e1, e2⟩ := List.append_inj' e (by rw [hc, hc'])
        exact ⟨e1, e2, e3, e4⟩
      rw [if_neg (not_not.mpr hroot)]
      cases deterministic
      · rw [if_neg (by simp), if_pos (hl rfl), decide_eq_true (by simpa using hsig)]
      · rw [if_pos rfl, decide_eq_true (by simpa using hsig)]
  · rw [C58_acvp_sign_length (b := b) (P := P) deterministic hlen]
    refine ⟨fun h => (by cases h), ?_⟩
    rintro ⟨a, c, d, r, ⟨ha, hc, hd, hr⟩, rfl, -⟩
    refine absurd ?_ hlen
    simp only [Spec.encodeSK, List.length_append, ha, hc, hd, hr]
    omega

theorem randomness_bind {α : Type} {o : Option (List Char)} {f : List UInt8 → Exec b α} {v : α} :
    ((dehex_default o : Exec b _) >>= f) = pure v ↔ ∃ x, Randomness o x ∧ f x = pure v := by
  cases o with
  | none =>
    simp only [dehex_default, pure_bind]
    exact ⟨fun h => ⟨[], rfl, h⟩, by rintro ⟨x, rfl, h⟩; exact h⟩
  | some s => exact dehex_bind

/-- **C80** The same for the signing suite. -/
theorem C80_signing_suite (kat : KatFile SignTest)
    (hsize : b.overflowChecks = true ∨ (kat.testGroups.map fun g => g.tests.length).sum < 2 ^ 31) :
    (run_signing_tests (crypto P) kat : Exec b Unit) = pure () ↔
      kat.algorithm = "SLH-DSA" ∧ kat.mode = "sigGen" ∧ kat.revision = "FIPS205" ∧
      ∀ g ∈ kat.testGroups, ∀ ps : ParamSet, g.parameterSet = Spec.setName ps.family ps.size →
        ∀ t ∈ g.tests, SignVector ps P g.deterministic t := by
  rw [run_signing_tests, check_header_iff,
    Counts.groups (good := fun ps g t => SignVector ps P g.deterministic t) _ hsize]
  intro ps g _
  have hs : g.tests.length = (g.tests.map fun _ => 1).sum := by simp
  rw [hs]
  refine Counts.list fun t _ => ?_
  have := Counts.one (b := b) (good := SignVector ps P g.deterministic t) (x := do
    let sk ← dehex t.sk
    let additional_randomness ← dehex_default t.additional_randomness
    let message ← dehex t.message
    let signature ← dehex t.signature
    acvp_sign ps.params (crypto P) g.deterministic sk additional_randomness message signature) (by
      simp only [dehex_bind, randomness_bind, acvp_sign_iff]
      constructor
      · rintro ⟨sk, h1, rnd, h2, msg, h3, sig, h4, h⟩
        exact ⟨sk, rnd, msg, sig, h1, h2, h3, h4, h⟩
      · rintro ⟨sk, rnd, msg, sig, h1, h2, h3, h4, h⟩
        exact ⟨sk, h1, rnd, h2, msg, h3, sig, h4, h⟩)
  simpa only [bind_assoc] using this

/-- A verification vector of FIPS 205: its verdict is that of Algorithm 20; public keys and signatures of the wrong
length are to be rejected. -/
def VerifyVector (ps : ParamSet) (P : Spec.Prims) (t : VerifyTest) : Prop :=
  ∃ pk message signature, Spec.Hex t.pk pk ∧ Spec.Hex t.message message ∧ Spec.Hex t.signature signature ∧
    (t.test_passed = true ↔ ∃ pk_seed pk_root, pk_seed.length = ps.sp.n ∧ pk_root.length = ps.sp.n ∧
      pk = Spec.encodePK pk_seed pk_root ∧
      Spec.verifyInternal ps.sp (ps.hf P) message signature pk_seed pk_root = true)

/-- `catch_unwind`. -/
def caught {α : Type} (x : Exec b α) : Except Panic α := x

/-- **C80** The same for the verification suite. -/
theorem C80_verification_suite (kat : KatFile VerifyTest)
    (hsize : b.overflowChecks = true ∨ (kat.testGroups.map fun g => g.tests.length).sum < 2 ^ 31) :
    (run_verification_tests (crypto P) caught kat : Exec b Unit) = pure () ↔
      kat.algorithm = "SLH-DSA" ∧ kat.mode = "sigVer" ∧ kat.revision = "FIPS205" ∧
      ∀ g ∈ kat.testGroups, ∀ ps : ParamSet, g.parameterSet = Spec.setName ps.family ps.size →
        ∀ t ∈ g.tests, VerifyVector ps P t := by
  rw [run_verification_tests, check_header_iff, Counts.groups (good := fun ps _ t => VerifyVector ps P t) _ hsize]
  intro ps g _
  have hs : g.tests.length = (g.tests.map fun _ => 1).sum := by simp
  rw [hs]
  refine Counts.list fun t _ => ?_
  have := Counts.one (b := b) (good := VerifyVector ps P t) (x := do
    let pk ← dehex t.pk
    let message ← dehex t.message
    let signature ← dehex t.signature
    pure (acvp_verdict (caught (acvp_verify_closure ps.params (crypto P) pk message signature : Exec b Bool))
      t.test_passed)) (by
      simp only [dehex_bind]
      constructor
      · rintro ⟨pk, h1, msg, h2, sig, h3, h⟩
        exact ⟨pk, msg, sig, h1, h2, h3, (C58_acvp_verify (b := b) pk msg sig t.test_passed).mp (Exec.pure_inj h)⟩
      · rintro ⟨pk, msg, sig, h1, h2, h3, h⟩
        refine ⟨pk, h1, msg, h2, sig, h3, congrArg pure ?_⟩
        exact (C58_acvp_verify (b := b) pk msg sig t.test_passed).mpr h)
  simpa only [bind_assoc, pure_bind] using this

/-- **C80 (limit)** Groups with a name that is not in Table 2 are passed over: the three suites do the same without
them. -/
theorem C80_unknown_groups (kat : KatFile KeyGenTest) (kat' : KatFile SignTest) (kat'' : KatFile VerifyTest)
    (known : String → Bool)
    (h : ∀ s, known s = true ↔ ∃ ps : ParamSet, s = Spec.setName ps.family ps.size) :
    (run_keygen_tests (crypto P) { kat with testGroups := kat.testGroups.filter fun g => known g.parameterSet } :
      Exec b Unit) = run_keygen_tests (crypto P) kat ∧
    (run_signing_tests (crypto P) { kat' with testGroups := kat'.testGroups.filter fun g => known g.parameterSet } :
      Exec b Unit) = run_signing_tests (crypto P) kat' ∧
    (run_verification_tests (crypto P) caught
      { kat'' with testGroups := kat''.testGroups.filter fun g => known g.parameterSet } : Exec b Unit) =
      run_verification_tests (crypto P) caught kat'' := by
  have key : ∀ {T : Type} (test : Model.Params → TestGroup T → Int32 → Exec b Int32) (gs : List (TestGroup T))
      (c : Int32), forEach (gs.filter fun g => known g.parameterSet) c (groupRun test) =
        forEach gs c (groupRun test) := by
    intro T test gs
    induction gs with
    | nil => intro c; rfl
    | cons g gs ih =>
      intro c
      by_cases hk : known g.parameterSet = true
      · rw [List.filter_cons_of_pos (by simpa using hk), exec_forEach_cons, exec_forEach_cons]
        simp only [ih]
      · rw [List.filter_cons_of_neg (by simpa using hk), exec_forEach_cons, ih]
        have : acvpSet g.parameterSet = none := by
          cases hs : acvpSet g.parameterSet with
          | none => rfl
          | some p =>
            obtain ⟨ps, e, -⟩ := acvpSet_some hs
            exact absurd ((h _).mpr ⟨ps, e⟩) hk
        rw [groupRun, this]
        rfl
  have key' : ∀ {T : Type} (test : Model.Params → TestGroup T → Int32 → Exec b Int32) (gs : List (TestGroup T)),
      (run_groups (gs.filter fun g => known g.parameterSet) test : Exec b Unit) = run_groups gs test := by
    intro T test gs
    rw [run_groups_eq, run_groups_eq, key]
  refine ⟨?_, ?_, ?_⟩
  · simp only [run_keygen_tests, check_header, key']
  · simp only [run_signing_tests, check_header, key']
  · simp only [run_verification_tests, check_header, key']

theorem hex_exists : ∀ x : List UInt8, ∃ s, Spec.Hex s x
  | [] => ⟨[], .nil⟩
  | x :: xs => by
    obtain ⟨s, hs⟩ := hex_exists xs
    have hd : ∀ d < 16, ∃ c, Spec.HexDigit c d := fun d h =>
      ⟨_, .inl (List.getElem?_eq_getElem (by simpa using h))⟩
    have hx := x.toNat_lt
    obtain ⟨u, hu⟩ := hd (x.toNat / 16) (by omega)
    obtain ⟨v, hv⟩ := hd (x.toNat % 16) (by omega)
    exact ⟨_, .cons hu hv (by omega) hs⟩

/-- A file with a vector of FIPS 205 passes, with a wrong vector it does not, and with a misspelt name it
does. -/
example : ∃ t : KeyGenTest, ∃ t' : KeyGenTest,
    (run_keygen_tests (crypto demoPrims) ⟨"SLH-DSA", "keyGen", "FIPS205", [⟨"SLH-DSA-SHA2-128s", false, [t]⟩]⟩ :
      Exec demoBuild Unit) = pure () ∧
    (run_keygen_tests (crypto demoPrims) ⟨"SLH-DSA", "keyGen", "FIPS205", [⟨"SLH-DSA-SHA2-128s", false, [t']⟩]⟩ :
      Exec demoBuild Unit) ≠ pure () ∧
    (run_keygen_tests (crypto demoPrims) ⟨"SLH-DSA", "keyGen", "FIPS205", [⟨"SLH-DSA-SHA2-128x", false, [t']⟩]⟩ :
      Exec demoBuild Unit) = pure () := by
  obtain ⟨x, hx⟩ := hex_exists (List.replicate 16 0)
  obtain ⟨sk, hsk⟩ := hex_exists (Spec.keygenInternal ParamSet.slh_dsa_sha2_128s.sp
    (ParamSet.slh_dsa_sha2_128s.hf demoPrims) (List.replicate 16 0) (List.replicate 16 0) (List.replicate 16 0)).1
  obtain ⟨pk, hpk⟩ := hex_exists (Spec.keygenInternal ParamSet.slh_dsa_sha2_128s.sp
    (ParamSet.slh_dsa_sha2_128s.hf demoPrims) (List.replicate 16 0) (List.replicate 16 0) (List.replicate 16 0)).2
  refine ⟨⟨x, x, x, sk, pk⟩, ⟨['z'], x, x, sk, pk⟩, ?_, ?_, ?_⟩
  · rw [C80_keygen_suite _ (.inr (by simp))]
    refine ⟨rfl, rfl, rfl, fun g hg ps e t ht => ?_⟩
    obtain rfl := List.mem_singleton.mp hg
    obtain rfl : ParamSet.slh_dsa_sha2_128s = ps := setName_inj e
    obtain rfl := List.mem_singleton.mp ht
    exact ⟨_, _, _, _, _, hx, hx, hx, hsk, hpk, ⟨List.length_replicate, List.length_replicate,
      List.length_replicate⟩, rfl⟩
  · rw [Ne, C80_keygen_suite _ (.inr (by simp))]
    rintro ⟨-, -, -, h⟩
    obtain ⟨a, -, -, -, -, ha, -⟩ := h _ (List.mem_singleton.mpr rfl) .slh_dsa_sha2_128s rfl _
      (List.mem_singleton.mpr rfl)
    cases ha
  · rw [C80_keygen_suite _ (.inr (by simp))]
    refine ⟨rfl, rfl, rfl, fun g hg ps e t ht => ?_⟩
    obtain rfl := List.mem_singleton.mp hg
    exfalso
    cases ps <;> simp [Spec.setName, ParamSet.family, ParamSet.size, Spec.Family.name, Spec.Size.name] at e

end Fips205.Props
