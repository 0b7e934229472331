import Verif.Model.Docs
import Verif.Props.Programs

/-! # The examples in the documentation and the benchmark program: C72 -/

namespace Fips205.Props
open Fips205 Fips205.Model

variable {ps : ParamSet} {P : Spec.Prims} {b : Build} {σ : Type}

/-- The receiver's half of an example: the key survives its encoding. -/
theorem doc_receive_ok {s : σ} (pk : PublicKey ps.params) {check : PublicKey ps.params → Exec b Bool}
    (h : check pk = pure true) : doc_receive s pk check = pure (s, .ok ()) := by
  obtain ⟨v, hv, ev⟩ := exec_pk_into_bytes (b := b) pk
  obtain ⟨k, hk, ek⟩ := exec_pk_try_from_bytes (b := b) v
  rw [ev] at ek
  rw [PublicKey.encode_inj ek] at hk
  exact exec_step hv (exec_step hk (exec_step h rfl))

theorem doc_sign_eq {os : Rng (Exec b) σ} {s s' : σ} {pk : PublicKey ps.params} {sk : PrivateKey ps.params}
    (hg : Generated P pk sk) {r : Except String (Vector UInt8 ps.params.SIG_LEN)}
    (h : sk.try_sign_with_rng (crypto P) os s docMsg ctxBytes true = pure (s', r)) :
    doc_sign (crypto P) os s pk sk = pure (s', r.map fun _ => ()) := by
  unfold doc_sign
  refine exec_step h ?_
  cases r with
  | error e => rfl
  | ok sig => exact doc_receive_ok pk (C01_pure_signatures_verify hg h)

/-- The example `prog` ends without a panic in every build, whatever the RNG does; it returns an error exactly
if the RNG failed, which is one of the messages given, and its assertion holds otherwise. -/
def ExampleHolds (prog : ∀ {b : Build} {σ : Type}, Rng (Exec b) σ → σ → Exec b (σ × Except String Unit)) : Prop :=
  ∀ (b : Build) (σ : Type) (os : PureRng σ) (s : σ),
    ∃ s' r, prog (os.lift : Rng (Exec b) σ) s = pure (s', r) ∧
      (∀ e, r = .error e →
        e ∈ ["Alg17: rng failed1", "Alg17: rng failed2", "Alg17: rng failed3", "Alg17: rng failed"]) ∧
      (os.Works → r = .ok ())

theorem sign_error {os : Rng (Exec b) σ} {s s' : σ} {sk : PrivateKey ps.params} {e : String}
    (h : sk.try_sign_with_rng (crypto P) os s docMsg ctxBytes true = pure (s', .error e)) :
    e = "Alg17: rng failed" := by
  rw [exec_try_sign_with_rng, if_neg (by decide), if_pos rfl] at h
  obtain ⟨d, -, h⟩ := Exec.bind_eq_pure h
  have h := congrArg Prod.snd (Exec.pure_inj h)
  obtain ⟨d1, d2⟩ := d
  cases d2 with
  | error _ => exact (Except.error.inj h).symm
  | ok _ => cases h

theorem hash_sign_error {os : Rng (Exec b) σ} {s s' : σ} {sk : PrivateKey ps.params} {ph : Ph} {e : String}
    (h : sk.try_hash_sign_with_rng (crypto P) os s docMsg ctxBytes ph true = pure (s', .error e)) :
    e = "Alg17: rng failed" := by
  rw [exec_try_hash_sign_with_rng, if_neg (by decide), if_pos rfl] at h
  obtain ⟨d, -, h⟩ := Exec.bind_eq_pure h
  have h := congrArg Prod.snd (Exec.pure_inj h)
  obtain ⟨d1, d2⟩ := d
  cases d2 with
  | error _ => exact (Except.error.inj h).symm
  | ok _ => cases h

theorem keygen_error {os : Rng (Exec b) σ} {s s' : σ} {e : String}
    (h : try_keygen_with_rng ps.params (crypto P) os s = pure (s', .error e)) :
    e ∈ ["Alg17: rng failed1", "Alg17: rng failed2", "Alg17: rng failed3"] := by
  rw [exec_try_keygen_with_rng] at h
  obtain ⟨⟨s1, r1⟩, -, h⟩ := Exec.bind_eq_pure h
  cases r1 with
  | error _ => obtain rfl := Except.error.inj (congrArg Prod.snd (Exec.pure_inj h)); simp
  | ok a =>
    obtain ⟨⟨s2, r2⟩, -, h⟩ := Exec.bind_eq_pure h
    cases r2 with
    | error _ => obtain rfl := Except.error.inj (congrArg Prod.snd (Exec.pure_inj h)); simp
    | ok c =>
      obtain ⟨⟨s3, r3⟩, -, h⟩ := Exec.bind_eq_pure h
      cases r3 with
      | error _ => obtain rfl := Except.error.inj (congrArg Prod.snd (Exec.pure_inj h)); simp
      | ok d => cases congrArg Prod.snd (Exec.pure_inj h)

/-- **C72** The example of `try_keygen` and its eight copies. -/
theorem C72_example_sign (ps : ParamSet) (P : Spec.Prims) :
    ExampleHolds fun os s => doc_pure ps.params (crypto P) os s := by
  intro b σ os s
  obtain ⟨⟨s1, r⟩, hk⟩ := Total.keygen (P := P) ps b os s
  dsimp only
  cases r with
  | error e =>
    refine ⟨s1, .error e, exec_step hk rfl, ?_, ?_⟩
    · rintro e' ⟨⟩
      have := keygen_error hk
      simp only [List.mem_cons, List.not_mem_nil, or_false] at this ⊢
      tauto
    · intro h
      obtain ⟨s2, pk, sk, h⟩ := h.keygen (P := P) (b := b) ps s
      cases congrArg Prod.snd (Exec.pure_inj (hk.symm.trans h))
  | ok kp =>
    obtain ⟨pk, sk⟩ := kp
    have hg : Generated P pk sk := .rng _ _ _ hk
    obtain ⟨⟨s2, r⟩, hs⟩ := Total.sign (P := P) ps b os s1 sk docMsg ctxBytes true
    refine ⟨s2, r.map fun _ => (), exec_step hk (doc_sign_eq hg hs), ?_, ?_⟩
    · intro e he
      cases r with
      | ok _ => cases he
      | error e' => cases he; rw [sign_error hs]; simp
    · intro h
      obtain ⟨s3, sig, h⟩ := h.sign (P := P) (b := b) s1 sk docMsg ctxBytes (by decide)
      obtain rfl : r = .ok sig := congrArg Prod.snd (Exec.pure_inj (hs.symm.trans h))
      rfl

/-- **C72** The example of `keygen_with_seeds`. -/
theorem C72_example_seeds (ps : ParamSet) (P : Spec.Prims) :
    ExampleHolds fun os s => doc_seeds ps.params (crypto P) os s := by
  intro b σ os s
  dsimp only
  have hk := exec_keygen_with_seeds (ps := ps) (P := P) (b := b) (Vector.replicate ps.params.N 0)
    (Vector.replicate ps.params.N 1) (Vector.replicate ps.params.N 2)
  generalize keyPair ps P (Vector.replicate ps.params.N 0) (Vector.replicate ps.params.N 1)
    (Vector.replicate ps.params.N 2) = kp at hk
  obtain ⟨pk, sk⟩ := kp
  have hg : Generated P pk sk := .seeds _ _ _ hk
  obtain ⟨⟨s2, r⟩, hs⟩ := Total.sign (P := P) ps b os s sk docMsg ctxBytes true
  refine ⟨s2, r.map fun _ => (), exec_step hk (doc_sign_eq hg hs), ?_, ?_⟩
  · intro e he
    cases r with
    | ok _ => cases he
    | error e' => cases he; rw [sign_error hs]; simp
  · intro h
    obtain ⟨s3, sig, h⟩ := h.sign (P := P) (b := b) s sk docMsg ctxBytes (by decide)
    obtain rfl : r = .ok sig := congrArg Prod.snd (Exec.pure_inj (hs.symm.trans h))
    rfl

/-- **C72** The examples of pre-hash signatures, for every pre-hash function. -/
theorem C72_example_hash (ps : ParamSet) (P : Spec.Prims) (ph : Ph) :
    ExampleHolds fun os s => doc_hash ps.params (crypto P) ph os s := by
  intro b σ os s
  obtain ⟨⟨s1, r⟩, hk⟩ := Total.keygen (P := P) ps b os s
  dsimp only
  cases r with
  | error e =>
    refine ⟨s1, .error e, exec_step hk rfl, ?_, ?_⟩
    · rintro e' ⟨⟩
      have := keygen_error hk
      simp only [List.mem_cons, List.not_mem_nil, or_false] at this ⊢
      tauto
    · intro h
      obtain ⟨s2, pk, sk, h⟩ := h.keygen (P := P) (b := b) ps s
      cases congrArg Prod.snd (Exec.pure_inj (hk.symm.trans h))
  | ok kp =>
    obtain ⟨pk, sk⟩ := kp
    have hg : Generated P pk sk := .rng _ _ _ hk
    obtain ⟨⟨s2, r⟩, hs⟩ := Total.hash_sign (P := P) ps b os s1 sk docMsg ctxBytes ph true
    refine ⟨s2, r.map fun _ => (), exec_step hk (exec_step hs ?_), ?_, ?_⟩
    · cases r with
      | error e => rfl
      | ok sig => exact doc_receive_ok pk (C02_prehash_signatures_verify hg hs)
    · intro e he
      cases r with
      | ok _ => cases he
      | error e' => cases he; rw [hash_sign_error hs]; simp
    · intro h
      obtain ⟨s3, sig, h⟩ := h.hash_sign (P := P) (b := b) s1 sk docMsg ctxBytes (by decide) ph
      obtain rfl : r = .ok sig := congrArg Prod.snd (Exec.pure_inj (hs.symm.trans h))
      rfl

/-- **C72** The example of `get_public_key`: the derived key is the generated one. -/
theorem C72_example_public (os : PureRng σ) (s : σ) :
    ∃ s' r, doc_public ps.params (crypto P) (os.lift : Rng (Exec b) σ) s = pure (s', r) ∧
      (∀ pk pk', r = .ok (pk, pk') → pk' = pk) ∧ (os.Works → ∃ pk, r = .ok (pk, pk)) := by
  obtain ⟨⟨s1, r⟩, hk⟩ := Total.keygen (P := P) ps b os s
  cases r with
  | error e =>
    refine ⟨s1, .error e, exec_step hk rfl, (fun _ _ h => by cases h), fun h => ?_⟩
    obtain ⟨s2, pk, sk, h⟩ := h.keygen (P := P) (b := b) ps s
    cases congrArg Prod.snd (Exec.pure_inj (hk.symm.trans h))
  | ok kp =>
    obtain ⟨pk, sk⟩ := kp
    have hg : sk.get_public_key = pk := (Generated.rng _ _ _ hk).consistent.2
    refine ⟨s1, .ok (pk, sk.get_public_key), exec_step hk rfl, ?_, fun _ => ⟨pk, by rw [hg]⟩⟩
    rintro _ _ ⟨⟩
    exact hg

/-! ## The benchmark -/

/-- What the variables of the benchmark hold: keys of a key generation and a signature that is the one and only
signature of its closure. -/
def BenchVars.Good (P : Spec.Prims) (v : BenchVars) : Prop :=
  Generated P v.pk v.sk ∧
  (∀ (b : Build) (σ : Type) (os : Rng (Exec b) σ) (s : σ),
    bench_sign (crypto P) os v s = pure (s, .ok v.sig)) ∧
  ∀ b : Build, (bench_verify (crypto P) v : Exec b Bool) = pure true

theorem bench_sigs_eq (os : Rng (Exec b) σ) (s : σ) : ∀ (keys : List BenchKeys),
    (∀ k ∈ keys, Generated P k.pk k.sk) → ∃ vars : List BenchVars,
      bench_sigs (crypto P) os keys s = pure (s, vars) ∧ vars.map BenchVars.toBenchKeys = keys ∧
      ∀ v ∈ vars, BenchVars.Good P v
  | [], _ => ⟨[], rfl, rfl, by simp⟩
  | k :: rest, h => by
    obtain ⟨vars, h1, h2, h3⟩ := bench_sigs_eq os s rest fun k hk => h k (List.mem_cons_of_mem _ hk)
    have hs : ∀ (b : Build) (σ : Type) (os : Rng (Exec b) σ) (s : σ),
        k.sk.try_sign (crypto P) os s docMsg ctxBytes false =
        pure (s, .ok (sigVec k.ps P (Spec.pureMsg ctxBytes docMsg) k.sk.key k.sk.key.pk_seed)) := by
      intro b σ os s
      exact (exec_try_sign_with_rng _ _ _ _ _ _).trans ((if_neg (by decide)).trans (if_neg (by decide)))
    refine ⟨⟨k, _⟩ :: vars, exec_step (hs b σ os s) (exec_step rfl (exec_step h1 rfl)),
      by rw [List.map_cons, h2], ?_⟩
    intro v hv
    rcases List.mem_cons.mp hv with rfl | hv
    · exact ⟨h k List.mem_cons_self, hs, fun b' =>
        C01_pure_signatures_verify (h k List.mem_cons_self) (hs b σ os s)⟩
    · exact h3 v hv

theorem bench_keys_eq (os : PureRng σ) : ∀ (l : List ParamSet) (s : σ),
    (∃ s' keys, bench_keys (crypto P) (os.lift : Rng (Exec b) σ) l s = pure (s', keys) ∧
      keys.map BenchKeys.ps = l ∧ ∀ k ∈ keys, Generated P k.pk k.sk) ∨
    (¬ os.Works ∧ bench_keys (crypto P) (os.lift : Rng (Exec b) σ) l s = panic .unwrap)
  | [], s => .inl ⟨s, [], rfl, rfl, by simp⟩
  | ps :: rest, s => by
    obtain ⟨⟨s1, r⟩, hk⟩ := Total.keygen (P := P) ps b os s
    cases r with
    | error e =>
      refine .inr ⟨fun h => ?_, exec_step hk rfl⟩
      obtain ⟨s2, pk, sk, h⟩ := h.keygen (P := P) (b := b) ps s
      cases congrArg Prod.snd (Exec.pure_inj (hk.symm.trans h))
    | ok kp =>
      rcases bench_keys_eq os rest s1 with ⟨s', keys, h1, h2, h3⟩ | ⟨hw, h1⟩
      · refine .inl ⟨s', ⟨ps, kp.1, kp.2⟩ :: keys, exec_step hk (exec_step rfl (exec_step h1 rfl)),
          by rw [List.map_cons, h2], ?_⟩
        intro k hm
        rcases List.mem_cons.mp hm with rfl | hm
        · exact .rng _ _ _ hk
        · exact h3 k hm
      · refine .inr ⟨hw, exec_step hk (exec_step rfl ?_)⟩
        rw [h1]
        rfl

/-- **C72** The setup of the benchmark.  It panics only if the RNG fails (and then at an `unwrap`).  Otherwise it
holds keys and a signature for each of the twelve parameter sets, once each. -/
theorem C72_bench_setup (b : Build) (os : PureRng σ) (s : σ) :
    (∃ s' vars, bench_setup (crypto P) (os.lift : Rng (Exec b) σ) s = pure (s', vars) ∧
      (∀ ps, (vars.map fun v => v.ps).count ps = 1) ∧ ∀ v ∈ vars, BenchVars.Good P v) ∨
    (¬ os.Works ∧ bench_setup (crypto P) (os.lift : Rng (Exec b) σ) s = panic .unwrap) := by
  rcases bench_keys_eq (P := P) (b := b) os benchSets s with ⟨s', keys, h1, h2, h3⟩ | ⟨hw, h1⟩
  · obtain ⟨vars, h4, h5, h6⟩ := bench_sigs_eq (os.lift : Rng (Exec b) σ) s' keys h3
    refine .inl ⟨s', vars, exec_step h1 h4, ?_, h6⟩
    have : vars.map (fun v => v.ps) = benchSets := by
      rw [← h2, ← h5, List.map_map]
      rfl
    rw [this]
    intro ps
    cases ps <;> rfl
  · refine .inr ⟨hw, ?_⟩
    unfold bench_setup
    rw [h1]
    rfl

theorem benchIter_const {α : Type} {f : σ → Exec b (σ × α)} {a : α} {s : σ} (h : f s = pure (s, a)) :
    ∀ n, benchIter f n s = pure (s, List.replicate n a)
  | 0 => rfl
  | n + 1 => exec_step h (exec_step (benchIter_const h n) rfl)

/-- **C72** However often Criterion runs the closure that signs, from any state of the RNG and in any build, all
rounds return one and the same signature and the RNG is not used. -/
theorem C72_bench_sign {v : BenchVars} (hv : BenchVars.Good P v) (os : Rng (Exec b) σ) (s : σ) (n : Nat) :
    benchIter (bench_sign (crypto P) os v) n s = pure (s, List.replicate n (.ok v.sig)) :=
  benchIter_const (hv.2.1 b σ os s) n

/-- **C72** However often Criterion runs the closure that makes keys: it returns, and all rounds made a key pair
if the RNG works. -/
theorem C72_bench_keygen (ps : ParamSet) (os : PureRng σ) (n : Nat) (s : σ) :
    ∃ s' l, benchIter (bench_keygen (crypto P) (os.lift : Rng (Exec b) σ) ps) n s = pure (s', l) ∧
      l.length = n ∧ (os.Works → ∀ r ∈ l, ∃ pk sk, r = .ok (pk, sk) ∧ Generated P pk sk) := by
  induction n generalizing s with
  | zero => exact ⟨s, [], rfl, rfl, by simp⟩
  | succ n ih =>
    obtain ⟨⟨s1, r⟩, hk⟩ := Total.keygen (P := P) ps b os s
    obtain ⟨s2, l, h1, h2, h3⟩ := ih s1
    refine ⟨s2, r :: l, exec_step hk (exec_step h1 rfl), by rw [List.length_cons, h2], ?_⟩
    intro hw x hx
    rcases List.mem_cons.mp hx with rfl | hx
    · obtain ⟨s3, pk, sk, h⟩ := hw.keygen (P := P) (b := b) ps s
      exact ⟨pk, sk, congrArg Prod.snd (Exec.pure_inj (hk.symm.trans h)), .rng _ _ _ h⟩
    · exact h3 hw x hx

/-- The examples and the setup succeed with the RNG of the demo... -/
example (ps : ParamSet) : ∃ s', doc_pure ps.params (crypto demoPrims) (demoRng.lift : Rng (Exec demoBuild) Nat) 0 =
    pure (s', .ok ()) := by
  obtain ⟨s', r, h, -, hr⟩ := C72_example_sign ps demoPrims demoBuild Nat demoRng 0
  exact ⟨s', by rw [← hr fun _ _ _ => ⟨_, _, rfl⟩]; exact h⟩

example : ∃ s' vars, bench_setup (crypto demoPrims) (demoRng.lift : Rng (Exec demoBuild) Nat) 0 =
    pure (s', vars) ∧ vars ≠ [] := by
  rcases C72_bench_setup (P := demoPrims) demoBuild demoRng 0 with ⟨s', vars, h, hc, -⟩ | ⟨hw, -⟩
  · refine ⟨s', vars, h, ?_⟩
    rintro rfl
    exact absurd (hc .slh_dsa_sha2_128s) (by simp)
  · exact absurd (fun _ _ _ => ⟨_, _, rfl⟩) hw

/-- ... and fail with one that is broken. -/
example (ps : ParamSet) : ∃ s', doc_pure ps.params (crypto demoPrims)
    (brokenRng.lift : Rng (Exec demoBuild) Nat) 0 = pure (s', .error "Alg17: rng failed1") := by
  refine ⟨1, exec_step (v := (1, .error "Alg17: rng failed1")) ?_ rfl⟩
  exact (exec_try_keygen_with_rng _ _).trans rfl

end Fips205.Props
