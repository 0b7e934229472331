import Verif.Props.Visits

/-!
# The hashes of different keys (C91)

An attacker of many keys would like hashes that serve against several of them at once.  Apart from those over
`SK.prf` and the pre-hash, every input that the API hashes contains `PK.seed` where an input for another
`PK.seed` has something else.
-/

namespace Fips205.Props
open Fips205 Fips205.Model

variable {ps ps' : ParamSet} {P P' : Spec.Prims} {b b' : Build} {σ τ : Type}

/-- The input contains the seed: at its beginning and before three bytes zero, or after a string as long as the
seed. -/
def MarkedWith (seed input : List UInt8) : Prop :=
  (∃ rest, input = seed ++ ([0, 0, 0] ++ rest)) ∨
    ∃ R rest, R.length = seed.length ∧ input = R ++ (seed ++ rest)

/-- The calls that one run of the API makes for a key with the given `PK.seed`: all of them, apart from the
pre-hash and the calls of `PRF_msg`. -/
inductive RunFor (ps : ParamSet) (P : Spec.Prims) (b : Build) : List UInt8 → List Call → Prop
  | keygen {σ : Type} (rng : Rng (LogExec b) σ) (hq : UnloggedRng rng) (s s' : σ) (pk : PublicKey ps.params)
      (sk : PrivateKey ps.params)
      (h : (try_keygen_with_rng ps.params (recording P) rng s).result = .ok (s', .ok (pk, sk))) :
      RunFor ps P b pk.key.pk_seed.toList (try_keygen_with_rng ps.params (recording P) rng s).log
  | seeded (x y z : Vector UInt8 ps.params.N) :
      RunFor ps P b z.toList (keygen_with_seeds ps.params (recording P) x y z : LogExec b _).log
  | decode (v : Vector UInt8 ps.params.SK_LEN) :
      RunFor ps P b (Spec.slice v.toList (2 * ps.sp.n) (3 * ps.sp.n))
        (PrivateKey.try_from_bytes (recording P) v : LogExec b (Except String (PrivateKey ps.params))).log
  | sign {σ : Type} (rng : Rng (LogExec b) σ) (hq : UnloggedRng rng) (s : σ) (sk : PrivateKey ps.params)
      (msg ctx : List UInt8) (hedged : Bool) (opt : List UInt8) (L : List Call)
      (h : (sk.try_sign_with_rng (recording P) rng s msg ctx hedged).log =
        prfMsgLog P ps.family ps.row sk.key.sk_prf.toList opt (Spec.pureMsg ctx msg) ++ L) :
      RunFor ps P b sk.key.pk_seed.toList L
  | hashSign {σ : Type} (rng : Rng (LogExec b) σ) (hq : UnloggedRng rng) (s : σ) (sk : PrivateKey ps.params)
      (msg ctx : List UInt8) (ph : Ph) (hedged : Bool) (opt : List UInt8) (L : List Call)
      (h : (sk.try_hash_sign_with_rng (recording P) rng s msg ctx ph hedged).log = ⟨ph.spec, msg⟩ ::
        (prfMsgLog P ps.family ps.row sk.key.sk_prf.toList opt (phMsg P ctx msg ph) ++ L)) :
      RunFor ps P b sk.key.pk_seed.toList L
  | rawSign {σ : Type} (rng : Rng (LogExec b) σ) (hq : UnloggedRng rng) (s : σ) (sk : PrivateKey ps.params)
      (msg : List UInt8) (hedged : Bool) (opt : List UInt8) (L : List Call)
      (h : (sk._test_only_raw_sign (recording P) rng s msg hedged).log =
        prfMsgLog P ps.family ps.row sk.key.sk_prf.toList opt msg ++ L) :
      RunFor ps P b sk.key.pk_seed.toList L
  | verify (pk : PublicKey ps.params) (msg ctx : List UInt8) (sig : Vector UInt8 ps.params.SIG_LEN) :
      RunFor ps P b pk.key.pk_seed.toList (pk.verify (recording P) msg sig ctx : LogExec b Bool).log
  | hashVerify (pk : PublicKey ps.params) (msg ctx : List UInt8) (ph : Ph)
      (sig : Vector UInt8 ps.params.SIG_LEN) :
      RunFor ps P b pk.key.pk_seed.toList (pk.hash_verify (recording P) msg sig ctx ph : LogExec b Bool).log.tail
  | rawVerify (pk : PublicKey ps.params) (msg : List UInt8) (sig : Vector UInt8 ps.params.SIG_LEN) :
      RunFor ps P b pk.key.pk_seed.toList (pk._test_only_raw_verify (recording P) msg sig : LogExec b _).log

theorem toByte4_small {x : Nat} (h : x < 256) : ∃ c, Spec.toByte x 4 = [0, 0, 0, c] := by
  refine ⟨UInt8.ofNat x, ?_⟩
  rw [Spec.toByte4]
  have h1 : x / 256 = 0 := by omega
  have h2 : x / 256 ^ 2 = 0 := by omega
  have h3 : x / 256 ^ 3 = 0 := by omega
  rw [h2, h3, Nat.pow_one, h1]
  simp

theorem adrs_zeros {x : Place} (hx : x.Exists ps.sp) : ∃ rest, x.adrs = [0, 0, 0] ++ rest := by
  have hd : ps.sp.d < 256 := by cases ps <;> decide
  have key : ∀ {j : Nat} {l : List UInt8}, j < 256 → ∃ rest, Spec.toByte j 4 ++ l = [0, 0, 0] ++ rest := by
    intro j l hj
    obtain ⟨c, hc⟩ := toByte4_small hj
    exact ⟨c :: l, by rw [hc]; rfl⟩
  rw [Place.adrs_eq, Spec.adrs6]
  simp only [List.append_assoc]
  refine key ?_
  cases x with
  | wotsHash => exact lt_trans hx.1 hd
  | wotsPk => exact lt_trans hx.1 hd
  | tree => exact lt_trans hx.1 hd
  | wotsPrf => exact lt_trans hx.1 hd
  | forsTree => exact Nat.zero_lt_succ _
  | forsRoots => exact Nat.zero_lt_succ _
  | forsPrf => exact Nat.zero_lt_succ _

theorem callAt_begins {seed : List UInt8} {x : Place} (hx : x.Exists ps.sp) {c : Call}
    (h : CallAt ps.family ps.row seed x c) : ∃ rest, c.input = seed ++ ([0, 0, 0] ++ rest) := by
  obtain ⟨data, h⟩ := h
  have hz : ∀ k, 3 ≤ k → ∃ rest, Spec.toByte 0 k = [0, 0, 0] ++ rest := by
    intro k hk
    obtain ⟨k, rfl⟩ := Nat.exists_eq_add_of_le hk
    exact ⟨List.replicate k 0, by rw [Spec.toByte_zero, List.replicate_add]; rfl⟩
  have hn : ps.row.n ≤ 32 := by cases ps <;> decide
  cases hf : ps.family with
  | shake =>
    simp only [hf] at h
    obtain ⟨rest, hr⟩ := adrs_zeros hx
    exact ⟨rest ++ data, by rw [h, hr]; simp⟩
  | sha2 =>
    simp only [hf] at h
    split at h
    · obtain ⟨rest, hr⟩ := hz (64 - ps.row.n) (by omega)
      exact ⟨rest ++ Spec.compress x.adrs ++ data, by rw [h, hr]; simp⟩
    · obtain ⟨rest, hr⟩ := hz (128 - ps.row.n) (by omega)
      exact ⟨rest ++ Spec.compress x.adrs ++ data, by rw [h, hr]; simp⟩

theorem callAt_marked {seed : List UInt8} {x : Place} (hx : x.Exists ps.sp) {c : Call}
    (h : CallAt ps.family ps.row seed x c) : MarkedWith seed c.input := .inl (callAt_begins hx h)

theorem eachOnce_marked {seed : List UInt8} {S : Place → Prop} {L : List Call} (hS : ∀ x, S x → x.Exists ps.sp)
    (h : EachOnce (CallAt ps.family ps.row seed) S L) : ∀ c ∈ L, MarkedWith seed c.input := by
  intro c hc
  obtain ⟨x, hx, hu⟩ := place_of_call hS h hc
  exact callAt_marked (hS x hx) ((hu x (hS x hx)).mpr rfl)

theorem hMsgLog_marked {R seed root M : List UInt8} (hR : R.length = seed.length) :
    ∀ c ∈ hMsgLog P ps.family ps.row R seed root M, MarkedWith seed c.input := by
  intro c hc
  right
  cases hf : ps.family with
  | shake =>
    simp only [hMsgLog, hf, List.mem_singleton] at hc
    exact ⟨R, root ++ M, hR, by rw [hc]; simp⟩
  | sha2 =>
    simp only [hMsgLog, hf] at hc
    split at hc <;> rcases List.mem_cons.mp hc with rfl | hc
    · exact ⟨R, root ++ M, hR, by simp⟩
    · obtain ⟨i, -, rfl⟩ := List.mem_map.mp hc
      exact ⟨R, _, hR, by simp; rfl⟩
    · exact ⟨R, root ++ M, hR, by simp⟩
    · obtain ⟨i, -, rfl⟩ := List.mem_map.mp hc
      exact ⟨R, _, hR, by simp; rfl⟩

theorem R_length (sig : Vector UInt8 ps.params.SIG_LEN) (seed : Vector UInt8 ps.params.N) :
    (Spec.slice sig.toList 0 ps.sp.n).length = seed.toList.length := by
  have h1 : ps.sp.n ≤ ps.params.SIG_LEN := by cases ps <;> decide
  have h2 : ps.params.N = ps.sp.n := by cases ps <;> rfl
  rw [Spec.slice_length (by rw [Vector.length_toList]; exact h1), Vector.length_toList, h2, Nat.sub_zero]

theorem signCalls_marked {sk : PrivateKey ps.params} {M opt : List UInt8} {sig : Vector UInt8 ps.params.SIG_LEN}
    {L : List Call} (h : SignCalls P sk M opt sig L) : ∃ L',
      L = prfMsgLog P ps.family ps.row sk.key.sk_prf.toList opt M ++ L' ∧
      ∀ c ∈ L', MarkedWith sk.key.pk_seed.toList c.input := by
  obtain ⟨L', h1, h2⟩ := h
  refine ⟨_, h2, fun c hc => ?_⟩
  rcases List.mem_append.mp hc with hc | hc
  · exact hMsgLog_marked (R_length sig _) c hc
  · exact eachOnce_marked (fun _ h => h.1) h1 c hc

theorem verifyCalls_marked {pk : PublicKey ps.params} {M : List UInt8} {sig : Vector UInt8 ps.params.SIG_LEN}
    {L : List Call} (h : VerifyCalls P pk M sig L) : ∀ c ∈ L, MarkedWith pk.key.pk_seed.toList c.input := by
  obtain ⟨L', h1, h2⟩ := h
  intro c hc
  rw [h2] at hc
  rcases List.mem_append.mp hc with hc | hc
  · exact hMsgLog_marked (R_length sig _) c hc
  · exact eachOnce_marked (fun _ h => h.1) h1 c hc

theorem prfMsgLog_same_length {k o M k' o' M' : List UInt8} : (prfMsgLog P ps.family ps.row k o M).length =
    (prfMsgLog P ps.family ps.row k' o' M').length := by
  cases hf : ps.family with
  | shake => rfl
  | sha2 =>
    simp only [prfMsgLog]
    split <;> rfl

theorem prfMsgLog_ne {k o M : List UInt8} {L : List Call} : prfMsgLog P ps.family ps.row k o M ++ L ≠ [] := by
  cases hf : ps.family with
  | shake => exact List.cons_ne_nil _ _
  | sha2 =>
    simp only [prfMsgLog]
    split <;> exact List.cons_ne_nil _ _

/-- **C91** In every run of the API, every input that is hashed for the key, apart from those of `PRF_msg` and the
pre-hash, is marked with the `PK.seed` of the key. -/
theorem C91_marked {seed : List UInt8} {L : List Call} (h : RunFor ps P b seed L) :
    seed.length = ps.sp.n ∧ ∀ c ∈ L, MarkedWith seed c.input := by
  have hn : ps.params.N = ps.sp.n := by cases ps <;> rfl
  have hv : ∀ x : Vector UInt8 ps.params.N, x.toList.length = ps.sp.n := fun x => by rw [Vector.length_toList, hn]
  cases h with
  | keygen rng hq s s' pk sk h =>
    exact ⟨hv _, eachOnce_marked (fun _ h => h.1) ((C47_try_keygen_with_rng hq s).1 s' pk sk h)⟩
  | seeded x y z =>
    have h : (keygen_with_seeds ps.params (recording P) x y z : LogExec b _).result = .ok (keyPair ps P x y z) :=
      (C47_same_seeded x y z).trans (exec_keygen_with_seeds x y z)
    exact ⟨hv _, eachOnce_marked (fun _ h => h.1) ((C47_keygen_with_seeds x y z).1 _ _ h)⟩
  | decode v =>
    refine ⟨?_, eachOnce_marked (fun _ h => h.1) (C47_sk_try_from_bytes v)⟩
    have : ps.params.SK_LEN = 4 * ps.sp.n := by cases ps <;> rfl
    rw [Spec.slice_length (by rw [Vector.length_toList]; omega)]
    omega
  | sign rng hq s sk msg ctx hedged opt L h =>
    refine ⟨hv _, ?_⟩
    obtain ⟨h1, h2⟩ := C47_try_sign_with_rng (P := P) hq s sk msg ctx hedged
    by_cases hr : ∃ s' sig, (sk.try_sign_with_rng (recording P) rng s msg ctx hedged).result = .ok (s', .ok sig)
    · obtain ⟨s', sig, hr⟩ := hr
      obtain ⟨opt', -, h3⟩ := h1 s' sig hr
      obtain ⟨L', h4, h5⟩ := signCalls_marked h3
      rw [h] at h4
      exact List.append_inj_right h4 prfMsgLog_same_length ▸ h5
    · exact absurd (h.symm.trans (h2 fun s' sig h' => hr ⟨s', sig, h'⟩)) prfMsgLog_ne
  | rawSign rng hq s sk msg hedged opt L h =>
    refine ⟨hv _, ?_⟩
    obtain ⟨h1, h2⟩ := C47_raw_sign (P := P) hq s sk msg hedged
    by_cases hr : ∃ s' sig, (sk._test_only_raw_sign (recording P) rng s msg hedged).result = .ok (s', .ok sig)
    · obtain ⟨s', sig, hr⟩ := hr
      obtain ⟨opt', -, h3⟩ := h1 s' sig hr
      obtain ⟨L', h4, h5⟩ := signCalls_marked h3
      rw [h] at h4
      exact List.append_inj_right h4 prfMsgLog_same_length ▸ h5
    · exact absurd (h.symm.trans (h2 fun s' sig h' => hr ⟨s', sig, h'⟩)) prfMsgLog_ne
  | rawVerify pk msg sig => exact ⟨hv _, verifyCalls_marked (C47_raw_verify pk msg sig)⟩
  | hashSign rng hq s sk msg ctx ph hedged opt L h =>
    refine ⟨hv _, ?_⟩
    obtain ⟨h1, h2⟩ := C47_try_hash_sign_with_rng (P := P) hq s sk msg ctx ph hedged
    by_cases hr : ∃ s' sig,
        (sk.try_hash_sign_with_rng (recording P) rng s msg ctx ph hedged).result = .ok (s', .ok sig)
    · obtain ⟨s', sig, hr⟩ := hr
      obtain ⟨opt', L1, -, h3, h6⟩ := h1 s' sig hr
      obtain ⟨L', h4, h5⟩ := signCalls_marked h3
      rw [h, h4] at h6
      exact List.append_inj_right (List.cons.inj h6).2 prfMsgLog_same_length ▸ h5
    · have h3 := h.symm.trans (h2 fun s' sig h' => hr ⟨s', sig, h'⟩)
      split at h3
      · exact absurd (List.cons.inj h3).2 prfMsgLog_ne
      · cases h3
  | verify pk msg ctx sig =>
    refine ⟨hv _, ?_⟩
    have h := C47_verify (P := P) (b := b) pk msg ctx sig
    dsimp only at h
    split at h
    · exact verifyCalls_marked h
    · rw [h]
      exact fun c hc => nomatch hc
  | hashVerify pk msg ctx ph sig =>
    refine ⟨hv _, ?_⟩
    have h := C47_hash_verify (P := P) (b := b) pk msg ctx ph sig
    dsimp only at h
    split at h
    · obtain ⟨L', h1, h2⟩ := h
      rw [h2]
      exact verifyCalls_marked h1
    · rw [h]
      exact fun c hc => nomatch hc

theorem marked_apart {s s' input : List UInt8} (hl : s.length = s'.length) (hl3 : 3 ≤ s.length) (hne : s ≠ s')
    (h0 : ¬ [0, 0, 0] <+: s) (h0' : ¬ [0, 0, 0] <+: s') (h : MarkedWith s input) : ¬ MarkedWith s' input := by
  have mixed : ∀ {u v R rest rest' : List UInt8}, 3 ≤ v.length → R.length = u.length → ¬ [0, 0, 0] <+: v →
      u ++ ([0, 0, 0] ++ rest) ≠ R ++ (v ++ rest') := by
    intro u v R rest rest' hv hR hz e
    obtain ⟨-, e⟩ := List.append_inj e hR.symm
    refine hz ?_
    have h1 : [0, 0, 0] <+: v ++ rest' := ⟨rest, e⟩
    exact List.prefix_of_prefix_length_le h1 (List.prefix_append v rest') hv
  rintro (⟨r', e'⟩ | ⟨R', r', hR', e'⟩) <;> rcases h with ⟨r, e⟩ | ⟨R, r, hR, e⟩ <;> rw [e] at e'
  · exact hne (List.append_inj e' hl).1
  · exact mixed hl3 (hR.trans hl) h0 e'.symm
  · exact mixed (hl ▸ hl3) (hR'.trans hl.symm) h0' e'
  · obtain ⟨-, e'⟩ := List.append_inj e' (hR.trans (hl.trans hR'.symm))
    exact hne (List.append_inj e' hl).1

/-- **C91** No hash is computed for two keys: two runs of the API, of parameter sets with the same `n`, for keys with
different `PK.seed`, neither beginning with three bytes zero, have no input in common. -/
theorem C91_nothing_shared (hn : ps.sp.n = ps'.sp.n) {seed seed' : List UInt8} {L L' : List Call}
    (h : RunFor ps P b seed L) (h' : RunFor ps' P' b' seed' L') (hne : seed ≠ seed')
    (h0 : ¬ [0, 0, 0] <+: seed) (h0' : ¬ [0, 0, 0] <+: seed') :
    ∀ c ∈ L, ∀ c' ∈ L', c.input ≠ c'.input := by
  obtain ⟨l, h⟩ := C91_marked h
  obtain ⟨l', h'⟩ := C91_marked h'
  intro c hc c' hc' e
  have h3 : 3 ≤ ps.sp.n := by cases ps <;> decide
  exact marked_apart (by omega) (by omega) hne h0 h0' (h c hc) (e ▸ h' c' hc')

theorem at_root {seed : List UInt8} {L : List Call}
    (h : EachOnce (CallAt ps.family ps.row seed) (keygenPlaces ps.sp) L) :
    ∃ c ∈ L, CallAt ps.family ps.row seed (.tree (ps.sp.d - 1) 0 ps.sp.hp 0) c := by
  obtain ⟨xs, -, h2, h3⟩ := h
  have hd : 1 ≤ ps.sp.d ∧ 1 ≤ ps.sp.hp := by cases ps <;> decide
  have hx := (h2 (.tree (ps.sp.d - 1) 0 ps.sp.hp 0)).mpr
    ⟨⟨by omega, Nat.two_pow_pos _, by omega, le_rfl, Nat.two_pow_pos _⟩, rfl⟩
  clear h2
  induction h3 with
  | nil => cases hx
  | cons hc _ ih =>
    rcases List.mem_cons.mp hx with rfl | hx
    · exact ⟨_, List.mem_cons_self, hc⟩
    · obtain ⟨c, h1, h2⟩ := ih hx
      exact ⟨c, List.mem_cons_of_mem _ h1, h2⟩

theorem seeded_each (x y z : Vector UInt8 ps.params.N) : EachOnce (CallAt ps.family ps.row z.toList)
    (keygenPlaces ps.sp) (keygen_with_seeds ps.params (recording P) x y z : LogExec b _).log :=
  (C47_keygen_with_seeds x y z).1 _ _ ((C47_same_seeded x y z).trans (exec_keygen_with_seeds x y z))

/-- Two keys made from seeds: their runs are not empty and meet the conditions. -/
example (ps : ParamSet) (x y : Vector UInt8 ps.params.N) : ∃ (L L' : List Call) (seed seed' : List UInt8),
    RunFor ps demoPrims demoBuild seed L ∧ RunFor ps demoPrims demoBuild seed' L' ∧ seed ≠ seed' ∧
    ¬ [0, 0, 0] <+: seed ∧ ¬ [0, 0, 0] <+: seed' ∧ L ≠ [] ∧ L' ≠ [] := by
  refine ⟨_, _, _, _, .seeded x y (Vector.replicate _ 1), .seeded x y (Vector.replicate _ 2), ?_, ?_, ?_, ?_, ?_⟩
  · cases ps <;> decide
  · cases ps <;> decide
  · cases ps <;> decide
  · obtain ⟨c, hc, -⟩ := at_root (seeded_each (P := demoPrims) (b := demoBuild) x y (Vector.replicate _ 1))
    exact List.ne_nil_of_mem hc
  · obtain ⟨c, hc, -⟩ := at_root (seeded_each (P := demoPrims) (b := demoBuild) x y (Vector.replicate _ 2))
    exact List.ne_nil_of_mem hc

/-- **C91** The condition is needed for SHAKE: the bytes of an address are a public key for which verification, of
some bytes and some message, makes a call that generating any other key makes as well. -/
theorem C91_address_as_key (hps : ps.family = .shake) (h16 : ps.sp.n = 16) (x y z : Vector UInt8 ps.params.N) :
    ∃ (pk : PublicKey ps.params) (sig : Vector UInt8 ps.params.SIG_LEN) (msg : List UInt8),
      [0, 0, 0] <+: pk.key.pk_seed.toList ∧
      ∃ c ∈ (keygen_with_seeds ps.params (recording P) x y z : LogExec b _).log,
        c ∈ (pk._test_only_raw_verify (recording P) msg sig : LogExec b _).log := by
  have hN : ps.params.N = 16 := by rw [← h16]; cases ps <;> rfl
  obtain ⟨c, hc, data, h⟩ := at_root (seeded_each (P := P) (b := b) x y z)
  simp only [hps] at h
  have hd : 1 ≤ ps.sp.d ∧ 1 ≤ ps.sp.hp := by cases ps <;> decide
  obtain ⟨rest, hz⟩ := adrs_zeros (ps := ps) (x := .tree (ps.sp.d - 1) 0 ps.sp.hp 0)
    ⟨by omega, Nat.two_pow_pos _, by omega, le_rfl, Nat.two_pow_pos _⟩
  have hl : (Place.tree (ps.sp.d - 1) 0 ps.sp.hp 0).adrs.length = 32 := by rw [Place.adrs_eq]; rfl
  generalize (Place.tree (ps.sp.d - 1) 0 ps.sp.hp 0).adrs = A at h hz hl
  have hS : ps.params.N ≤ ps.params.SIG_LEN := by cases ps <;> decide
  let pk : PublicKey ps.params := ⟨⟨⟨(A.take 16).toArray, by simp [hl, hN]⟩, ⟨(A.drop 16).toArray, by simp [hl, hN]⟩⟩⟩
  let sig : Vector UInt8 ps.params.SIG_LEN :=
    ⟨(z.toList ++ List.replicate (ps.params.SIG_LEN - ps.params.N) 0).toArray, by simp; omega⟩
  refine ⟨pk, sig, data, ?_, c, hc, ?_⟩
  · refine List.prefix_of_prefix_length_le (l₃ := A) ⟨rest, hz.symm⟩ (List.take_prefix _ _) ?_
    show 3 ≤ (A.take 16).length
    rw [List.length_take, hl]
    decide
  · obtain ⟨L, -, e⟩ := C47_raw_verify (P := P) (b := b) pk data sig
    rw [e]
    refine List.mem_append_left _ ?_
    have hR : Spec.slice sig.toList 0 ps.sp.n = z.toList := by
      show (z.toList ++ List.replicate _ 0).take _ = _
      exact List.take_left' (by rw [Vector.length_toList, hN, h16])
    rw [hR, hps, h]
    refine List.mem_singleton.mpr ?_
    show Call.mk _ _ = Call.mk _ (_ ++ A.take 16 ++ A.drop 16 ++ data)
    rw [List.append_assoc z.toList (A.take 16), List.take_append_drop]

/-- There are such sets. -/
example : ParamSet.slh_dsa_shake_128s.family = .shake ∧ ParamSet.slh_dsa_shake_128s.sp.n = 16 := ⟨rfl, rfl⟩

end Fips205.Props
