import Verif.Props.Reused

/-!
# One set of seeds for two parameter sets (C90)

Every parameter set has a partner with the same hash functions and the same `n`, which differs only in the shape of the
trees: the small one and the fast one.  The seeds given to `keygen_with_seeds` are all that distinguishes the secret
values of two keys; the parameter set does not enter.  So keys made from the same seeds for both sets consist of the same
one-time keys and the same FORS secrets where their addresses coincide, but use them for different values.
-/

namespace Fips205.Props
open Fips205 Fips205.Model

variable {P : Spec.Prims} {ps : ParamSet}

/-- The parameter set with the same hash functions and the other shape of trees. -/
def twin : ParamSet → ParamSet
  | .slh_dsa_sha2_128s => .slh_dsa_sha2_128f
  | .slh_dsa_sha2_128f => .slh_dsa_sha2_128s
  | .slh_dsa_sha2_192s => .slh_dsa_sha2_192f
  | .slh_dsa_sha2_192f => .slh_dsa_sha2_192s
  | .slh_dsa_sha2_256s => .slh_dsa_sha2_256f
  | .slh_dsa_sha2_256f => .slh_dsa_sha2_256s
  | .slh_dsa_shake_128s => .slh_dsa_shake_128f
  | .slh_dsa_shake_128f => .slh_dsa_shake_128s
  | .slh_dsa_shake_192s => .slh_dsa_shake_192f
  | .slh_dsa_shake_192f => .slh_dsa_shake_192s
  | .slh_dsa_shake_256s => .slh_dsa_shake_256f
  | .slh_dsa_shake_256f => .slh_dsa_shake_256s

theorem twin_n (ps : ParamSet) : (twin ps).sp.n = ps.sp.n := by cases ps <;> rfl
theorem twin_N (ps : ParamSet) : (twin ps).params.N = ps.params.N := by cases ps <;> rfl
theorem twin_F (ps : ParamSet) : ((twin ps).hf P).F = (ps.hf P).F := by cases ps <;> rfl
theorem twin_PRF (ps : ParamSet) : ((twin ps).hf P).PRF = (ps.hf P).PRF := by cases ps <;> rfl

/-- The values in a signature made with the API, and the secret values they come from. -/
theorem signed_values {pk : PublicKey ps.params} {sk : PrivateKey ps.params} (hk : Generated P pk sk)
    {sig : Vector UInt8 ps.params.SIG_LEN} {M : List UInt8} (h : SignedBy P sk sig M) :
    let c := checked P pk sig M
    (∀ j < ps.sp.d, ∀ i < ps.sp.len, c.vWots j i = Spec.chain (ps.hf P)
      ((ps.hf P).PRF c.PKseed sk.key.sk_seed.toList (Spec.setChainAddress (Spec.wotsSkAdrs (c.wotsAdrs j)) i)) 0
      (c.vDigit j i) c.PKseed (c.chainAdrs j i)) ∧
    ∀ i < ps.sp.k, c.vSecret i = Spec.forsSKgen (ps.hf P) sk.key.sk_seed.toList c.PKseed c.fAdrs (c.fLeaf i) := by
  obtain ⟨-, rfl⟩ := hk.consistent
  have e := h.withR
  have hR : (sig.toList.take ps.sp.n).length = ps.sp.n := take_length sig
  obtain ⟨p1, p2, p3⟩ := Spec.attempt_signWithR_parts ps.wf (ps.valid P) (M := M) (SKseed := sk.key.sk_seed.toList)
    (PKseed := sk.key.pk_seed.toList) (PKroot := sk.key.pk_root.toList) hR
  rw [← e] at p1 p2 p3
  obtain ⟨-, h2, -, -, h5⟩ := Spec.honest_values ps.wf (ps.valid P) rfl rfl p1 p2 p3
  refine ⟨fun j hj i hi => ?_, fun i hi => (h5 i hi).1⟩
  have := h2 j hj i hi _ (Nat.le_refl _)
  rw [Spec.Attempt.vChain_digit] at this
  exact this

theorem seeds_of {b : Build} {n : Nat} {a c d : Vector UInt8 n} {pk : PublicKey ps.params} {sk : PrivateKey ps.params}
    (h : (keygen_with_seeds ps.params (crypto P) a c d : Exec b _) = pure (pk, sk)) :
    sk.key.sk_seed.toList = a.toList ∧ pk.key.pk_seed.toList = d.toList := by
  by_cases hn : n = ps.params.N
  · subst hn
    rw [exec_keygen_with_seeds] at h
    have h := Exec.pure_inj h
    rw [keyPair, Prod.mk.injEq] at h
    rw [← h.1, ← h.2]
    exact ⟨rfl, rfl⟩
  · rw [exec_keygen_with_seeds_panics hn] at h
    exact absurd h Exec.panic_ne_pure

/-- **C90** Keys for both parameter sets of a pair from the same `SK.seed` and `PK.seed`: wherever two signatures use
the same leaf of the same tree in the same layer, their one-time signatures are values of the same chains, which begin
with the same secret values; and wherever they publish a FORS secret with the same number at the same leaf, they publish
the same value. -/
theorem C90_shared {b b' : Build} {n : Nat} {a c c' d : Vector UInt8 n}
    {pk : PublicKey ps.params} {sk : PrivateKey ps.params}
    {pk' : PublicKey (twin ps).params} {sk' : PrivateKey (twin ps).params}
    (hk : (keygen_with_seeds ps.params (crypto P) a c d : Exec b _) = pure (pk, sk))
    (hk' : (keygen_with_seeds (twin ps).params (crypto P) a c' d : Exec b' _) = pure (pk', sk'))
    {sig : Vector UInt8 ps.params.SIG_LEN} {sig' : Vector UInt8 (twin ps).params.SIG_LEN} {M M' : List UInt8}
    (h : SignedBy P sk sig M) (h' : SignedBy P sk' sig' M') :
    let x := checked P pk sig M
    let x' := checked P pk' sig' M'
    (∀ j < ps.sp.d, j < (twin ps).sp.d → Spec.htTree ps.sp x.t j = Spec.htTree (twin ps).sp x'.t j →
      x.leaf j = x'.leaf j → ∀ i < ps.sp.len,
      let secret := (ps.hf P).PRF d.toList a.toList (Spec.setChainAddress (Spec.wotsSkAdrs (x.wotsAdrs j)) i)
      x.vWots j i = Spec.chain (ps.hf P) secret 0 (x.vDigit j i) d.toList (x.chainAdrs j i) ∧
      x'.vWots j i = Spec.chain (ps.hf P) secret 0 (x'.vDigit j i) d.toList (x.chainAdrs j i)) ∧
    (x.t = x'.t → x.l = x'.l → ∀ i < ps.sp.k, ∀ i' < (twin ps).sp.k, x.fLeaf i = x'.fLeaf i' →
      x.vSecret i = x'.vSecret i') := by
  intro x x'
  obtain ⟨s1, s2⟩ := seeds_of hk
  obtain ⟨s1', s2'⟩ := seeds_of hk'
  obtain ⟨v1, v2⟩ := signed_values (.seeds _ _ _ hk) h
  obtain ⟨v1', v2'⟩ := signed_values (.seeds _ _ _ hk') h'
  have e : x.PKseed = d.toList := s2
  have e' : x'.PKseed = d.toList := s2'
  change (∀ j < ps.sp.d, ∀ i < ps.sp.len, x.vWots j i = Spec.chain (ps.hf P) ((ps.hf P).PRF x.PKseed _ _) 0
    (x.vDigit j i) x.PKseed (x.chainAdrs j i)) at v1
  change (∀ j < (twin ps).sp.d, ∀ i < (twin ps).sp.len, x'.vWots j i = Spec.chain ((twin ps).hf P)
    (((twin ps).hf P).PRF x'.PKseed _ _) 0 (x'.vDigit j i) x'.PKseed (x'.chainAdrs j i)) at v1'
  change (∀ i < ps.sp.k, x.vSecret i = Spec.forsSKgen (ps.hf P) _ x.PKseed x.fAdrs (x.fLeaf i)) at v2
  change (∀ i < (twin ps).sp.k, x'.vSecret i = Spec.forsSKgen ((twin ps).hf P) _ x'.PKseed x'.fAdrs (x'.fLeaf i)) at v2'
  refine ⟨fun j hj hj' ht hl i hi => ?_, fun ht hl i hi i' hi' hf => ?_⟩
  · have ha : x'.wotsAdrs j = x.wotsAdrs j := by
      rw [Spec.Attempt.wotsAdrs, Spec.Attempt.wotsAdrs, Spec.Attempt.adrs, Spec.Attempt.adrs, ← hl]
      change Spec.setKeyPairAddress (Spec.setTypeAndClear (Spec.htAdrs j (Spec.htTree (twin ps).sp x'.t j)) _) _ = _
      rw [← ht]
      rfl
    have hc : x'.chainAdrs j i = x.chainAdrs j i := by rw [Spec.Attempt.chainAdrs, Spec.Attempt.chainAdrs, ha]
    refine ⟨by rw [v1 j hj i hi, s1, e], ?_⟩
    rw [v1' j hj' i (by rwa [Spec.Params.len, Spec.Params.len1, twin_n]), s1', e', Spec.chain_F (twin_F ps), twin_PRF, ha, hc]
  · have ha : x'.fAdrs = x.fAdrs := by rw [Spec.Attempt.fAdrs, Spec.Attempt.fAdrs, ht, hl]
    rw [v2 i hi, v2' i' hi', s1, s1', e, e', ha, hf, Spec.forsSKgen, Spec.forsSKgen, twin_PRF]

/-- The signature forged for the one set from a signature of each: as in C89, with the second signature for the other
set. -/
def crossForged (P : Spec.Prims) (pk : PublicKey ps.params) (pk' : PublicKey (twin ps).params)
    (sig : Vector UInt8 ps.params.SIG_LEN) (sig' : Vector UInt8 (twin ps).params.SIG_LEN) (M₁ M₂ : List UInt8)
    (j : Nat) (S R M : List UInt8) : List UInt8 :=
  let before := (1 + ps.sp.k * (1 + ps.sp.a)) * ps.sp.n + j * ((ps.sp.hp + ps.sp.len) * ps.sp.n)
  let c := checked P pk sig M₁
  let c' := checked P pk' sig' M₂
  (Spec.signWithR ps.sp (ps.hf P) R M S pk.key.pk_seed.toList pk.key.pk_root.toList).take before ++
  (Spec.concat ps.sp.len (fun i =>
    let e := (Spec.wotsDigits ps.sp (ownValue P pk j S R M)).getD i 0
    if c.vDigit j i ≤ e then c.vChain j i e else c'.vChain j i e) ++
  sig.toList.drop (before + ps.sp.len * ps.sp.n))

/-- **C90** So whoever has a signature made with each of two such keys, which use the same leaf of the same tree in one
layer, can forge: for every message whose digest selects this leaf, and every secret seed of the forger's own for which
the value to be signed has digits at least as large as one of the two, `verify` and `hash_verify` accept what the forger
puts together. -/
theorem C90_forged {b b' : Build} {n : Nat} {a c c' d : Vector UInt8 n}
    {pk : PublicKey ps.params} {sk : PrivateKey ps.params}
    {pk' : PublicKey (twin ps).params} {sk' : PrivateKey (twin ps).params}
    (hk : (keygen_with_seeds ps.params (crypto P) a c d : Exec b _) = pure (pk, sk))
    (hk' : (keygen_with_seeds (twin ps).params (crypto P) a c' d : Exec b' _) = pure (pk', sk'))
    {sig : Vector UInt8 ps.params.SIG_LEN} {sig' : Vector UInt8 (twin ps).params.SIG_LEN} {M₁ M₂ : List UInt8}
    (h : SignedBy P sk sig M₁) (h' : SignedBy P sk' sig' M₂) {j : Nat} (hj : j < ps.sp.d) (hj' : j < (twin ps).sp.d)
    (ht : Spec.htTree ps.sp (checked P pk sig M₁).t j = Spec.htTree (twin ps).sp (checked P pk' sig' M₂).t j)
    (hl : (checked P pk sig M₁).leaf j = (checked P pk' sig' M₂).leaf j)
    {S R M : List UInt8} (hR : R.length = ps.sp.n)
    (hsel : let digest := (ps.hf P).Hmsg R pk.key.pk_seed.toList pk.key.pk_root.toList M
      Spec.htTree ps.sp (Spec.digestTree ps.sp digest) j = Spec.htTree ps.sp (checked P pk sig M₁).t j ∧
      Spec.htLeaf ps.sp (Spec.digestTree ps.sp digest) (Spec.digestLeaf ps.sp digest) j = (checked P pk sig M₁).leaf j)
    (hdig : ∀ i < ps.sp.len, min ((checked P pk sig M₁).vDigit j i) ((checked P pk' sig' M₂).vDigit j i) ≤
      (Spec.wotsDigits ps.sp (ownValue P pk j S R M)).getD i 0) :
    ∃ sig'' : Vector UInt8 ps.params.SIG_LEN, sig''.toList = crossForged P pk pk' sig sig' M₁ M₂ j S R M ∧
      sig''.toList.take ps.sp.n = R ∧ ∀ (b : Build) msg ctx, ctx.length ≤ 255 →
      (pureString ctx msg = M → pk.verify (crypto P) msg sig'' ctx = (pure true : Exec b Bool)) ∧
      ∀ ph, prehashString P ctx msg ph = M →
        pk.hash_verify (crypto P) msg sig'' ctx ph = (pure true : Exec b Bool) := by
  have hRs : Spec.slice (Spec.signWithR ps.sp (ps.hf P) R M S pk.key.pk_seed.toList pk.key.pk_root.toList) 0 ps.sp.n = R :=
    Spec.slice_signWithR hR
  obtain ⟨-, s2⟩ := seeds_of hk
  obtain ⟨-, s2'⟩ := seeds_of hk'
  have hshare := (C90_shared hk hk' h h').1 j hj hj' ht hl
  have hends : ∀ i < ps.sp.len, (checked P pk sig M₁).vChain j i (Spec.w - 1) =
      (checked P pk' sig' M₂).vChain j i (Spec.w - 1) := by
    intro i hi
    obtain ⟨e1, e2⟩ := hshare i hi
    have ha : (checked P pk' sig' M₂).chainAdrs j i = (checked P pk sig M₁).chainAdrs j i := by
      rw [Spec.Attempt.chainAdrs, Spec.Attempt.chainAdrs, Spec.Attempt.wotsAdrs, Spec.Attempt.wotsAdrs, hl,
        Spec.Attempt.adrs, Spec.Attempt.adrs]
      change _ = Spec.setChainAddress (Spec.setKeyPairAddress (Spec.setTypeAndClear
        (Spec.htAdrs j (Spec.htTree ps.sp (checked P pk sig M₁).t j)) _) _) i
      rw [ht]
      rfl
    have hend : ∀ (x : Nat) (z : List UInt8) (A : List UInt8), x ≤ Spec.w - 1 → Spec.chain (ps.hf P)
        (Spec.chain (ps.hf P) z 0 x d.toList A) x (Spec.w - 1 - x) d.toList A =
        Spec.chain (ps.hf P) z 0 (Spec.w - 1) d.toList A := by
      intro x z A hx
      have := Spec.chain_add (hf := ps.hf P) z 0 x (Spec.w - 1 - x) d.toList A
      rw [Nat.zero_add, Nat.add_sub_cancel' hx] at this
      exact this
    rw [Spec.Attempt.vChain, Spec.Attempt.vChain, ha, e1, e2]
    change Spec.chain (ps.hf P) _ _ _ pk.key.pk_seed.toList _ = Spec.chain ((twin ps).hf P) _ _ _ pk'.key.pk_seed.toList _
    rw [Spec.chain_F (twin_F ps), s2, s2', hend _ _ _ (Spec.Attempt.vDigit_le _ _ _), hend _ _ _ (Spec.Attempt.vDigit_le _ _ _)]
  have hpk : (checked P pk' sig' M₂) = Spec.attempt (twin ps).sp ((twin ps).hf P) M₂ sig'.toList []
      pk.key.pk_seed.toList pk'.key.pk_root.toList := by rw [s2, ← s2']; rfl
  have l2 : sig'.toList.length = (twin ps).sp.sigLen := by rw [Vector.length_toList]; cases ps <;> rfl
  rw [hpk] at ht hl hdig hends
  obtain ⟨h1, h2, hv⟩ := Spec.regraft_accepts ps.wf (ps.valid P) (n_le ps) (twin ps).wf ((twin ps).valid P) (twin_n ps)
    (twin_F ps) (h.accepted (.seeds _ _ _ hk)).internal l2 hj hj' (R := R) (M := M) (S := S) hR ht hl hends
    (by
      refine Eq.trans ?_ hsel.1
      change Spec.htTree ps.sp (Spec.digestTree ps.sp ((ps.hf P).Hmsg (Spec.slice _ 0 ps.sp.n) _ _ M)) j = _
      rw [hRs])
    (by
      refine Eq.trans ?_ hsel.2
      change Spec.htLeaf ps.sp (Spec.digestTree ps.sp ((ps.hf P).Hmsg (Spec.slice _ 0 ps.sp.n) _ _ M))
        (Spec.digestLeaf ps.sp ((ps.hf P).Hmsg (Spec.slice _ 0 ps.sp.n) _ _ M)) j = _
      rw [hRs])
    hdig
  rw [← hpk] at h1 h2 hv
  change (crossForged P pk pk' sig sig' M₁ M₂ j S R M).length = _ at h1
  change Spec.slice (crossForged P pk pk' sig sig' M₁ M₂ j S R M) 0 ps.sp.n = R at h2
  change Spec.verifyInternal ps.sp (ps.hf P) M (crossForged P pk pk' sig sig' M₁ M₂ j S R M) _ _ = true at hv
  have hlen : (crossForged P pk pk' sig sig' M₁ M₂ j S R M).length = ps.params.SIG_LEN := by rw [h1]; cases ps <;> rfl
  refine ⟨Vector.mk (crossForged P pk pk' sig sig' M₁ M₂ j S R M).toArray (by simpa using hlen), by simp, h2,
    fun b msg ctx hctx => ⟨?_, fun ph => ?_⟩⟩
  · rintro rfl
    rw [exec_verify, Spec.verify, if_neg (by omega), pureMsg_eq]
    exact congrArg _ hv
  · rintro rfl
    rw [exec_hash_verify, Spec.hashVerify, if_neg (by omega), ← phMsg, phMsg_eq]
    exact congrArg _ hv

/-- Hash functions that return zero for short strings and one for long ones. -/
def longPrims : Spec.Prims where
  sha256 x := Vector.replicate _ (if x.length ≤ 300 then 0 else 1)
  sha512 x := Vector.replicate _ (if x.length ≤ 300 then 0 else 1)
  shake128 x _ := Vector.replicate _ (if x.length ≤ 300 then 0 else 1)
  shake256 x _ := Vector.replicate _ (if x.length ≤ 300 then 0 else 1)

/-- The small set with `n = 16` and SHAKE. -/
abbrev small : ParamSet := .slh_dsa_shake_128s

/-- Signatures made with keys for both sets from the same seeds, which use the same one-time key for different values,
and another message for which a signature can be forged. -/
example : ∃ (d : Vector UInt8 16) (pk : PublicKey small.params) (sk : PrivateKey small.params)
    (pk' : PublicKey (twin small).params) (sk' : PrivateKey (twin small).params) (sig : Vector UInt8 small.params.SIG_LEN)
    (sig' : Vector UInt8 (twin small).params.SIG_LEN) (M₁ M₂ S R M : List UInt8),
    let x := checked longPrims pk sig M₁
    let x' := checked longPrims pk' sig' M₂
    let digest := (small.hf longPrims).Hmsg R pk.key.pk_seed.toList pk.key.pk_root.toList M
    (keygen_with_seeds small.params (crypto longPrims) d d d : Exec demoBuild _) = pure (pk, sk) ∧
    (keygen_with_seeds (twin small).params (crypto longPrims) d d d : Exec demoBuild _) = pure (pk', sk') ∧
    SignedBy longPrims sk sig M₁ ∧ SignedBy longPrims sk' sig' M₂ ∧ M ≠ M₁ ∧ M ≠ M₂ ∧
    x.t = x'.t ∧ x.l = x'.l ∧ Spec.htTree small.sp x.t 0 = Spec.htTree (twin small).sp x'.t 0 ∧ x.leaf 0 = x'.leaf 0 ∧
    x.vMsg 0 ≠ x'.vMsg 0 ∧ R.length = small.sp.n ∧
    Spec.htTree small.sp (Spec.digestTree small.sp digest) 0 = Spec.htTree small.sp x.t 0 ∧
    Spec.htLeaf small.sp (Spec.digestTree small.sp digest) (Spec.digestLeaf small.sp digest) 0 = x.leaf 0 ∧
    ∀ i < small.sp.len, min (x.vDigit 0 i) (x'.vDigit 0 i) ≤
      (Spec.wotsDigits small.sp (ownValue longPrims pk 0 S R M)).getD i 0 := by
  let d : Vector UInt8 16 := Vector.replicate _ 0
  have hs : ∀ (ps : ParamSet) (d : Vector UInt8 ps.params.N) msg, ∃ s' sig, (keyPair ps longPrims d d d).2.try_sign_with_rng
      (crypto longPrims) (demoRng.lift : Rng (Exec demoBuild) Nat) 3 msg [] false = pure (s', .ok sig) := by
    intro ps d msg
    rw [exec_try_sign_with_rng]
    exact ⟨_, _, rfl⟩
  obtain ⟨s1, sig, h1⟩ := hs small d [1]
  obtain ⟨s2, sig', h2⟩ := hs (twin small) d [2]
  have hz : ∀ (m : Nat) (R PK root M : List UInt8), R.length = 16 → PK.length = 16 → root.length = 16 → M.length = 3 →
      (longPrims.shake256 (R ++ PK ++ root ++ M) m).toList = List.replicate m 0 := by
    intro m R PK root M hR hP hr hM
    change (Vector.replicate m _).toList = _
    rw [Vector.toList_replicate, if_pos (by simp [hR, hP, hr, hM])]
  have hT : ∀ (PK A X : List UInt8), PK.length = 16 → A.length = 32 →
      (X.length = 14 * 16 → (longPrims.shake256 (PK ++ A ++ X) 16).toList = List.replicate 16 0) ∧
      (X.length = 33 * 16 → (longPrims.shake256 (PK ++ A ++ X) 16).toList = List.replicate 16 1) := by
    intro PK A X hP hA
    refine ⟨fun hX => ?_, fun hX => ?_⟩
    · change (Vector.replicate 16 _).toList = _
      rw [Vector.toList_replicate, if_pos (by simp [hP, hA, hX])]
    · change (Vector.replicate 16 _).toList = _
      rw [Vector.toList_replicate, if_neg (by simp [hP, hA, hX])]
  have hR : (List.replicate 16 (0 : UInt8)).length = 16 := rfl
  have hfr : ∀ c : Spec.Attempt, c.fRootsAdrs.length = 32 := fun c =>
    Spec.setKeyPairAddress_length (Spec.setTypeAndClear_length c.fAdrs_length _) _
  have hvF : ∀ (ps : ParamSet) (c : Spec.Attempt), c.hf = ps.hf longPrims → ∀ i k, (c.vFors i k).length = ps.sp.n := by
    intro ps c hh i k
    rw [Spec.Attempt.vFors, hh]
    exact Spec.climb_length (ps.valid longPrims) ((ps.valid longPrims).F _ _ _) _
  let pk := (keyPair small longPrims d d d).1
  let pk' := (keyPair (twin small) longPrims d d d).1
  let x := checked longPrims pk sig (Spec.pureMsg [] [1])
  let x' := checked longPrims pk' sig' (Spec.pureMsg [] [2])
  have hxd : (small.hf longPrims).Hmsg (Spec.slice sig.toList 0 16) pk.key.pk_seed.toList pk.key.pk_root.toList
      (Spec.pureMsg [] [1]) = List.replicate 30 0 :=
    hz 30 _ _ _ _ (take_length (ps := small) sig) Vector.length_toList Vector.length_toList rfl
  have hxd' : ((twin small).hf longPrims).Hmsg (Spec.slice sig'.toList 0 16) pk'.key.pk_seed.toList
      pk'.key.pk_root.toList (Spec.pureMsg [] [2]) = List.replicate 34 0 :=
    hz 34 _ _ _ _ (take_length (ps := twin small) sig') Vector.length_toList Vector.length_toList rfl
  have hxm : (small.hf longPrims).Hmsg (List.replicate 16 0) pk.key.pk_seed.toList pk.key.pk_root.toList
      (Spec.pureMsg [] [3]) = List.replicate 30 0 := hz 30 _ _ _ _ rfl Vector.length_toList Vector.length_toList rfl
  have ht : x.t = 0 := by
    change Spec.digestTree small.sp ((small.hf longPrims).Hmsg (Spec.slice sig.toList 0 16) _ _ _) = 0
    rw [hxd]; decide
  have hl : x.l = 0 := by
    change Spec.digestLeaf small.sp ((small.hf longPrims).Hmsg (Spec.slice sig.toList 0 16) _ _ _) = 0
    rw [hxd]; decide
  have ht' : x'.t = 0 := by
    change Spec.digestTree (twin small).sp (((twin small).hf longPrims).Hmsg (Spec.slice sig'.toList 0 16) _ _ _) = 0
    rw [hxd']; decide
  have hl' : x'.l = 0 := by
    change Spec.digestLeaf (twin small).sp (((twin small).hf longPrims).Hmsg (Spec.slice sig'.toList 0 16) _ _ _) = 0
    rw [hxd']; decide
  have hv : x.vMsg 0 = List.replicate 16 0 := by
    rw [Spec.Attempt.vMsg_zero]
    exact (hT _ _ _ Vector.length_toList (hfr _)).1 (Spec.concat_length fun i _ => hvF small x rfl i _)
  have hv' : x'.vMsg 0 = List.replicate 16 1 := by
    rw [Spec.Attempt.vMsg_zero]
    exact (hT _ _ _ Vector.length_toList (hfr _)).2
      (Spec.concat_length fun i _ => hvF (twin small) x' rfl i _)
  have ho : ownValue longPrims pk 0 (List.replicate 16 0) (List.replicate 16 0) (Spec.pureMsg [] [3]) =
      List.replicate 16 0 := by
    rw [ownValue, Spec.Attempt.hMsg, Spec.Attempt.hForsPk]
    exact (hT _ _ _ Vector.length_toList (hfr _)).1
      (Spec.concat_length fun i _ => Spec.forsNode_length (p := small.sp) (small.valid longPrims) _ _ _ _ _)
  refine ⟨d, pk, _, pk', _, sig, sig', _, _, List.replicate 16 0, List.replicate 16 0, Spec.pureMsg [] [3],
    exec_keygen_with_seeds (ps := small) d d d, exec_keygen_with_seeds (ps := twin small) d d d,
    .pure demoBuild _ _ _ _ _ _ h1, .pure demoBuild _ _ _ _ _ _ h2, by decide, by decide, ?_, ?_, ?_, ?_, ?_, rfl,
    ?_, ?_, fun i _ => ?_⟩
  · exact ht.trans ht'.symm
  · exact hl.trans hl'.symm
  · change Spec.htTree _ x.t 0 = Spec.htTree _ x'.t 0
    rw [ht, ht']; decide
  · exact hl.trans hl'.symm
  · change x.vMsg 0 ≠ x'.vMsg 0
    rw [hv, hv']; decide
  · change _ = Spec.htTree _ x.t 0
    rw [hxm, ht]; decide
  · change _ = x.l
    rw [hxm, hl]; decide
  · rw [ho]
    refine Nat.le_trans (Nat.min_le_left _ _) ?_
    change (Spec.wotsDigits small.sp (x.vMsg 0)).getD i 0 ≤ _
    rw [hv]

end Fips205.Props
