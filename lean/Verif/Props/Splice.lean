import Verif.Props.Level
import Verif.Proofs.Meet

/-!
# Whoever finds a covered digest can forge (C65)

The converse of C61: from known signatures alone, without the private key, a signature for any randomizer
and message whose digest is covered can be put together, and is accepted.
-/

namespace Fips205.Props
open Fips205 Fips205.Model

variable {P : Spec.Prims} {ps : ParamSet}

/-- The bytes of a signature for FORS tree `i`: the secret value and its authentication path. -/
def forsPart (sig : Vector UInt8 ps.params.SIG_LEN) (i : Nat) : List UInt8 :=
  (sig.toList.drop (ps.sp.n + i * ((ps.sp.a + 1) * ps.sp.n))).take ((ps.sp.a + 1) * ps.sp.n)

/-- The bytes of a signature after the FORS trees: the hypertree signature. -/
def htPart (sig : Vector UInt8 ps.params.SIG_LEN) : List UInt8 :=
  sig.toList.drop (ps.sp.n + ps.sp.k * ((ps.sp.a + 1) * ps.sp.n))

/-- A signature put together from parts of known signatures: for each FORS tree, the part of one whose digest
selects the same FORS key and the same leaf of this tree; the hypertree signature of one whose digest
selects the same FORS key.  This is computed from the public key and the known signatures. -/
def splice (P : Spec.Prims) (pk : PublicKey ps.params)
    (known : List (Vector UInt8 ps.params.SIG_LEN × List UInt8)) (R M : List UInt8) : List UInt8 :=
  let digest := (ps.hf P).Hmsg R pk.key.pk_seed.toList pk.key.pk_root.toList M
  let same := known.filter fun e => forsKey ps (digestOf P pk e.1 e.2) = forsKey ps digest
  let tree (i : Nat) := same.find? fun e => forsLeaf ps (digestOf P pk e.1 e.2) i = forsLeaf ps digest i
  R ++ Spec.concat ps.sp.k (fun i => ((tree i).map fun e => forsPart e.1 i).getD []) ++
    (same.head?.map fun e => htPart e.1).getD []

/-- The part of the owner's signatures for FORS tree `i` and leaf `x` of it. -/
def ownerPart (P : Spec.Prims) (sk : PrivateKey ps.params) (t l i x : Nat) : List UInt8 :=
  Spec.forsSKgen (ps.hf P) sk.key.sk_seed.toList sk.key.pk_seed.toList (Spec.forsAdrs t l)
      (i * 2 ^ ps.sp.a + x) ++
    Spec.concat ps.sp.a fun j => Spec.forsNode (ps.hf P) sk.key.sk_seed.toList
      (i * 2 ^ (ps.sp.a - j) + Spec.sibling (x / 2 ^ j)) j sk.key.pk_seed.toList (Spec.forsAdrs t l)

/-- The hypertree part of the owner's signatures with a FORS key. -/
def ownerHt (P : Spec.Prims) (sk : PrivateKey ps.params) (t l : Nat) : List UInt8 :=
  Spec.htSign ps.sp (ps.hf P) (Spec.Attempt.hForsPk
    ⟨ps.sp, ps.hf P, sk.key.sk_seed.toList, sk.key.pk_seed.toList, [], t, l, [], []⟩)
    sk.key.sk_seed.toList sk.key.pk_seed.toList t l

theorem ownerPart_length (sk : PrivateKey ps.params) (t l i x : Nat) :
    (ownerPart P sk t l i x).length = (ps.sp.a + 1) * ps.sp.n := by
  have V := ps.valid P
  rw [ownerPart, List.length_append, Spec.forsSKgen, V.PRF,
    Spec.concat_length (n := ps.sp.n) fun _ _ => Spec.forsNode_length V _ _ _ _ _]
  ring

theorem signWithR_owner (sk : PrivateKey ps.params) (R M : List UInt8) :
    let digest := (ps.hf P).Hmsg R sk.key.pk_seed.toList sk.key.pk_root.toList M
    let t := Spec.digestTree ps.sp digest
    let l := Spec.digestLeaf ps.sp digest
    Spec.signWithR ps.sp (ps.hf P) R M sk.key.sk_seed.toList sk.key.pk_seed.toList sk.key.pk_root.toList =
      R ++ Spec.concat ps.sp.k (fun i => ownerPart P sk t l i (forsLeaf ps digest i)) ++ ownerHt P sk t l := by
  intro digest t l
  rw [Spec.signWithR]
  rw [Spec.fors_correct ps.wf (ps.valid P)]
  rfl

/-- What the parts of the owner's signatures are. -/
theorem signed_parts {sk : PrivateKey ps.params} {sig : Vector UInt8 ps.params.SIG_LEN} {M : List UInt8}
    (h : SignedBy P sk sig M) :
    let digest := digestOf P sk.get_public_key sig M
    let t := Spec.digestTree ps.sp digest
    let l := Spec.digestLeaf ps.sp digest
    (∀ i < ps.sp.k, forsPart sig i = ownerPart P sk t l i (forsLeaf ps digest i)) ∧
      htPart sig = ownerHt P sk t l := by
  intro digest t l
  have e : sig.toList = sig.toList.take ps.sp.n ++
      Spec.concat ps.sp.k (fun i => ownerPart P sk t l i (forsLeaf ps digest i)) ++ ownerHt P sk t l :=
    h.withR.trans (signWithR_owner sk _ M)
  have hR := take_length sig
  clear_value digest t l
  generalize sig.toList.take ps.sp.n = R at e hR
  have hp : ∀ i < ps.sp.k, (ownerPart P sk t l i (forsLeaf ps digest i)).length = (ps.sp.a + 1) * ps.sp.n :=
    fun i _ => ownerPart_length sk t l i _
  have hF := Spec.concat_length hp
  refine ⟨fun i hi => ?_, ?_⟩
  · have hle : (i + 1) * ((ps.sp.a + 1) * ps.sp.n) ≤ ps.sp.k * ((ps.sp.a + 1) * ps.sp.n) :=
      Nat.mul_le_mul_right _ hi
    rw [← Spec.slice_concat hp hi, ← Spec.slice_append_left (ownerHt P sk t l) (by rw [hF]; exact hle),
      ← Spec.slice_append_right R, ← List.append_assoc, ← e, forsPart, Spec.slice, hR]
    congr 1
    rw [Nat.add_mul i, Nat.one_mul]
    omega
  · have hl : ps.sp.n + ps.sp.k * ((ps.sp.a + 1) * ps.sp.n) = (R ++ Spec.concat ps.sp.k fun i =>
        ownerPart P sk t l i (forsLeaf ps digest i)).length := by rw [List.length_append, hR, hF]
    rw [htPart, e, hl]
    exact List.drop_left

/-- The spliced string is the signature the owner of the key makes with this randomizer. -/
theorem splice_eq {pk : PublicKey ps.params} {sk : PrivateKey ps.params} (hk : Generated P pk sk)
    {known : List (Vector UInt8 ps.params.SIG_LEN × List UInt8)}
    (hQ : ∀ e ∈ known, SignedBy P sk e.1 e.2) {R M : List UInt8}
    (hc : Covered ps (known.map fun e => digestOf P pk e.1 e.2)
      ((ps.hf P).Hmsg R pk.key.pk_seed.toList pk.key.pk_root.toList M)) :
    splice P pk known R M = Spec.signWithR ps.sp (ps.hf P) R M sk.key.sk_seed.toList
      sk.key.pk_seed.toList sk.key.pk_root.toList := by
  obtain ⟨_, rfl⟩ := hk.consistent
  rw [signWithR_owner, splice]
  change Covered ps _ ((ps.hf P).Hmsg R sk.key.pk_seed.toList sk.key.pk_root.toList M) at hc
  change R ++ Spec.concat ps.sp.k (fun i => (((known.filter fun e =>
      forsKey ps (digestOf P sk.get_public_key e.1 e.2) =
        forsKey ps ((ps.hf P).Hmsg R sk.key.pk_seed.toList sk.key.pk_root.toList M)).find? fun e =>
      forsLeaf ps (digestOf P sk.get_public_key e.1 e.2) i =
        forsLeaf ps ((ps.hf P).Hmsg R sk.key.pk_seed.toList sk.key.pk_root.toList M) i).map
      fun e => forsPart e.1 i).getD []) ++ ((known.filter fun e =>
      forsKey ps (digestOf P sk.get_public_key e.1 e.2) =
        forsKey ps ((ps.hf P).Hmsg R sk.key.pk_seed.toList sk.key.pk_root.toList M)).head?.map
      fun e => htPart e.1).getD [] = _
  generalize (ps.hf P).Hmsg R sk.key.pk_seed.toList sk.key.pk_root.toList M = digest at hc ⊢
  congr 1
  · refine congrArg _ (Spec.concat_congr fun i hi => ?_)
    obtain ⟨d, hd, h1, h2⟩ := hc i hi
    obtain ⟨e, he, rfl⟩ := List.mem_map.mp hd
    rcases hf : (known.filter fun e => forsKey ps (digestOf P sk.get_public_key e.1 e.2) =
        forsKey ps digest).find? fun e =>
        forsLeaf ps (digestOf P sk.get_public_key e.1 e.2) i = forsLeaf ps digest i with _ | e'
    · refine absurd h2 ?_
      have := List.find?_eq_none.mp hf e (List.mem_filter.mpr ⟨he, by simpa using h1⟩)
      simpa using this
    · have hl : forsLeaf ps (digestOf P sk.get_public_key e'.1 e'.2) i = forsLeaf ps digest i := by
        simpa using List.find?_some hf
      obtain ⟨he', hk'⟩ := List.mem_filter.mp (List.mem_of_find?_eq_some hf)
      have hk' : forsKey ps (digestOf P sk.get_public_key e'.1 e'.2) = forsKey ps digest := by simpa using hk'
      obtain ⟨ht, hl'⟩ := Prod.ext_iff.mp hk'
      have := (signed_parts (hQ e' he')).1 i hi
      rw [hl] at this
      rw [hf, Option.map_some, Option.getD_some, this]
      exact congrArg₂ (fun t l => ownerPart P sk t l i _) ht hl'
  · have h0 : 0 < ps.sp.k := by cases ps <;> decide
    obtain ⟨d, hd, h1, _⟩ := hc 0 h0
    obtain ⟨e, he, rfl⟩ := List.mem_map.mp hd
    rcases hf : (known.filter fun e => forsKey ps (digestOf P sk.get_public_key e.1 e.2) =
        forsKey ps digest) with _ | ⟨e', r⟩
    · have : e ∈ (known.filter fun e => forsKey ps (digestOf P sk.get_public_key e.1 e.2) =
        forsKey ps digest) := List.mem_filter.mpr ⟨he, by simpa using h1⟩
      rw [hf] at this
      cases this
    · have hm : e' ∈ (known.filter fun e => forsKey ps (digestOf P sk.get_public_key e.1 e.2) =
        forsKey ps digest) := by rw [hf]; exact List.mem_cons_self
      obtain ⟨he', hk'⟩ := List.mem_filter.mp hm
      have hk' : forsKey ps (digestOf P sk.get_public_key e'.1 e'.2) = forsKey ps digest := by simpa using hk'
      obtain ⟨ht, hl'⟩ := Prod.ext_iff.mp hk'
      rw [hf, List.head?_cons, Option.map_some, Option.getD_some, (signed_parts (hQ e' he')).2]
      exact congrArg₂ (fun t l => ownerHt P sk t l) ht hl'

/-- **C65** Let signatures of a generated key be known.  For every randomizer and message whose digest they
cover, the string put together from their parts is a signature that every call of `verify` and
`hash_verify` for this formatted message accepts. -/
theorem C65_covered_is_forged {pk : PublicKey ps.params} {sk : PrivateKey ps.params} (hk : Generated P pk sk)
    {known : List (Vector UInt8 ps.params.SIG_LEN × List UInt8)}
    (hQ : ∀ e ∈ known, SignedBy P sk e.1 e.2) {R M : List UInt8} (hR : R.length = ps.sp.n)
    (hc : Covered ps (known.map fun e => digestOf P pk e.1 e.2)
      ((ps.hf P).Hmsg R pk.key.pk_seed.toList pk.key.pk_root.toList M)) :
    ∃ sig : Vector UInt8 ps.params.SIG_LEN, sig.toList = splice P pk known R M ∧ ∀ (b : Build) msg ctx,
      ctx.length ≤ 255 →
      (pureString ctx msg = M → pk.verify (crypto P) msg sig ctx = (pure true : Exec b Bool)) ∧
      ∀ ph, prehashString P ctx msg ph = M →
        pk.hash_verify (crypto P) msg sig ctx ph = (pure true : Exec b Bool) := by
  have hs := splice_eq hk hQ hc
  obtain ⟨hcons, rfl⟩ := hk.consistent
  have hroot : sk.key.pk_root.toList = Spec.pkRoot ps.sp (ps.hf P) sk.key.sk_seed.toList
      sk.key.pk_seed.toList := by
    rw [hcons, rootVec_toList]
  have hv := Spec.signWithR_correct ps.wf (ps.valid P) hR M sk.key.sk_seed.toList sk.key.pk_seed.toList
  rw [← hroot, ← hs] at hv
  have hlen : (splice P sk.get_public_key known R M).length = ps.params.SIG_LEN := by
    have := ((Spec.attempt_accepts M _ [] sk.key.pk_seed.toList _).mp hv).1
    rw [this]
    cases ps <;> rfl
  refine ⟨Vector.mk (splice P sk.get_public_key known R M).toArray (by simpa using hlen), by simp,
    fun b msg ctx hctx => ⟨?_, fun ph => ?_⟩⟩
  · rintro rfl
    rw [exec_verify, Spec.verify, if_neg (by omega), pureMsg_eq]
    exact congrArg _ hv
  · rintro rfl
    rw [exec_hash_verify, Spec.hashVerify, if_neg (by omega), ← phMsg, phMsg_eq]
    exact congrArg _ hv

/-- Known signatures, and a new message with a covered digest, for hash functions that are no hash
functions. -/
example (ps : ParamSet) : ∃ pk sk, ∃ known : List (Vector UInt8 ps.params.SIG_LEN × List UInt8), ∃ R M,
    Generated zeroPrims pk sk ∧ known.length = 1 ∧ (∀ e ∈ known, SignedBy zeroPrims sk e.1 e.2) ∧
    (∀ e ∈ known, e.2 ≠ M) ∧ R.length = ps.sp.n ∧
    Covered ps (known.map fun e => digestOf zeroPrims pk e.1 e.2)
      ((ps.hf zeroPrims).Hmsg R pk.key.pk_seed.toList pk.key.pk_root.toList M) := by
  let sd : Vector UInt8 ps.params.N := Vector.replicate _ 0
  let ks := keyPair ps zeroPrims sd sd sd
  have hg : Generated zeroPrims ks.1 ks.2 := .seeds (b := demoBuild) sd sd sd (exec_keygen_with_seeds _ _ _)
  obtain ⟨⟨sig, h, _⟩, _⟩ := C04_short_context_accepted hg (demoRng.lift : Rng (Exec demoBuild) Nat) 0 [0] []
    .SHA256 (by simp)
  have hsame : ∀ a b c d a' b' c' d',
      (ps.hf zeroPrims).Hmsg a b c d = (ps.hf zeroPrims).Hmsg a' b' c' d' := by
    cases ps <;> intros <;> rfl
  refine ⟨ks.1, ks.2, [(sig, Spec.pureMsg [] [0])], List.replicate ps.sp.n 7, Spec.pureMsg [] [1], hg, rfl,
    fun e he => ?_, fun e he => ?_, by simp, fun i _ => ⟨_, List.mem_singleton.mpr rfl, ?_⟩⟩
  · rw [List.mem_singleton.mp he]
    exact .pure demoBuild _ _ _ _ _ _ h
  · rw [List.mem_singleton.mp he]
    simp [Spec.pureMsg]
  · exact ⟨congrArg (forsKey ps) (hsame _ _ _ _ _ _ _ _), congrArg (forsLeaf ps · i) (hsame _ _ _ _ _ _ _ _)⟩

/-- What a digest selects, and its unused bits. -/
def selection (ps : ParamSet) (N : Nat) : ((Nat × Nat) × (Fin ps.sp.k → Nat)) × (Nat × Nat × Nat) :=
  ((forsKey ps (Spec.toByte N ps.sp.m), fun i => forsLeaf ps (Spec.toByte N ps.sp.m) i),
    unused ps (Spec.toByte N ps.sp.m))

/-- All values of the unused bits. -/
def unusedValues (ps : ParamSet) : Finset (Nat × Nat × Nat) := Finset.range (2 ^ (unusedBits ps).1) ×ˢ
  Finset.range (2 ^ (unusedBits ps).2.1) ×ˢ Finset.range (2 ^ (unusedBits ps).2.2)

theorem unusedValues_card (ps : ParamSet) :
    (unusedValues ps).card * 2 ^ (ps.sp.h + ps.sp.k * ps.sp.a) = 256 ^ ps.sp.m := by
  rw [unusedValues, Finset.card_product, Finset.card_product, Finset.card_range, Finset.card_range,
    Finset.card_range, ← Nat.pow_add, ← Nat.pow_add, ← Nat.pow_add, show (256 : Nat) = 2 ^ 8 from rfl,
    ← Nat.pow_mul, ← unusedBits_sum]
  congr 1
  omega

theorem selection_injOn (ps : ParamSet) : Set.InjOn (selection ps) (Finset.range (256 ^ ps.sp.m)) := by
  intro N hN N' hN' e
  have h1 := Finset.mem_range.mp hN
  have h2 := Finset.mem_range.mp hN'
  simp only [selection, Prod.mk.injEq] at e
  have := digest_inj (ps := ps) (Spec.toByte_length _ _) (Spec.toByte_length _ _) e.1.1
    (fun i hi => congrFun e.1.2 ⟨i, hi⟩) e.2
  have := congrArg Spec.toInt this
  rwa [Spec.toInt_toByte, Spec.toInt_toByte, Nat.mod_eq_of_lt h1, Nat.mod_eq_of_lt h2] at this

/-- Every selection is that of a digest. -/
theorem selection_onto (ps : ParamSet) : (Finset.range (256 ^ ps.sp.m)).image (selection ps) =
    (forsKeys ps ×ˢ Fintype.piFinset fun _ : Fin ps.sp.k => Finset.range (2 ^ ps.sp.a)) ×ˢ unusedValues ps := by
  refine Finset.eq_of_subset_of_card_le ?_ ?_
  · intro x hx
    obtain ⟨N, _, rfl⟩ := Finset.mem_image.mp hx
    obtain ⟨u1, u2, u3⟩ := unused_lt (ps := ps) (Spec.toByte N ps.sp.m)
    exact Finset.mem_product.mpr ⟨Finset.mem_product.mpr ⟨forsKey_mem _,
      Fintype.mem_piFinset.mpr fun i => Finset.mem_range.mpr base2b_getD_lt⟩,
      Finset.mem_product.mpr ⟨Finset.mem_range.mpr u1, Finset.mem_product.mpr ⟨Finset.mem_range.mpr u2,
        Finset.mem_range.mpr u3⟩⟩⟩
  · rw [Finset.card_image_of_injOn (selection_injOn ps), Finset.card_product, Finset.card_product,
      Finset.card_range, forsKeys_card, Fintype.card_piFinset, Finset.prod_const, Finset.card_range,
      Finset.card_univ, Fintype.card_fin, ← Nat.pow_mul, ← Nat.pow_add, Nat.mul_comm ps.sp.a, Nat.mul_comm,
      unusedValues_card]

/-- **C65** The known signatures cover exactly the fraction `(Σ Π r_i) / 2^(h + k a)` of the digests, where
the sum runs through the FORS keys, and `r_i` is how many leaves of tree `i` of the key they open. -/
theorem C65_covered_count (ps : ParamSet) (known : List (List UInt8)) :
    ((Finset.range (256 ^ ps.sp.m)).filter fun N => Covered ps known (Spec.toByte N ps.sp.m)).card *
      2 ^ (ps.sp.h + ps.sp.k * ps.sp.a) =
    256 ^ ps.sp.m * ∑ x ∈ (known.map (forsKey ps)).toFinset, ∏ i ∈ Finset.range ps.sp.k,
      ((known.filter fun e => forsKey ps e = x).map fun e => forsLeaf ps e i).toFinset.card := by
  let leaves (x : Nat × Nat) (i : Nat) : Finset Nat :=
    ((known.filter fun e => forsKey ps e = x).map fun e => forsLeaf ps e i).toFinset
  have hmem : ∀ {x i y}, y ∈ leaves x i ↔ ∃ e ∈ known, forsKey ps e = x ∧ forsLeaf ps e i = y := by
    intro x i y
    simp only [leaves, List.mem_toFinset, List.mem_map, List.mem_filter, decide_eq_true_eq]
    exact ⟨fun ⟨e, ⟨h1, h2⟩, h3⟩ => ⟨e, h1, h2, h3⟩, fun ⟨e, h1, h2, h3⟩ => ⟨e, ⟨h1, h2⟩, h3⟩⟩
  let S : Finset ((Nat × Nat) × (Fin ps.sp.k → Nat)) := (known.map (forsKey ps)).toFinset.biUnion fun x =>
    (Fintype.piFinset fun i : Fin ps.sp.k => leaves x i).image fun f => (x, f)
  have hS : S.card = ∑ x ∈ (known.map (forsKey ps)).toFinset, ∏ i ∈ Finset.range ps.sp.k,
      (leaves x i).card := by
    rw [Finset.card_biUnion]
    · refine Finset.sum_congr rfl fun x _ => ?_
      rw [Finset.card_image_of_injective _ (fun f g h => (Prod.ext_iff.mp h).2), Fintype.card_piFinset]
      exact Fin.prod_univ_eq_prod_range (fun i => (leaves x i).card) ps.sp.k
    · intro x _ y _ hxy
      refine Finset.disjoint_left.mpr fun z hz hz' => hxy ?_
      obtain ⟨_, _, rfl⟩ := Finset.mem_image.mp hz
      obtain ⟨_, _, e⟩ := Finset.mem_image.mp hz'
      exact (Prod.ext_iff.mp e).1.symm
  have hk : 0 < ps.sp.k := by cases ps <;> decide
  have himg : ((Finset.range (256 ^ ps.sp.m)).filter fun N => Covered ps known (Spec.toByte N ps.sp.m)).image
      (selection ps) = S ×ˢ unusedValues ps := by
    ext z
    constructor
    · intro hz
      obtain ⟨N, hN, rfl⟩ := Finset.mem_image.mp hz
      have hcov := (Finset.mem_filter.mp hN).2
      obtain ⟨u1, u2, u3⟩ := unused_lt (ps := ps) (Spec.toByte N ps.sp.m)
      refine Finset.mem_product.mpr ⟨Finset.mem_biUnion.mpr ⟨forsKey ps (Spec.toByte N ps.sp.m), ?_,
        Finset.mem_image.mpr ⟨_, Fintype.mem_piFinset.mpr fun i => hmem.mpr (hcov i i.2), rfl⟩⟩,
        Finset.mem_product.mpr ⟨Finset.mem_range.mpr u1, Finset.mem_product.mpr ⟨Finset.mem_range.mpr u2,
          Finset.mem_range.mpr u3⟩⟩⟩
      obtain ⟨e, he, h1, _⟩ := hcov 0 hk
      exact List.mem_toFinset.mpr (List.mem_map.mpr ⟨e, he, h1⟩)
    · intro hz
      obtain ⟨h1, h2⟩ := Finset.mem_product.mp hz
      obtain ⟨x, hx, hf⟩ := Finset.mem_biUnion.mp h1
      obtain ⟨f, hpi, e⟩ := Finset.mem_image.mp hf
      have hpi := Fintype.mem_piFinset.mp hpi
      have hall : z ∈ (Finset.range (256 ^ ps.sp.m)).image (selection ps) := by
        rw [selection_onto, Finset.mem_product, Finset.mem_product, ← e]
        refine ⟨⟨?_, Fintype.mem_piFinset.mpr fun i => ?_⟩, h2⟩
        · obtain ⟨d, _, rfl⟩ := List.mem_map.mp (List.mem_toFinset.mp hx)
          exact forsKey_mem d
        · obtain ⟨d, _, _, h⟩ := hmem.mp (hpi i)
          exact Finset.mem_range.mpr (lt_of_eq_of_lt h.symm base2b_getD_lt)
      obtain ⟨N, hN, rfl⟩ := Finset.mem_image.mp hall
      refine Finset.mem_image_of_mem _ (Finset.mem_filter.mpr ⟨hN, fun i hi => ?_⟩)
      obtain ⟨d, hd, e1, e2⟩ := hmem.mp (hpi ⟨i, hi⟩)
      obtain ⟨ex, ef⟩ := Prod.ext_iff.mp e
      refine ⟨d, hd, e1.trans ex, e2.trans ?_⟩
      exact congrFun ef ⟨i, hi⟩
  have hcard := Finset.card_image_of_injOn ((selection_injOn ps).mono
    (Finset.coe_subset.mpr (Finset.filter_subset (fun N => Covered ps known (Spec.toByte N ps.sp.m)) _)))
  rw [himg, Finset.card_product] at hcard
  rw [← hcard, Nat.mul_assoc, unusedValues_card, Nat.mul_comm, hS]

/-- **C65** One known signature already covers the digests that select what its own does: the fraction
`1 / 2^(h + k a)`, and no more. -/
theorem C65_after_one_signature (ps : ParamSet) (d : List UInt8) :
    ((Finset.range (256 ^ ps.sp.m)).filter fun N => Covered ps [d] (Spec.toByte N ps.sp.m)).card *
      2 ^ (ps.sp.h + ps.sp.k * ps.sp.a) = 256 ^ ps.sp.m := by
  rw [C65_covered_count]
  simp

end Fips205.Props
