import Verif.Proofs.Spread
import Verif.Proofs.Hidden
import Verif.Props.Blind
import Verif.Props.Level

/-!
# Signatures are spread evenly over the few-time keys (C93)

Nothing keeps track of the FORS keys that were used: which of the `2^h` of them signs a message is decided by the digest of
the message.  So it matters that signatures are spread evenly.
-/

namespace Fips205.Props
open Fips205 Fips205.Model Oracle

variable {ps : ParamSet} {B w : Nat} {b : Build} {PKseed : List UInt8}

/-- A request to sign: a message, a context, and what the random number generator provides if signing is hedged. -/
structure Req (ps : ParamSet) where
  msg : List UInt8
  ctx : List UInt8
  rnd : Option (Vector UInt8 ps.params.N)

/-- The key with these seeds, in the build `b`, signs the request with a signature for which a verifier computes the digest
`d`. -/
def SignsWith (P : Spec.Prims) (b : Build) (sk_seed sk_prf pk_seed : Vector UInt8 ps.params.N) (r : Req ps)
    (d : List UInt8) : Prop :=
  ∃ pk sk s sig, (keygen_with_seeds ps.params (crypto P) sk_seed sk_prf pk_seed : Exec b _) = pure (pk, sk) ∧
    (sk.try_sign_with_rng (crypto P) tapeRng (r.rnd.toList.map Vector.toList) r.msg r.ctx r.rnd.isSome : Exec b _) =
      pure (s, .ok sig) ∧
    digestOf P pk sig (Spec.pureMsg r.ctx r.msg) = d

/-- The same with `try_hash_sign_with_rng`. -/
def HashSignsWith (P : Spec.Prims) (b : Build) (sk_seed sk_prf pk_seed : Vector UInt8 ps.params.N) (r : Req ps) (ph : Ph)
    (d : List UInt8) : Prop :=
  ∃ pk sk s sig, (keygen_with_seeds ps.params (crypto P) sk_seed sk_prf pk_seed : Exec b _) = pure (pk, sk) ∧
    (sk.try_hash_sign_with_rng (crypto P) tapeRng (r.rnd.toList.map Vector.toList) r.msg r.ctx ph r.rnd.isSome : Exec b _) =
      pure (s, .ok sig) ∧
    digestOf P pk sig (Spec.prehashMsg r.ctx (Spec.oid ph.spec) (Spec.preHash P r.msg ph.spec)) = d

/-- The signature of the request is made with the FORS key `x`, that of leaf `x.2` in tree `x.1`: a verifier takes this key,
and the signature contains a secret of each of its trees. -/
def SignsAt (P : Spec.Prims) (b : Build) (sk_seed sk_prf pk_seed : Vector UInt8 ps.params.N) (r : Req ps)
    (x : Nat × Nat) : Prop :=
  ∃ pk sk s sig, (keygen_with_seeds ps.params (crypto P) sk_seed sk_prf pk_seed : Exec b _) = pure (pk, sk) ∧
    (sk.try_sign_with_rng (crypto P) tapeRng (r.rnd.toList.map Vector.toList) r.msg r.ctx r.rnd.isSome : Exec b _) =
      pure (s, .ok sig) ∧
    (let d := digestOf P pk sig (Spec.pureMsg r.ctx r.msg); (Spec.digestTree ps.sp d, Spec.digestLeaf ps.sp d) = x) ∧
    ∀ i < ps.sp.k, ∃ j < 2 ^ ps.sp.a, disclosed sig i = secretAt P sk (.forsPrf x.1 x.2 (i * 2 ^ ps.sp.a + j))

theorem sig_digest (P : Spec.Prims) (sk_seed sk_prf pk_seed : Vector UInt8 ps.params.N) (o : Vector UInt8 ps.params.N)
    (M : List UInt8) :
    digestOf P (keyPair ps P sk_seed sk_prf pk_seed).1 (sigVec ps P M (keyPair ps P sk_seed sk_prf pk_seed).2.key o) M =
      ownDigest ps P sk_seed.toList sk_prf.toList pk_seed.toList o.toList M := by
  have h : ((sigVec ps P M (keyPair ps P sk_seed sk_prf pk_seed).2.key o).toList.take ps.sp.n) =
      (ps.hf P).PRFmsg sk_prf.toList o.toList M := by
    rw [sigVec_toList, Spec.signInternal, Spec.signWithR, List.append_assoc, List.take_left' ((ps.valid P).PRFmsg _ _ _)]
    rfl
  rw [digestOf, h, ownDigest, ← rootVec_toList]
  rfl

theorem exec_request {P : Spec.Prims} {pk_seed : Vector UInt8 ps.params.N} {r : Req ps} (hc : r.ctx.length ≤ 255)
    (sk : PrivateKey ps.params) (hsk : sk.key.pk_seed = pk_seed) :
    (sk.try_sign_with_rng (crypto P) tapeRng (r.rnd.toList.map Vector.toList) r.msg r.ctx r.rnd.isSome : Exec b _) =
      pure ([], .ok (sigVec ps P (Spec.pureMsg r.ctx r.msg) sk.key (r.rnd.getD pk_seed))) := by
  obtain ⟨msg, ctx, rnd⟩ := r
  subst hsk
  dsimp only at hc ⊢
  rw [exec_try_sign_with_rng, if_neg (by omega)]
  cases rnd with
  | none => rfl
  | some o =>
    change (pure (_, signOutcome ps P _ sk.key (.ok (toVec ps.params.N o.toList))) : Exec b _) = _
    rw [toVec_toList_self]
    rfl

/-- A signature contains a secret of each tree of the FORS key that its digest selects. -/
theorem sigVec_discloses (P : Spec.Prims) (sk : PrivateKey ps.params) (o : Vector UInt8 ps.params.N) (M : List UInt8)
    {i : Nat} (hi : i < ps.sp.k) : disclosed (sigVec ps P M sk.key o) i =
      secretAt P sk (opened P sk.get_public_key (sigVec ps P M sk.key o) M i) := by
  refine honest_discloses ?_ hi
  have h : ((sigVec ps P M sk.key o).toList.take ps.sp.n) = (ps.hf P).PRFmsg sk.key.sk_prf.toList o.toList M := by
    rw [sigVec_toList, Spec.signInternal, Spec.signWithR, List.append_assoc, List.take_left' ((ps.valid P).PRFmsg _ _ _)]
  rw [honest, h, sigVec_toList, Spec.signInternal]

theorem signsWith_iff {P : Spec.Prims} {sk_seed sk_prf pk_seed : Vector UInt8 ps.params.N} {r : Req ps}
    {d : List UInt8} (hc : r.ctx.length ≤ 255) : SignsWith P b sk_seed sk_prf pk_seed r d ↔
      ownDigest ps P sk_seed.toList sk_prf.toList pk_seed.toList (r.rnd.getD pk_seed).toList
        (Spec.pureMsg r.ctx r.msg) = d := by
  constructor
  · rintro ⟨pk, sk, s, sig, h1, h2, rfl⟩
    rw [exec_keygen_with_seeds] at h1
    have h1 := Exec.pure_inj h1
    obtain rfl : (keyPair ps P sk_seed sk_prf pk_seed).1 = pk := congrArg Prod.fst h1
    obtain rfl : (keyPair ps P sk_seed sk_prf pk_seed).2 = sk := congrArg Prod.snd h1
    rw [exec_request hc _ rfl] at h2
    have h2 := Except.ok.inj (congrArg Prod.snd (Exec.pure_inj h2))
    rw [← h2]
    exact (sig_digest _ _ _ _ _ _).symm
  · intro h
    exact ⟨_, _, _, _, exec_keygen_with_seeds _ _ _, exec_request hc _ rfl, (sig_digest _ _ _ _ _ _).trans h⟩

theorem hashSignsWith_iff {P : Spec.Prims} {sk_seed sk_prf pk_seed : Vector UInt8 ps.params.N} {r : Req ps} {ph : Ph}
    {d : List UInt8} (hc : r.ctx.length ≤ 255) : HashSignsWith P b sk_seed sk_prf pk_seed r ph d ↔
      ownDigest ps P sk_seed.toList sk_prf.toList pk_seed.toList (r.rnd.getD pk_seed).toList
        (Spec.prehashMsg r.ctx (Spec.oid ph.spec) (Spec.preHash P r.msg ph.spec)) = d := by
  obtain ⟨msg, ctx, rnd⟩ := r
  have key : ∀ sk : PrivateKey ps.params, sk.key.pk_seed = pk_seed →
      (sk.try_hash_sign_with_rng (crypto P) tapeRng (rnd.toList.map Vector.toList) msg ctx ph rnd.isSome : Exec b _) =
      pure ([], .ok (sigVec ps P (phMsg P ctx msg ph) sk.key (rnd.getD pk_seed))) := by
    rintro sk rfl
    rw [exec_try_hash_sign_with_rng, if_neg (by dsimp only at hc; omega)]
    cases rnd with
    | none => rfl
    | some o =>
      change (pure (_, signOutcome ps P _ sk.key (.ok (toVec ps.params.N o.toList))) : Exec b _) = _
      rw [toVec_toList_self]
      rfl
  constructor
  · rintro ⟨pk, sk, s, sig, h1, h2, rfl⟩
    rw [exec_keygen_with_seeds] at h1
    have h1 := Exec.pure_inj h1
    obtain rfl : (keyPair ps P sk_seed sk_prf pk_seed).1 = pk := congrArg Prod.fst h1
    obtain rfl : (keyPair ps P sk_seed sk_prf pk_seed).2 = sk := congrArg Prod.snd h1
    dsimp only at h2 ⊢
    rw [key _ rfl] at h2
    have h2 := Except.ok.inj (congrArg Prod.snd (Exec.pure_inj h2))
    rw [← h2]
    exact (sig_digest _ _ _ _ _ _).symm
  · intro h
    exact ⟨_, _, _, _, exec_keygen_with_seeds _ _ _, key _ rfl, (sig_digest _ _ _ _ _ _).trans h⟩

/-- The length of what follows `PK.seed` in the last hashes. -/
def tailLen (ps : ParamSet) (L : Nat) : Nat :=
  match ps.family with
  | .shake => ps.sp.n + L
  | .sha2 => hlen ps + 4

/-- The digest is random. -/
theorem avg_ownDigest (P0 : Spec.Prims) (hw : 64 ≤ w) {L : Nat} (hB : 160 + L ≤ B)
    (hL : ps.family = .sha2 → ps.sp.n + L ≠ hlen ps + 4) (sk_seed sk_prf pk_seed o : Vector UInt8 ps.params.N)
    (hpk : ¬ [0, 0, 0] <+: pk_seed.toList) (M : (Query B → Fin (256 ^ w)) → List UInt8) (hM : ∀ O, (M O).length = L)
    (hst : ∀ O O', (∀ y, ¬ Late ps pk_seed.toList (fun rest => rest.length = tailLen ps L) y → O' y = O y) → M O' = M O)
    (G : List UInt8 → ℚ) :
    (avg fun O : Query B → Fin (256 ^ w) =>
      G (ownDigest ps (withHash P0 O) sk_seed.toList sk_prf.toList pk_seed.toList o.toList (M O))) =
      avg fun d : Fin (256 ^ ps.sp.m) => G (Spec.toByte d ps.sp.m) := by
  have hne : Nonempty (Query B → Fin (256 ^ w)) := ⟨fun _ => ⟨0, Nat.pow_pos (by decide)⟩⟩
  have h := n_le_32 ps
  have h0 := n_pos ps
  refine Eq.trans ?_ (avg_const (α := Query B → Fin (256 ^ w)) _)
  cases hps : ps.family with
  | shake =>
    have ht : tailLen ps L = ps.sp.n + L := by rw [tailLen, hps]
    refine spread_shake hw (length_N _) hpk (length_N _) (length_N _) hps (fun rest => rest.length = tailLen ps L) M
      (fun _ => ()) (fun O => by rw [hM]; omega) (fun O root hr => by rw [List.length_append, hM, hr, ht])
      (fun O rest hr => by rw [hM, hr, ht]; omega) (fun O O' h => ⟨hst O O' h, rfl⟩) fun d _ => G d
  | sha2 =>
    have ht : tailLen ps L = hlen ps + 4 := by rw [tailLen, hps]
    refine spread_sha2 hw (length_N _) hpk (length_N _) (length_N _) hps M (fun _ => ()) (by omega)
      (fun O => by rw [hM]; exact hL hps) (fun O O' h => ⟨hst O O' (ht ▸ h), rfl⟩) fun d _ => G d

theorem pureMsg_length (ctx msg : List UInt8) : (Spec.pureMsg ctx msg).length = 2 + ctx.length + msg.length := by
  simp [Spec.pureMsg, Spec.toByte_length]
  omega

theorem avg_toByte {m : Nat} {d : List UInt8} (hd : d.length = m) :
    (avg fun e : Fin (256 ^ m) => ind (Spec.toByte e m = d)) = 1 / 256 ^ m := by
  have h2 := avg_point (number m d)
  rw [Fintype.card_fin] at h2
  push_cast at h2
  rw [← h2]
  refine congrArg avg (funext fun e => ind_congr ?_)
  exact ⟨fun h => by rw [← h, number_toByte], fun h => by rw [h, toByte_number hd]⟩

/-- A request for which the following is exact.  (With the SHA2 parameter sets a message of one length is left out, which
makes the input of the hash of the message as long as those that expand it.) -/
structure Req.Fits (r : Req ps) (B : Nat) : Prop where
  ctx : r.ctx.length ≤ 255
  room : 162 + r.ctx.length + r.msg.length ≤ B
  other : ps.family = .sha2 → 2 + r.ctx.length + r.msg.length + ps.sp.n ≠ hlen ps + 4

theorem avg_signs (P0 : Spec.Prims) (hw : 64 ≤ w) (sk_seed sk_prf pk_seed : Vector UInt8 ps.params.N)
    (hpk : ¬ [0, 0, 0] <+: pk_seed.toList) {r : Req ps} (hr : r.Fits B) (G : List UInt8 → ℚ) :
    (avg fun O : Query B → Fin (256 ^ w) =>
      G (ownDigest ps (withHash P0 O) sk_seed.toList sk_prf.toList pk_seed.toList (r.rnd.getD pk_seed).toList
        (Spec.pureMsg r.ctx r.msg))) = avg fun d : Fin (256 ^ ps.sp.m) => G (Spec.toByte d ps.sp.m) :=
  avg_ownDigest P0 hw (L := 2 + r.ctx.length + r.msg.length) (by have := hr.room; omega)
    (fun h => by have := hr.other h; omega) sk_seed sk_prf pk_seed _ hpk _
    (fun _ => pureMsg_length _ _) (fun _ _ _ => rfl) G

/-- **C93** Let the hash functions be random functions.  For a key with any given seeds and any request, `try_sign_with_rng`
returns a signature for which every one of the `256^m` digests is equally likely. -/
theorem C93_digest (P0 : Spec.Prims) (b : Build) (hw : 64 ≤ w) (sk_seed sk_prf pk_seed : Vector UInt8 ps.params.N)
    (hpk : ¬ [0, 0, 0] <+: pk_seed.toList) {r : Req ps} (hr : r.Fits B) {d : List UInt8} (hd : d.length = ps.sp.m) :
    prob (fun O : Query B → Fin (256 ^ w) => SignsWith (withHash P0 O) b sk_seed sk_prf pk_seed r d) =
      1 / 256 ^ ps.sp.m := by
  have h := avg_signs (w := w) P0 hw sk_seed sk_prf pk_seed hpk hr fun x => ind (x = d)
  rw [prob_eq]
  simp only [signsWith_iff hr.ctx]
  rw [h]
  exact avg_toByte hd

/-- The length of the hash of a message. -/
def preLen : Spec.PreHash → Nat
  | .sha256 | .shake128 => 32
  | .sha512 | .shake256 => 64

theorem preHash_length (P : Spec.Prims) (M : List UInt8) (a : Spec.PreHash) : (Spec.preHash P M a).length = preLen a := by
  cases a <;> exact Vector.length_toList

theorem prehashMsg_length (P : Spec.Prims) (ctx M : List UInt8) (a : Spec.PreHash) :
    (Spec.prehashMsg ctx (Spec.oid a) (Spec.preHash P M a)).length = 13 + ctx.length + preLen a := by
  have h : (Spec.oid a).length = 11 := by cases a <;> exact Spec.toByte_length _ _
  simp only [Spec.prehashMsg, List.length_append, Spec.toByte_length, h, preHash_length]
  omega

/-- **C93** The same for `try_hash_sign_with_rng`, for messages that are not just as long as the inputs of the last hashes. -/
theorem C93_hash_digest (P0 : Spec.Prims) (b : Build) (hw : 64 ≤ w) (sk_seed sk_prf pk_seed : Vector UInt8 ps.params.N)
    (hpk : ¬ [0, 0, 0] <+: pk_seed.toList) (r : Req ps) (ph : Ph) (hctx : r.ctx.length ≤ 255) (hB : 512 ≤ B)
    (hmsg : r.msg.length ≠ 2 * ps.sp.n + tailLen ps (13 + r.ctx.length + preLen ph.spec)) {d : List UInt8}
    (hd : d.length = ps.sp.m) :
    prob (fun O : Query B → Fin (256 ^ w) => HashSignsWith (withHash P0 O) b sk_seed sk_prf pk_seed r ph d) =
      1 / 256 ^ ps.sp.m := by
  have hp : 32 ≤ preLen ph.spec ∧ preLen ph.spec ≤ 64 := by cases ph.spec <;> decide
  have hn : hlen ps + 4 < ps.sp.n + 45 := by clear * -; cases ps <;> decide
  have h := avg_ownDigest (w := w) (B := B) P0 hw (L := 13 + r.ctx.length + preLen ph.spec) (by omega)
    (fun _ => by omega) sk_seed sk_prf pk_seed (r.rnd.getD pk_seed) hpk
    (fun O => Spec.prehashMsg r.ctx (Spec.oid ph.spec) (Spec.preHash (withHash P0 O) r.msg ph.spec))
    (fun _ => prehashMsg_length _ _ _ _) (fun O O' h => ?_) fun x => ind (x = d)
  · rw [prob_eq]
    simp only [hashSignsWith_iff hctx]
    rw [h]
    exact avg_toByte hd
  · have key : ∀ a : Spec.PreHash, O' (.of B ⟨a, r.msg⟩) = O (.of B ⟨a, r.msg⟩) := fun a =>
      late_len h (length_N _) fun rest hr => by rw [hr]; exact hmsg
    have : Spec.preHash (withHash P0 O') r.msg ph.spec = Spec.preHash (withHash P0 O) r.msg ph.spec := by
      cases ph.spec <;> simp only [Spec.preHash, withHash, key]
    rw [this]

/-! ## The FORS key -/

/-- Every FORS key is selected by the same number of digests. -/
theorem avg_forsKey (ps : ParamSet) {x : Nat × Nat} (hx : x ∈ forsKeys ps) :
    (avg fun d : Fin (256 ^ ps.sp.m) => ind (forsKey ps (Spec.toByte d ps.sp.m) = x)) = 1 / 2 ^ ps.sp.h := by
  classical
  let c : Nat × Nat → Nat := fun x =>
    (Finset.univ.filter fun N : Fin (256 ^ ps.sp.m) => forsKey ps (Spec.toByte N ps.sp.m) = x).card
  have hle : ∀ x ∈ forsKeys ps, c x * 2 ^ ps.sp.h ≤ 256 ^ ps.sp.m := fun x _ => forsKey_card ps x
  have hsum : ∑ x ∈ forsKeys ps, c x * 2 ^ ps.sp.h = ∑ x ∈ forsKeys ps, 256 ^ ps.sp.m := by
    rw [← Finset.sum_mul, Finset.sum_const, forsKeys_card, smul_eq_mul, Nat.mul_comm]
    refine congrArg (2 ^ ps.sp.h * ·) ?_
    have := Finset.card_eq_sum_card_fiberwise (s := (Finset.univ : Finset (Fin (256 ^ ps.sp.m))))
      (f := fun N : Fin (256 ^ ps.sp.m) => forsKey ps (Spec.toByte N ps.sp.m)) (t := forsKeys ps) fun N _ => forsKey_mem _
    rw [Finset.card_univ, Fintype.card_fin] at this
    exact this.symm
  have h := (Finset.sum_eq_sum_iff_of_le hle).mp hsum x hx
  have h' : (c x : ℚ) * 2 ^ ps.sp.h = 256 ^ ps.sp.m := by exact_mod_cast h
  have : (∑ a : Fin (256 ^ ps.sp.m), ind (forsKey ps (Spec.toByte a ps.sp.m) = x)) = (c x : ℚ) := by
    simp only [ind, c, Finset.card_filter]
    push_cast
    exact Finset.sum_congr rfl fun a _ => by split <;> simp_all
  rw [avg, this, Fintype.card_fin]
  push_cast
  rw [← h', eq_comm, div_eq_div_iff (by positivity) (by rw [h']; positivity)]
  ring

theorem signsAt_iff {P : Spec.Prims} {sk_seed sk_prf pk_seed : Vector UInt8 ps.params.N} {r : Req ps}
    {x : Nat × Nat} (hc : r.ctx.length ≤ 255) : SignsAt P b sk_seed sk_prf pk_seed r x ↔
      forsKey ps (ownDigest ps P sk_seed.toList sk_prf.toList pk_seed.toList (r.rnd.getD pk_seed).toList
        (Spec.pureMsg r.ctx r.msg)) = x := by
  constructor
  · rintro ⟨pk, sk, s, sig, h1, h2, h3, -⟩
    rw [← (signsWith_iff (b := b) hc).1 ⟨pk, sk, s, sig, h1, h2, rfl⟩] at h3
    exact h3
  · rintro rfl
    have hd := sig_digest P sk_seed sk_prf pk_seed (r.rnd.getD pk_seed) (Spec.pureMsg r.ctx r.msg)
    refine ⟨_, _, _, _, exec_keygen_with_seeds _ _ _, exec_request hc _ rfl, ?_, fun i hi =>
      ⟨forsLeaf ps (ownDigest ps P sk_seed.toList sk_prf.toList pk_seed.toList (r.rnd.getD pk_seed).toList
        (Spec.pureMsg r.ctx r.msg)) i, base2b_getD_lt, ?_⟩⟩
    · exact congrArg (forsKey ps) hd
    · exact (sigVec_discloses P _ _ _ hi).trans (congrArg (fun d => secretAt P _ (place ps d i)) hd)

/-- **C93** Each of the `2^h` FORS keys is used with the same probability. -/
theorem C93_position (P0 : Spec.Prims) (b : Build) (hw : 64 ≤ w) (sk_seed sk_prf pk_seed : Vector UInt8 ps.params.N)
    (hpk : ¬ [0, 0, 0] <+: pk_seed.toList) {r : Req ps} (hr : r.Fits B) {t l : Nat} (ht : t < 2 ^ (ps.sp.h - ps.sp.hp))
    (hl : l < 2 ^ ps.sp.hp) :
    prob (fun O : Query B → Fin (256 ^ w) => SignsAt (withHash P0 O) b sk_seed sk_prf pk_seed r (t, l)) =
      1 / 2 ^ ps.sp.h := by
  have hx : (t, l) ∈ forsKeys ps := by
    have e : ps.sp.h / ps.sp.d = ps.sp.hp := by clear * -; cases ps <;> rfl
    rw [forsKeys, e]
    exact Finset.mem_product.mpr ⟨Finset.mem_range.mpr ht, Finset.mem_range.mpr hl⟩
  rw [prob_eq, ← avg_forsKey ps hx, ← avg_signs (w := w) P0 hw sk_seed sk_prf pk_seed hpk hr fun x =>
    ind (forsKey ps x = (t, l))]
  simp only [signsAt_iff hr.ctx]

open Classical in
/-- **C93** Hence of any `q` requests, chosen without looking at the hash functions, `q / 2^h` are signed with a given FORS
key on average. -/
theorem C93_load (P0 : Spec.Prims) (b : Build) (hw : 64 ≤ w) (sk_seed sk_prf pk_seed : Vector UInt8 ps.params.N)
    (hpk : ¬ [0, 0, 0] <+: pk_seed.toList) (reqs : List (Req ps)) (hr : ∀ r ∈ reqs, r.Fits B) {t l : Nat}
    (ht : t < 2 ^ (ps.sp.h - ps.sp.hp)) (hl : l < 2 ^ ps.sp.hp) :
    (avg fun O : Query B → Fin (256 ^ w) =>
      ((reqs.countP fun r => SignsAt (withHash P0 O) b sk_seed sk_prf pk_seed r (t, l) : Nat) : ℚ)) =
      reqs.length / 2 ^ ps.sp.h := by
  have hne : Nonempty (Query B → Fin (256 ^ w)) := ⟨fun _ => ⟨0, Nat.pow_pos (by decide)⟩⟩
  induction reqs with
  | nil =>
    simp only [List.countP_nil, List.length_nil, Nat.cast_zero, zero_div]
    exact avg_const 0
  | cons r reqs ih =>
    have h1 := C93_position (w := w) P0 b hw sk_seed sk_prf pk_seed hpk (hr r List.mem_cons_self) ht hl
    have h2 := ih fun r h => hr r (List.mem_cons_of_mem _ h)
    rw [prob_eq] at h1
    have h3 : ∀ O : Query B → Fin (256 ^ w),
        (((r :: reqs).countP fun r => SignsAt (withHash P0 O) b sk_seed sk_prf pk_seed r (t, l) : Nat) : ℚ) =
        ((reqs.countP fun r => SignsAt (withHash P0 O) b sk_seed sk_prf pk_seed r (t, l) : Nat) : ℚ) +
          ind (SignsAt (withHash P0 O) b sk_seed sk_prf pk_seed r (t, l)) := by
      intro O
      rw [List.countP_cons]
      by_cases h : SignsAt (withHash P0 O) b sk_seed sk_prf pk_seed r (t, l) <;> simp [ind, h]
    simp only [h3]
    rw [avg_add, h1, h2, List.length_cons]
    push_cast
    ring

/-! ## Two requests -/

theorem pureMsg_inj {ctx ctx' msg msg' : List UInt8} (hc : ctx.length ≤ 255) (hc' : ctx'.length ≤ 255)
    (h : Spec.pureMsg ctx msg = Spec.pureMsg ctx' msg') : ctx = ctx' ∧ msg = msg' := by
  simp only [Spec.pureMsg, List.append_assoc] at h
  have h := List.append_cancel_left h
  obtain ⟨h1, h2⟩ := List.append_inj h (by rw [Spec.toByte_length, Spec.toByte_length])
  have h1 := congrArg Spec.toInt h1
  rw [Spec.toInt_toByte, Spec.toInt_toByte, Nat.mod_eq_of_lt (by omega), Nat.mod_eq_of_lt (by omega)] at h1
  exact List.append_inj h2 h1

theorem avg_pair_shake (P0 : Spec.Prims) (hw : 64 ≤ w) (hps : ps.family = .shake)
    (sk_seed sk_prf pk_seed o o' : Vector UInt8 ps.params.N) (hpk : ¬ [0, 0, 0] <+: pk_seed.toList) {M M' : List UInt8}
    (hB : 160 + M.length ≤ B) (hle : M'.length ≤ M.length) (hne : M ≠ M') :
    (avg fun O : Query B → Fin (256 ^ w) =>
      ind (forsKey ps (ownDigest ps (withHash P0 O) sk_seed.toList sk_prf.toList pk_seed.toList o.toList M) =
        forsKey ps (ownDigest ps (withHash P0 O) sk_seed.toList sk_prf.toList pk_seed.toList o'.toList M'))) =
      1 / 2 ^ ps.sp.h := by
  have hO : Nonempty (Query B → Fin (256 ^ w)) := ⟨fun _ => ⟨0, Nat.pow_pos (by decide)⟩⟩
  have h := n_le_32 ps
  have h0 := n_pos ps
  have hs := length_N pk_seed
  have ha : topAlg ps = .shake256 := by rw [topAlg, hps]
  have hlen : ∀ rest, (∃ root : List UInt8, root.length = ps.sp.n ∧ rest = root ++ M) → M'.length ≠ rest.length := by
    rintro _ ⟨root, hr, rfl⟩
    rw [List.length_append]
    omega
  have key := spread_shake (P0 := P0) (B := B) (SKseed := sk_seed.toList) hw hs hpk (length_N sk_prf) (length_N o) hps
    (fun rest => ∃ root : List UInt8, root.length = ps.sp.n ∧ rest = root ++ M) (fun _ => M)
    (fun O => ownDigest ps (withHash P0 O) sk_seed.toList sk_prf.toList pk_seed.toList o'.toList M')
    (fun O => by omega) (fun O root hr => ⟨root, hr, rfl⟩)
    (fun O rest ⟨root, hr, e⟩ => by rw [e, List.length_append]; omega) (fun O O' h => ⟨rfl, ?_⟩)
    (fun d d' => ind (forsKey ps d = forsKey ps d'))
  · rw [key]
    refine (congrArg avg (funext fun O => ?_)).trans (avg_const _)
    exact avg_forsKey ps (forsKey_mem _)
  · have e1 := late_root (P0 := P0) h (by omega) hs hpk sk_seed.toList
    have e2 := late_shake (P0 := P0) h hps hs (length_N sk_prf) (length_N o') hlen
    rw [ownDigest, ownDigest, e1, e2]
    generalize hR : (ps.hf (withHash P0 O)).PRFmsg sk_prf.toList o'.toList M' = R
    have hR : R.length = ps.sp.n := hR ▸ (ps.valid _).PRFmsg _ _ _
    generalize hr : Spec.pkRoot ps.sp (ps.hf (withHash P0 O)) sk_seed.toList pk_seed.toList = r
    have hr : r.length = ps.sp.n := hr ▸ pkRoot_length _ _ _
    rw [hf_shake hps, hf_shake hps]
    change (toVec _ (Spec.toByte (O' _) w ++ _)).toList = (toVec _ (Spec.toByte (O _) w ++ _)).toList
    rw [late_off h fun R' rest hR' ⟨root, hroot, e⟩ hc => ?_]
    subst e
    have hc := congrArg Call.input hc
    simp only [List.append_assoc] at hc
    have hc := List.append_cancel_left (List.append_inj hc (by omega)).2
    exact hne (List.append_inj hc (by omega)).2.symm

/-- An input of HMAC is not one for a message. -/
theorem pad_ne (hs : ∀ c ∈ [0x36, 0x5c], PKseed ≠ List.replicate ps.sp.n c) (hl : PKseed.length = ps.sp.n)
    {k R rest X : List UInt8} (hk : k.length = ps.sp.n) (hR : R.length = ps.sp.n) {c : UInt8} (hc : c ∈ [0x36, 0x5c]) :
    (k ++ List.replicate (blen ps - k.length) 0).map (· ^^^ c) ++ X ≠ R ++ (PKseed ++ rest) := by
  intro h
  have hb := n_le_blen ps
  rw [List.map_append, List.append_assoc, List.map_replicate, UInt8.zero_xor] at h
  have h := (List.append_inj h (by rw [List.length_map]; omega)).2
  have h := congrArg (List.take ps.sp.n) h
  rw [List.take_append_of_le_length (by rw [List.length_replicate]; omega), List.take_left' hl, List.take_replicate,
    Nat.min_eq_left (by omega)] at h
  exact hs c hc h.symm

/-- The hashes of two messages are not likely to be the same. -/
theorem avg_hashes (P0 : Spec.Prims) (hw : 64 ≤ w) (hps : ps.family = .sha2)
    (sk_seed sk_prf pk_seed o o' : Vector UInt8 ps.params.N) (hpk : ¬ [0, 0, 0] <+: pk_seed.toList)
    (hs : ∀ c ∈ [0x36, 0x5c], pk_seed.toList ≠ List.replicate ps.sp.n c) {M M' : List UInt8}
    (hB : 160 + M.length ≤ B) (hne : M ≠ M') :
    (avg fun O : Query B → Fin (256 ^ w) => ind (
      shaOf ps (withHash P0 O) ((ps.hf (withHash P0 O)).PRFmsg sk_prf.toList o.toList M ++ (pk_seed.toList ++
        (Spec.pkRoot ps.sp (ps.hf (withHash P0 O)) sk_seed.toList pk_seed.toList ++ M))) =
      shaOf ps (withHash P0 O) ((ps.hf (withHash P0 O)).PRFmsg sk_prf.toList o'.toList M' ++ (pk_seed.toList ++
        (Spec.pkRoot ps.sp (ps.hf (withHash P0 O)) sk_seed.toList pk_seed.toList ++ M'))))) = 1 / 256 ^ hlen ps := by
  have hO : Nonempty (Query B → Fin (256 ^ w)) := ⟨fun _ => ⟨0, Nat.pow_pos (by decide)⟩⟩
  have hn := n_le_32 ps
  have hl := length_N pk_seed
  have hh : hlen ps ≤ w := (hlen_le ps).trans hw
  obtain ⟨τ, i1, i2, e, he⟩ := split_one (w := w) (m := hlen ps) (h := hlen ps) (nb := 1) hh (Nat.le_refl _) rfl
  let R : (Query B → Fin (256 ^ w)) → Vector UInt8 ps.params.N → List UInt8 → List UInt8 :=
    fun O o M => (ps.hf (withHash P0 O)).PRFmsg sk_prf.toList o.toList M
  let r : (Query B → Fin (256 ^ w)) → List UInt8 :=
    fun O => Spec.pkRoot ps.sp (ps.hf (withHash P0 O)) sk_seed.toList pk_seed.toList
  have hR : ∀ O o M, (R O o M).length = ps.sp.n := fun O o M => (ps.valid _).PRFmsg _ _ _
  have hr : ∀ O, (r O).length = ps.sp.n := fun O => pkRoot_length _ _ _
  let pt : (Query B → Fin (256 ^ w)) → Fin 1 → Query B :=
    fun O _ => .of B ⟨topAlg ps, R O o M ++ (pk_seed.toList ++ (r O ++ M))⟩
  let z : (Query B → Fin (256 ^ w)) → List UInt8 := fun O =>
    shaOf ps (withHash P0 O) (R O o' M' ++ (pk_seed.toList ++ (r O ++ M')))
  have hz : ∀ O, (z O).length = hlen ps := fun O => shaOf_length _ _
  have ha : topAlg ps = msgAlg ps := by rw [topAlg, hps]
  have hlate : ∀ O c, Late ps pk_seed.toList (fun rest => ∃ root : List UInt8, root.length = ps.sp.n ∧ rest = root ++ M)
      (pt O c) := fun O c => late_of (hR O _ _) ⟨_, hr O, rfl⟩ (by
    have := hR O o M; have := hr O
    simp only [List.length_append]
    omega)
  have h := avg_blocks e he (fun _ => True) pt z (fun O _ i j _ => Subsingleton.elim i j) (fun O O' _ h => ?_)
    fun d d' => ind (d = d')
  · have h1 : ind True = 1 := by simp [ind]
    simp only [h1, one_mul] at h
    have hd : ∀ O : Query B → Fin (256 ^ w), shaOf ps (withHash P0 O) (R O o M ++ (pk_seed.toList ++ (r O ++ M))) =
        digest (hlen ps) (hlen ps) fun c => O (pt O c) := by
      intro O
      rw [digest]
      simp only [List.range_one, List.flatMap_cons, List.flatMap_nil, List.append_nil, Nat.zero_lt_one, dif_pos, pt, ha]
      rw [wide_sha hw, List.take_of_length_le (by rw [Spec.toByte_length]), shaQ]
    change (avg fun O => ind (shaOf ps (withHash P0 O) (R O o M ++ (pk_seed.toList ++ (r O ++ M))) = z O)) = _
    simp only [hd]
    refine h.trans ?_
    clear hd h
    refine (congrArg avg (funext fun O => ?_)).trans (avg_const _)
    exact avg_toByte (hz O)
  · have hoff : ∀ y, ¬ Late ps pk_seed.toList
        (fun rest => ∃ root : List UInt8, root.length = ps.sp.n ∧ rest = root ++ M) y → O' y = O y :=
      fun y hy => h y fun c e => hy (e ▸ hlate O c)
    have e1 : r O' = r O := late_root hoff (by omega) hl hpk _
    have e2 : ∀ o M, R O' o M = R O o M := by
      intro o M
      have hb := n_le_blen ps
      have hk := length_N sk_prf
      have h0 : ∀ P, (if sk_prf.toList.length ≤ blen ps then sk_prf.toList else shaOf ps P sk_prf.toList) =
        sk_prf.toList := fun P => if_pos (by omega)
      have hsha : ∀ c ∈ [0x36, 0x5c], ∀ X, shaOf ps (withHash P0 O') ((sk_prf.toList ++ List.replicate
          (blen ps - sk_prf.toList.length) 0).map (· ^^^ c) ++ X) = shaOf ps (withHash P0 O) ((sk_prf.toList ++
          List.replicate (blen ps - sk_prf.toList.length) 0).map (· ^^^ c) ++ X) := by
        intro c hc X
        rw [wide_sha hw, wide_sha hw, shaQ, late_off hoff fun R' rest hR' _ h => ?_]
        exact pad_ne hs hl hk hR' hc (congrArg Call.input h)
      simp only [R]
      rw [sha2_PRFmsg hps, sha2_PRFmsg hps]
      simp only [Spec.hmac, h0, hsha 0x36 (by simp), hsha 0x5c (by simp)]
    refine ⟨trivial, funext fun c => by simp only [pt, e1, e2], ?_⟩
    simp only [z, e1, e2]
    rw [wide_sha hw, wide_sha hw, shaQ, late_off hoff fun R' rest hR' ⟨root, hroot, e⟩ hc => ?_]
    subst e
    have hc := congrArg Call.input hc
    have hc := List.append_cancel_left (List.append_inj hc (by rw [hR, hR'])).2
    exact hne (List.append_inj hc (by rw [hr, hroot])).2.symm

theorem avg_pair_sha2 (P0 : Spec.Prims) (hw : 64 ≤ w) (hps : ps.family = .sha2)
    (sk_seed sk_prf pk_seed o o' : Vector UInt8 ps.params.N) (hpk : ¬ [0, 0, 0] <+: pk_seed.toList)
    (hs : ∀ c ∈ [0x36, 0x5c], pk_seed.toList ≠ List.replicate ps.sp.n c) {M M' : List UInt8}
    (hB : 160 + M.length ≤ B) (hM : ps.sp.n + M.length ≠ hlen ps + 4) (hM' : ps.sp.n + M'.length ≠ hlen ps + 4)
    (hne : M ≠ M') :
    (avg fun O : Query B → Fin (256 ^ w) =>
      ind (forsKey ps (ownDigest ps (withHash P0 O) sk_seed.toList sk_prf.toList pk_seed.toList o.toList M) =
        forsKey ps (ownDigest ps (withHash P0 O) sk_seed.toList sk_prf.toList pk_seed.toList o'.toList M'))) ≤
      1 / 2 ^ ps.sp.h + 1 / 256 ^ hlen ps := by
  have hO : Nonempty (Query B → Fin (256 ^ w)) := ⟨fun _ => ⟨0, Nat.pow_pos (by decide)⟩⟩
  have hn := n_le_32 ps
  have hl := length_N pk_seed
  obtain ⟨τ, i1, i2, e, he⟩ := split_blocks (ps := ps) hw
  let R : (Query B → Fin (256 ^ w)) → Vector UInt8 ps.params.N → List UInt8 → List UInt8 :=
    fun O o M => (ps.hf (withHash P0 O)).PRFmsg sk_prf.toList o.toList M
  let r : (Query B → Fin (256 ^ w)) → List UInt8 :=
    fun O => Spec.pkRoot ps.sp (ps.hf (withHash P0 O)) sk_seed.toList pk_seed.toList
  let z : (Query B → Fin (256 ^ w)) → Vector UInt8 ps.params.N → List UInt8 → List UInt8 := fun O o M =>
    shaOf ps (withHash P0 O) (R O o M ++ (pk_seed.toList ++ (r O ++ M)))
  have hR : ∀ O o M, (R O o M).length = ps.sp.n := fun O o M => (ps.valid _).PRFmsg _ _ _
  have hr : ∀ O, (r O).length = ps.sp.n := fun O => pkRoot_length _ _ _
  have hz : ∀ O o M, (z O o M).length = hlen ps := fun O o M => shaOf_length _ _
  let X : (Query B → Fin (256 ^ w)) → Vector UInt8 ps.params.N → List UInt8 → Nat → List UInt8 := fun O o M c =>
    R O o M ++ (pk_seed.toList ++ (z O o M ++ Spec.toByte c 4))
  have ha : topAlg ps = msgAlg ps := by rw [topAlg, hps]
  have hX : ∀ O o M c, (X O o M c).length ≤ B := fun O o M c => by
    have := hR O o M; have := hz O o M; have := hlen_le ps
    simp only [X, List.length_append, Spec.toByte_length]
    omega
  let pt : (Query B → Fin (256 ^ w)) → Fin (blocks ps) → Query B := fun O c => shaQ ps B (X O o M c)
  have hlate : ∀ O c, Late ps pk_seed.toList (fun rest => rest.length = hlen ps + 4) (pt O c) := fun O c => by
    have := late_of (B := B) (T := fun rest => rest.length = hlen ps + 4) (rest := z O o M ++ Spec.toByte c 4) (hR O o M)
      (by rw [List.length_append, hz, Spec.toByte_length]) (hX O o M c)
    rw [ha] at this
    exact this
  have hb : blocks ps ≤ 256 ^ 4 := by clear * -; cases ps <;> decide
  have hinj : ∀ O, Function.Injective (pt O) := by
    intro O i j h
    have h := shaQ_inj (ps := ps) (hX O o M i) (hX O o M j) h
    have h := congrArg Spec.toInt (List.append_cancel_left (List.append_cancel_left (List.append_cancel_left h)))
    rw [Spec.toInt_toByte, Spec.toInt_toByte, Nat.mod_eq_of_lt (i.2.trans_le hb), Nat.mod_eq_of_lt (j.2.trans_le hb)] at h
    exact Fin.ext h
  have hdig : ∀ (O : Query B → Fin (256 ^ w)) o M,
      ownDigest ps (withHash P0 O) sk_seed.toList sk_prf.toList pk_seed.toList o.toList M =
        digest ps.sp.m (hlen ps) fun c : Fin (blocks ps) => O (shaQ ps B (X O o M c)) := by
    intro O o M
    rw [ownDigest, sha2_Hmsg hps, Spec.mgf1, Spec.trunc, digest, Spec.concat]
    refine congrArg (List.take _) ?_
    change List.flatMap _ (List.range (blocks ps)) = _
    refine List.flatMap_congr fun c hcr => ?_
    have hcb := List.mem_range.mp hcr
    rw [dif_pos hcb, wide_sha hw]
    simp only [List.append_assoc]
    rfl
  have hst : ∀ O O', (∀ y, (∀ c, pt O c ≠ y) → O' y = O y) →
      r O' = r O ∧ (∀ o M, R O' o M = R O o M) ∧ z O' o M = z O o M ∧ z O' o' M' = z O o' M' := by
    intro O O' h
    have hoff : ∀ y, ¬ Late ps pk_seed.toList (fun rest => rest.length = hlen ps + 4) y → O' y = O y :=
      fun y hy => h y fun c e => hy (e ▸ hlate O c)
    have e1 : r O' = r O := late_root hoff (by omega) hl hpk _
    have e2 : ∀ o M, R O' o M = R O o M := fun o M =>
      late_sha2 hoff hps hw hl (length_N _) (length_N _) fun _ h => h
    have e3 : ∀ o M, ps.sp.n + M.length ≠ hlen ps + 4 → z O' o M = z O o M := by
      intro o M hM
      simp only [z, e1, e2]
      refine late_sha hoff hw hl fun rest h => ?_
      have := hR O o M; have := hr O
      simp only [List.length_append]
      omega
    exact ⟨e1, e2, e3 o M hM, e3 o' M' hM'⟩
  let W : (Query B → Fin (256 ^ w)) → Prop := fun O => ¬ (R O o M = R O o' M' ∧ z O o M = z O o' M')
  have h := avg_blocks e he W pt
    (fun O => ownDigest ps (withHash P0 O) sk_seed.toList sk_prf.toList pk_seed.toList o'.toList M')
    (fun O _ => hinj O) (fun O O' hW h => ?_) fun d d' => ind (forsKey ps d = forsKey ps d')
  · have h1 : ∀ O : Query B → Fin (256 ^ w),
        ind (forsKey ps (ownDigest ps (withHash P0 O) sk_seed.toList sk_prf.toList pk_seed.toList o.toList M) =
          forsKey ps (ownDigest ps (withHash P0 O) sk_seed.toList sk_prf.toList pk_seed.toList o'.toList M')) ≤
        ind (W O) * ind (forsKey ps (digest ps.sp.m (hlen ps) fun c => O (pt O c)) =
          forsKey ps (ownDigest ps (withHash P0 O) sk_seed.toList sk_prf.toList pk_seed.toList o'.toList M')) +
        ind (z O o M = z O o' M') := by
      intro O
      rw [hdig O o M]
      by_cases hW : W O
      · have h1 : ind (W O) = 1 := by simp [ind, hW]
        rw [h1, one_mul]
        exact le_add_of_nonneg_right (ind_nonneg _)
      · have h2 : z O o M = z O o' M' := by
          simp only [W, not_not] at hW
          exact hW.2
        have h1 : ind (W O) = 0 := by simp [ind, hW]
        have h3 : ind (z O o M = z O o' M') = 1 := by simp [ind, h2]
        rw [h1, zero_mul, zero_add, h3]
        exact ind_le_one _
    refine (avg_mono h1).trans ?_
    rw [avg_add, h]
    refine add_le_add ?_ (avg_hashes P0 hw hps sk_seed sk_prf pk_seed o o' hpk hs hB hne).le
    refine le_trans (avg_mono fun O => ?_) (avg_const (α := Query B → Fin (256 ^ w)) (1 / 2 ^ ps.sp.h : ℚ)).le
    rw [avg_forsKey ps (forsKey_mem _)]
    exact mul_le_of_le_one_left (by positivity) (ind_le_one _)
  · obtain ⟨e1, e2, e3, e4⟩ := hst O O' h
    refine ⟨?_, funext fun c => ?_, ?_⟩
    · simp only [W, e2, e3, e4]
      exact hW
    · simp only [pt, X, e2, e3]
    · simp only [hdig]
      refine congrArg _ (funext fun c => ?_)
      have e5 : X O' o' M' c = X O o' M' c := by simp only [X, e2, e4]
      rw [e5]
      refine h _ fun c' hc => hW ?_
      have hc := shaQ_inj (ps := ps) (hX O o M c') (hX O o' M' c) hc
      obtain ⟨h1, h2⟩ := List.append_inj hc (by rw [hR, hR])
      exact ⟨h1, (List.append_inj (List.append_cancel_left h2) (by rw [hz, hz])).1⟩

/-- Both requests are signed with the same FORS key. -/
def SameKey (P : Spec.Prims) (b : Build) (sk_seed sk_prf pk_seed : Vector UInt8 ps.params.N) (r r' : Req ps) : Prop :=
  ∃ x, SignsAt P b sk_seed sk_prf pk_seed r x ∧ SignsAt P b sk_seed sk_prf pk_seed r' x

theorem sameKey_iff {P : Spec.Prims} {sk_seed sk_prf pk_seed : Vector UInt8 ps.params.N} {r r' : Req ps}
    (hc : r.ctx.length ≤ 255) (hc' : r'.ctx.length ≤ 255) : SameKey P b sk_seed sk_prf pk_seed r r' ↔
      forsKey ps (ownDigest ps P sk_seed.toList sk_prf.toList pk_seed.toList (r.rnd.getD pk_seed).toList
        (Spec.pureMsg r.ctx r.msg)) =
      forsKey ps (ownDigest ps P sk_seed.toList sk_prf.toList pk_seed.toList (r'.rnd.getD pk_seed).toList
        (Spec.pureMsg r'.ctx r'.msg)) := by
  simp only [SameKey, signsAt_iff hc, signsAt_iff hc']
  exact ⟨fun ⟨x, h, h'⟩ => h.trans h'.symm, fun h => ⟨_, rfl, h.symm⟩⟩

theorem Req.ne {r r' : Req ps} (hr : r.Fits B) (hr' : r'.Fits B) (hne : (r.msg, r.ctx) ≠ (r'.msg, r'.ctx)) :
    Spec.pureMsg r.ctx r.msg ≠ Spec.pureMsg r'.ctx r'.msg := fun h => by
  obtain ⟨h1, h2⟩ := pureMsg_inj hr.ctx hr'.ctx h
  exact hne (Prod.ext h2 h1)

/-- **C93** Two requests for different messages or contexts are signed with the same FORS key with probability `1 / 2^h`, no
more than if the keys were drawn at random.  For the SHAKE parameter sets this is exact. -/
theorem C93_pair (P0 : Spec.Prims) (b : Build) (hw : 64 ≤ w) (hps : ps.family = .shake)
    (sk_seed sk_prf pk_seed : Vector UInt8 ps.params.N) (hpk : ¬ [0, 0, 0] <+: pk_seed.toList) {r r' : Req ps}
    (hr : r.Fits B) (hr' : r'.Fits B) (hne : (r.msg, r.ctx) ≠ (r'.msg, r'.ctx)) :
    prob (fun O : Query B → Fin (256 ^ w) => SameKey (withHash P0 O) b sk_seed sk_prf pk_seed r r') =
      1 / 2 ^ ps.sp.h := by
  have h1 := hr.room
  have h2 := hr'.room
  rw [prob_eq]
  simp only [sameKey_iff hr.ctx hr'.ctx]
  rcases Nat.le_total (Spec.pureMsg r'.ctx r'.msg).length (Spec.pureMsg r.ctx r.msg).length with h | h
  · exact avg_pair_shake P0 hw hps sk_seed sk_prf pk_seed _ _ hpk (by rw [pureMsg_length]; omega) h (Req.ne hr hr' hne)
  · simp only [eq_comm (a := forsKey ps (ownDigest ps _ _ _ _ (r.rnd.getD pk_seed).toList _))]
    exact avg_pair_shake P0 hw hps sk_seed sk_prf pk_seed _ _ hpk (by rw [pureMsg_length]; omega) h (Req.ne hr hr' hne).symm

/-- **C93** For all parameter sets it is at most `1 / 2^h + 1 / 2^256`. -/
theorem C93_pair_le (P0 : Spec.Prims) (b : Build) (hw : 64 ≤ w) (sk_seed sk_prf pk_seed : Vector UInt8 ps.params.N)
    (hpk : ¬ [0, 0, 0] <+: pk_seed.toList) (hs : ∀ c ∈ [0x36, 0x5c], pk_seed.toList ≠ List.replicate ps.sp.n c)
    {r r' : Req ps} (hr : r.Fits B) (hr' : r'.Fits B) (hne : (r.msg, r.ctx) ≠ (r'.msg, r'.ctx)) :
    prob (fun O : Query B → Fin (256 ^ w) => SameKey (withHash P0 O) b sk_seed sk_prf pk_seed r r') ≤
      1 / 2 ^ ps.sp.h + 1 / 2 ^ 256 := by
  cases hps : ps.family with
  | shake =>
    rw [C93_pair P0 b hw hps sk_seed sk_prf pk_seed hpk hr hr' hne]
    exact le_add_of_nonneg_right (by positivity)
  | sha2 =>
    have h1 := hr.room
    rw [prob_eq]
    simp only [sameKey_iff hr.ctx hr'.ctx]
    refine (avg_pair_sha2 P0 hw hps sk_seed sk_prf pk_seed _ _ hpk hs (by rw [pureMsg_length]; omega)
      (by rw [pureMsg_length]; have := hr.other hps; omega) (by rw [pureMsg_length]; have := hr'.other hps; omega)
      (Req.ne hr hr' hne)).trans ?_
    refine add_le_add le_rfl ?_
    have h32 : 32 ≤ hlen ps := by rw [hlen]; split <;> decide
    refine one_div_le_one_div_of_le (by positivity) ?_
    calc (2 : ℚ) ^ 256 = 256 ^ 32 := by norm_num
      _ ≤ 256 ^ hlen ps := pow_le_pow_right₀ (by norm_num) h32

/-- **C93** Of `q` requests for different messages or contexts, any two are signed with the same FORS key with probability at
most `q (q - 1) / 2` times that. -/
theorem C93_apart (P0 : Spec.Prims) (b : Build) (hw : 64 ≤ w) (sk_seed sk_prf pk_seed : Vector UInt8 ps.params.N)
    (hpk : ¬ [0, 0, 0] <+: pk_seed.toList) (hs : ∀ c ∈ [0x36, 0x5c], pk_seed.toList ≠ List.replicate ps.sp.n c)
    (reqs : List (Req ps)) (hr : ∀ r ∈ reqs, r.Fits B)
    (hne : reqs.Pairwise fun r r' => (r.msg, r.ctx) ≠ (r'.msg, r'.ctx)) :
    prob (fun O : Query B → Fin (256 ^ w) =>
      ¬ reqs.Pairwise fun r r' => ¬ SameKey (withHash P0 O) b sk_seed sk_prf pk_seed r r') ≤
      reqs.length.choose 2 * (1 / 2 ^ ps.sp.h + 1 / 2 ^ 256) := by
  have hO : Nonempty (Query B → Fin (256 ^ w)) := ⟨fun _ => ⟨0, Nat.pow_pos (by decide)⟩⟩
  have hsum : ∀ (r : Req ps), r.Fits B → ∀ l : List (Req ps), (∀ r' ∈ l, r'.Fits B) →
      (∀ r' ∈ l, (r.msg, r.ctx) ≠ (r'.msg, r'.ctx)) →
      (avg fun O : Query B → Fin (256 ^ w) => ind (∃ r' ∈ l, SameKey (withHash P0 O) b sk_seed sk_prf pk_seed r r')) ≤
        l.length * (1 / 2 ^ ps.sp.h + 1 / 2 ^ 256) := by
    intro r hr l hl hd
    induction l with
    | nil => simp [ind, avg]
    | cons r' l ih =>
      have h1 := C93_pair_le (w := w) P0 b hw sk_seed sk_prf pk_seed hpk hs hr (hl r' List.mem_cons_self)
        (hd r' List.mem_cons_self)
      have h2 := ih (fun x h => hl x (List.mem_cons_of_mem _ h)) fun x h => hd x (List.mem_cons_of_mem _ h)
      rw [prob_eq] at h1
      refine le_trans (le_trans (avg_mono fun O => le_trans (ind_mono fun h => ?_) (ind_or_le _ _))
        (avg_add (fun O => ind (SameKey (withHash P0 O) b sk_seed sk_prf pk_seed r r')) _).le)
        (le_trans (add_le_add h1 h2) (le_of_eq ?_))
      · obtain ⟨x, hx, h⟩ := h
        rcases List.mem_cons.mp hx with rfl | hx
        · exact .inl h
        · exact .inr ⟨x, hx, h⟩
      · rw [List.length_cons]
        push_cast
        ring
  rw [prob_eq]
  induction reqs with
  | nil => simp [ind, avg]
  | cons r l ih =>
    obtain ⟨hd, hp⟩ := List.pairwise_cons.mp hne
    have h1 := hsum r (hr r List.mem_cons_self) l (fun x h => hr x (List.mem_cons_of_mem _ h)) hd
    have h2 := ih (fun x h => hr x (List.mem_cons_of_mem _ h)) hp
    refine le_trans (le_trans (avg_mono fun O => le_trans (ind_mono fun h => ?_) (ind_or_le _ _))
      (avg_add (fun O => ind (∃ r' ∈ l, SameKey (withHash P0 O) b sk_seed sk_prf pk_seed r r')) _).le)
      (le_trans (add_le_add h1 h2) (le_of_eq ?_))
    · by_contra hno
      rw [not_or, not_not] at hno
      refine h (List.pairwise_cons.mpr ⟨fun x hx hk => hno.1 ⟨x, hx, hk⟩, hno.2⟩)
    · rw [List.length_cons, Nat.choose_succ_succ, Nat.choose_one_right]
      push_cast
      ring

/-- The hypotheses can be met: a seed, and two requests, one of them hedged. -/
example (ps : ParamSet) : ∃ (pk_seed : Vector UInt8 ps.params.N) (reqs : List (Req ps)), reqs.length = 2 ∧
    ¬ [0, 0, 0] <+: pk_seed.toList ∧ (∀ c ∈ [0x36, 0x5c], pk_seed.toList ≠ List.replicate ps.sp.n c) ∧
    (∀ r ∈ reqs, r.Fits 4096) ∧ (∃ r ∈ reqs, r.rnd.isSome) ∧
    reqs.Pairwise fun r r' => (r.msg, r.ctx) ≠ (r'.msg, r'.ctx) := by
  have h2 : (Vector.replicate ps.params.N (2 : UInt8)).toList = List.replicate ps.params.N 2 := Vector.toList_replicate
  obtain ⟨k, hk, hn⟩ : ∃ k, ps.params.N = k + 1 ∧ ps.sp.n = k + 1 := ⟨ps.params.N - 1, by cases ps <;> exact ⟨rfl, rfl⟩⟩
  refine ⟨Vector.replicate _ 2, [⟨[1, 2, 3], [], none⟩, ⟨[1, 2, 3], [9], some (Vector.replicate _ 7)⟩], rfl, ?_, ?_, ?_,
    ⟨_, List.mem_cons_of_mem _ List.mem_cons_self, rfl⟩, by simp⟩
  · rw [h2, hk, List.replicate_succ]
    rintro ⟨t, h⟩
    simp at h
  · intro c hc
    rw [h2, hk, hn, List.replicate_succ, List.replicate_succ]
    intro h
    have h := (List.cons.inj h).1
    subst h
    simp at hc
  · intro r hr
    rcases List.mem_cons.mp hr with rfl | hr
    · exact ⟨by simp, by simp, fun _ => by clear * -; cases ps <;> decide⟩
    · rw [List.mem_singleton] at hr
      subst hr
      exact ⟨by simp, by simp, fun _ => by clear * -; cases ps <;> decide⟩

/-- So can those for pre-hash signing. -/
example (ps : ParamSet) (b : Build) (P0 : Spec.Prims) (ph : Ph) (sk_seed sk_prf : Vector UInt8 ps.params.N) :
    prob (fun O : Query 4096 → Fin (256 ^ 64) => HashSignsWith (withHash P0 O) b sk_seed sk_prf
      (Vector.replicate ps.params.N 2) ⟨[1, 2, 3], [9], none⟩ ph (List.replicate ps.sp.m 5)) = 1 / 256 ^ ps.sp.m := by
  refine C93_hash_digest P0 b (by decide) sk_seed sk_prf _ ?_ _ ph (by simp) (by decide) ?_ (by simp)
  · obtain ⟨k, hk⟩ : ∃ k, ps.params.N = k + 1 := ⟨ps.params.N - 1, by cases ps <;> rfl⟩
    have h2 : (Vector.replicate ps.params.N (2 : UInt8)).toList = List.replicate ps.params.N 2 := Vector.toList_replicate
    rw [h2, hk, List.replicate_succ]
    rintro ⟨t, h⟩
    simp at h
  · have := sixteen_le_n ps
    simp only [List.length_cons, List.length_nil]
    omega

end Fips205.Props
