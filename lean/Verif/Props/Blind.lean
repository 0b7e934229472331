import Verif.Proofs.Blind
import Verif.Proofs.OwnTree
import Verif.Props.CForgery
import Verif.Proofs.Multi

/-!
# Strings chosen blindly (C92)

How likely is it that a string somebody makes up, without looking at the hash functions, is accepted as a signature or
as a private key?  And how are public keys distributed?  With random hash functions the answers are exact.
-/

namespace Fips205.Props
open Fips205 Fips205.Model Oracle

variable {ps : ParamSet} {B w : Nat} {b : Build}

theorem prob_const {Ω Ω' : Type} [Fintype Ω] [Nonempty Ω] [Fintype Ω'] {E : Ω × Ω' → Prop} {c : ℚ}
    (h : ∀ x, prob (fun O => E (x, O)) = c) : prob E = c := by
  rw [prob_eq, avg_prod]
  have : ∀ x, (avg fun O => ind (E (x, O))) = c := fun x => by rw [← prob_eq, h]
  simp only [this, avg_const]

theorem length_N (v : Vector UInt8 ps.params.N) : v.toList.length = ps.sp.n := by
  rw [Vector.length_toList]
  clear v
  cases ps <;> rfl

theorem length_sig (v : Vector UInt8 ps.params.SIG_LEN) : v.toList.length = ps.sp.sigLen := by
  rw [Vector.length_toList]
  clear v
  cases ps <;> rfl

/-- **C92** Let the hash functions be random functions, with outputs of `w ≥ n` bytes of which the code uses the first ones.
A string of the length of a signature, made up without looking at them, is accepted for a given public key, message and
context with probability `1 / 256^n`: not less and not more, whatever the string is. -/
theorem C92_verify (P0 : Spec.Prims) (b : Build) (hw : ps.sp.n ≤ w) (hB : 160 + 2 * ps.sp.n ≤ B)
    (pk : PublicKey ps.params) (hpk : ¬ [0, 0, 0] <+: pk.key.pk_seed.toList) (msg ctx : List UInt8)
    (hctx : ctx.length ≤ 255) (sig : Vector UInt8 ps.params.SIG_LEN) :
    prob (fun O : Query B → Fin (256 ^ w) => (pk.verify (crypto (withHash P0 O)) msg sig ctx : Exec b _) = pure true) =
      1 / 256 ^ ps.sp.n := by
  rw [prob_eq, ← avg_verify (ps := ps) (w := w) (B := B) (P0 := P0) (SIG := sig.toList) (PKseed := pk.key.pk_seed.toList)
    (PKroot := pk.key.pk_root.toList) hw (length_sig sig) (length_N _)
    (length_N _) hpk hB (fun _ => Spec.pureMsg ctx msg) fun _ _ _ _ _ => rfl]
  refine congrArg avg (funext fun O => ind_congr ?_)
  rw [exec_verify, Spec.verify, if_neg (by omega)]
  exact ⟨fun h => Except.ok.inj h, fun h => congrArg Except.ok h⟩

/-- **C92** The same for `hash_verify`, for messages that do not begin like an input that verification itself hashes. -/
theorem C92_hash_verify (P0 : Spec.Prims) (b : Build) (hw : ps.sp.n ≤ w) (hB : 160 + 2 * ps.sp.n ≤ B)
    (pk : PublicKey ps.params) (hpk : ¬ [0, 0, 0] <+: pk.key.pk_seed.toList) (msg ctx : List UInt8) (ph : Ph)
    (hmsg : ¬ pk.key.pk_seed.toList ++ [0, 0, 0] <+: msg) (hctx : ctx.length ≤ 255)
    (sig : Vector UInt8 ps.params.SIG_LEN) :
    prob (fun O : Query B → Fin (256 ^ w) =>
      (pk.hash_verify (crypto (withHash P0 O)) msg sig ctx ph : Exec b _) = pure true) = 1 / 256 ^ ps.sp.n := by
  rw [prob_eq, ← avg_verify (ps := ps) (w := w) (B := B) (P0 := P0) (SIG := sig.toList) (PKseed := pk.key.pk_seed.toList)
    (PKroot := pk.key.pk_root.toList) hw (length_sig sig) (length_N _)
    (length_N _) hpk hB
    (fun O => Spec.prehashMsg ctx (Spec.oid ph.spec) (Spec.preHash (withHash P0 O) msg ph.spec)) fun O O' y hy h => ?_]
  · refine congrArg avg (funext fun O => ind_congr ?_)
    rw [exec_hash_verify, Spec.hashVerify, if_neg (by omega)]
    exact ⟨fun h => Except.ok.inj h, fun h => congrArg Except.ok h⟩
  · obtain ⟨h1, h2, h3, h4⟩ := prims_off (P0 := P0) (top_is ps) hy h (X := msg) fun rest e => hmsg ⟨rest, by rw [e]; simp⟩
    refine congrArg _ ?_
    cases ph.spec
    · exact congrArg Vector.toList h1
    · exact congrArg Vector.toList h2
    · exact congrArg Vector.toList (h3 32)
    · exact congrArg Vector.toList (h4 64)

/-- **C92** Hence it is no use to make up strings at random, by any rule: public key, message, context and signature may be
drawn as one likes. -/
theorem C92_guess (P0 : Spec.Prims) (b : Build) (hw : ps.sp.n ≤ w) (hB : 160 + 2 * ps.sp.n ≤ B) {Ω : Type} [Fintype Ω]
    [Nonempty Ω] (pk : Ω → PublicKey ps.params) (hpk : ∀ x, ¬ [0, 0, 0] <+: (pk x).key.pk_seed.toList)
    (msg ctx : Ω → List UInt8) (hctx : ∀ x, (ctx x).length ≤ 255) (sig : Ω → Vector UInt8 ps.params.SIG_LEN) :
    prob (fun ω : Ω × (Query B → Fin (256 ^ w)) =>
      ((pk ω.1).verify (crypto (withHash P0 ω.2)) (msg ω.1) (sig ω.1) (ctx ω.1) : Exec b _) = pure true) =
      1 / 256 ^ ps.sp.n :=
  prob_const fun x => C92_verify P0 b hw hB (pk x) (hpk x) (msg x) (ctx x) (hctx x) (sig x)

/-- **C92** ... and of many such strings, not too many are accepted. -/
theorem C92_tries (P0 : Spec.Prims) (b : Build) (hw : ps.sp.n ≤ w) (hB : 160 + 2 * ps.sp.n ≤ B) (pk : PublicKey ps.params)
    (hpk : ¬ [0, 0, 0] <+: pk.key.pk_seed.toList)
    (tries : List (List UInt8 × Vector UInt8 ps.params.SIG_LEN × List UInt8)) :
    prob (fun O : Query B → Fin (256 ^ w) => ∃ t ∈ tries,
      (pk.verify (crypto (withHash P0 O)) t.1 t.2.1 t.2.2 : Exec b _) = pure true) ≤ tries.length / 256 ^ ps.sp.n := by
  induction tries with
  | nil =>
    rw [prob_eq]
    simp [avg, ind]
  | cons t l ih =>
    have h1 : prob (fun O : Query B → Fin (256 ^ w) =>
        (pk.verify (crypto (withHash P0 O)) t.1 t.2.1 t.2.2 : Exec b _) = pure true) ≤ 1 / 256 ^ ps.sp.n := by
      by_cases hc : t.2.2.length ≤ 255
      · exact (C92_verify P0 b hw hB pk hpk t.1 t.2.2 hc t.2.1).le
      · have : ∀ O : Query B → Fin (256 ^ w),
            ¬ (pk.verify (crypto (withHash P0 O)) t.1 t.2.1 t.2.2 : Exec b _) = pure true := by
          intro O h
          rw [exec_verify, Spec.verify, if_pos (by omega)] at h
          cases h
        rw [prob_eq]
        simp only [this]
        simp [avg, ind]
    rw [prob_eq] at h1 ih ⊢
    have h2 : (avg fun O : Query B → Fin (256 ^ w) => ind (∃ x ∈ t :: l,
        (pk.verify (crypto (withHash P0 O)) x.1 x.2.1 x.2.2 : Exec b _) = pure true)) ≤
        avg fun O : Query B → Fin (256 ^ w) =>
          ind ((pk.verify (crypto (withHash P0 O)) t.1 t.2.1 t.2.2 : Exec b _) = pure true) +
          ind (∃ x ∈ l, (pk.verify (crypto (withHash P0 O)) x.1 x.2.1 x.2.2 : Exec b _) = pure true) := by
      refine avg_mono fun O => le_trans (ind_mono fun h => ?_) (ind_or_le _ _)
      obtain ⟨x, hx, h⟩ := h
      rcases List.mem_cons.mp hx with rfl | hx
      · exact .inl h
      · exact .inr ⟨x, hx, h⟩
    rw [avg_add] at h2
    refine h2.trans ((add_le_add h1 ih).trans (le_of_eq ?_))
    rw [List.length_cons]
    push_cast
    ring

theorem prob_root (P0 : Spec.Prims) (hw : ps.sp.n ≤ w) (hB : 160 + 2 * ps.sp.n ≤ B)
    (sk_seed pk_seed root : Vector UInt8 ps.params.N) :
    prob (fun O : Query B → Fin (256 ^ w) => root = rootVec ps (withHash P0 O) sk_seed pk_seed) = 1 / 256 ^ ps.sp.n := by
  rw [prob_eq, ← avg_pkRoot (ps := ps) (w := w) (B := B) (P0 := P0) (SKseed := sk_seed.toList)
    (PKseed := pk_seed.toList) hw (length_N _) hB (number ps.sp.n root.toList)]
  refine congrArg avg (funext fun O => ind_congr ?_)
  rw [toByte_number (length_N _), ← rootVec_toList, Vector.toList_inj, eq_comm]

/-- **C92** A private key that is made up, any `4 n` bytes, is accepted by `try_from_bytes` with probability `1 / 256^n`.
(Keys that were generated, and then damaged, are the matter of C100.) -/
theorem C92_decode (P0 : Spec.Prims) (b : Build) (hw : ps.sp.n ≤ w) (hB : 160 + 2 * ps.sp.n ≤ B)
    (v : Vector UInt8 ps.params.SK_LEN) :
    prob (fun O : Query B → Fin (256 ^ w) => ∃ sk : PrivateKey ps.params,
      (PrivateKey.try_from_bytes (crypto (withHash P0 O)) v : Exec b _) = pure (.ok sk)) = 1 / 256 ^ ps.sp.n := by
  rw [← prob_root P0 hw hB (skOf v).key.sk_seed (skOf v).key.pk_seed (skOf v).key.pk_root, prob_eq, prob_eq]
  refine congrArg avg (funext fun O => ind_congr ?_)
  simp only [exec_decodeOf, decodeOf]
  split
  · rename_i h
    exact ⟨fun _ => h, fun _ => ⟨_, rfl⟩⟩
  · rename_i h
    refine ⟨fun ⟨sk, e⟩ => ?_, fun e => absurd e h⟩
    cases Except.ok.inj e

/-- **C92** With given seeds all roots are equally likely. -/
theorem C92_root (P0 : Spec.Prims) (b : Build) (hw : ps.sp.n ≤ w) (hB : 160 + 2 * ps.sp.n ≤ B)
    (sk_seed sk_prf pk_seed root : Vector UInt8 ps.params.N) :
    prob (fun O : Query B → Fin (256 ^ w) => ∃ pk sk,
      (keygen_with_seeds ps.params (crypto (withHash P0 O)) sk_seed sk_prf pk_seed : Exec b _) = pure (pk, sk) ∧
      pk.key.pk_root = root) = 1 / 256 ^ ps.sp.n := by
  rw [← prob_root P0 hw hB sk_seed pk_seed root, prob_eq, prob_eq]
  refine congrArg avg (funext fun O => ind_congr ?_)
  rw [exec_keygen_with_seeds]
  constructor
  · rintro ⟨pk, sk, h, rfl⟩
    have h := congrArg Prod.fst (Except.ok.inj h)
    exact congrArg (fun pk : PublicKey ps.params => pk.key.pk_root) h.symm
  · intro h
    exact ⟨_, _, rfl, h.symm⟩

theorem coinPair_eq (P : Spec.Prims) (c : D ps × D ps × D ps) :
    (try_keygen_with_rng ps.params (crypto P) tapeRng
      [Spec.toByte c.1 ps.sp.n, Spec.toByte c.2.1 ps.sp.n, Spec.toByte c.2.2 ps.sp.n] : Exec b _) =
      pure ([], .ok (coinPair P c)) :=
  (exec_try_keygen_with_rng _ _).trans rfl

/-- **C92** A key generated from random strings: its public key is a random string, every one of the `2 n` bytes long strings
being equally likely.  It shows nothing that would tell it from a string that belongs to no key. -/
theorem C92_public_key (P0 : Spec.Prims) (b : Build) (hw : ps.sp.n ≤ w) (hB : 160 + 2 * ps.sp.n ≤ B)
    (v : Vector UInt8 ps.params.PK_LEN) :
    prob (fun ω : (D ps × D ps × D ps) × (Query B → Fin (256 ^ w)) => ∃ s pk sk,
      (try_keygen_with_rng ps.params (crypto (withHash P0 ω.2)) tapeRng
        [Spec.toByte ω.1.1 ps.sp.n, Spec.toByte ω.1.2.1 ps.sp.n, Spec.toByte ω.1.2.2 ps.sp.n] : Exec b _) =
          pure (s, .ok (pk, sk)) ∧ (pk.into_bytes : Exec b _) = pure v) = 1 / 256 ^ (2 * ps.sp.n) := by
  classical
  obtain ⟨k, hk, hv⟩ := exec_pk_try_from_bytes (b := b) v
  have key : ∀ (c : D ps × D ps × D ps) (O : Query B → Fin (256 ^ w)), (∃ s pk sk,
      (try_keygen_with_rng ps.params (crypto (withHash P0 O)) tapeRng
        [Spec.toByte c.1 ps.sp.n, Spec.toByte c.2.1 ps.sp.n, Spec.toByte c.2.2 ps.sp.n] : Exec b _) =
          pure (s, .ok (pk, sk)) ∧ (pk.into_bytes : Exec b _) = pure v) ↔
      c.2.2 = number ps.sp.n k.key.pk_seed.toList ∧
        k.key.pk_root = rootVec ps (withHash P0 O) (coinPair (withHash P0 O) c).2.key.sk_seed
          (coinPair (withHash P0 O) c).2.key.pk_seed := by
    intro c O
    obtain ⟨v', h1, h2⟩ := exec_pk_into_bytes (b := b) (coinPair (withHash P0 O) c).1
    have e1 : (coinPair (withHash P0 O) c).1.key.pk_seed.toList = Spec.toByte c.2.2 ps.sp.n := by
      change (toVec _ _).toList = _
      rw [toVec_toList]
      rw [Spec.toByte_length]
      clear * -
      cases ps <;> rfl
    rw [coinPair_eq]
    constructor
    · rintro ⟨s, pk, sk, h, hb⟩
      have h := congrArg (fun x => x.2) (Exec.pure_inj h)
      have h := congrArg Prod.fst (Except.ok.inj h)
      dsimp only at h
      subst h
      have hvv : v = v' := Exec.pure_inj (hb.symm.trans h1)
      have hkk := PublicKey.encode_inj (hv.trans ((congrArg Vector.toList hvv).trans h2))
      subst hkk
      exact ⟨by rw [e1, number_toByte], rfl⟩
    · rintro ⟨hs, hr⟩
      refine ⟨_, (coinPair (withHash P0 O) c).1, (coinPair (withHash P0 O) c).2, rfl, ?_⟩
      rw [h1]
      refine congrArg _ (Vector.toList_inj.mp ?_)
      rw [h2, ← hv, e1, hs, toByte_number (length_N _), hr]
      rfl
  have hO : ∀ c : D ps × D ps × D ps, (avg fun O : Query B → Fin (256 ^ w) => ind (c.2.2 =
      number ps.sp.n k.key.pk_seed.toList ∧ k.key.pk_root = rootVec ps (withHash P0 O)
        (coinPair (withHash P0 O) c).2.key.sk_seed (coinPair (withHash P0 O) c).2.key.pk_seed)) =
      ind (c.2.2 = number ps.sp.n k.key.pk_seed.toList) * (1 / 256 ^ ps.sp.n) := by
    intro c
    by_cases h : c.2.2 = number ps.sp.n k.key.pk_seed.toList
    · have h1 : ind (c.2.2 = number ps.sp.n k.key.pk_seed.toList) = 1 := by simp [ind, h]
      rw [h1, one_mul, ← prob_root P0 hw hB (toVec ps.params.N (Spec.toByte c.1 ps.sp.n))
        (toVec ps.params.N (Spec.toByte c.2.2 ps.sp.n)) k.key.pk_root, prob_eq]
      refine congrArg avg (funext fun O => ind_congr ?_)
      rw [and_iff_right h]
      rfl
    · have h1 : ind (c.2.2 = number ps.sp.n k.key.pk_seed.toList) = 0 := by simp [ind, h]
      rw [h1, zero_mul]
      simp [avg, ind, h]
  rw [prob_eq, avg_prod]
  simp only [key, hO]
  rw [avg_prod3]
  have hne : Nonempty (D ps) := ⟨⟨0, Nat.pow_pos (by decide)⟩⟩
  simp only [avg_const]
  have h2 : (avg fun x : D ps => ind (x = number ps.sp.n k.key.pk_seed.toList) * (1 / 256 ^ ps.sp.n)) =
      (avg fun x : D ps => ind (x = number ps.sp.n k.key.pk_seed.toList)) * (1 / 256 ^ ps.sp.n) := by
    rw [avg, avg, ← Finset.sum_mul, div_mul_eq_mul_div]
  rw [h2, avg_point, Fintype.card_fin, Nat.two_mul, pow_add]
  push_cast
  rw [div_mul_div_comm, one_mul]

/-- The hypotheses can be met: the key pair of the examples, and a message that is an address. -/
example (ps : ParamSet) (b : Build) (P0 : Spec.Prims) (ph : Ph) :
    prob (fun O : Query 4096 → Fin (256 ^ 64) =>
      ((demoKeys ps).1.hash_verify (crypto (withHash P0 O)) [0, 0, 0, 7] (Vector.replicate _ 0) [] ph : Exec b _) =
        pure true) = 1 / 256 ^ ps.sp.n := by
  have h2 : (demoKeys ps).1.key.pk_seed.toList = List.replicate ps.params.N 2 := by
    change (Vector.replicate ps.params.N (2 : UInt8)).toList = _
    rw [Vector.toList_replicate]
  obtain ⟨k, hk⟩ : ∃ k, ps.params.N = k + 1 := ⟨ps.params.N - 1, by cases ps <;> rfl⟩
  refine C92_hash_verify P0 b (by cases ps <;> decide) (by cases ps <;> decide) _ ?_ _ _ ph ?_ (by decide) _ <;>
    rw [h2, hk, List.replicate_succ]
  · rintro ⟨t, h⟩
    simp at h
  · rintro ⟨t, h⟩
    simp at h

end Fips205.Props
