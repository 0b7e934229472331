import Verif.Proofs.Blind
import Verif.Proofs.Sha2Star
import Verif.Proofs.BindDigest

/-!
# The digest of a signature

The digest that a signer computes is made of values of the hash functions at inputs that nothing computed before it
depends on.
-/

namespace Fips205.Props
open Fips205 Fips205.Model Oracle

variable {ps : ParamSet} {B w : Nat} {P0 : Spec.Prims} {O O' : Query B → Fin (256 ^ w)} {PKseed : List UInt8}

/-- A digest made of values at points that can be told from the values elsewhere is random, whatever else is told from the
values elsewhere. -/
theorem avg_blocks {nb m h : Nat} {τ γ : Type} [Fintype τ] [Nonempty τ]
    (e : Fin (256 ^ m) × τ ≃ (Fin nb → Fin (256 ^ w))) (he : ∀ d t, digest m h (e (d, t)) = Spec.toByte d m)
    (W : (Query B → Fin (256 ^ w)) → Prop) (pt : (Query B → Fin (256 ^ w)) → Fin nb → Query B)
    (g : (Query B → Fin (256 ^ w)) → γ) (hinj : ∀ O, W O → Function.Injective (pt O))
    (hst : ∀ O O', W O → (∀ y, (∀ c, pt O c ≠ y) → O' y = O y) → W O' ∧ pt O' = pt O ∧ g O' = g O)
    (G : List UInt8 → γ → ℚ) :
    (avg fun O : Query B → Fin (256 ^ w) => ind (W O) * G (digest m h fun c => O (pt O c)) (g O)) =
      avg fun O : Query B → Fin (256 ^ w) => ind (W O) * avg fun d : Fin (256 ^ m) => G (Spec.toByte d m) (g O) := by
  classical
  have hw : Nonempty (Fin (256 ^ w)) := ⟨⟨0, Nat.pow_pos (by decide)⟩⟩
  let q : (Query B → Fin (256 ^ w)) → Fin nb → Option (Query B) := fun O c => if W O then some (pt O c) else none
  have hq : ∀ O, W O → ∀ c, q O c = some (pt O c) := fun O h c => if_pos h
  have hq' : ∀ O, ¬ W O → ∀ c, q O c = none := fun O h c => if_neg h
  have hi : ∀ O i j y, q O i = some y → q O j = some y → i = j := by
    intro O i j y h1 h2
    by_cases hW : W O
    · rw [hq O hW] at h1 h2
      exact hinj O hW (Option.some.inj (h1.trans h2.symm))
    · rw [hq' O hW] at h1
      cases h1
  have hkey : ∀ O H, W O → W (over (q O) O H) ∧ pt (over (q O) O H) = pt O ∧ g (over (q O) O H) = g O := by
    intro O H hW
    refine hst O _ hW fun y hy => over_off O H fun c hc => ?_
    rw [hq O hW] at hc
    exact hy c (Option.some.inj hc)
  have hno : ∀ O H, ¬ W O → over (q O) O H = O := by
    intro O H hW
    funext y
    refine over_off O H fun c hc => ?_
    rw [hq' O hW] at hc
    cases hc
  rw [avg_over q hi fun O H => ?_]
  · refine congrArg avg (funext fun O => ?_)
    by_cases hW : W O
    · have h1 : ∀ H : Fin nb → Fin (256 ^ w), ind (W (over (q O) O H)) *
          G (digest m h fun c => over (q O) O H (pt (over (q O) O H) c)) (g (over (q O) O H)) =
          ind (W O) * G (digest m h H) (g O) := by
        intro H
        obtain ⟨h1, h2, h3⟩ := hkey O H hW
        rw [h2, h3, ind_congr (iff_of_true h1 hW)]
        refine congrArg (fun x => _ * G (digest m h x) _) (funext fun c => ?_)
        exact over_at (hi O) O H (hq O hW c)
      simp only [h1]
      have h2 : ind (W O) = 1 := by simp [ind, hW]
      simp only [h2, one_mul]
      rw [avg_equiv e, avg_prod]
      simp only [he, avg_const]
    · have h2 : ind (W O) = 0 := by simp [ind, hW]
      simp only [hno O _ hW, h2, zero_mul]
      have : Nonempty (Fin nb → Fin (256 ^ w)) := inferInstance
      rw [avg_const]
  · by_cases hW : W O
    · obtain ⟨h1, h2, -⟩ := hkey O H hW
      funext c
      rw [hq _ h1, hq O hW, h2]
    · rw [hno O H hW]

/-! ## What does not depend on such inputs -/

/-- The hash function for messages. -/
def topAlg (ps : ParamSet) : Spec.PreHash :=
  match ps.family with
  | .shake => .shake256
  | .sha2 => msgAlg ps

/-- A call for a string that consists of `n` bytes, `PK.seed` and such a string. -/
def Late (ps : ParamSet) (PKseed : List UInt8) (T : List UInt8 → Prop) (y : Query B) : Prop :=
  ∃ R rest, R.length = ps.sp.n ∧ T rest ∧ y.1 = ⟨topAlg ps, R ++ (PKseed ++ rest)⟩

theorem late_of {T : List UInt8 → Prop} {R rest : List UInt8} (hR : R.length = ps.sp.n) (hT : T rest)
    (hl : (R ++ (PKseed ++ rest)).length ≤ B) : Late ps PKseed T (.of B ⟨topAlg ps, R ++ (PKseed ++ rest)⟩) :=
  ⟨R, rest, hR, hT, by rw [Query.of, dif_pos hl]⟩

section
variable {T : List UInt8 → Prop} (hO : ∀ y, ¬ Late ps PKseed T y → O' y = O y)
include hO

theorem late_off {c : Call} (hc : ∀ R rest, R.length = ps.sp.n → T rest → c ≠ ⟨topAlg ps, R ++ (PKseed ++ rest)⟩) :
    O' (.of B c) = O (.of B c) := by
  refine hO _ fun ⟨R, rest, hR, hT, h⟩ => ?_
  rw [Query.of] at h
  split at h
  · exact hc R rest hR hT h
  · have h := congrArg (fun c : Call => c.input.length) h
    have := n_pos ps
    simp only [List.length_nil, List.length_append] at h
    omega

/-- Inputs of another length. -/
theorem late_len (hl : PKseed.length = ps.sp.n) {a : Spec.PreHash} {X : List UInt8}
    (hX : ∀ rest, T rest → X.length ≠ 2 * ps.sp.n + rest.length) : O' (.of B ⟨a, X⟩) = O (.of B ⟨a, X⟩) := by
  refine late_off hO fun R rest hR hT h => hX rest hT ?_
  have h := congrArg (fun c : Call => c.input.length) h
  simp only [List.length_append] at h
  omega

/-- The tables. -/
theorem late_agree (hw : ps.sp.n ≤ w) (hl : PKseed.length = ps.sp.n) (hP : ¬ [0, 0, 0] <+: PKseed) :
    Agree ps.sp PKseed (ps.hf (withHash P0 O')) (ps.hf (withHash P0 O)) := by
  intro x hx z
  rw [hashAt_wide hw, hashAt_wide hw]
  refine congrArg (fun e : Fin (256 ^ w) => Spec.toByte (headOf ps.sp.n e) ps.sp.n) (late_off hO fun R rest hR _ h => hP ?_)
  obtain ⟨rest', hr⟩ := callAt_begins hx (callOf_at ps PKseed x z)
  rw [h] at hr
  have h := (List.append_inj hr (hR.trans hl.symm)).2
  have h3 : 3 ≤ PKseed.length := by have := sixteen_le_n ps; omega
  refine List.prefix_of_prefix_length_le (l₃ := PKseed ++ rest) ?_ (List.prefix_append _ _) h3
  rw [h]
  exact List.prefix_append _ _

theorem late_root (hw : ps.sp.n ≤ w) (hl : PKseed.length = ps.sp.n) (hP : ¬ [0, 0, 0] <+: PKseed) (SKseed : List UInt8) :
    Spec.pkRoot ps.sp (ps.hf (withHash P0 O')) SKseed PKseed = Spec.pkRoot ps.sp (ps.hf (withHash P0 O)) SKseed PKseed :=
  (late_agree hO hw hl hP).pkRoot ps.wf

theorem late_shake (hps : ps.family = .shake) (hl : PKseed.length = ps.sp.n) {k o M : List UInt8} (hk : k.length = ps.sp.n)
    (ho : o.length = ps.sp.n) (hT : ∀ rest, T rest → M.length ≠ rest.length) :
    (ps.hf (withHash P0 O')).PRFmsg k o M = (ps.hf (withHash P0 O)).PRFmsg k o M := by
  rw [hf_shake hps, hf_shake hps]
  change (toVec _ (Spec.toByte (O' _) w ++ _)).toList = (toVec _ (Spec.toByte (O _) w ++ _)).toList
  rw [late_len hO hl fun rest hr => ?_]
  have := hT rest hr
  simp only [List.length_append]
  omega

theorem late_sha (hw : 64 ≤ w) (hl : PKseed.length = ps.sp.n) {X : List UInt8}
    (hX : ∀ rest, T rest → X.length ≠ 2 * ps.sp.n + rest.length) :
    shaOf ps (withHash P0 O') X = shaOf ps (withHash P0 O) X := by
  rw [wide_sha hw, wide_sha hw, shaQ, late_len hO hl hX]

theorem late_sha2 (hps : ps.family = .sha2) (hw : 64 ≤ w) (hl : PKseed.length = ps.sp.n) {k o M : List UInt8}
    (hk : k.length = ps.sp.n) (ho : o.length = ps.sp.n) (hT : ∀ rest, T rest → rest.length = hlen ps + 4) :
    (ps.hf (withHash P0 O')).PRFmsg k o M = (ps.hf (withHash P0 O)).PRFmsg k o M := by
  have hb := n_le_blen ps
  have hh := n_le_hlen ps
  have h1 : ps.sp.n + hlen ps + 4 < blen ps := by clear * -; cases ps <;> decide
  have h0 : ∀ P, (if k.length ≤ blen ps then k else shaOf ps P k) = k := fun P => if_pos (by omega)
  have hX : ∀ P (X : List UInt8), (shaOf ps P X).length = hlen ps := fun P X => shaOf_length _ _
  rw [sha2_PRFmsg hps, sha2_PRFmsg hps]
  simp only [Spec.hmac, h0]
  rw [late_sha (X := List.map _ _ ++ (o ++ M)) hO hw hl, late_sha hO hw hl]
  · intro rest hr
    have := hT rest hr
    simp only [List.length_append, List.length_map, List.length_replicate, hX]
    omega
  · intro rest hr
    have := hT rest hr
    simp only [List.length_append, List.length_map, List.length_replicate]
    omega

end

/-! ## The digest -/

/-- The digest of a signature of this key. -/
def ownDigest (ps : ParamSet) (P : Spec.Prims) (SKseed SKprf PKseed opt M : List UInt8) : List UInt8 :=
  (ps.hf P).Hmsg ((ps.hf P).PRFmsg SKprf opt M) PKseed (Spec.pkRoot ps.sp (ps.hf P) SKseed PKseed) M

theorem pkRoot_length (P : Spec.Prims) (SKseed PKseed : List UInt8) :
    (Spec.pkRoot ps.sp (ps.hf P) SKseed PKseed).length = ps.sp.n :=
  Spec.xmssNode_length (ps.valid P) _ _ _ _ _

section
variable (hw : 64 ≤ w) {SKseed SKprf opt : List UInt8} (hl : PKseed.length = ps.sp.n) (hP : ¬ [0, 0, 0] <+: PKseed)
  (hk : SKprf.length = ps.sp.n) (ho : opt.length = ps.sp.n)
include hw hl hP hk ho

/-- The digest, for the SHAKE parameter sets. -/
theorem spread_shake (hps : ps.family = .shake) {γ : Type} (T : List UInt8 → Prop)
    (M : (Query B → Fin (256 ^ w)) → List UInt8) (g : (Query B → Fin (256 ^ w)) → γ)
    (hB : ∀ O, 3 * ps.sp.n + (M O).length ≤ B) (hT : ∀ O root, root.length = ps.sp.n → T (root ++ M O))
    (hT' : ∀ O rest, T rest → (M O).length ≠ rest.length)
    (hM : ∀ O O', (∀ y, ¬ Late ps PKseed T y → O' y = O y) → M O' = M O ∧ g O' = g O) (G : List UInt8 → γ → ℚ) :
    (avg fun O : Query B → Fin (256 ^ w) =>
      G (ownDigest ps (withHash P0 O) SKseed SKprf PKseed opt (M O)) (g O)) =
      avg fun O : Query B → Fin (256 ^ w) => avg fun d : Fin (256 ^ ps.sp.m) => G (Spec.toByte d ps.sp.m) (g O) := by
  have hn : ps.sp.n ≤ w := by have := n_le_32 ps; omega
  have hm : ps.sp.m ≤ w := le_trans (by clear * -; cases ps <;> decide) hw
  obtain ⟨τ, i1, i2, e, he⟩ := split_one (w := w) (m := ps.sp.m) (h := ps.sp.m) (nb := 1) hm (Nat.le_refl _) rfl
  let R : (Query B → Fin (256 ^ w)) → List UInt8 := fun O => (ps.hf (withHash P0 O)).PRFmsg SKprf opt (M O)
  let r : (Query B → Fin (256 ^ w)) → List UInt8 := fun O => Spec.pkRoot ps.sp (ps.hf (withHash P0 O)) SKseed PKseed
  have hR : ∀ O, (R O).length = ps.sp.n := fun O => (ps.valid _).PRFmsg _ _ _
  have hr : ∀ O, (r O).length = ps.sp.n := fun O => pkRoot_length _ _ _
  let pt : (Query B → Fin (256 ^ w)) → Fin 1 → Query B :=
    fun O _ => .of B ⟨topAlg ps, R O ++ (PKseed ++ (r O ++ M O))⟩
  have ha : topAlg ps = .shake256 := by rw [topAlg, hps]
  have hlate : ∀ O c, Late ps PKseed T (pt O c) := fun O c => late_of (hR O) (hT O _ (hr O)) (by
    have := hB O; have := hR O; have := hr O
    simp only [List.length_append]
    omega)
  have h := avg_blocks e he (fun _ => True) pt g (fun O _ i j _ => Subsingleton.elim i j) (fun O O' _ h => ?_) G
  · have h1 : ind True = 1 := by simp [ind]
    simp only [h1, one_mul] at h
    refine Eq.trans (congrArg avg (funext fun O => congrArg (fun x => G x _) ?_)) h
    rw [ownDigest, hf_shake hps]
    change ((withHash P0 O).shake256 _ _).toList = (List.flatMap _ (List.range 1)).take _
    rw [wide_shake hm]
    simp only [List.range_one, List.flatMap_cons, List.flatMap_nil, List.append_nil, Nat.zero_lt_one, dif_pos, pt, ha]
    rw [toByte_headOf hm, List.take_take, Nat.min_self, List.append_assoc, List.append_assoc]
    simp only [R, r, hf_shake hps]
  · have hoff : ∀ y, ¬ Late ps PKseed T y → O' y = O y := fun y hy => h y fun c e => hy (e ▸ hlate O c)
    obtain ⟨hM1, hM2⟩ := hM O O' hoff
    refine ⟨trivial, funext fun c => ?_, hM2⟩
    have e1 : r O' = r O := late_root hoff hn hl hP SKseed
    have e2 : R O' = R O := by
      simp only [R, hM1]
      exact late_shake hoff hps hl hk ho (hT' O)
    simp only [pt, e1, e2, hM1]

/-- The digest, for the SHA2 parameter sets. -/
theorem spread_sha2 (hps : ps.family = .sha2) {γ : Type}
    (M : (Query B → Fin (256 ^ w)) → List UInt8) (g : (Query B → Fin (256 ^ w)) → γ) (hB : 160 ≤ B)
    (hT : ∀ O, ps.sp.n + (M O).length ≠ hlen ps + 4)
    (hM : ∀ O O', (∀ y, ¬ Late ps PKseed (fun rest => rest.length = hlen ps + 4) y → O' y = O y) →
      M O' = M O ∧ g O' = g O) (G : List UInt8 → γ → ℚ) :
    (avg fun O : Query B → Fin (256 ^ w) =>
      G (ownDigest ps (withHash P0 O) SKseed SKprf PKseed opt (M O)) (g O)) =
      avg fun O : Query B → Fin (256 ^ w) => avg fun d : Fin (256 ^ ps.sp.m) => G (Spec.toByte d ps.sp.m) (g O) := by
  have hn : ps.sp.n ≤ w := by have := n_le_32 ps; omega
  obtain ⟨τ, i1, i2, e, he⟩ := split_blocks (ps := ps) hw
  let R : (Query B → Fin (256 ^ w)) → List UInt8 := fun O => (ps.hf (withHash P0 O)).PRFmsg SKprf opt (M O)
  let r : (Query B → Fin (256 ^ w)) → List UInt8 := fun O => Spec.pkRoot ps.sp (ps.hf (withHash P0 O)) SKseed PKseed
  let z : (Query B → Fin (256 ^ w)) → List UInt8 := fun O =>
    shaOf ps (withHash P0 O) (R O ++ PKseed ++ r O ++ M O)
  have hR : ∀ O, (R O).length = ps.sp.n := fun O => (ps.valid _).PRFmsg _ _ _
  have hr : ∀ O, (r O).length = ps.sp.n := fun O => pkRoot_length _ _ _
  have hz : ∀ O, (z O).length = hlen ps := fun O => shaOf_length _ _
  let pt : (Query B → Fin (256 ^ w)) → Fin (blocks ps) → Query B :=
    fun O c => .of B ⟨topAlg ps, R O ++ (PKseed ++ (z O ++ Spec.toByte c 4))⟩
  have ha : topAlg ps = msgAlg ps := by rw [topAlg, hps]
  have hlt : ∀ O (c : Fin (blocks ps)), (R O ++ (PKseed ++ (z O ++ Spec.toByte c 4))).length ≤ B := fun O c => by
    have := hR O; have := hz O; have := hlen_le ps; have := n_le_32 ps
    simp only [List.length_append, Spec.toByte_length]
    omega
  have hlate : ∀ O c, Late ps PKseed (fun rest => rest.length = hlen ps + 4) (pt O c) := fun O c =>
    late_of (hR O) (by rw [List.length_append, hz, Spec.toByte_length]) (hlt O c)
  have hinj : ∀ O, Function.Injective (pt O) := by
    intro O i j h
    simp only [pt, ha] at h
    have h := shaQ_inj (ps := ps) (hlt O i) (hlt O j) h
    have h := congrArg Spec.toInt (List.append_cancel_left (List.append_cancel_left (List.append_cancel_left h)))
    have hb : blocks ps ≤ 256 ^ 4 := by clear * -; cases ps <;> decide
    rw [Spec.toInt_toByte, Spec.toInt_toByte, Nat.mod_eq_of_lt (i.2.trans_le hb), Nat.mod_eq_of_lt (j.2.trans_le hb)] at h
    exact Fin.ext h
  have h := avg_blocks e he (fun _ => True) pt g (fun O _ => hinj O) (fun O O' _ h => ?_) G
  · have h1 : ind True = 1 := by simp [ind]
    simp only [h1, one_mul] at h
    refine Eq.trans (congrArg avg (funext fun O => congrArg (fun x => G x _) ?_)) h
    rw [ownDigest, sha2_Hmsg hps, Spec.mgf1, Spec.trunc, digest, Spec.concat]
    refine congrArg (List.take _) ?_
    change List.flatMap _ (List.range (blocks ps)) = _
    refine List.flatMap_congr fun c hcr => ?_
    have hcb := List.mem_range.mp hcr
    rw [dif_pos hcb, wide_sha hw, List.append_assoc, List.append_assoc]
    simp only [pt, ha]
    rfl
  · have hoff : ∀ y, ¬ Late ps PKseed (fun rest => rest.length = hlen ps + 4) y → O' y = O y :=
      fun y hy => h y fun c e => hy (e ▸ hlate O c)
    obtain ⟨hM1, hM2⟩ := hM O O' hoff
    refine ⟨trivial, funext fun c => ?_, hM2⟩
    have e1 : r O' = r O := late_root hoff hn hl hP SKseed
    have e2 : R O' = R O := by
      simp only [R, hM1]
      exact late_sha2 hoff hps hw hl hk ho fun _ h => h
    have e3 : z O' = z O := by
      simp only [z, e1, e2, hM1]
      refine late_sha hoff hw hl fun rest h => ?_
      have := hR O; have := hr O; have := hT O
      simp only [List.length_append]
      omega
    simp only [pt, e2, e3]

end

end Fips205.Props
