import Verif.Props.Public
import Verif.Proofs.Regraft

/-!
# A one-time key used twice is all a forger needs (C89)

C60 names one case in which two accepted signatures do not fit together though no collision has been met: they use a
one-time key for two values.  Whoever has two such signatures can forge.  This is why an error in signing that
verification does not notice (C88) must not be handed out.
-/

namespace Fips205.Props
open Fips205 Fips205.Model

variable {P : Spec.Prims} {ps : ParamSet}

/-- What is signed in layer `j` of a signature of `M` made with randomizer `R` and secret seed `S`: the root of the
tree below, or the FORS key. -/
def ownValue (P : Spec.Prims) (pk : PublicKey ps.params) (j : Nat) (S R M : List UInt8) : List UInt8 :=
  (Spec.attempt ps.sp (ps.hf P) M
    (Spec.signWithR ps.sp (ps.hf P) R M S pk.key.pk_seed.toList pk.key.pk_root.toList) S
    pk.key.pk_seed.toList pk.key.pk_root.toList).hMsg j

/-- The forged signature: the forger signs with a secret seed `S` of their own up to layer `j`; signs the root of their
own tree with the one-time key that was used twice, hashing on from the values in the two signatures; and appends what
follows in the first of them.  This is computed from the public key, the two signatures and their messages. -/
def forged (P : Spec.Prims) (pk : PublicKey ps.params) (sig sig' : Vector UInt8 ps.params.SIG_LEN) (M₁ M₂ : List UInt8)
    (j : Nat) (S R M : List UInt8) : List UInt8 :=
  let before := (1 + ps.sp.k * (1 + ps.sp.a)) * ps.sp.n + j * ((ps.sp.hp + ps.sp.len) * ps.sp.n)
  let c := checked P pk sig M₁
  let c' := checked P pk sig' M₂
  (Spec.signWithR ps.sp (ps.hf P) R M S pk.key.pk_seed.toList pk.key.pk_root.toList).take before ++
  (Spec.concat ps.sp.len (fun i =>
    let e := (Spec.wotsDigits ps.sp (ownValue P pk j S R M)).getD i 0
    if c.vDigit j i ≤ e then c.vChain j i e else c'.vChain j i e) ++
  sig.toList.drop (before + ps.sp.len * ps.sp.n))

/-- **C89** Two accepted signatures use a one-time key for two values.  Then for every secret seed of the forger, every
randomizer and every message that select this one-time key, such that every digit of the forger's value is at least as
large as that of one of the two values, the forged string is a signature that every call of `verify` and `hash_verify`
for this formatted message accepts. -/
theorem C89_forged {pk : PublicKey ps.params} {sig sig' : Vector UInt8 ps.params.SIG_LEN} {M₁ M₂ : List UInt8}
    (h : Accepted P pk sig M₁) (h' : Accepted P pk sig' M₂) {j : Nat} (hj : j < ps.sp.d)
    (ht : Spec.htTree ps.sp (checked P pk sig M₁).t j = Spec.htTree ps.sp (checked P pk sig' M₂).t j)
    (hl : (checked P pk sig M₁).leaf j = (checked P pk sig' M₂).leaf j)
    (hends : ∀ i < ps.sp.len,
      (checked P pk sig M₁).vChain j i (Spec.w - 1) = (checked P pk sig' M₂).vChain j i (Spec.w - 1))
    {S R M : List UInt8} (hR : R.length = ps.sp.n)
    (hsel : let digest := (ps.hf P).Hmsg R pk.key.pk_seed.toList pk.key.pk_root.toList M
      Spec.htTree ps.sp (Spec.digestTree ps.sp digest) j = Spec.htTree ps.sp (checked P pk sig M₁).t j ∧
      Spec.htLeaf ps.sp (Spec.digestTree ps.sp digest) (Spec.digestLeaf ps.sp digest) j = (checked P pk sig M₁).leaf j)
    (hdig : ∀ i < ps.sp.len, min ((checked P pk sig M₁).vDigit j i) ((checked P pk sig' M₂).vDigit j i) ≤
      (Spec.wotsDigits ps.sp (ownValue P pk j S R M)).getD i 0) :
    ∃ sig'' : Vector UInt8 ps.params.SIG_LEN, sig''.toList = forged P pk sig sig' M₁ M₂ j S R M ∧
      sig''.toList.take ps.sp.n = R ∧ ∀ (b : Build) msg ctx, ctx.length ≤ 255 →
      (pureString ctx msg = M → pk.verify (crypto P) msg sig'' ctx = (pure true : Exec b Bool)) ∧
      ∀ ph, prehashString P ctx msg ph = M →
        pk.hash_verify (crypto P) msg sig'' ctx ph = (pure true : Exec b Bool) := by
  have hRs : Spec.slice (Spec.signWithR ps.sp (ps.hf P) R M S pk.key.pk_seed.toList pk.key.pk_root.toList) 0 ps.sp.n = R :=
    Spec.slice_signWithR hR
  obtain ⟨h1, h2, hv⟩ := Spec.regraft_accepts ps.wf (ps.valid P) (n_le ps) ps.wf (ps.valid P) rfl rfl h.internal
    ((Spec.attempt_accepts M₂ _ [] _ _).mp h'.internal).1 hj hj (R := R) (M := M) (S := S) hR ht hl hends
    (by
      refine Eq.trans ?_ hsel.1
      change Spec.htTree ps.sp (Spec.digestTree ps.sp ((ps.hf P).Hmsg (Spec.slice _ 0 ps.sp.n) _ _ M)) j = _
      rw [hRs])
    (by
      refine Eq.trans ?_ hsel.2
      change Spec.htLeaf ps.sp (Spec.digestTree ps.sp ((ps.hf P).Hmsg (Spec.slice _ 0 ps.sp.n) _ _ M))
        (Spec.digestLeaf ps.sp ((ps.hf P).Hmsg (Spec.slice _ 0 ps.sp.n) _ _ M)) j = _
      rw [hRs])
    hdig
  change (forged P pk sig sig' M₁ M₂ j S R M).length = _ at h1
  change Spec.slice (forged P pk sig sig' M₁ M₂ j S R M) 0 ps.sp.n = R at h2
  change Spec.verifyInternal ps.sp (ps.hf P) M (forged P pk sig sig' M₁ M₂ j S R M) _ _ = true at hv
  have hlen : (forged P pk sig sig' M₁ M₂ j S R M).length = ps.params.SIG_LEN := by rw [h1]; cases ps <;> rfl
  refine ⟨Vector.mk (forged P pk sig sig' M₁ M₂ j S R M).toArray (by simpa using hlen), by simp, h2,
    fun b msg ctx hctx => ⟨?_, fun ph => ?_⟩⟩
  · rintro rfl
    rw [exec_verify, Spec.verify, if_neg (by omega), pureMsg_eq]
    exact congrArg _ hv
  · rintro rfl
    rw [exec_hash_verify, Spec.hashVerify, if_neg (by omega), ← phMsg, phMsg_eq]
    exact congrArg _ hv

/-- **C89** Two accepted signatures with different values at the same leaf of the same tree meet in a collision or use
a one-time key for two values, as C89_forged requires. -/
theorem C89_reuse {pk : PublicKey ps.params} {sig sig' : Vector UInt8 ps.params.SIG_LEN} {M₁ M₂ : List UInt8}
    (h : Accepted P pk sig M₁) (h' : Accepted P pk sig' M₂) {j : Nat} (hj : j < ps.sp.d)
    (ht : Spec.htTree ps.sp (checked P pk sig M₁).t j = Spec.htTree ps.sp (checked P pk sig' M₂).t j)
    (hl : (checked P pk sig M₁).leaf j = (checked P pk sig' M₂).leaf j)
    (hne : (checked P pk sig M₁).vMsg j ≠ (checked P pk sig' M₂).vMsg j) :
    (checked P pk sig M₁).Collision (checked P pk sig' M₂) ∨ ∃ j < ps.sp.d,
      Spec.htTree ps.sp (checked P pk sig M₁).t j = Spec.htTree ps.sp (checked P pk sig' M₂).t j ∧
      (checked P pk sig M₁).leaf j = (checked P pk sig' M₂).leaf j ∧
      (checked P pk sig M₁).vMsg j ≠ (checked P pk sig' M₂).vMsg j ∧ ∀ i < ps.sp.len,
        (checked P pk sig M₁).vChain j i (Spec.w - 1) = (checked P pk sig' M₂).vChain j i (Spec.w - 1) := by
  obtain ⟨_, hc | hr | R⟩ := Spec.attempt_like ps.wf (ps.valid P) (n_le ps) h.internal h'.internal []
  · exact .inl hc
  · exact .inr hr
  · exact absurd (R.wots hj ht hl (R.above hj ht)).2 hne

/-- The nodes of the FORS trees of the secret seed zero are zero, for the hash functions that return the last byte. -/
theorem last_node (ps : ParamSet) (PKseed A : List UInt8) : ∀ z i,
    Spec.forsNode (ps.hf lastBytePrims) (List.replicate ps.sp.n 0) i z PKseed A = List.replicate ps.sp.n 0
  | 0, i => by
    have h : Spec.forsSKgen (ps.hf lastBytePrims) (List.replicate ps.sp.n 0) PKseed A i = List.replicate ps.sp.n 0 := by
      rw [Spec.forsSKgen]
      have hn : ps.sp.n = ps.sp.n - 1 + 1 := by cases ps <;> rfl
      generalize hx : List.replicate ps.sp.n (0 : UInt8) = x
      conv_lhs => rw [← hx, hn]
      rw [← hx]
      cases ps <;>
        first
        | (show (Vector.replicate _ _).toList = _
           rw [getLastD_append_replicate, Vector.toList_replicate]; rfl)
        | (show Spec.trunc _ (Vector.replicate _ _).toList = _
           rw [getLastD_append_replicate, Vector.toList_replicate, Spec.trunc, List.take_replicate]; rfl)
    rw [Spec.forsNode, h]
    have hn : ps.sp.n = ps.sp.n - 1 + 1 := by cases ps <;> rfl
    generalize hx : List.replicate ps.sp.n (0 : UInt8) = x
    conv_lhs => rw [← hx, hn]
    rw [(last_const ps _ _ _ 0).1, hx]
  | z + 1, i => by
    rw [Spec.forsNode, last_node ps PKseed A z, last_node ps PKseed A z, ← List.replicate_add]
    have hn : ps.sp.n + ps.sp.n = ps.sp.n + ps.sp.n - 1 + 1 := by cases ps <;> rfl
    rw [hn]
    exact (last_const ps _ _ _ 0).2.1

/-- Two accepted signatures that use a one-time key twice, and another message for which a signature can be forged, for
hash functions that return the last byte of their input. -/
example (ps : ParamSet) : ∃ (pk : PublicKey ps.params) (sig sig' : Vector UInt8 ps.params.SIG_LEN)
    (M₁ M₂ S R M : List UInt8) (j : Nat),
    let c := checked lastBytePrims pk sig M₁
    let c' := checked lastBytePrims pk sig' M₂
    let digest := (ps.hf lastBytePrims).Hmsg R pk.key.pk_seed.toList pk.key.pk_root.toList M
    Accepted lastBytePrims pk sig M₁ ∧ Accepted lastBytePrims pk sig' M₂ ∧ M ≠ M₁ ∧ M ≠ M₂ ∧ j < ps.sp.d ∧
    Spec.htTree ps.sp c.t j = Spec.htTree ps.sp c'.t j ∧ c.leaf j = c'.leaf j ∧ c.vMsg j ≠ c'.vMsg j ∧
    (∀ i < ps.sp.len, c.vChain j i (Spec.w - 1) = c'.vChain j i (Spec.w - 1)) ∧
    R.length = ps.sp.n ∧ pureString [] [2, 1] = M ∧
    Spec.htTree ps.sp (Spec.digestTree ps.sp digest) j = Spec.htTree ps.sp c.t j ∧
    Spec.htLeaf ps.sp (Spec.digestTree ps.sp digest) (Spec.digestLeaf ps.sp digest) j = c.leaf j ∧
    ∀ i < ps.sp.len, min (c.vDigit j i) (c'.vDigit j i) ≤
      (Spec.wotsDigits ps.sp (ownValue lastBytePrims pk j S R M)).getD i 0 := by
  obtain ⟨pk, sig, sig', h1, h2, h3, h4, h0, hv, h5, h6, h7, h8, h9⟩ := two_values ps
  have hdig : (ps.hf lastBytePrims).Hmsg (List.replicate ps.sp.n 0) pk.key.pk_seed.toList pk.key.pk_root.toList
      (pureString [] [2, 1]) = (ps.hf lastBytePrims).Hmsg (Spec.slice sig.toList 0 ps.sp.n) pk.key.pk_seed.toList
      pk.key.pk_root.toList (Spec.pureMsg [] [1]) := by
    have : Spec.slice sig.toList 0 ps.sp.n = List.replicate ps.sp.n 0 := h0
    rw [this]
    have hx : ∀ X : List UInt8, (X ++ pureString [] [2, 1]).getLastD 0 = (X ++ Spec.pureMsg [] [1]).getLastD 0 := by
      intro X
      have a1 : pureString [] [2, 1] = [0, 0, 2] ++ [1] := rfl
      have a2 : Spec.pureMsg [] [1] = [0, 0] ++ [1] := rfl
      rw [a1, a2, ← List.append_assoc, ← List.append_assoc, List.getLastD_concat, List.getLastD_concat]
    have e1 : ∀ X, lastBytePrims.sha256 (X ++ pureString [] [2, 1]) = lastBytePrims.sha256 (X ++ Spec.pureMsg [] [1]) :=
      fun X => congrArg (Vector.replicate _) (hx X)
    have e2 : ∀ X, lastBytePrims.sha512 (X ++ pureString [] [2, 1]) = lastBytePrims.sha512 (X ++ Spec.pureMsg [] [1]) :=
      fun X => congrArg (Vector.replicate _) (hx X)
    have e3 : ∀ X, lastBytePrims.shake256 (X ++ pureString [] [2, 1]) = lastBytePrims.shake256 (X ++ Spec.pureMsg [] [1]) :=
      fun X => funext fun _ => congrArg (Vector.replicate _) (hx X)
    cases ps <;>
      first
      | exact congrArg Vector.toList (congrFun (e3 _) _)
      | exact congrArg (fun x => Spec.mgf1 (Spec.sha256' lastBytePrims) 32 (_ ++ Vector.toList x) _) (e1 _)
      | exact congrArg (fun x => Spec.mgf1 (Spec.sha512' lastBytePrims) 64 (_ ++ Vector.toList x) _) (e2 _)
  refine ⟨pk, sig, sig', _, _, List.replicate ps.sp.n 0, List.replicate ps.sp.n 0, pureString [] [2, 1], 0, h1, h2,
    by decide, by decide, h5, h6, h7, h8, h9, by simp, rfl, ?_, ?_, fun i hi => ?_⟩
  · rw [hdig]; rfl
  · rw [hdig]; rfl
  · have hown : ownValue lastBytePrims pk 0 (List.replicate ps.sp.n 0) (List.replicate ps.sp.n 0) (pureString [] [2, 1]) =
        List.replicate ps.sp.n 0 := by
      have hc : ∀ (c : Spec.Attempt), c.p = ps.sp → c.hf = ps.hf lastBytePrims →
          c.SKseed = List.replicate ps.sp.n 0 → c.hMsg 0 = (ps.hf lastBytePrims).T c.PKseed c.fRootsAdrs
            (List.replicate (ps.sp.k * ps.sp.n) 0) := fun c hp hh hs => by
        rw [Spec.Attempt.hMsg, Spec.Attempt.hForsPk, hh, hp]
        simp only [Spec.Attempt.hFors, hh, hs, last_node, concat_const]
      rw [ownValue, hc _ rfl rfl rfl]
      have hk : ps.sp.k * ps.sp.n = ps.sp.k * ps.sp.n - 1 + 1 := by cases ps <;> rfl
      rw [hk]
      exact (last_const ps _ _ _ 0).2.2
    rw [hown, ← hv]
    exact Nat.min_le_left _ _

end Fips205.Props
