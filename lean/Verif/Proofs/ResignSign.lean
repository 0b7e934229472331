import Verif.Proofs.ResignOrder
import Verif.Proofs.Congr

/-!
# The rest of a signature

What the signer hashes when the randomizer and the digest are given: it does not depend on the message otherwise.
-/

namespace Fips205.Props
open Fips205 Fips205.Model Fips205.Oracle

variable {ps : ParamSet} {L B w : Nat} {b : Build}

/-- The functions of a parameter set, with the randomizer and the digest given. -/
def givenHashers {m : Type → Type} [Rust m] {K LEN M N : Nat} (R : Vector UInt8 N) (δ : Vector UInt8 M)
    (hs : Hashers m K LEN M N) : Hashers m K LEN M N :=
  { hs with prf_msg := fun _ _ _ => pure R, h_msg := fun _ _ _ _ => pure δ }

/-- The same for the standard. -/
def givenFns (ps : ParamSet) (P : Spec.Prims) (R δ : List UInt8) : Spec.HashFns :=
  { ps.hf P with PRFmsg := fun _ _ _ => R, Hmsg := fun _ _ _ _ => δ }

theorem map_given {m m' : Type → Type} [Rust m] [Rust m'] (φ : RustHom m m') {K LEN M N : Nat} (R : Vector UInt8 N)
    (δ : Vector UInt8 M) (hs : Hashers m K LEN M N) : φ.hashers (givenHashers R δ hs) = givenHashers R δ (φ.hashers hs) := by
  simp only [givenHashers, RustHom.hashers, RustHom.map_pure]

/-- The signature with this randomizer and digest. -/
def givenSig (ps : ParamSet) (P : Spec.Prims) (sk : SlhPrivateKey ps.params.N) (R δ : List UInt8) :
    Vector UInt8 ps.params.SIG_LEN :=
  toVec _ (Spec.signWithR ps.sp (givenFns ps P R δ) R [] sk.sk_seed.toList sk.pk_seed.toList sk.pk_root.toList)

/-- The bytes of a signature. -/
def sigBytes (r : Except String (SlhDsaSig ps.params.A ps.params.D ps.params.HP ps.params.K ps.params.LEN ps.params.N)) :
    Vector UInt8 ps.params.SIG_LEN :=
  match r with
  | .ok s => toVec _ s.bytes
  | .error _ => toVec _ []

/-- What is hashed for the rest of the signature. -/
def restP (b : Build) (P0 : Spec.Prims) (sk : SlhPrivateKey ps.params.N) (R δ : List UInt8) :
    AskExec b w (Vector UInt8 ps.params.SIG_LEN) := do
  let r ← slh_sign_internal ps.params.A ps.params.D ps.params.H ps.params.HP
    (givenHashers (toVec _ R) (toVec _ δ) (HASHERS ps.params (askCrypto P0))) [] sk sk.pk_seed
  pure (sigBytes r)

theorem given_lt (P : Spec.Prims) (R δ M SIG s r k : List UInt8) :
    let c := Spec.attempt ps.sp (givenFns ps P R δ) M SIG k s r
    c.t < 2 ^ (c.p.hp * (c.p.d - 1)) ∧ c.l < 2 ^ c.p.hp := by
  have W := ps.wf
  have h1 := Spec.digestTree_lt (p := ps.sp) δ
  have h2 := Spec.digestLeaf_lt (p := ps.sp) δ
  rw [W.hd] at h1 h2
  refine ⟨?_, h2⟩
  have : ps.sp.h - ps.sp.hp = ps.sp.hp * (ps.sp.d - 1) := by rw [W.h_eq, Nat.mul_sub_one, Nat.mul_comm]
  rw [this] at h1
  exact h1

theorem run_restP (P0 : Spec.Prims) (O : Query B → Fin (256 ^ w)) (sk : SlhPrivateKey ps.params.N) {R δ : List UInt8}
    (hR : R.length = ps.sp.n) (hδ : δ.length = ps.sp.m) :
    ∃ l, (runWith (b := b) O).app (restP b P0 sk R δ) = (l, .ok (givenSig ps (withHash P0 O) sk R δ)) ∧
      l.length ≤ signMost ps := by
  obtain ⟨P, hP⟩ : ∃ P, P = withHash P0 O := ⟨_, rfl⟩
  have eR : (toVec ps.params.N R).toList = R := toVec_toList (by rw [hR]; cases ps <;> rfl)
  have eδ : (toVec ps.params.M δ).toList = δ := toVec_toList (by rw [hδ]; cases ps <;> rfl)
  have V0 := ps.valid P
  have V : Spec.Valid (givenFns ps P R δ) ps.sp.n ps.sp.m :=
    ⟨fun _ _ _ => hR, fun _ _ _ _ => hδ, V0.PRF, V0.F, V0.H, V0.T⟩
  have H0 := ps.hashersErase (b := b) P
  have HE : HashersRefine ((LogExec.erase (b := b)).hashers (givenHashers (toVec _ R) (toVec _ δ)
      (HASHERS ps.params (recording P)))) (givenFns ps P R δ) := by
    rw [map_given]
    exact ⟨fun _ _ _ _ _ => Returns.pure eδ, H0.prf, fun _ _ _ _ _ => Returns.pure eR, H0.f, H0.h, H0.t_l, H0.t_len⟩
  have HM : HashersMsg (b := b) (fun _ _ _ => []) (fun _ _ _ _ => []) (givenHashers (toVec _ R) (toVec _ δ)
      (HASHERS ps.params (recording P))) :=
    ⟨fun _ _ _ _ _ => ⟨_, rfl, trivial⟩, fun _ _ _ _ _ => ⟨_, rfl, trivial⟩⟩
  have A0 := ps.hashersAt (b := b) P sk.pk_seed.toList
  have HA : HashersAt (CallAt ps.family ps.row sk.pk_seed.toList) sk.pk_seed.toList (givenHashers (toVec _ R) (toVec _ δ)
      (HASHERS ps.params (recording P : Crypto (LogExec b)))) := ⟨A0.prf, A0.f, A0.h, A0.t_l, A0.t_len⟩
  obtain ⟨l, h1, r, h2, s, rfl, h3⟩ := slh_sign_internal_makes ps.matches ps.wf V HE HM (msg := []) (by simp) sk HA
    sk.pk_seed rfl
  obtain ⟨ht, hl⟩ := given_lt (ps := ps) P R δ _ _ sk.pk_seed.toList sk.pk_root.toList sk.sk_seed.toList
  refine ⟨l, ?_, ?_⟩
  · rw [restP, RustHom.map_bind]
    have e : (runWith (b := b) O).app (slh_sign_internal ps.params.A ps.params.D ps.params.H ps.params.HP
        (givenHashers (toVec _ R) (toVec _ δ) (HASHERS ps.params (askCrypto P0))) [] sk sk.pk_seed) = (l, .ok (.ok s)) := by
      rw [RustHom.map_slh_sign_internal, map_given, RustHom.map_HASHERS, runWith_crypto, ← hP]
      exact h2
    refine (log_bind e (l' := []) (r := .ok (givenSig ps P sk R δ)) ?_).trans (by rw [List.append_nil, hP])
    rw [RustHom.map_pure, sigBytes, h3]
    rfl
  · rw [h1.length (signPlaces_count ps.wf.d_pos ht hl)]
    have e : signMost ps = prfMsgWork ps + hMsgWork ps + (ps.sp.k * (2 ^ ps.sp.a * 2 + (2 ^ ps.sp.a - 1)) + 1) +
        ps.sp.d * (2 ^ ps.sp.hp * (ps.sp.len * 16 + 1) + (2 ^ ps.sp.hp - 1)) := rfl
    rw [e]
    refine (Nat.add_le_add_left (Nat.sub_le _ _) _).trans ?_
    exact Nat.add_le_add_right (Nat.le_add_left _ _) _

/-- A signature is made of the rest, with the randomizer and the digest of the message. -/
theorem sigVec_given (P : Spec.Prims) (M : List UInt8) (sk : SlhPrivateKey ps.params.N) (opt : Vector UInt8 ps.params.N) :
    sigVec ps P M sk opt = givenSig ps P sk ((ps.hf P).PRFmsg sk.sk_prf.toList opt.toList M)
      ((ps.hf P).Hmsg ((ps.hf P).PRFmsg sk.sk_prf.toList opt.toList M) sk.pk_seed.toList sk.pk_root.toList M) := by
  have V := ps.valid P
  obtain ⟨R, hR⟩ : ∃ R, R = (ps.hf P).PRFmsg sk.sk_prf.toList opt.toList M := ⟨_, rfl⟩
  obtain ⟨δ, hδ⟩ : ∃ δ, δ = (ps.hf P).Hmsg R sk.pk_seed.toList sk.pk_root.toList M := ⟨_, rfl⟩
  have V' : Spec.Valid (givenFns ps P R δ) ps.sp.n ps.sp.m :=
    ⟨fun _ _ _ => hR ▸ V.PRFmsg _ _ _, fun _ _ _ _ => hδ ▸ V.Hmsg _ _ _ _, V.PRF, V.F, V.H, V.T⟩
  have A : Agree ps.sp sk.pk_seed.toList (ps.hf P) (givenFns ps P R δ) := fun x _ z => rfl
  have h := A.signWithR (SKseed := sk.sk_seed.toList) (R := R) (M := M) (PKroot := sk.pk_root.toList) ps.wf V V' hδ.symm
  rw [sigVec, Spec.signInternal, ← hR, h, ← hδ]
  rfl

end Fips205.Props
