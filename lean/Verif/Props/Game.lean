import Verif.Props.Splice
import Verif.Proofs.Oracle
import Verif.Proofs.Same

/-!
# Forging by chosen messages and hash evaluations (C66)

Take `H_msg` to be a random function and the randomizers of the signatures to be random, and let a forger
choose messages to be signed, and inputs at which to evaluate `H_msg`, depending on all answers so far.  The signing
and verification code runs with these two functions in the table of hash functions; the other functions are the
real ones.  Then the forger needs a break of those, or has at most the chance of `C62` per evaluation.
-/

namespace Fips205.Props
open Fips205 Fips205.Model

variable {P : Spec.Prims} {ps : ParamSet} {S : Finset (List UInt8)}

/-! ## The random functions -/

/-- The number of a string of `n` bytes. -/
def number (n : Nat) (x : List UInt8) : Fin (256 ^ n) := ⟨Spec.toInt x % 256 ^ n, Nat.mod_lt _ (Nat.pow_pos (by decide))⟩

/-- A function from randomizers and the formatted messages in `S` to digests. -/
abbrev MsgHash (ps : ParamSet) (S : Finset (List UInt8)) : Type :=
  Fin (256 ^ ps.sp.n) × S → Fin (256 ^ ps.sp.m)

/-- The digest of a message. Messages outside `S` do not occur. -/
def digestBy (H : MsgHash ps S) (R M : List UInt8) : List UInt8 :=
  Spec.toByte (if h : M ∈ S then (H (number ps.sp.n R, ⟨M, h⟩)).val else 0) ps.sp.m

/-- The table of hash functions of a parameter set with `H_msg` replaced by `H` and `PRF_msg` by the randomizer
`R`. -/
def withRandom {m : Type → Type} [Rust m] (P : Spec.Prims) (H : MsgHash ps S) (R : List UInt8) :
    Hashers m ps.params.K ps.params.LEN ps.params.M ps.params.N :=
  { HASHERS ps.params (crypto P) with
    h_msg := fun r _ _ ms => pure (toVec _ (digestBy H r ms.flatten))
    prf_msg := fun _ _ _ => pure (toVec _ R) }

/-- Messages in the form in which the API passes them on: at most five pieces. -/
def Pieces (S : Finset (List UInt8)) : Type := { mp : List (List UInt8) // mp.length ≤ 5 ∧ mp.flatten ∈ S }

/-- The message. -/
def Pieces.msg (mp : Pieces S) : S := ⟨mp.1.flatten, mp.2.2⟩

/-! ## The game -/

/-- A forger who may ask for `q` signatures and for `T` digests more. -/
inductive Forger (ps : ParamSet) (S : Finset (List UInt8)) : Nat → Nat → Type
  /-- stop with a forgery -/
  | forge {q T : Nat} (sig : Vector UInt8 ps.params.SIG_LEN) (mp : Pieces S) : Forger ps S q T
  /-- evaluate `H_msg` -/
  | hash {q T : Nat} (R : Vector UInt8 ps.params.N) (mp : Pieces S)
      (next : Vector UInt8 ps.params.M → Forger ps S q T) : Forger ps S q (T + 1)
  /-- ask for a signature -/
  | sign {q T : Nat} (mp : Pieces S)
      (next : Except String (Vector UInt8 ps.params.SIG_LEN) → Forger ps S q T) : Forger ps S (q + 1) T

/-- What became of it. -/
structure Outcome (ps : ParamSet) where
  /-- the forgery -/
  sig : Vector UInt8 ps.params.SIG_LEN
  msg : List UInt8
  /-- whether verification accepted it -/
  accepted : Bool
  /-- the signatures asked for -/
  asked : List (Vector UInt8 ps.params.SIG_LEN × List UInt8)

/-- The game: `ρ` are the randomizers of the signatures to come. Signing and verification are as in
`src/lib.rs:212-223` and `281-291`, for any formatted message, with the table `withRandom`. -/
def Forger.attack {m : Type → Type} [Rust m] (P : Spec.Prims) (pk : PublicKey ps.params) (sk : PrivateKey ps.params)
    (H : MsgHash ps S) : {q T : Nat} → Forger ps S q T → (Fin q → Fin (256 ^ ps.sp.n)) →
    List (Vector UInt8 ps.params.SIG_LEN × List UInt8) → m (Outcome ps)
  | _, _, .forge sig mp, _, asked => do
    let s ← SlhDsaSig.deserialize ps.params.A ps.params.D ps.params.HP ps.params.K ps.params.LEN ps.params.N sig.toList
    let ok ← slh_verify ps.params.H (withRandom P H []) mp.1 s pk.key
    pure { sig, msg := mp.1.flatten, accepted := ok, asked }
  | _, _, .hash R mp next, ρ, asked => do
    let d ← (withRandom P H []).h_msg R.toList pk.key.pk_seed.toList pk.key.pk_root.toList mp.1
    (next d).attack P pk sk H ρ asked
  | _, _, .sign mp next, ρ, asked => do
    let r ← slh_sign_internal ps.params.A ps.params.D ps.params.H ps.params.HP
      (withRandom P H (Spec.toByte (ρ 0) ps.sp.n)) mp.1 sk.key sk.key.pk_seed
    let r ← mapSerialize ps.params r
    let asked := match r with
      | .ok sig => (sig, mp.1.flatten) :: asked
      | .error _ => asked
    (next r).attack P pk sk H (Fin.tail ρ) asked

/-- A forgery: accepted, and not one of the signatures asked for. -/
def Outcome.Forged (o : Outcome ps) : Prop := o.accepted = true ∧ (o.sig, o.msg) ∉ o.asked

/-- The standard's hash functions with `H_msg` replaced by `H`. -/
def ParamSet.hfRandom (ps : ParamSet) (P : Spec.Prims) (H : MsgHash ps S) : Spec.HashFns :=
  { ps.hf P with Hmsg := fun R _ _ M => digestBy H R M }

/-- The place of the FORS secret that a digest selects in tree `i`. -/
def place (ps : ParamSet) (digest : List UInt8) (i : Nat) : Place :=
  .forsPrf (forsKey ps digest).1 (forsKey ps digest).2 (i * 2 ^ ps.sp.a + forsLeaf ps digest i)

/-- The digest of a signature. -/
def sigDigest (H : MsgHash ps S) (sig : Vector UInt8 ps.params.SIG_LEN) (M : List UInt8) : List UInt8 :=
  digestBy H (sig.toList.take ps.sp.n) M

/-- The forgery breaks something other than `H_msg`: it shows a break of `F`, `H`, `T` or an unpublished chain
value, or contains a FORS secret that none of the signatures asked for opens. -/
def Outcome.Breaks (P : Spec.Prims) (sk : PrivateKey ps.params) (H : MsgHash ps S) (o : Outcome ps) : Prop :=
  (Spec.attempt ps.sp (ParamSet.hfRandom ps P H) o.msg o.sig.toList sk.key.sk_seed.toList sk.key.pk_seed.toList
    sk.key.pk_root.toList).Break ∨
  ∃ i < ps.sp.k, disclosed o.sig i = secretAt P sk (place ps (sigDigest H o.sig o.msg) i) ∧
    ∀ e ∈ o.asked, ∀ j < ps.sp.k, place ps (sigDigest H e.1 e.2) j ≠ place ps (sigDigest H o.sig o.msg) i

/-- The probability of an event, all possibilities being equally likely. -/
noncomputable def prob {Ω : Type} [Fintype Ω] (E : Ω → Prop) : ℚ := by
  classical exact (Finset.univ.filter E).card / Fintype.card Ω

/-! ## Running the game -/

theorem digestBy_length (H : MsgHash ps S) (R M : List UInt8) : (digestBy H R M).length = ps.sp.m :=
  Spec.toByte_length _ _

theorem M_eq (ps : ParamSet) : ps.sp.m = ps.params.M := by cases ps <;> rfl
theorem N_eq (ps : ParamSet) : ps.sp.n = ps.params.N := by cases ps <;> rfl

theorem digestBy_vec (H : MsgHash ps S) (R M : List UInt8) :
    (toVec ps.params.M (digestBy H R M)).toList = digestBy H R M :=
  toVec_toList ((digestBy_length H R M).trans (M_eq ps))

theorem hfRandom_valid (H : MsgHash ps S) : Spec.Valid (ParamSet.hfRandom ps P H) ps.sp.n ps.sp.m :=
  { ps.valid P with Hmsg := fun _ _ _ _ => digestBy_length H _ _ }

theorem hfRandom_same (H : MsgHash ps S) : Spec.SameTrees (ParamSet.hfRandom ps P H) (ps.hf P) := ⟨rfl, rfl, rfl, rfl⟩

/-- The standard's counterpart of `withRandom`. -/
def ParamSet.hfBoth (ps : ParamSet) (P : Spec.Prims) (H : MsgHash ps S) (R : List UInt8) : Spec.HashFns :=
  { ps.hf P with Hmsg := fun R _ _ M => digestBy H R M, PRFmsg := fun _ _ _ => (toVec ps.params.N R).toList }

theorem withRandom_refine {b : Build} (H : MsgHash ps S) (R : List UInt8) :
    HashersRefine (withRandom P H R : Hashers (Exec b) _ _ _ _) (ParamSet.hfBoth ps P H R) :=
  { ps.hashers P with
    h_msg := fun _ _ _ _ _ => Returns.pure (digestBy_vec H _ _)
    prf_msg := fun _ _ _ _ _ => Returns.pure rfl }

theorem hfBoth_same (H : MsgHash ps S) (R : List UInt8) :
    Spec.SameTrees (ParamSet.hfBoth ps P H R) (ParamSet.hfRandom ps P H) := ⟨rfl, rfl, rfl, rfl⟩

/-- The owner's signature with randomizer number `r`. -/
def ownSig (P : Spec.Prims) (sk : PrivateKey ps.params) (H : MsgHash ps S) (r : Fin (256 ^ ps.sp.n)) (M : List UInt8) :
    Vector UInt8 ps.params.SIG_LEN :=
  toVec _ (Spec.signWithR ps.sp (ParamSet.hfRandom ps P H) (Spec.toByte r ps.sp.n) M sk.key.sk_seed.toList
    sk.key.pk_seed.toList sk.key.pk_root.toList)

theorem game_sign {b : Build} (sk : PrivateKey ps.params) (H : MsgHash ps S) (r : Fin (256 ^ ps.sp.n)) (mp : Pieces S) :
    (slh_sign_internal ps.params.A ps.params.D ps.params.H ps.params.HP
      (withRandom P H (Spec.toByte r ps.sp.n)) mp.1 sk.key sk.key.pk_seed >>= mapSerialize ps.params : Exec b _) =
      pure (.ok (ownSig P sk H r mp.1.flatten)) ∧
    (ownSig P sk H r mp.1.flatten).toList = Spec.signWithR ps.sp (ParamSet.hfRandom ps P H) (Spec.toByte r ps.sp.n)
      mp.1.flatten sk.key.sk_seed.toList sk.key.pk_seed.toList sk.key.pk_root.toList := by
  have hlen : (Spec.toByte r ps.sp.n).length = ps.params.N := (Spec.toByte_length _ _).trans (N_eq ps)
  have h : Returns (slh_sign_internal ps.params.A ps.params.D ps.params.H ps.params.HP
      (withRandom P H (Spec.toByte r ps.sp.n)) mp.1 sk.key sk.key.pk_seed >>= mapSerialize ps.params : Exec b _)
      (fun x => ∃ sig : Vector UInt8 ps.params.SIG_LEN, x = .ok sig ∧ sig.toList =
        Spec.signWithR ps.sp (ParamSet.hfRandom ps P H) (Spec.toByte r ps.sp.n)
          mp.1.flatten sk.key.sk_seed.toList sk.key.pk_seed.toList sk.key.pk_root.toList) := by
    refine (slh_sign_internal_returns ps.sizes.m (withRandom_refine H _) mp.2.1 sk.key _).bind ?_
    rintro _ ⟨sig, rfl, hsig⟩
    unfold mapSerialize
    refine Returns.leak ?_
    dsimp only
    refine (serialize_returns ps.sizes.m sig ps.sizes.sig).bind fun v hv => ?_
    refine Returns.pure ⟨v, rfl, ?_⟩
    rw [hv, hsig, Spec.signInternal]
    have e : (ParamSet.hfBoth ps P H (Spec.toByte r ps.sp.n)).PRFmsg sk.key.sk_prf.toList sk.key.pk_seed.toList
        mp.1.flatten = Spec.toByte r ps.sp.n := toVec_toList hlen
    rw [e]
    exact (hfBoth_same H _).signWithR rfl
  obtain ⟨x, hx, sig, rfl, hsig⟩ := Exec.returns_iff.mp h
  have e : sig = ownSig P sk H r mp.1.flatten := by
    rw [ownSig, ← hsig]
    exact (Vector.toList_inj.mp (toVec_toList (Vector.length_toList ..))).symm
  exact ⟨e ▸ hx, e ▸ hsig⟩

theorem game_verify {b : Build} (pk : PublicKey ps.params) (H : MsgHash ps S) (sig : Vector UInt8 ps.params.SIG_LEN)
    (mp : Pieces S) :
    (SlhDsaSig.deserialize ps.params.A ps.params.D ps.params.HP ps.params.K ps.params.LEN ps.params.N sig.toList >>=
      fun s => slh_verify ps.params.H (withRandom P H []) mp.1 s pk.key : Exec b _) =
    pure (Spec.verifyInternal ps.sp (ParamSet.hfRandom ps P H) mp.1.flatten sig.toList pk.key.pk_seed.toList
      pk.key.pk_root.toList) := by
  refine exec_eq ?_
  refine (deserialize_returns ps.sizes.m (by simpa using ps.sizes.sig)).bind fun s hs => ?_
  rw [← hs]
  exact (slh_verify_internal_returns ps.sizes.m (withRandom_refine H []) mp.2.1 s pk.key).mono fun v hv =>
    hv.trans (Spec.SameTrees.verifyInternal (hfBoth_same H []) rfl)

/-- The outcome of the game. -/
def Forger.outcome (P : Spec.Prims) (pk : PublicKey ps.params) (sk : PrivateKey ps.params) (H : MsgHash ps S) :
    {q T : Nat} → Forger ps S q T → (Fin q → Fin (256 ^ ps.sp.n)) →
    List (Vector UInt8 ps.params.SIG_LEN × List UInt8) → Outcome ps
  | _, _, .forge sig mp, _, asked =>
    { sig, msg := mp.1.flatten, asked
      accepted := Spec.verifyInternal ps.sp (ParamSet.hfRandom ps P H) mp.1.flatten sig.toList pk.key.pk_seed.toList
        pk.key.pk_root.toList }
  | _, _, .hash R mp next, ρ, asked =>
    (next (toVec _ (digestBy H R.toList mp.1.flatten))).outcome P pk sk H ρ asked
  | _, _, .sign mp next, ρ, asked =>
    (next (.ok (ownSig P sk H (ρ 0) mp.1.flatten))).outcome P pk sk H (Fin.tail ρ)
      ((ownSig P sk H (ρ 0) mp.1.flatten, mp.1.flatten) :: asked)

theorem attack_eq {b : Build} (pk : PublicKey ps.params) (sk : PrivateKey ps.params) (H : MsgHash ps S) {q T : Nat}
    (A : Forger ps S q T) : ∀ ρ asked, A.attack P pk sk H ρ asked = (pure (A.outcome P pk sk H ρ asked) : Exec b _) := by
  induction A with
  | forge sig mp =>
    intro ρ asked
    have h := game_verify (P := P) (b := b) pk H sig mp
    rw [Forger.attack, ← bind_assoc, h, pure_bind, Forger.outcome]
  | hash R mp next ih =>
    intro ρ asked
    rw [Forger.attack, Forger.outcome, ← ih]
    exact pure_bind _ _
  | sign mp next ih =>
    intro ρ asked
    have h := (game_sign (P := P) (b := b) sk H (ρ 0) mp).1
    rw [Forger.attack, ← bind_assoc, h, pure_bind, Forger.outcome, ← ih]

/-! ## The game with the random function only -/

theorem number_toByte {n : Nat} (r : Fin (256 ^ n)) : number n (Spec.toByte r n) = r := by
  refine Fin.ext ?_
  change Spec.toInt (Spec.toByte r n) % 256 ^ n = r.val
  rw [Spec.toInt_toByte, Nat.mod_mod, Nat.mod_eq_of_lt r.2]

theorem toByte_number {n : Nat} {R : List UInt8} (h : R.length = n) : Spec.toByte (number n R) n = R := by
  subst h
  change Spec.toByte (Spec.toInt R % 256 ^ R.length) R.length = R
  rw [Nat.mod_eq_of_lt (Spec.toInt_lt R), Spec.toByte_toInt]

theorem digestBy_mem (H : MsgHash ps S) (R : List UInt8) (M : S) :
    digestBy H R M = Spec.toByte (H (number ps.sp.n R, M)) ps.sp.m := by
  rw [digestBy, dif_pos M.2]

theorem ownSig_congr (sk : PrivateKey ps.params) (H : MsgHash ps S) (r : Fin (256 ^ ps.sp.n)) (M : S) :
    ownSig P sk H r M = ownSig (S := S) P sk (fun _ => H (r, M)) r M := by
  have E : Spec.SameTrees (ParamSet.hfRandom ps P H) (ParamSet.hfRandom ps P fun _ : Fin (256 ^ ps.sp.n) × S => H (r, M)) :=
    ⟨rfl, rfl, rfl, rfl⟩
  rw [ownSig, ownSig, E.signWithR]
  change digestBy H (Spec.toByte r ps.sp.n) M = digestBy (S := S) (fun _ => H (r, M)) (Spec.toByte r ps.sp.n) M
  rw [digestBy_mem, digestBy_mem, number_toByte]

theorem ownSig_digest (sk : PrivateKey ps.params) (H : MsgHash ps S) (x : Fin (256 ^ ps.sp.n) × S) :
    sigDigest H (ownSig P sk H x.1 x.2) x.2 = Spec.toByte (H x) ps.sp.m := by
  have h := (game_sign (P := P) (b := ⟨false, false, 64, by decide⟩) sk H x.1
    ⟨[x.2.val], by simp, by simp⟩).2
  simp only [List.flatten_cons, List.flatten_nil, List.append_nil] at h
  have hR : (ownSig P sk H x.1 x.2).toList.take ps.sp.n = Spec.toByte x.1 ps.sp.n := by
    rw [h, Spec.signWithR, List.append_assoc, List.take_append_of_le_length (by rw [Spec.toByte_length]),
      List.take_of_length_le (by rw [Spec.toByte_length])]
  rw [sigDigest, hR, digestBy_mem, number_toByte]

/-- What the forger does with the random function. -/
def Forger.game (P : Spec.Prims) (sk : PrivateKey ps.params) : {q T : Nat} → Forger ps S q T →
    Oracle.Game (Fin (256 ^ ps.sp.n)) S (Fin (256 ^ ps.sp.m)) q (T + 1)
  | _, _, .forge sig mp => .hash (number ps.sp.n (sig.toList.take ps.sp.n), mp.msg) fun _ => .done
  | _, _, .hash R mp next => .hash (number ps.sp.n R.toList, mp.msg) fun d =>
    (next (toVec _ (Spec.toByte d ps.sp.m))).game P sk
  | _, _, .sign mp next => .sign mp.msg fun r d => (next (.ok (ownSig (S := S) P sk (fun _ => d) r mp.msg))).game P sk

/-- The signatures for the points at which the signer evaluated the function. -/
def signedAt (P : Spec.Prims) (sk : PrivateKey ps.params) (H : MsgHash ps S) (s : List (Fin (256 ^ ps.sp.n) × S)) :
    List (Vector UInt8 ps.params.SIG_LEN × List UInt8) :=
  s.map fun x => (ownSig P sk H x.1 x.2, x.2.val)

theorem outcome_game (pk : PublicKey ps.params) (sk : PrivateKey ps.params) (H : MsgHash ps S) {q T : Nat}
    (A : Forger ps S q T) : ∀ ρ s h,
    let o := A.outcome P pk sk H ρ (signedAt P sk H s)
    let g := (A.game P sk).play H ρ s h
    o.asked = signedAt P sk H g.1 ∧
    (∃ hm : o.msg ∈ S, (number ps.sp.n (o.sig.toList.take ps.sp.n), ⟨o.msg, hm⟩) ∈ g.2) ∧
    o.accepted = Spec.verifyInternal ps.sp (ParamSet.hfRandom ps P H) o.msg o.sig.toList pk.key.pk_seed.toList
      pk.key.pk_root.toList := by
  induction A with
  | forge sig mp =>
    intro ρ s h
    refine ⟨rfl, ⟨mp.2.2, ?_⟩, rfl⟩
    simp only [Forger.game, Oracle.Game.play]
    exact List.mem_cons_self
  | hash R mp next ih =>
    intro ρ s h
    have e : digestBy H R.toList mp.1.flatten = Spec.toByte (H (number ps.sp.n R.toList, mp.msg)) ps.sp.m :=
      digestBy_mem H R.toList mp.msg
    simp only [Forger.outcome, Forger.game, Oracle.Game.play, e]
    exact ih _ _ _ _
  | sign mp next ih =>
    intro ρ s h
    have e : ownSig P sk H (ρ 0) mp.1.flatten = ownSig (S := S) P sk (fun _ => H (ρ 0, mp.msg)) (ρ 0) mp.msg :=
      ownSig_congr sk H (ρ 0) mp.msg
    simp only [Forger.outcome, Forger.game, Oracle.Game.play]
    rw [← e]
    exact ih _ _ ((ρ 0, mp.msg) :: s) h

/-! ## What a forgery needs -/

/-- The secret values that a signature contains. -/
theorem vSecret_disclosed (sk : PrivateKey ps.params) (H : MsgHash ps S) (sig : Vector UInt8 ps.params.SIG_LEN)
    (M : List UInt8) {i : Nat} (hi : i < ps.sp.k) :
    (Spec.attempt ps.sp (ParamSet.hfRandom ps P H) M sig.toList sk.key.sk_seed.toList
      sk.key.pk_seed.toList sk.key.pk_root.toList).vSecret i = disclosed sig i := by
  generalize hc : Spec.attempt ps.sp (ParamSet.hfRandom ps P H) M sig.toList sk.key.sk_seed.toList
    sk.key.pk_seed.toList sk.key.pk_root.toList = c
  have e1 : (1 + ps.sp.k * (1 + ps.sp.a)) * ps.sp.n =
    ps.sp.n + ps.sp.k * ((ps.sp.a + 1) * ps.sp.n) := by ring
  have hin : (i * (ps.sp.a + 1) + 1) * ps.sp.n ≤ ps.sp.k * ((ps.sp.a + 1) * ps.sp.n) := by
    have : (i + 1) * ((ps.sp.a + 1) * ps.sp.n) ≤ ps.sp.k * ((ps.sp.a + 1) * ps.sp.n) :=
      Nat.mul_le_mul_right _ hi
    refine le_trans ?_ this
    rw [← Nat.mul_assoc]
    refine Nat.mul_le_mul_right _ ?_
    rw [Nat.add_mul]
    omega
  have : c.vSecret i = Spec.slice (Spec.slice sig.toList ps.sp.n
      (ps.sp.n + ps.sp.k * ((ps.sp.a + 1) * ps.sp.n))) (i * (ps.sp.a + 1) * ps.sp.n)
      ((i * (ps.sp.a + 1) + 1) * ps.sp.n) := by
    rw [← hc, ← e1]; rfl
  rw [this, Spec.slice_slice _ (by omega), Spec.slice, disclosed, ← Nat.mul_assoc]
  congr 1
  rw [Nat.add_mul, Nat.one_mul]
  omega

/-- The owner's. -/
theorem hSecret_secretAt (sk : PrivateKey ps.params) (H : MsgHash ps S) (sig : Vector UInt8 ps.params.SIG_LEN)
    (M : List UInt8) (i : Nat) :
    let c := Spec.attempt ps.sp (ParamSet.hfRandom ps P H) M sig.toList sk.key.sk_seed.toList
      sk.key.pk_seed.toList sk.key.pk_root.toList
    c.hSecret (c.fLeaf i) = secretAt P sk (place ps (sigDigest H sig M) i) := by
  dsimp only
  generalize hc : Spec.attempt ps.sp (ParamSet.hfRandom ps P H) M sig.toList sk.key.sk_seed.toList
    sk.key.pk_seed.toList sk.key.pk_root.toList = c
  have hch : c.hf = ParamSet.hfRandom ps P H := by rw [← hc]; rfl
  have hPRF : c.hf.PRF = (ps.hf P).PRF := by rw [hch]; rfl
  have hl : c.l < 2 ^ 32 := by
    have h1 : c.l = Spec.digestLeaf ps.sp (sigDigest H sig M) := by
      rw [← hc, Spec.attempt]
      rfl
    have := Spec.digestLeaf_lt (p := ps.sp) (sigDigest H sig M)
    rw [ps.wf.hd] at this
    have h2 : 2 ^ ps.sp.hp ≤ 2 ^ 32 := by cases ps <;> decide
    omega
  rw [Spec.Attempt.hSecret, secretAt, ← prf_eq]
  refine ((C43_fors_addresses ps.sp c.hf hl _ 0 _ _).1).trans ?_
  rw [hPRF, ← hc]
  rfl

/-- `honest_discloses` for the random function. -/
theorem random_discloses {sk : PrivateKey ps.params} {H : MsgHash ps S} {sig : Vector UInt8 ps.params.SIG_LEN}
    {M : List UInt8} (h : sig.toList = Spec.signWithR ps.sp (ParamSet.hfRandom ps P H) (sig.toList.take ps.sp.n) M
      sk.key.sk_seed.toList sk.key.pk_seed.toList sk.key.pk_root.toList) {i : Nat} (hi : i < ps.sp.k) :
    disclosed sig i = secretAt P sk (place ps (sigDigest H sig M) i) := by
  have V := hfRandom_valid (P := P) H
  rw [← vSecret_disclosed (P := P) sk H sig M hi, ← hSecret_secretAt]
  generalize hc : Spec.attempt ps.sp (ParamSet.hfRandom ps P H) M sig.toList sk.key.sk_seed.toList
    sk.key.pk_seed.toList sk.key.pk_root.toList = c
  have hcp : c.p = ps.sp := by rw [← hc]; rfl
  have hch : c.hf = ParamSet.hfRandom ps P H := by rw [← hc]; rfl
  have hS : c.SIGfors = Spec.forsSign c.p c.hf c.md c.SKseed c.PKseed c.fAdrs := by
    refine Spec.attempt_signWithR_fors V (take_length sig) (M := M) (SKseed := sk.key.sk_seed.toList)
      (PKseed := sk.key.pk_seed.toList) (PKroot := sk.key.pk_root.toList) ?_
    rw [← h, ← hc]
  exact (Spec.fors_sign_values c (hcp ▸ ps.wf) (by rw [hcp, hch]; exact V) hS (by rw [hcp]; exact hi)).1

/-- The FORS key a digest selects, by number. -/
def keyOf (ps : ParamSet) (d : Fin (256 ^ ps.sp.m)) : Nat × Nat := forsKey ps (Spec.toByte d ps.sp.m)

/-- The leaf of tree `i` it selects. -/
def leafOf (ps : ParamSet) (i : Fin ps.sp.k) (d : Fin (256 ^ ps.sp.m)) : Nat := forsLeaf ps (Spec.toByte d ps.sp.m) i

/-- A digest that selects no place other than those of known digests is covered by them. -/
theorem places_covered {known : List (List UInt8)} {d : List UInt8}
    (h : ∀ i < ps.sp.k, ∃ e ∈ known, ∃ j < ps.sp.k, place ps e j = place ps d i) : Covered ps known d := by
  intro i hi
  obtain ⟨e, he, j, hj, hp⟩ := h i hi
  simp only [place, Place.forsPrf.injEq] at hp
  obtain ⟨e1, e2, e3⟩ := hp
  have hlt : ∀ digest i, forsLeaf ps digest i < 2 ^ ps.sp.a := fun _ _ => base2b_getD_lt
  have l1 := hlt e j
  have l2 := hlt d i
  have hji : j = i := by
    have h1 : (j * 2 ^ ps.sp.a + forsLeaf ps e j) / 2 ^ ps.sp.a = j := by
      rw [Nat.mul_comm, Nat.mul_add_div (Nat.two_pow_pos _), Nat.div_eq_of_lt l1, Nat.add_zero]
    have h2 : (i * 2 ^ ps.sp.a + forsLeaf ps d i) / 2 ^ ps.sp.a = i := by
      rw [Nat.mul_comm, Nat.mul_add_div (Nat.two_pow_pos _), Nat.div_eq_of_lt l2, Nat.add_zero]
    rw [← h1, e3, h2]
  subst hji
  exact ⟨e, he, Prod.ext e1 e2, Nat.add_left_cancel e3⟩

/-- A forgery that breaks nothing else wins the game with the random function. -/
theorem forged_won {pk : PublicKey ps.params} {sk : PrivateKey ps.params} (hk : Generated P pk sk)
    (H : MsgHash ps S) {q T : Nat} (A : Forger ps S q T) (ρ : Fin q → Fin (256 ^ ps.sp.n))
    (hf : (A.outcome P pk sk H ρ []).Forged) (hb : ¬ (A.outcome P pk sk H ρ []).Breaks P sk H) :
    Oracle.Won (keyOf ps) (leafOf ps) H ((A.game P sk).play H ρ [] []) := by
  obtain ⟨hcons, rfl⟩ := hk.consistent
  obtain ⟨ha, ⟨hm, hmem⟩, hacc⟩ := outcome_game (P := P) sk.get_public_key sk H A ρ [] []
  change _ ∈ _ at hmem
  generalize ((A.game P sk).play H ρ [] []) = g at *
  have e0 : A.outcome P sk.get_public_key sk H ρ (signedAt P sk H []) = A.outcome P sk.get_public_key sk H ρ [] := rfl
  simp only [e0] at ha hm hmem hacc
  generalize A.outcome P sk.get_public_key sk H ρ [] = o at *
  have V := hfRandom_valid (P := P) H
  have hroot : sk.key.pk_root.toList = Spec.pkRoot ps.sp (ParamSet.hfRandom ps P H) sk.key.sk_seed.toList
      sk.key.pk_seed.toList := by
    rw [hcons, rootVec_toList, (hfRandom_same H).pkRoot]
  rw [hf.1] at hacc
  have hbreak := not_or.mp hb
  have hv : Spec.verifyInternal ps.sp (ParamSet.hfRandom ps P H) o.msg o.sig.toList sk.key.pk_seed.toList
    (Spec.pkRoot ps.sp (ParamSet.hfRandom ps P H) sk.key.sk_seed.toList sk.key.pk_seed.toList) = true := by
    rw [← hroot]; exact hacc.symm
  have hx := (Spec.verify_extract ps.wf V (n_le ps) hv).resolve_left (by
    rw [← hroot]; exact hbreak.1)
  rw [← hroot] at hx
  have hx : o.sig.toList = Spec.signWithR ps.sp (ParamSet.hfRandom ps P H) (o.sig.toList.take ps.sp.n) o.msg
      sk.key.sk_seed.toList sk.key.pk_seed.toList sk.key.pk_root.toList := hx
  refine ⟨_, hmem, fun hs => hf.2 ?_, ?_⟩
  · -- the point was signed
    rw [ha]
    refine List.mem_map.mpr ⟨_, hs, Prod.ext ?_ rfl⟩
    dsimp only
    rw [ownSig, toByte_number (take_length o.sig), ← hx]
    exact Vector.toList_inj.mp (toVec_toList (Vector.length_toList ..))
  · have hcov : Covered ps (g.1.map fun x => Spec.toByte (H x) ps.sp.m) (sigDigest H o.sig o.msg) := by
      refine places_covered fun i hi => ?_
      by_contra hne
      refine hbreak.2 ⟨i, hi, random_discloses hx hi, fun e he j hj hpl => hne ?_⟩
      rw [ha] at he
      obtain ⟨x, hxs, rfl⟩ := List.mem_map.mp he
      refine ⟨_, List.mem_map.mpr ⟨x, hxs, rfl⟩, j, hj, ?_⟩
      rw [← hpl, ownSig_digest]
    intro i
    obtain ⟨e, he, h1, h2⟩ := hcov i i.2
    obtain ⟨x, hxs, rfl⟩ := List.mem_map.mp he
    have hd : sigDigest H o.sig o.msg =
        Spec.toByte (H (number ps.sp.n (o.sig.toList.take ps.sp.n), ⟨o.msg, hm⟩)) ps.sp.m :=
      digestBy_mem H _ ⟨o.msg, hm⟩
    rw [hd] at h1 h2
    exact ⟨_, List.mem_map.mpr ⟨x, hxs, rfl⟩, h1, h2⟩

/-! ## The theorems -/

/-- **C66** The game runs to its end, whatever the forger does, the random functions are and the build is; and the
signatures the forger was given are accepted. -/
theorem C66_attack_runs {pk : PublicKey ps.params} {sk : PrivateKey ps.params} (hk : Generated P pk sk) (b : Build)
    (H : MsgHash ps S) {q T : Nat} (A : Forger ps S q T) (ρ : Fin q → Fin (256 ^ ps.sp.n)) :
    ∃ o, A.attack P pk sk H ρ [] = (pure o : Exec b _) ∧ o.asked.length ≤ q ∧
      ∀ e ∈ o.asked, ∀ mp : Pieces S, mp.1.flatten = e.2 →
        (Forger.forge (q := 0) (T := 0) e.1 mp).attack P pk sk H Fin.elim0 [] =
          (pure ⟨e.1, e.2, true, []⟩ : Exec b _) := by
  refine ⟨_, attack_eq pk sk H A ρ [], ?_, ?_⟩
  · have : ∀ {q T : Nat} (A : Forger ps S q T) (ρ : Fin q → Fin (256 ^ ps.sp.n)) asked,
        (A.outcome P pk sk H ρ asked).asked.length ≤ q + asked.length := by
      intro q T A
      induction A with
      | forge sig mp => intro ρ asked; exact Nat.le_add_left _ _
      | hash R mp next ih => intro ρ asked; exact ih _ _ _
      | sign mp next ih =>
        intro ρ asked
        refine (ih _ _ _).trans ?_
        rw [List.length_cons]
        omega
    exact this A ρ []
  · obtain ⟨hcons, rfl⟩ := hk.consistent
    intro e he mp hmp
    have ha := (outcome_game (P := P) sk.get_public_key sk H A ρ [] []).1
    change (A.outcome P sk.get_public_key sk H ρ []).asked = _ at ha
    rw [ha] at he
    obtain ⟨x, _, rfl⟩ := List.mem_map.mp he
    rw [attack_eq, Forger.outcome, hmp]
    have hroot : sk.key.pk_root.toList = Spec.pkRoot ps.sp (ParamSet.hfRandom ps P H) sk.key.sk_seed.toList
        sk.key.pk_seed.toList := by
      rw [hcons, rootVec_toList, (hfRandom_same H).pkRoot]
    have h := (game_sign (P := P) (b := b) sk H x.1 mp).2
    rw [hmp] at h
    have hv := Spec.signWithR_correct ps.wf (hfRandom_valid (P := P) H) (Spec.toByte_length x.1 ps.sp.n) x.2.val
      sk.key.sk_seed.toList sk.key.pk_seed.toList
    rw [← hroot, ← h] at hv
    exact congrArg (fun v => (pure ⟨_, _, v, []⟩ : Exec b (Outcome ps))) hv

theorem prob_eq {Ω : Type} [Fintype Ω] (E : Ω → Prop) : prob E = Oracle.avg fun ω => Oracle.ind (E ω) := by
  classical
  rw [prob, Oracle.avg, Finset.card_filter]
  push_cast
  refine congrArg (· / _) (Finset.sum_congr rfl fun ω _ => ?_)
  by_cases h : E ω <;> simp [Oracle.ind, h]

theorem keyOf_avg (ps : ParamSet) (d0 : Fin (256 ^ ps.sp.m)) :
    (Oracle.avg fun d => Oracle.ind (keyOf ps d = keyOf ps d0)) ≤ 1 / 2 ^ ps.sp.h := by
  classical
  rw [← prob_eq, prob, Fintype.card_fin, div_le_div_iff₀ (by positivity) (by positivity), one_mul]
  have h := forsKey_card ps (keyOf ps d0)
  refine le_trans (le_of_eq ?_) (Nat.cast_le (α := ℚ).mpr h)
  push_cast
  congr 2
  refine congrArg Finset.card (Finset.filter_congr_decidable ..)

theorem leafOf_avg (ps : ParamSet) (d0 : Fin (256 ^ ps.sp.m)) :
    (Oracle.avg fun d => Oracle.ind (keyOf ps d = keyOf ps d0 ∧ ∀ i, leafOf ps i d = leafOf ps i d0)) ≤
      1 / 2 ^ (ps.sp.h + ps.sp.k * ps.sp.a) := by
  classical
  rw [← prob_eq, prob, Fintype.card_fin, div_le_div_iff₀ (by positivity) (by positivity), one_mul]
  have h := C65_after_one_signature ps (Spec.toByte d0 ps.sp.m)
  refine le_trans ?_ (le_of_eq (congrArg (Nat.cast (R := ℚ)) h) |>.trans (by push_cast; rfl))
  push_cast
  refine mul_le_mul_of_nonneg_right ?_ (by positivity)
  refine Nat.cast_le.mpr ?_
  refine Finset.card_le_card_of_injOn (fun d => d.val) ?_ (fun a _ b _ e => Fin.ext e)
  intro d hd
  simp only [Finset.coe_filter, Set.mem_setOf_eq] at hd
  obtain ⟨_, h1, h2⟩ := hd
  refine Finset.mem_coe.mpr (Finset.mem_filter.mpr ⟨Finset.mem_range.mpr d.2, fun i hi => ?_⟩)
  exact ⟨_, List.mem_singleton_self _, h1.symm, (h2 ⟨i, hi⟩).symm⟩

theorem cover_bound (ps : ParamSet) {q T : Nat} (hq : q * (256 ^ ps.sp.n + T) ≤ 2 ^ 64 * 256 ^ ps.sp.n) :
    (1 : ℚ) / 2 ^ (ps.sp.h + ps.sp.k * ps.sp.a) / (1 / 2 ^ ps.sp.h) *
      ∑ j ∈ Finset.range (ps.sp.k + 1), (Nat.stirlingSecond ps.sp.k j : ℚ) *
        (1 / 2 ^ ps.sp.h * (q + T * (q / (256 ^ ps.sp.n : Nat)))) ^ j ≤ 1 / 2 ^ coverLevel ps := by
  have hN : (0 : ℚ) < (256 ^ ps.sp.n : Nat) := by positivity
  have hU : (0 : ℚ) < 2 ^ ps.sp.h := by positivity
  have hx : (1 / 2 ^ ps.sp.h * (q + T * (q / (256 ^ ps.sp.n : Nat))) : ℚ) ≤ 2 ^ 64 / 2 ^ ps.sp.h := by
    rw [one_div_mul_eq_div]
    refine div_le_div_of_nonneg_right ?_ hU.le
    have h : ((q * (256 ^ ps.sp.n + T) : Nat) : ℚ) ≤ (2 ^ 64 * 256 ^ ps.sp.n : Nat) := Nat.cast_le.mpr hq
    generalize 256 ^ ps.sp.n = N at *
    push_cast at h
    have e : (q + T * (q / N) : ℚ) = q * (N + T) / N := by field_simp
    rw [e, div_le_iff₀ hN]
    exact h
  have hs : (∑ j ∈ Finset.range (ps.sp.k + 1), (Nat.stirlingSecond ps.sp.k j : ℚ) *
      (1 / 2 ^ ps.sp.h * (q + T * (q / (256 ^ ps.sp.n : Nat)))) ^ j) ≤
      (coverSum ps.sp.k (2 ^ ps.sp.h) (2 ^ 64) : ℚ) / (2 ^ ps.sp.h) ^ ps.sp.k := by
    rw [coverSum_eq, Nat.cast_sum, Finset.sum_div]
    refine Finset.sum_le_sum fun j hj => ?_
    have hj := Nat.lt_succ_iff.mp (Finset.mem_range.mp hj)
    refine (mul_le_mul_of_nonneg_left (pow_le_pow_left₀ (by positivity) hx j) (by positivity)).trans (le_of_eq ?_)
    push_cast
    generalize (2 : ℚ) ^ ps.sp.h = U at hU
    rw [div_pow, mul_assoc, mul_div_assoc]
    refine congrArg (_ * ·) ?_
    rw [div_eq_div_iff (by positivity) (by positivity), mul_assoc, ← pow_add, Nat.sub_add_cancel hj]
    norm_num
  have hc : ((coverSum ps.sp.k (2 ^ ps.sp.h) (2 ^ 64) * 2 ^ coverLevel ps : Nat) : ℚ) ≤
      (2 ^ (ps.sp.k * ps.sp.a) * (2 ^ ps.sp.h) ^ ps.sp.k : Nat) := Nat.cast_le.mpr (coverLevel_ok ps)
  generalize coverSum ps.sp.k (2 ^ ps.sp.h) (2 ^ 64) = C at hs hc
  push_cast at hc
  refine (mul_le_mul_of_nonneg_left hs (by positivity)).trans ?_
  rw [pow_add]
  generalize (2 : ℚ) ^ ps.sp.h = U at hU hc
  have e : 1 / (U * 2 ^ (ps.sp.k * ps.sp.a)) / (1 / U) * (C / U ^ ps.sp.k) =
      C / (2 ^ (ps.sp.k * ps.sp.a) * U ^ ps.sp.k) := by field_simp
  rw [e, div_le_div_iff₀ (by positivity) (by positivity), one_mul]
  exact hc

/-- **C66** Let a forger, with the public key of a generated pair, ask for at most `q` signatures and evaluate `H_msg`
at most `T` times, where `q (1 + T / 2^(8 n)) ≤ 2^64`.  If `H_msg` is a random function and the randomizers are random,
the forger succeeds with at most the probability of succeeding by breaking one of the other functions plus
`(T + 1) / 2^coverLevel`. -/
theorem C66_random_function {pk : PublicKey ps.params} {sk : PrivateKey ps.params} (hk : Generated P pk sk) (b : Build)
    (S : Finset (List UInt8)) {q T : Nat} (hq : q * (256 ^ ps.sp.n + T) ≤ 2 ^ 64 * 256 ^ ps.sp.n)
    (A : Forger ps S q T) :
    prob (fun ω : MsgHash ps S × (Fin q → Fin (256 ^ ps.sp.n)) =>
      ∃ o, A.attack P pk sk ω.1 ω.2 [] = (pure o : Exec b _) ∧ o.Forged) ≤
    prob (fun ω : MsgHash ps S × (Fin q → Fin (256 ^ ps.sp.n)) =>
      ∃ o, A.attack P pk sk ω.1 ω.2 [] = (pure o : Exec b _) ∧ o.Forged ∧ o.Breaks P sk ω.1) +
    (T + 1) / 2 ^ coverLevel ps := by
  classical
  have : Nonempty (Fin (256 ^ ps.sp.n)) := ⟨⟨0, Nat.pow_pos (by decide)⟩⟩
  have : Nonempty (Fin (256 ^ ps.sp.m)) := ⟨⟨0, Nat.pow_pos (by decide)⟩⟩
  have hk0 : 0 < ps.sp.k := by cases ps <;> decide
  have hwon := Oracle.won_le (R := Fin (256 ^ ps.sp.n)) (S := S) (D := Fin (256 ^ ps.sp.m)) (key := keyOf ps)
    (leaf := leafOf ps) (α := 1 / 2 ^ (ps.sp.h + ps.sp.k * ps.sp.a)) (β := 1 / 2 ^ ps.sp.h) (by positivity)
    (by positivity) (leafOf_avg ps) (keyOf_avg ps) hk0 (A.game P sk)
  rw [prob_eq, prob_eq]
  have hsplit : ∀ ω : MsgHash ps S × (Fin q → Fin (256 ^ ps.sp.n)),
      Oracle.ind (∃ o, A.attack P pk sk ω.1 ω.2 [] = (pure o : Exec b _) ∧ o.Forged) ≤
      Oracle.ind (∃ o, A.attack P pk sk ω.1 ω.2 [] = (pure o : Exec b _) ∧ o.Forged ∧ o.Breaks P sk ω.1) +
        Oracle.ind (Oracle.Won (keyOf ps) (leafOf ps) ω.1 ((A.game P sk).play ω.1 ω.2 [] [])) := by
    intro ω
    refine le_trans (Oracle.ind_mono ?_) (Oracle.ind_or_le _ _)
    rintro ⟨o, ho, hfo⟩
    rw [attack_eq] at ho
    have ho := Exec.pure_inj ho
    subst ho
    by_cases hb : (A.outcome P pk sk ω.1 ω.2 []).Breaks P sk ω.1
    · exact .inl ⟨_, attack_eq _ _ _ _ _ _, hfo, hb⟩
    · exact .inr (forged_won hk ω.1 A ω.2 hfo hb)
  refine (Oracle.avg_mono hsplit).trans ?_
  rw [Oracle.avg_add]
  refine add_le_add_right (hwon.trans ?_) _
  -- the numbers
  rw [Fintype.card_fin, mul_assoc, div_eq_mul_one_div ((T : ℚ) + 1)]
  exact mul_le_mul_of_nonneg_left (cover_bound ps hq) (by positivity)

/-! ## The second term is there for a reason -/

/-- The forger who has one message signed and presents the signature as one of another message. -/
def replay (mp mp' : Pieces S) : Forger ps S 1 0 :=
  .sign mp fun
    | .ok sig => .forge sig mp'
    | .error _ => .forge (toVec _ []) mp'

theorem signWithR_msg (p : Spec.Params) (hf : Spec.HashFns) {R M M' SKseed PKseed PKroot : List UInt8}
    (h : hf.Hmsg R PKseed PKroot M = hf.Hmsg R PKseed PKroot M') :
    Spec.signWithR p hf R M SKseed PKseed PKroot = Spec.signWithR p hf R M' SKseed PKseed PKroot := by
  unfold Spec.signWithR
  rw [h]

/-- **C66** If two messages have the same digest with the randomizer of the signature, the forgery succeeds and breaks
nothing else. -/
theorem C66_collision_forges {pk : PublicKey ps.params} {sk : PrivateKey ps.params} (hk : Generated P pk sk) (b : Build)
    (H : MsgHash ps S) (ρ : Fin 1 → Fin (256 ^ ps.sp.n)) (mp mp' : Pieces S) (hne : mp.msg ≠ mp'.msg)
    (heq : H (ρ 0, mp.msg) = H (ρ 0, mp'.msg)) :
    ∃ o, (replay mp mp').attack P pk sk H ρ [] = (pure o : Exec b _) ∧ o.Forged ∧ ¬ o.Breaks P sk H := by
  refine ⟨_, attack_eq pk sk H _ ρ [], ?_⟩
  obtain ⟨hcons, rfl⟩ := hk.consistent
  have hroot : sk.key.pk_root.toList = Spec.pkRoot ps.sp (ParamSet.hfRandom ps P H) sk.key.sk_seed.toList
      sk.key.pk_seed.toList := by
    rw [hcons, rootVec_toList, (hfRandom_same H).pkRoot]
  have hsame : ownSig P sk H (ρ 0) mp.1.flatten = ownSig P sk H (ρ 0) mp'.1.flatten := by
    refine congrArg (toVec _) (signWithR_msg _ _ ?_)
    have e : ∀ M : S, (ParamSet.hfRandom ps P H).Hmsg (Spec.toByte (ρ 0) ps.sp.n) sk.key.pk_seed.toList
        sk.key.pk_root.toList M = Spec.toByte (H (ρ 0, M)) ps.sp.m := fun M => by
      have h := digestBy_mem H (Spec.toByte (ρ 0) ps.sp.n) M
      rwa [number_toByte] at h
    exact (e mp.msg).trans ((congrArg (fun d => Spec.toByte d.val ps.sp.m) heq).trans (e mp'.msg).symm)
  have hl := (game_sign (P := P) (b := b) sk H (ρ 0) mp').2
  have hv := Spec.signWithR_correct ps.wf (hfRandom_valid (P := P) H) (Spec.toByte_length (ρ 0) ps.sp.n)
    mp'.1.flatten sk.key.sk_seed.toList sk.key.pk_seed.toList
  rw [← hroot, ← hl, ← hsame] at hv
  refine ⟨⟨hv, ?_⟩, ?_⟩
  · intro h
    have h := List.mem_singleton.mp h
    exact hne (Subtype.ext (congrArg Prod.snd h).symm)
  · rintro (h | ⟨i, hi, _, h⟩)
    · revert h
      change ¬ (Spec.attempt ps.sp (ParamSet.hfRandom ps P H) mp'.1.flatten (ownSig P sk H (ρ 0) mp.1.flatten).toList _ _ _).Break
      rw [hsame, hl]
      exact Spec.attempt_signWithR ps.wf (hfRandom_valid H) (Spec.toByte_length _ _)
    · refine h (ownSig P sk H (ρ 0) mp.1.flatten, mp.1.flatten) List.mem_cons_self i hi ?_
      change place ps (sigDigest H (ownSig P sk H (ρ 0) mp.1.flatten) mp.1.flatten) i =
        place ps (sigDigest H (ownSig P sk H (ρ 0) mp.1.flatten) mp'.1.flatten) i
      have d1 := ownSig_digest (P := P) sk H (ρ 0, mp.msg)
      have d2 := ownSig_digest (P := P) sk H (ρ 0, mp'.msg)
      dsimp only [Pieces.msg] at d1 d2
      rw [d1]
      rw [hsame, d2]
      exact congrArg (fun d => place ps (Spec.toByte d.val ps.sp.m) i) heq

/-! ## The hypotheses can be met -/

/-- The number of signatures allowed: `2^63` with up to `2^(8 n)` evaluations. -/
example (ps : ParamSet) {q T : Nat} (hq : q ≤ 2 ^ 63) (hT : T ≤ 256 ^ ps.sp.n) :
    q * (256 ^ ps.sp.n + T) ≤ 2 ^ 64 * 256 ^ ps.sp.n := by
  calc q * (256 ^ ps.sp.n + T) ≤ 2 ^ 63 * (256 ^ ps.sp.n + 256 ^ ps.sp.n) :=
        Nat.mul_le_mul hq (Nat.add_le_add_left hT _)
    _ = _ := by ring

/-- Two messages of three bytes. -/
def demoSet : Finset (List UInt8) := {[1, 2, 3], [4, 5, 6]}

/-- The bound for a forger who has a message signed, evaluates `H_msg` and gives up or replays. -/
example (ps : ParamSet) (b : Build) :
    let A : Forger ps demoSet 1 1 := .sign ⟨[[1], [2, 3]], by decide, by decide⟩ fun
      | .ok sig => .hash (toVec _ (sig.toList.take ps.sp.n)) ⟨[[4, 5, 6]], by decide, by decide⟩ fun d =>
        if d.toList.headD 0 = 0 then .forge sig ⟨[[4, 5, 6]], by decide, by decide⟩
        else .forge (toVec _ []) ⟨[[4, 5, 6]], by decide, by decide⟩
      | .error _ => .forge (toVec _ []) ⟨[[4, 5, 6]], by decide, by decide⟩
    prob (fun ω : MsgHash ps demoSet × (Fin 1 → Fin (256 ^ ps.sp.n)) =>
      ∃ o, A.attack demoPrims (demoKeys ps).1 (demoKeys ps).2 ω.1 ω.2 [] = (pure o : Exec b _) ∧ o.Forged) ≤
    prob (fun ω : MsgHash ps demoSet × (Fin 1 → Fin (256 ^ ps.sp.n)) =>
      ∃ o, A.attack demoPrims (demoKeys ps).1 (demoKeys ps).2 ω.1 ω.2 [] = (pure o : Exec b _) ∧ o.Forged ∧
        o.Breaks demoPrims (demoKeys ps).2 ω.1) + (1 + 1) / 2 ^ coverLevel ps := by
  have h := fun A : Forger ps demoSet 1 1 => C66_random_function (demo_generated ps) b demoSet (by
    have : 0 < 256 ^ ps.sp.n := Nat.pow_pos (by decide)
    omega) A
  simpa using h _

/-- And a forgery that happens: the random function may be constant. -/
example (ps : ParamSet) (b : Build) (d : Fin (256 ^ ps.sp.m)) (ρ : Fin 1 → Fin (256 ^ ps.sp.n)) :
    ∃ o, (replay ⟨[[1, 2, 3]], by decide, by decide⟩ ⟨[[4, 5, 6]], by decide, by decide⟩ : Forger ps demoSet 1 0).attack
      demoPrims (demoKeys ps).1 (demoKeys ps).2 (fun _ => d) ρ [] = (pure o : Exec b _) ∧ o.Forged ∧
      ¬ o.Breaks demoPrims (demoKeys ps).2 (fun _ : Fin (256 ^ ps.sp.n) × demoSet => d) :=
  C66_collision_forges (demo_generated ps) b _ ρ _ _ (fun h => absurd (congrArg Subtype.val h) (by decide)) rfl

end Fips205.Props
