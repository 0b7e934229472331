import Verif.Props.FullGame
import Verif.Proofs.Rom
import Verif.Proofs.Congr

/-!
# The game with the code as it is: preparations

Its outcome in terms of the standard, and the hash functions at places.
-/

namespace Fips205.Props
open Fips205 Fips205.Model

variable {ps : ParamSet} {S : Finset (List UInt8)} {B w : Nat}

/-! ## Strings as numbers -/

/-- The first `n` bytes of a value. -/
def headOf {w : Nat} (n : Nat) (e : Fin (256 ^ w)) : Fin (256 ^ n) := number n ((Spec.toByte e w).take n)

theorem toByte_headOf {n : Nat} (h : n ≤ w) (e : Fin (256 ^ w)) :
    Spec.toByte (headOf n e) n = (Spec.toByte e w).take n :=
  toByte_number (by rw [List.length_take, Spec.toByte_length]; omega)

/-- A value from its first `n` bytes and the rest. -/
def glue {n : Nat} (h : n ≤ w) : Fin (256 ^ n) × Fin (256 ^ (w - n)) ≃ Fin (256 ^ w) where
  toFun x := number w (Spec.toByte x.1 n ++ Spec.toByte x.2 (w - n))
  invFun e := (headOf n e, number (w - n) ((Spec.toByte e w).drop n))
  left_inv := by
    rintro ⟨a, t⟩
    have hl : (Spec.toByte a n ++ Spec.toByte t (w - n)).length = w := by
      rw [List.length_append, Spec.toByte_length, Spec.toByte_length]; omega
    refine Prod.ext ?_ ?_
    · dsimp only
      rw [headOf, toByte_number hl, List.take_left' (Spec.toByte_length _ _), number_toByte]
    · dsimp only
      rw [toByte_number hl, List.drop_left' (Spec.toByte_length _ _), number_toByte]
  right_inv := by
    intro e
    dsimp only
    rw [toByte_headOf h, toByte_number (by rw [List.length_drop, Spec.toByte_length]), List.take_append_drop,
      number_toByte]

theorem headOf_glue {n : Nat} (h : n ≤ w) (a : Fin (256 ^ n)) (t : Fin (256 ^ (w - n))) : headOf n (glue h (a, t)) = a :=
  congrArg Prod.fst ((glue h).left_inv (a, t))

theorem toVec_take {n : Nat} {l : List UInt8} (h : n ≤ l.length) : (toVec n l).toList = l.take n := by
  apply List.ext_getElem
  · rw [Vector.length_toList, List.length_take]; omega
  · intro i h1 h2
    rw [Vector.length_toList] at h1
    simp [toVec, show i < l.length by omega]

/-! ## The hash functions -/

section
variable {P0 : Spec.Prims} {O : Query B → Fin (256 ^ w)}

theorem wide_sha256 {j : Nat} (hw : j ≤ w) (hj : j ≤ 32) (X : List UInt8) :
    Spec.trunc j (Spec.sha256' (withHash P0 O) X) = (Spec.toByte (O (.of B ⟨.sha256, X⟩)) w).take j := by
  have hl := Spec.toByte_length (O (.of B ⟨.sha256, X⟩)) w
  change List.take j (toVec 32 _).toList = _
  rw [toVec_take (by rw [List.length_append, hl, List.length_drop, Vector.length_toList]; omega), List.take_take,
    List.take_append_of_le_length (by omega), Nat.min_eq_left hj]

theorem wide_sha512 {j : Nat} (hw : j ≤ w) (hj : j ≤ 64) (X : List UInt8) :
    Spec.trunc j (Spec.sha512' (withHash P0 O) X) = (Spec.toByte (O (.of B ⟨.sha512, X⟩)) w).take j := by
  have hl := Spec.toByte_length (O (.of B ⟨.sha512, X⟩)) w
  change List.take j (toVec 64 _).toList = _
  rw [toVec_take (by rw [List.length_append, hl, List.length_drop, Vector.length_toList]; omega), List.take_take,
    List.take_append_of_le_length (by omega), Nat.min_eq_left hj]

theorem wide_shake {j : Nat} (hw : j ≤ w) (X : List UInt8) :
    ((withHash P0 O).shake256 X j).toList = (Spec.toByte (O (.of B ⟨.shake256, X⟩)) w).take j := by
  have hl := Spec.toByte_length (O (.of B ⟨.shake256, X⟩)) w
  change (toVec j _).toList = _
  rw [toVec_take (by rw [List.length_append, hl, List.length_drop, Vector.length_toList]; omega),
    List.take_append_of_le_length (by omega)]

/-- The hashes at places. -/
theorem hashAt_wide (hw : ps.sp.n ≤ w) (PKseed : List UInt8) (x : Place) (z : List UInt8) :
    hashAt (ps.hf (withHash P0 O)) PKseed x z =
      Spec.toByte (headOf ps.sp.n (O (.of B (callOf ps PKseed x z)))) ps.sp.n := by
  have hn : ps.sp.n ≤ 32 := by cases ps <;> decide
  have h1 := fun X => wide_sha256 (P0 := P0) (O := O) hw hn X
  have h2 := fun X => wide_sha512 (P0 := P0) (O := O) hw (hn.trans (by decide)) X
  have h3 := fun X => wide_shake (P0 := P0) (O := O) hw X
  rw [toByte_headOf hw]
  simp only [hashAt, callOf, ParamSet.hf, Spec.hashFns]
  cases ps.family with
  | shake => cases x.kind <;> exact h3 _
  | sha2 =>
    simp only
    by_cases hc : ps.row.category = 1
    · simp only [hc, if_true, true_or]
      cases x.kind <;> exact h1 _
    · simp only [hc, if_false, false_or]
      cases hk : x.kind
      · exact h1 _
      · exact h1 _
      · exact h2 _
      · exact h2 _

/-- Random functions that agree at places give tables that do. -/
theorem agree_of {H : MsgHash ps S} (hw : ps.sp.n ≤ w) (PKseed : List UInt8) {O1 : Query B → D ps}
    (h : ∀ x : Place, x.Exists ps.sp → ∀ z, headOf ps.sp.n (O (.of B (callOf ps PKseed x z))) =
      O1 (.of B (callOf ps PKseed x z))) :
    Agree ps.sp PKseed (ps.hf (withHash P0 O)) (ParamSet.hfRandom ps (withHash P0 O1) H) := by
  intro x hx z
  have e : hashAt (ParamSet.hfRandom ps (withHash P0 O1) H) PKseed x z = hashAt (ps.hf (withHash P0 O1)) PKseed x z := by
    unfold hashAt
    rfl
  rw [e, hashAt_wide hw, hashAt_eq, h x hx z]

end

/-! ## The outcome -/

/-- The outcome of the game with a key. -/
def FullForger.outcome (P : Spec.Prims) (O : Query B → Fin (256 ^ w)) (pk : PublicKey ps.params)
    (sk : PrivateKey ps.params) : {q Q : Nat} → FullForger ps S B w q Q →
    List (Vector UInt8 ps.params.SIG_LEN × List UInt8) → Outcome ps
  | _, _, .forge sig mp, asked =>
    { sig, msg := mp.1.flatten, asked
      accepted := Spec.verifyInternal ps.sp (ps.hf P) mp.1.flatten sig.toList pk.key.pk_seed.toList
        pk.key.pk_root.toList }
  | _, _, .sign rnd mp next, asked =>
    (next (.ok (sigVec ps P mp.1.flatten sk.key (rnd.getD sk.key.pk_seed)))).outcome P O pk sk
      ((sigVec ps P mp.1.flatten sk.key (rnd.getD sk.key.pk_seed), mp.1.flatten) :: asked)
  | _, _, .call y next, asked => (next (O y)).outcome P O pk sk asked

theorem full_sign {b : Build} (P : Spec.Prims) (sk : PrivateKey ps.params) (rnd : Option (Vector UInt8 ps.params.N))
    (mp : Pieces S) :
    (do
      let (_, r) ← slh_sign_with_rng ps.params.A ps.params.D ps.params.H ps.params.HP
        (chosenRng ((rnd.map Vector.toList).getD [])) () (HASHERS ps.params (crypto P)) mp.1 sk.key rnd.isSome
      mapSerialize ps.params r : Exec b _) = pure (.ok (sigVec ps P mp.1.flatten sk.key (rnd.getD sk.key.pk_seed))) := by
  have h := exec_sign_with_rng (b := b) (P := P) mp.2.1 sk.key (chosenRng ((rnd.map Vector.toList).getD [])) ()
    rnd.isSome
  have h := congrArg (fun x : Exec b (Unit × _) => x >>= fun y => pure y.2) h
  simp only [bind_assoc, pure_bind, bind_pure] at h
  refine h.trans ?_
  cases rnd with
  | none => rfl
  | some r =>
    simp only [Option.isSome_some, if_true, chosenRng, pure_bind, Option.map_some, Option.getD_some, signOutcome,
      toVec_toList_self]

theorem full_verify {b : Build} (P : Spec.Prims) (pk : PublicKey ps.params) (sig : Vector UInt8 ps.params.SIG_LEN)
    (mp : Pieces S) :
    (SlhDsaSig.deserialize ps.params.A ps.params.D ps.params.HP ps.params.K ps.params.LEN ps.params.N sig.toList >>=
      fun s => slh_verify ps.params.H (HASHERS ps.params (crypto P)) mp.1 s pk.key : Exec b _) =
    pure (Spec.verifyInternal ps.sp (ps.hf P) mp.1.flatten sig.toList pk.key.pk_seed.toList
      pk.key.pk_root.toList) :=
  exec_eq (deserialize_verify_returns ps.sizes (ps.hashers P (m := Exec b)) mp.2.1 pk.key sig)

theorem full_attack_eq {b : Build} (P : Spec.Prims) (O : Query B → Fin (256 ^ w)) (pk : PublicKey ps.params)
    (sk : PrivateKey ps.params) {q Q : Nat} (A : FullForger ps S B w q Q) :
    ∀ asked, A.attack P O pk sk asked = (pure (A.outcome P O pk sk asked) : Exec b _) := by
  induction A with
  | forge sig mp =>
    intro asked
    rw [FullForger.attack, ← bind_assoc, full_verify, pure_bind, FullForger.outcome]
  | sign rnd mp next ih =>
    intro asked
    have h := full_sign (b := b) P sk rnd mp
    have h := congrArg (fun x : Exec b _ => x >>= fun r => (next r).attack P O pk sk
      (match r with | .ok sig => (sig, mp.1.flatten) :: asked | .error _ => asked)) h
    simp only [bind_assoc, pure_bind] at h
    rw [FullForger.attack, FullForger.outcome, ← ih]
    exact h
  | call y next ih =>
    intro asked
    rw [FullForger.attack, FullForger.outcome]
    exact ih _ asked

/-- The key pair of the game. -/
def widePair (P0 : Spec.Prims) (pk_seed : Vector UInt8 ps.params.N) (s k : D ps) (O : Query B → Fin (256 ^ w)) :
    PublicKey ps.params × PrivateKey ps.params :=
  keyPair ps (withHash P0 O) (toVec ps.params.N (Spec.toByte s ps.sp.n)) (toVec ps.params.N (Spec.toByte k ps.sp.n))
    pk_seed

/-- The outcome of the game. -/
def fullOutcome {q Q : Nat} (P0 : Spec.Prims) (pk_seed : Vector UInt8 ps.params.N)
    (A : PublicKey ps.params → FullForger ps S B w q Q) (s k : D ps) (O : Query B → Fin (256 ^ w)) : Outcome ps :=
  let x := widePair P0 pk_seed s k O
  (A x.1).outcome (withHash P0 O) O x.1 x.2 []

theorem fullGame_eq {b : Build} {q Q : Nat} (P0 : Spec.Prims) (pk_seed : Vector UInt8 ps.params.N)
    (A : PublicKey ps.params → FullForger ps S B w q Q) (s k : D ps) (O : Query B → Fin (256 ^ w)) :
    fullGame P0 pk_seed A s k O = (pure (fullOutcome P0 pk_seed A s k O) : Exec b _) := by
  rw [fullGame, exec_keygen_with_seeds, pure_bind]
  exact full_attack_eq _ _ _ _ _ _

end Fips205.Props
