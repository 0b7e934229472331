import Verif.Proofs.Recover
import Verif.Props.Duplicate

/-!
# Finding a private key (C83)

Many keys are generated with the API.  A user who gets the public keys, any signatures they ask for, and some of the
private keys does not find a private key for any other of the public keys: neither the one that was generated nor one
with another `SK.prf` or `SK.seed`.  In particular they do not find `SK.seed` alone, since any `SK.prf` can be put beside
it.
-/

namespace Fips205.Props
open Fips205 Fips205.Model

variable {U : Nat} {sets : Fin U → ParamSet} {L B w : Nat}

/-- **C83** The game runs to its end, and key generation succeeds, whatever the functions, the random bytes, the player,
the parameter sets and the build are. -/
theorem C83_runs (b : Build) (P0 : Spec.Prims) {q Q : Nat}
    (A : ((u : Fin U) → PublicKey (sets u).params) → Recoverer sets L B w q Q) (coins : Coins sets)
    (O : Query B → Fin (256 ^ w)) : ∃ o, romRecoverGame b P0 A coins O = pure (some o) :=
  ⟨_, romRecoverGame_eq b P0 A coins O⟩

/-- **C83** Take the hash functions to be random functions, with outputs of `w ≥ 64` bytes of which the code uses the
first ones, and the strings that the generations of the `U` keys draw to be random.  A user of the API who gets all
public keys and as many private keys as they like, `q` signatures in all and `Q` values of the functions finds a private
key for one of the other public keys with probability at most the sum of the bounds of `C71` for the single keys, with
`Q' = Q + (q + U + 1) 2^22` evaluations. -/
theorem C83_bound (P0 : Spec.Prims) (b : Build) (hw : 64 ≤ w) (hL : 492 + L ≤ B)
    (hB : ∀ u, 160 + ((sets u).sp.len + (sets u).sp.k) * (sets u).sp.n ≤ B) {q Q Q' : Nat}
    (hQ' : Q' = Q + (q + U + 1) * 2 ^ 22) (hq0 : q < 2 ^ 64)
    (hq : ∀ u, q * (256 ^ (sets u).sp.n + (Q' + q + 1)) ≤ 2 ^ 64 * 256 ^ (sets u).sp.n)
    (A : ((u : Fin U) → PublicKey (sets u).params) → Recoverer sets L B w q Q) :
    prob (fun ω : Coins sets × (Query B → Fin (256 ^ w)) =>
      ∃ o, romRecoverGame b P0 A ω.1 ω.2 = pure (some o) ∧ o.Won) ≤ ∑ u, keyBound (sets u) q Q' := by
  have e : Q' = Q + 2 ^ 22 + (q + U) * 2 ^ 22 := by rw [hQ']; ring
  subst e
  exact recover_le b P0 hq0 _ (fun A => C73_bound P0 b hw hL hB hq A) A

/-- **C83** In bits: with `U` keys that all have seeds of at least `n` bytes, up to `2^63` signatures and `2^t` evaluations
in all (`2^22` for a key and for a signature), the chance is at most `U (2^(t + 5 - 8 n) + 2^(2 t + 3 - 256) + 2^(-170))`. -/
theorem C83_users (P0 : Spec.Prims) (b : Build) (hw : 64 ≤ w) (hL : 492 + L ≤ B)
    (hB : ∀ u, 160 + ((sets u).sp.len + (sets u).sp.k) * (sets u).sp.n ≤ B) {n q Q t : Nat}
    (hn : ∀ u, n ≤ (sets u).sp.n) (htn : t ≤ 8 * n) (hq : q ≤ 2 ^ 63) (hQ : Q + (q + U + 1) * 2 ^ 22 + q + 1 < 2 ^ t)
    (A : ((u : Fin U) → PublicKey (sets u).params) → Recoverer sets L B w q Q) :
    prob (fun ω : Coins sets × (Query B → Fin (256 ^ w)) =>
      ∃ o, romRecoverGame b P0 A ω.1 ω.2 = pure (some o) ∧ o.Won) ≤
    U * (2 ^ (t + 5) / 2 ^ (8 * n) + 2 ^ (2 * t + 3) / 2 ^ 256 + 1 / 2 ^ 170) :=
  recover_le b P0 (by omega) _ (fun A => C73_users P0 b hw hL hB hn htn hq (by
    rw [show Q + 2 ^ 22 + (q + U) * 2 ^ 22 = Q + (q + U + 1) * 2 ^ 22 by ring]
    exact hQ) A) A

/-! ## The hypotheses can be met, and the event can happen -/

/-- Put zeros before the public key. -/
def zeroKey {ps : ParamSet} (pk : PublicKey ps.params) : Vector UInt8 ps.params.SK_LEN :=
  toVec _ (Spec.encodeSK (List.replicate ps.sp.n 0) (List.replicate ps.sp.n 0) pk.key.pk_seed.toList pk.key.pk_root.toList)

/-- A player who gets one of two private keys, has a message signed with the other one, evaluates a hash function, and
guesses that its secrets are zeros. -/
def demoRecover (ps : ParamSet) (pks : Fin 2 → PublicKey ps.params) : Recoverer (fun _ : Fin 2 => ps) 10 4000 64 1 1 :=
  .expose 0 fun _ => .sign 1 ⟨none, [9], [1, 2], by decide⟩ false (.error ()) fun _ =>
    .call ⟨⟨.sha256, [7]⟩, by decide⟩ fun _ => .present 1 (zeroKey (pks 1))

/-- The bound for this player: with `2^25` evaluations. -/
example {ps : ParamSet} (b : Build) :
    prob (fun ω : Coins (fun _ : Fin 2 => ps) × (Query 4000 → Fin (256 ^ 64)) =>
      ∃ o, romRecoverGame b demoPrims (demoRecover ps) ω.1 ω.2 = pure (some o) ∧ o.Won) ≤
    2 * (2 ^ (25 + 5) / 2 ^ (8 * 16) + 2 ^ (2 * 25 + 3) / 2 ^ 256 + 1 / 2 ^ 170) :=
  C83_users demoPrims b (by decide) (by decide) (fun _ => by cases ps <;> decide) (fun _ => by cases ps <;> decide)
    (by decide) (by decide) (by decide) _

/-- The player finds a private key if the functions are constant. -/
example {ps : ParamSet} (b : Build) (coins : Coins fun _ : Fin 2 => ps) (O : Query 4000 → Fin (256 ^ 64))
    (x : Fin (256 ^ 64)) (hO : ∀ y, O y = x) :
    ∃ o, romRecoverGame b demoPrims (demoRecover ps) coins O = pure (some o) ∧ o.Won := by
  refine ⟨_, romRecoverGame_eq b _ _ coins O, ?_⟩
  obtain ⟨hcons, hpk⟩ := (widePair_generated demoPrims (toVec _ (Spec.toByte (coins 1).2.2 ps.sp.n)) (coins 1).1
    (coins 1).2.1 O).consistent
  have hk : coinKeys (withHash demoPrims O) coins 1 =
    widePair demoPrims (toVec _ (Spec.toByte (coins 1).2.2 ps.sp.n)) (coins 1).1 (coins 1).2.1 O := rfl
  rw [← hk] at hcons hpk
  rw [recoverOutcome]
  simp only [demoRecover, Recoverer.outcome]
  generalize coinKeys (withHash demoPrims O) coins 1 = kp at hcons hpk ⊢
  obtain ⟨pk, sk⟩ := kp
  dsimp only at hcons hpk ⊢
  let z : Vector UInt8 ps.params.N := Vector.replicate _ 0
  have hz : z.toList = List.replicate ps.sp.n 0 := by rw [Vector.toList_replicate, N_eq]
  have hv : skOf (zeroKey pk) = ⟨⟨z, z, pk.key.pk_seed, pk.key.pk_root⟩⟩ := by
    rw [skOf, zeroKey, toVec_toList (by
      simp only [Spec.encodeSK, List.length_append, List.length_replicate, Vector.length_toList]
      cases ps <;> rfl), ← hz, Spec.encodeSK, List.append_assoc, List.append_assoc,
      List.take_left' (Vector.length_toList ..),
      List.drop_left' (Vector.length_toList ..), List.take_left' (Vector.length_toList ..),
      List.drop_left' (Vector.length_toList ..), List.take_left' (Vector.length_toList ..),
      List.drop_left' (Vector.length_toList ..)]
    simp only [toVec_toList_self]
  refine ⟨⟨skOf (zeroKey pk), ?_, ?_⟩, by simp⟩
  · rw [decodeOf, if_pos]
    rw [hv, ← Vector.toList_inj, rootVec_toList]
    obtain rfl : sk.get_public_key = pk := hpk
    have h : sk.key.pk_root = rootVec ps (withHash demoPrims O) sk.key.sk_seed sk.key.pk_seed := hcons
    change sk.key.pk_root.toList = _
    rw [h, rootVec_toList]
    exact const_root O (by decide) x hO _ _ _ _
  · rw [hv]
    rfl

end Fips205.Props
