import Verif.Proofs.KeyDamage
import Verif.Props.Blind

/-!
# Stored private keys that are damaged (C100)

A private key is generated and its bytes are stored.  In the store they are damaged, by something that does not look at
the hash functions: flipped bits, bytes lost, old contents of the memory.  Is the damage noticed when the key is read?
-/

namespace Fips205.Props
open Fips205 Fips205.Model Fips205.Oracle

variable {ps : ParamSet} {B w : Nat}

/-- What happens to the stored bytes: those that are read depend in any way on those that were stored. -/
abbrev Damage (ps : ParamSet) : Type := Vector UInt8 ps.params.SK_LEN → Vector UInt8 ps.params.SK_LEN

/-- The damage changes a byte of `v` with number in `[i, k)`. -/
def Damage.Hits (dam : Damage ps) (v : Vector UInt8 ps.params.SK_LEN) (i k : Nat) : Prop :=
  ∃ j, i ≤ j ∧ j < k ∧ (dam v).toList[j]? ≠ v.toList[j]?

/-- The seeds of a key, as they are stored. -/
def Stores (v : Vector UInt8 ps.params.SK_LEN) (sk_seed sk_prf pk_seed : Vector UInt8 ps.params.N) : Prop :=
  v.toList.take (3 * ps.sp.n) = sk_seed.toList ++ sk_prf.toList ++ pk_seed.toList

/-- A key is generated from these strings, its bytes are stored, they are damaged, and what is read is accepted. -/
def Survives (b : Build) (P : Spec.Prims) (dam : Damage ps) (sk_seed sk_prf pk_seed : Vector UInt8 ps.params.N) : Prop :=
  ∃ pk sk v sk', (keygen_with_seeds ps.params (crypto P) sk_seed sk_prf pk_seed : Exec b _) = pure (pk, sk) ∧
    (sk.into_bytes : Exec b _) = pure v ∧
    (PrivateKey.try_from_bytes (crypto P) (dam v) : Exec b _) = pure (.ok sk')

/-- The same, and bytes outside `SK.prf` were changed. -/
def Unnoticed (b : Build) (P : Spec.Prims) (dam : Damage ps) (sk_seed sk_prf pk_seed : Vector UInt8 ps.params.N) : Prop :=
  ∃ pk sk v sk', (keygen_with_seeds ps.params (crypto P) sk_seed sk_prf pk_seed : Exec b _) = pure (pk, sk) ∧
    (sk.into_bytes : Exec b _) = pure v ∧
    (PrivateKey.try_from_bytes (crypto P) (dam v) : Exec b _) = pure (.ok sk') ∧
    (dam.Hits v 0 ps.sp.n ∨ dam.Hits v (2 * ps.sp.n) (4 * ps.sp.n))

/-! ## The bytes -/

section
variable {v : Vector UInt8 ps.params.SK_LEN}

theorem sk_len (v : Vector UInt8 ps.params.SK_LEN) : v.toList.length = 4 * ps.sp.n := by
  rw [Vector.length_toList]; cases ps <;> rfl

theorem skOf_sk_seed (v : Vector UInt8 ps.params.SK_LEN) :
    (skOf v).key.sk_seed.toList = v.toList.take ps.sp.n := by
  have := sk_len v
  rw [skOf]
  dsimp only
  rw [← N_eq ps, toVec_toList (by rw [List.length_take]; omega)]

theorem skOf_pk_seed (v : Vector UInt8 ps.params.SK_LEN) :
    (skOf v).key.pk_seed.toList = (v.toList.drop (2 * ps.sp.n)).take ps.sp.n := by
  have := sk_len v
  rw [skOf]
  dsimp only
  rw [List.drop_drop, ← N_eq ps, toVec_toList (by rw [List.length_take, List.length_drop]; omega), Nat.two_mul]

theorem skOf_pk_root (v : Vector UInt8 ps.params.SK_LEN) :
    (skOf v).key.pk_root.toList = v.toList.drop (3 * ps.sp.n) := by
  have := sk_len v
  rw [skOf]
  dsimp only
  rw [List.drop_drop, List.drop_drop, ← N_eq ps, toVec_toList (by rw [List.length_drop]; omega),
    show 3 * ps.sp.n = ps.sp.n + (ps.sp.n + ps.sp.n) by omega]

end

/-- The bytes of a key. -/
def skBytes (a c d r : Vector UInt8 ps.params.N) : Vector UInt8 ps.params.SK_LEN :=
  toVec _ (Spec.encodeSK a.toList c.toList d.toList r.toList)

section
variable (a c d r : Vector UInt8 ps.params.N)

theorem skBytes_toList : (skBytes a c d r).toList = a.toList ++ c.toList ++ d.toList ++ r.toList := by
  rw [skBytes, toVec_toList]
  · rfl
  · rw [Spec.encodeSK]
    simp only [List.length_append, Vector.length_toList]
    cases ps <;> rfl

theorem skBytes_stores : Stores (skBytes a c d r) a c d := by
  rw [Stores, skBytes_toList, List.take_left']
  simp only [List.length_append, Vector.length_toList]
  rw [← N_eq ps]
  omega

theorem skOf_skBytes : skOf (skBytes a c d r) = ⟨⟨a, c, d, r⟩⟩ := by
  rw [skOf, skBytes_toList, List.append_assoc, List.append_assoc, List.take_left' (Vector.length_toList ..),
    List.drop_left' (Vector.length_toList ..), List.take_left' (Vector.length_toList ..),
    List.drop_left' (Vector.length_toList ..), List.take_left' (Vector.length_toList ..),
    List.drop_left' (Vector.length_toList ..)]
  simp only [toVec_toList_self]

end

variable {b : Build} {P : Spec.Prims} {dam : Damage ps} {sk_seed sk_prf pk_seed : Vector UInt8 ps.params.N}

/-- The bytes that are stored. -/
abbrev stored (P : Spec.Prims) (sk_seed sk_prf pk_seed : Vector UInt8 ps.params.N) : Vector UInt8 ps.params.SK_LEN :=
  skBytes sk_seed sk_prf pk_seed (rootVec ps P sk_seed pk_seed)

theorem survives_iff : Survives b P dam sk_seed sk_prf pk_seed ↔
    accepts (decodeOf P (dam (stored P sk_seed sk_prf pk_seed))) = true := by
  obtain ⟨v, hv, e⟩ := exec_sk_into_bytes (b := b) (keyPair ps P sk_seed sk_prf pk_seed).2
  obtain rfl : v = stored P sk_seed sk_prf pk_seed := Vector.toList_inj.mp (e.trans (skBytes_toList ..).symm)
  constructor
  · rintro ⟨pk, sk, v, sk', h1, h2, h3⟩
    rw [exec_keygen_with_seeds] at h1
    obtain rfl : (keyPair ps P sk_seed sk_prf pk_seed).2 = sk := congrArg Prod.snd (Except.ok.inj h1)
    rw [hv] at h2
    obtain rfl := Except.ok.inj h2
    rw [exec_decodeOf] at h3
    rw [Except.ok.inj h3]
    rfl
  · intro h
    cases hd : decodeOf P (dam (stored P sk_seed sk_prf pk_seed)) with
    | error e => rw [hd] at h; cases h
    | ok sk' => exact ⟨_, _, _, sk', exec_keygen_with_seeds .., hv, by rw [exec_decodeOf, hd]⟩

theorem accepts_iff (v : Vector UInt8 ps.params.SK_LEN) : accepts (decodeOf P v) = true ↔
    (skOf v).key.pk_root = rootVec ps P (skOf v).key.sk_seed (skOf v).key.pk_seed := by
  rw [decodeOf]
  split
  · rename_i h
    exact ⟨fun _ => h, fun _ => rfl⟩
  · rename_i h
    exact ⟨nofun, fun e => absurd e h⟩

/-- Strings that agree in a part. -/
theorem part_eq {x y : List UInt8} {i m : Nat} (h : ∀ j, i ≤ j → j < i + m → x[j]? = y[j]?) :
    (x.drop i).take m = (y.drop i).take m := by
  refine List.ext_getElem? fun j => ?_
  rw [List.getElem?_take, List.getElem?_take]
  split
  · rw [List.getElem?_drop, List.getElem?_drop]
    exact h _ (by omega) (by omega)
  · rfl

theorem not_hits {v : Vector UInt8 ps.params.SK_LEN} {i k : Nat} (h : ¬ dam.Hits v i k) :
    ∀ j, i ≤ j → j < k → (dam v).toList[j]? = v.toList[j]? := fun j h1 h2 => by
  by_contra hne
  exact h ⟨j, h1, h2, hne⟩

section
variable {v : Vector UInt8 ps.params.SK_LEN}

theorem same_sk_seed (h : ¬ dam.Hits v 0 ps.sp.n) : (skOf (dam v)).key.sk_seed = (skOf v).key.sk_seed := by
  rw [← Vector.toList_inj, skOf_sk_seed, skOf_sk_seed]
  exact part_eq (i := 0) fun j h1 h2 => not_hits h j h1 (by omega)

theorem same_pk_seed (h : ¬ dam.Hits v (2 * ps.sp.n) (3 * ps.sp.n)) :
    (skOf (dam v)).key.pk_seed = (skOf v).key.pk_seed := by
  rw [← Vector.toList_inj, skOf_pk_seed, skOf_pk_seed]
  exact part_eq fun j h1 h2 => not_hits h j h1 (by omega)

theorem same_pk_root : ¬ dam.Hits v (3 * ps.sp.n) (4 * ps.sp.n) ↔
    (skOf (dam v)).key.pk_root = (skOf v).key.pk_root := by
  have h1 := sk_len v
  have h2 := sk_len (dam v)
  rw [← Vector.toList_inj, skOf_pk_root, skOf_pk_root]
  constructor
  · intro h
    have := part_eq (m := ps.sp.n) (i := 3 * ps.sp.n) fun j h1 h2 => not_hits h j h1 (by omega)
    rwa [List.take_of_length_le (by rw [List.length_drop]; omega),
      List.take_of_length_le (by rw [List.length_drop]; omega)] at this
  · rintro h ⟨j, h3, h4, hne⟩
    have := congrArg (·[j - 3 * ps.sp.n]?) h
    simp only [List.getElem?_drop] at this
    rw [show 3 * ps.sp.n + (j - 3 * ps.sp.n) = j by omega] at this
    exact hne this

theorem sk_seed_hit (h : dam.Hits v 0 ps.sp.n) :
    (skOf (dam v)).key.sk_seed.toList ≠ (skOf v).key.sk_seed.toList := by
  rw [skOf_sk_seed, skOf_sk_seed]
  intro e
  obtain ⟨j, -, h2, hne⟩ := h
  have := congrArg (·[j]?) e
  simp only [List.getElem?_take, if_pos h2] at this
  exact hne this

theorem pk_seed_hit (h : dam.Hits v (2 * ps.sp.n) (3 * ps.sp.n)) :
    (skOf (dam v)).key.pk_seed.toList ≠ (skOf v).key.pk_seed.toList := by
  rw [skOf_pk_seed, skOf_pk_seed]
  intro e
  obtain ⟨j, h1, h2, hne⟩ := h
  have := congrArg (·[j - 2 * ps.sp.n]?) e
  simp only [List.getElem?_take, List.getElem?_drop, if_pos (show j - 2 * ps.sp.n < ps.sp.n by omega)] at this
  rw [show 2 * ps.sp.n + (j - 2 * ps.sp.n) = j by omega] at this
  exact hne this

end

/-! ## The theorems -/

/-- **C100** Damage to `SK.prf` alone is not noticed, whatever the hash functions are. -/
theorem C100_prf (b : Build) (P : Spec.Prims) (dam : Damage ps) (sk_seed sk_prf pk_seed : Vector UInt8 ps.params.N)
    (h : ∀ v, Stores v sk_seed sk_prf pk_seed → ¬ dam.Hits v 0 ps.sp.n ∧ ¬ dam.Hits v (2 * ps.sp.n) (4 * ps.sp.n)) :
    Survives b P dam sk_seed sk_prf pk_seed := by
  obtain ⟨h1, h2⟩ := h _ (skBytes_stores sk_seed sk_prf pk_seed (rootVec ps P sk_seed pk_seed))
  rw [survives_iff, accepts_iff, same_sk_seed h1,
    same_pk_seed fun ⟨j, a, c, d⟩ => h2 ⟨j, a, by omega, d⟩,
    same_pk_root.mp fun ⟨j, a, c, d⟩ => h2 ⟨j, by omega, c, d⟩, skOf_skBytes]

/-- **C100** Damage that changes `PK.root` and leaves `SK.seed` and `PK.seed` is always noticed, whatever the hash functions
are. -/
theorem C100_root (b : Build) (P : Spec.Prims) (dam : Damage ps) (sk_seed sk_prf pk_seed : Vector UInt8 ps.params.N)
    (h : ∀ v, Stores v sk_seed sk_prf pk_seed → ¬ dam.Hits v 0 ps.sp.n ∧
      ¬ dam.Hits v (2 * ps.sp.n) (3 * ps.sp.n) ∧ dam.Hits v (3 * ps.sp.n) (4 * ps.sp.n)) :
    ¬ Survives b P dam sk_seed sk_prf pk_seed := by
  obtain ⟨h1, h2, h3⟩ := h _ (skBytes_stores sk_seed sk_prf pk_seed (rootVec ps P sk_seed pk_seed))
  rw [survives_iff, accepts_iff, same_sk_seed h1, same_pk_seed h2]
  intro e
  refine same_pk_root.mpr ?_ h3
  rw [e, skOf_skBytes]

/-- What is read if the number `r` is the root that was stored. -/
def readKey (dam : Damage ps) (sk_seed sk_prf pk_seed : Vector UInt8 ps.params.N) (r : Fin (256 ^ ps.sp.n)) :
    PrivateKey ps.params :=
  skOf (dam (skBytes sk_seed sk_prf pk_seed (toVec _ (Spec.toByte r ps.sp.n))))

section
variable (P0 : Spec.Prims) (O : Query B → Fin (256 ^ w))

/-- The call that computes the root of a private key. -/
abbrev callFor (sk : PrivateKey ps.params) : Query B := rootCall P0 O sk.key.pk_seed.toList ps sk.key.sk_seed.toList

/-- The call that computes the root of the key that is generated. -/
abbrev firstCall (sk_seed pk_seed : Vector UInt8 ps.params.N) : Query B :=
  rootCall P0 O pk_seed.toList ps sk_seed.toList

/-- The event, in terms of the calls. -/
theorem survives_calls (hw : ps.sp.n ≤ w) : Survives b (withHash P0 O) dam sk_seed sk_prf pk_seed ↔
    ∃ r, headOf ps.sp.n (O (firstCall P0 O sk_seed pk_seed)) = r ∧
      headOf ps.sp.n (O (callFor P0 O (readKey dam sk_seed sk_prf pk_seed r))) =
        number ps.sp.n (readKey dam sk_seed sk_prf pk_seed r).key.pk_root.toList := by
  rw [survives_iff, accepts_iff, stored, rootVec, pkRoot_call hw]
  refine ⟨fun h => ⟨_, rfl, ?_⟩, ?_⟩
  · change (readKey dam sk_seed sk_prf pk_seed _).key.pk_root = _ at h
    rw [h, rootVec_toList, pkRoot_call hw, number_toByte]
    rfl
  · rintro ⟨r, e, h⟩
    subst e
    change (readKey dam sk_seed sk_prf pk_seed _).key.pk_root = _
    rw [← Vector.toList_inj, rootVec_toList, pkRoot_call hw]
    change _ = Spec.toByte (headOf ps.sp.n (O (callFor P0 O (readKey dam sk_seed sk_prf pk_seed _)))) _
    rw [h, toByte_number (length_N _)]

end

/-- The sum over the roots that may be stored. -/
theorem sum_roots (hw : ps.sp.n ≤ w) (hB : 160 + 2 * ps.sp.n ≤ B) (P0 : Spec.Prims) (dam : Damage ps)
    (sk_seed sk_prf pk_seed : Vector UInt8 ps.params.N) :
    (avg fun O : Query B → Fin (256 ^ w) => ∑ r, ind ((firstCall P0 O sk_seed pk_seed ≠
      callFor P0 O (readKey dam sk_seed sk_prf pk_seed r) ∧ headOf ps.sp.n (O (firstCall P0 O sk_seed pk_seed)) = r) ∧
      headOf ps.sp.n (O (callFor P0 O (readKey dam sk_seed sk_prf pk_seed r))) =
        number ps.sp.n (readKey dam sk_seed sk_prf pk_seed r).key.pk_root.toList)) =
    (avg fun O : Query B → Fin (256 ^ w) => ∑ r, ind (firstCall P0 O sk_seed pk_seed ≠
      callFor P0 O (readKey dam sk_seed sk_prf pk_seed r) ∧ headOf ps.sp.n (O (firstCall P0 O sk_seed pk_seed)) = r)) /
      256 ^ ps.sp.n := by
  rw [avg_sum, avg_sum, Finset.sum_div]
  exact Finset.sum_congr rfl fun r _ => avg_two_roots hw hB (length_N _) (length_N _) _ _

/-- One of the roots is the one. -/
theorem sum_one {n : Nat} (c : Fin n → Prop) (x : Fin n) : ∑ r, ind (c r ∧ x = r) = ind (c x) := by
  classical
  refine (Finset.sum_eq_single x (fun r _ h => ?_) fun h => absurd (Finset.mem_univ x) h).trans ?_
  · simp [ind, Ne.symm h]
  · simp

/-- **C100** Take the hash functions to be random functions.  Damage that changes `PK.seed`, whatever else it does, is
noticed except with probability `1 / 256^n`. -/
theorem C100_pk_seed (P0 : Spec.Prims) (b : Build) (hw : ps.sp.n ≤ w) (hB : 160 + 2 * ps.sp.n ≤ B) (dam : Damage ps)
    (sk_seed sk_prf pk_seed : Vector UInt8 ps.params.N)
    (h : ∀ v, Stores v sk_seed sk_prf pk_seed → dam.Hits v (2 * ps.sp.n) (3 * ps.sp.n)) :
    prob (fun O : Query B → Fin (256 ^ w) => Survives b (withHash P0 O) dam sk_seed sk_prf pk_seed) =
      1 / 256 ^ ps.sp.n := by
  have : Nonempty (Fin (256 ^ w)) := ⟨⟨0, Nat.pow_pos (by decide)⟩⟩
  have : Nonempty (Query B → Fin (256 ^ w)) := inferInstance
  have hne : ∀ (O : Query B → Fin (256 ^ w)) r, firstCall P0 O sk_seed pk_seed ≠
      callFor P0 O (readKey dam sk_seed sk_prf pk_seed r) := fun O r => by
    have hp := pk_seed_hit (h _ (skBytes_stores sk_seed sk_prf pk_seed (toVec _ (Spec.toByte r ps.sp.n))))
    rw [skOf_skBytes] at hp
    exact rootCall_ne hw hB (length_N _) (length_N _) hp.symm
  have key := sum_roots hw hB P0 dam sk_seed sk_prf pk_seed
  have h1 : (avg fun O : Query B → Fin (256 ^ w) => ∑ r, ind (firstCall P0 O sk_seed pk_seed ≠
      callFor P0 O (readKey dam sk_seed sk_prf pk_seed r) ∧
      headOf ps.sp.n (O (firstCall P0 O sk_seed pk_seed)) = r)) = 1 := by
    rw [← avg_const (α := Query B → Fin (256 ^ w)) 1]
    refine congrArg avg (funext fun O => ?_)
    rw [sum_one]
    simp [ind, hne O]
  rw [h1] at key
  rw [prob_eq, ← key]
  refine congrArg avg (funext fun O => ?_)
  have e : ∀ r, ((firstCall P0 O sk_seed pk_seed ≠
      callFor P0 O (readKey dam sk_seed sk_prf pk_seed r) ∧ headOf ps.sp.n (O (firstCall P0 O sk_seed pk_seed)) = r) ∧
      headOf ps.sp.n (O (callFor P0 O (readKey dam sk_seed sk_prf pk_seed r))) =
        number ps.sp.n (readKey dam sk_seed sk_prf pk_seed r).key.pk_root.toList) =
      (headOf ps.sp.n (O (callFor P0 O (readKey dam sk_seed sk_prf pk_seed r))) =
        number ps.sp.n (readKey dam sk_seed sk_prf pk_seed r).key.pk_root.toList ∧
        headOf ps.sp.n (O (firstCall P0 O sk_seed pk_seed)) = r) := fun r =>
    propext ⟨fun h => ⟨h.2, h.1.2⟩, fun h => ⟨⟨hne O r, h.2⟩, h.1⟩⟩
  simp only [e]
  rw [sum_one (fun r => headOf ps.sp.n (O (callFor P0 O (readKey dam sk_seed sk_prf pk_seed r))) =
        number ps.sp.n (readKey dam sk_seed sk_prf pk_seed r).key.pk_root.toList)]
  refine ind_congr ((survives_calls P0 O hw).trans ⟨?_, fun h => ⟨_, rfl, h⟩⟩)
  rintro ⟨r, rfl, h⟩
  exact h

/-- **C100** Take the hash functions to be random functions, with outputs of `w ≥ 64` bytes of which the code uses the first
ones.  Damage that changes `SK.seed` or `PK.seed`, whatever else it does, is noticed except with probability at most
`2^40 / 2^(8 n)`. -/
theorem C100_seeds (P0 : Spec.Prims) (b : Build) (hw : 64 ≤ w) (hB : 160 + ps.sp.len * ps.sp.n ≤ B) (dam : Damage ps)
    (sk_seed sk_prf pk_seed : Vector UInt8 ps.params.N)
    (h : ∀ v, Stores v sk_seed sk_prf pk_seed → dam.Hits v 0 ps.sp.n ∨ dam.Hits v (2 * ps.sp.n) (3 * ps.sp.n)) :
    prob (fun O : Query B → Fin (256 ^ w) => Survives b (withHash P0 O) dam sk_seed sk_prf pk_seed) ≤
      2 ^ 40 / 2 ^ (8 * ps.sp.n) := by
  have : Nonempty (Fin (256 ^ w)) := ⟨⟨0, Nat.pow_pos (by decide)⟩⟩
  have : Nonempty (Query B → Fin (256 ^ w)) := inferInstance
  have hn : ps.sp.n ≤ w := (n_le_32 ps).trans ((show 32 ≤ 64 by decide).trans hw)
  have hB' : 160 + 2 * ps.sp.n ≤ B := le_trans (Nat.add_le_add_left (Nat.mul_le_mul_right _ (two_le_len ps).1) _) hB
  have hp : ∀ r : List UInt8, sk_seed.toList ≠
        (readKey dam sk_seed sk_prf pk_seed (number ps.sp.n r)).key.sk_seed.toList ∨
      pk_seed.toList ≠ (readKey dam sk_seed sk_prf pk_seed (number ps.sp.n r)).key.pk_seed.toList := by
    intro r
    have hs := skBytes_stores sk_seed sk_prf pk_seed (toVec _ (Spec.toByte (number ps.sp.n r) ps.sp.n))
    rcases h _ hs with h | h
    · have := sk_seed_hit h
      rw [skOf_skBytes] at this
      exact .inl this.symm
    · have := pk_seed_hit h
      rw [skOf_skBytes] at this
      exact .inr this.symm
  have key := sum_roots hn hB' P0 dam sk_seed sk_prf pk_seed
  have same := same_root_le (P0 := P0) (B := B) hw hB (sk := ⟨⟨sk_seed, sk_prf, pk_seed, pk_seed⟩⟩)
    (f := fun r => readKey dam sk_seed sk_prf pk_seed (number ps.sp.n r)) hp
  have h1 : (avg fun O : Query B → Fin (256 ^ w) => ∑ r, ind (firstCall P0 O sk_seed pk_seed ≠
      callFor P0 O (readKey dam sk_seed sk_prf pk_seed r) ∧
      headOf ps.sp.n (O (firstCall P0 O sk_seed pk_seed)) = r)) ≤ 1 := by
    rw [← avg_const (α := Query B → Fin (256 ^ w)) 1]
    refine avg_mono fun O => ?_
    rw [sum_one]
    exact ind_le_one _
  rw [prob_eq]
  refine le_trans (avg_mono fun O => ?_) ((avg_add _ _).le.trans ((add_le_add same key.le).trans ?_))
  · by_cases hS : Survives b (withHash P0 O) dam sk_seed sk_prf pk_seed
    · obtain ⟨r, e, h⟩ := (survives_calls P0 O hn).mp hS
      by_cases ec : firstCall P0 O sk_seed pk_seed = callFor P0 O (readKey dam sk_seed sk_prf pk_seed r)
      · refine le_trans (ind_mono fun _ => ?_) (le_add_of_nonneg_right (Finset.sum_nonneg fun r _ => ind_nonneg _))
        refine ⟨Spec.toByte r ps.sp.n, ?_, ?_⟩
        · rw [pkRoot_call hn, e]
        · rw [number_toByte, pkRoot_call hn]
          change _ = Spec.toByte (headOf ps.sp.n (O (callFor P0 O (readKey dam sk_seed sk_prf pk_seed r)))) _
          rw [← ec, e]
      · refine le_trans ?_ (le_add_of_nonneg_left (ind_nonneg _))
        exact le_trans (ind_mono fun _ => ⟨⟨ec, e⟩, h⟩) (Finset.single_le_sum
          (f := fun r => ind ((firstCall P0 O sk_seed pk_seed ≠ callFor P0 O (readKey dam sk_seed sk_prf pk_seed r) ∧
            headOf ps.sp.n (O (firstCall P0 O sk_seed pk_seed)) = r) ∧
            headOf ps.sp.n (O (callFor P0 O (readKey dam sk_seed sk_prf pk_seed r))) =
              number ps.sp.n (readKey dam sk_seed sk_prf pk_seed r).key.pk_root.toList))
          (fun r _ => ind_nonneg _) (Finset.mem_univ r))
    · refine le_trans (b := 0) (by simp [ind, hS]) (add_nonneg (ind_nonneg _) (Finset.sum_nonneg fun r _ => ind_nonneg _))
  · have h20 : (2 * treeWork ps ps.sp.hp : ℕ) ≤ 2 ^ 20 := by cases ps <;> decide
    have h20 : ((2 * treeWork ps ps.sp.hp : ℕ) : ℚ) ≤ 2 ^ 20 := by exact_mod_cast h20
    have h0 : (0 : ℚ) ≤ (2 * treeWork ps ps.sp.hp : ℕ) := Nat.cast_nonneg _
    rw [show (2 : ℚ) ^ (8 * ps.sp.n) = 256 ^ ps.sp.n by rw [pow_mul]; norm_num, ← div_div, ← add_div]
    refine div_le_div_of_nonneg_right ?_ (by positivity)
    generalize ((2 * treeWork ps ps.sp.hp : ℕ) : ℚ) = N at h20 h0 ⊢
    nlinarith [mul_le_mul h20 h20 h0 (by positivity)]

/-- Bytes that change each on its own. -/
def bytewise (ps : ParamSet) (f : Nat → UInt8 → UInt8) : Damage ps := fun v => Vector.ofFn fun i => f i v[i]

theorem bytewise_hits {f : Nat → UInt8 → UInt8} {v : Vector UInt8 ps.params.SK_LEN} {i k : Nat} (hk : k ≤ 4 * ps.sp.n) :
    (bytewise ps f).Hits v i k ↔ ∃ j x, i ≤ j ∧ j < k ∧ v.toList[j]? = some x ∧ f j x ≠ x := by
  have hl : ps.params.SK_LEN = 4 * ps.sp.n := by cases ps <;> rfl
  constructor
  · rintro ⟨j, h1, h2, h3⟩
    have hj : j < ps.params.SK_LEN := by omega
    rw [Vector.getElem?_toList, Vector.getElem?_toList, Vector.getElem?_eq_getElem hj, Vector.getElem?_eq_getElem hj,
      bytewise, Vector.getElem_ofFn] at h3
    exact ⟨j, v[j], h1, h2, by rw [Vector.getElem?_toList, Vector.getElem?_eq_getElem hj], fun e => h3 (congrArg some e)⟩
  · rintro ⟨j, x, h1, h2, h3, h4⟩
    have hj : j < ps.params.SK_LEN := by omega
    refine ⟨j, h1, h2, ?_⟩
    rw [h3]
    rw [Vector.getElem?_toList, Vector.getElem?_eq_getElem hj] at h3 ⊢
    rw [bytewise, Vector.getElem_ofFn]
    exact fun e => h4 ((congrArg (f j) (Option.some.inj h3)).symm.trans (Option.some.inj e))

theorem all_hits (v : Vector UInt8 ps.params.SK_LEN) : Damage.Hits (bytewise ps fun _ x => x + 1) v 0 ps.sp.n := by
  have := n_pos ps
  have hl := sk_len v
  rw [bytewise_hits (by omega)]
  exact ⟨0, v.toList[0], le_rfl, this, List.getElem?_eq_getElem _, fun e => absurd (UInt8.add_eq_left.mp e) (by decide)⟩

/-- **C100** Take the hash functions to be random functions as before.  Whatever the damage is, the chance that bytes outside
`SK.prf` are changed and the key is accepted is at most `2^40 / 2^(8 n)`. -/
theorem C100_any (P0 : Spec.Prims) (b : Build) (hw : 64 ≤ w) (hB : 160 + ps.sp.len * ps.sp.n ≤ B) (dam : Damage ps)
    (sk_seed sk_prf pk_seed : Vector UInt8 ps.params.N) :
    prob (fun O : Query B → Fin (256 ^ w) => Unnoticed b (withHash P0 O) dam sk_seed sk_prf pk_seed) ≤
      2 ^ 40 / 2 ^ (8 * ps.sp.n) := by
  classical
  let dam' : Damage ps := fun v => if dam.Hits v 0 ps.sp.n ∨ dam.Hits v (2 * ps.sp.n) (3 * ps.sp.n) then dam v else
    bytewise ps (fun _ x => x + 1) v
  have h' : ∀ v, dam'.Hits v 0 ps.sp.n ∨ dam'.Hits v (2 * ps.sp.n) (3 * ps.sp.n) := by
    intro v
    by_cases h : dam.Hits v 0 ps.sp.n ∨ dam.Hits v (2 * ps.sp.n) (3 * ps.sp.n)
    · have e : dam' v = dam v := if_pos h
      simpa only [Damage.Hits, e] using h
    · have e : dam' v = bytewise ps (fun _ x => x + 1) v := if_neg h
      left
      rw [Damage.Hits, e]
      exact all_hits v
  refine le_trans ?_ (C100_seeds P0 b hw hB dam' sk_seed sk_prf pk_seed fun v _ => h' v)
  rw [prob_eq, prob_eq]
  refine avg_mono fun O => ind_mono ?_
  rintro ⟨pk, sk, v, sk', h1, h2, h3, h4⟩
  refine ⟨pk, sk, v, sk', h1, h2, ?_⟩
  by_cases h : dam.Hits v 0 ps.sp.n ∨ dam.Hits v (2 * ps.sp.n) (3 * ps.sp.n)
  · rwa [show dam' v = dam v from if_pos h]
  · exfalso
    have hr : dam.Hits v (3 * ps.sp.n) (4 * ps.sp.n) := by
      rcases h4 with h4 | ⟨j, a, c, d⟩
      · exact absurd (.inl h4) h
      · by_cases hj : j < 3 * ps.sp.n
        · exact absurd (.inr ⟨j, a, hj, d⟩) h
        · exact ⟨j, by omega, c, d⟩
    rw [not_or] at h
    obtain ⟨u, hu, e⟩ := exec_sk_into_bytes (b := b) (keyPair ps (withHash P0 O) sk_seed sk_prf pk_seed).2
    rw [exec_keygen_with_seeds] at h1
    obtain rfl : (keyPair ps (withHash P0 O) sk_seed sk_prf pk_seed).2 = sk := congrArg Prod.snd (Except.ok.inj h1)
    obtain rfl : u = v := Except.ok.inj (hu.symm.trans h2)
    obtain rfl : u = stored (withHash P0 O) sk_seed sk_prf pk_seed :=
      Vector.toList_inj.mp (e.trans (skBytes_toList ..).symm)
    have h5 : accepts (decodeOf (withHash P0 O) (dam (stored (withHash P0 O) sk_seed sk_prf pk_seed))) = true := by
      rw [exec_decodeOf] at h3
      rw [Except.ok.inj h3]
      rfl
    rw [accepts_iff, same_sk_seed h.1, same_pk_seed h.2] at h5
    refine same_pk_root.mpr ?_ hr
    rw [h5, skOf_skBytes]

/-! ## The hypotheses can be met -/

/-- Every byte of the stored key is one less. -/
example (b : Build) (sk_seed sk_prf pk_seed : Vector UInt8 ps.params.N) :
    prob (fun O : Query 4000 → Fin (256 ^ 64) =>
      Survives b (withHash demoPrims O) (bytewise ps fun _ x => x + 255) sk_seed sk_prf pk_seed) = 1 / 256 ^ ps.sp.n := by
  refine C100_pk_seed _ _ ((n_le_32 ps).trans (by decide)) (by cases ps <;> decide) _ _ _ _ fun v _ => ?_
  rw [bytewise_hits (by omega)]
  have := n_pos ps
  have hl := sk_len v
  refine ⟨2 * ps.sp.n, v.toList[2 * ps.sp.n], le_rfl, by omega, List.getElem?_eq_getElem _, ?_⟩
  generalize v.toList[2 * ps.sp.n] = x
  exact fun e => absurd (UInt8.add_eq_left.mp e) (by decide)

/-- The first bit of the stored key, and one of its root, are inverted. -/
example (b : Build) (sk_seed sk_prf pk_seed : Vector UInt8 ps.params.N) :
    prob (fun O : Query 4000 → Fin (256 ^ 64) => Survives b (withHash demoPrims O)
      (bytewise ps fun i x => if i = 0 ∨ i = 3 * ps.sp.n then x + 128 else x) sk_seed sk_prf pk_seed) ≤
      2 ^ 40 / 2 ^ (8 * ps.sp.n) := by
  refine C100_seeds _ _ (by decide) (by cases ps <;> decide) _ _ _ _ fun v _ => .inl ?_
  have := n_pos ps
  have hl := sk_len v
  rw [bytewise_hits (by omega)]
  refine ⟨0, v.toList[0], le_rfl, this, List.getElem?_eq_getElem _, ?_⟩
  rw [if_pos (.inl rfl)]
  generalize v.toList[0] = x
  exact fun e => absurd (UInt8.add_eq_left.mp e) (by decide)

/-- Damage that depends on the root: where it begins with 0, all bytes are one more, otherwise one less. -/
example (b : Build) (sk_seed sk_prf pk_seed : Vector UInt8 ps.params.N) :
    prob (fun O : Query 4000 → Fin (256 ^ 64) => Survives b (withHash demoPrims O)
      (fun v => bytewise ps (fun _ x => if v.toList[3 * ps.sp.n]? = some 0 then x + 1 else x + 255) v)
      sk_seed sk_prf pk_seed) = 1 / 256 ^ ps.sp.n := by
  refine C100_pk_seed _ _ ((n_le_32 ps).trans (by decide)) (by cases ps <;> decide) _ _ _ _ fun v _ => ?_
  refine (bytewise_hits (f := fun _ x => if v.toList[3 * ps.sp.n]? = some 0 then x + 1 else x + 255)
    (v := v) (by omega)).mpr ?_
  have := n_pos ps
  have hl := sk_len v
  refine ⟨2 * ps.sp.n, v.toList[2 * ps.sp.n], le_rfl, by omega, List.getElem?_eq_getElem _, ?_⟩
  generalize v.toList[2 * ps.sp.n] = x
  split <;> exact fun e => absurd (UInt8.add_eq_left.mp e) (by decide)

/-- The bytes are read in the opposite order. -/
example (b : Build) (sk_seed sk_prf pk_seed : Vector UInt8 ps.params.N) :
    prob (fun O : Query 4000 → Fin (256 ^ 64) =>
      Unnoticed b (withHash demoPrims O) (fun v => v.reverse) sk_seed sk_prf pk_seed) ≤ 2 ^ 40 / 2 ^ (8 * ps.sp.n) :=
  C100_any _ _ (by decide) (by cases ps <;> decide) _ _ _ _

/-- One byte of `SK.prf` is changed: this is not noticed. -/
example (b : Build) (P : Spec.Prims) (sk_seed sk_prf pk_seed : Vector UInt8 ps.params.N) :
    Survives b P (bytewise ps fun i x => if i = ps.sp.n then x + 1 else x) sk_seed sk_prf pk_seed := by
  have := n_pos ps
  refine C100_prf _ _ _ _ _ _ fun v _ => ⟨?_, ?_⟩
  · rw [bytewise_hits (by omega)]
    rintro ⟨j, x, h1, h2, -, h⟩
    exact h (if_neg (by omega))
  · rw [bytewise_hits (by omega)]
    rintro ⟨j, x, h1, h2, -, h⟩
    exact h (if_neg (by omega))

/-- The last byte is changed, and all of `SK.prf` is lost: this is noticed. -/
example (b : Build) (P : Spec.Prims) (sk_seed sk_prf pk_seed : Vector UInt8 ps.params.N) :
    ¬ Survives b P (bytewise ps fun i x => if i = 4 * ps.sp.n - 1 then x + 1 else
      if ps.sp.n ≤ i ∧ i < 2 * ps.sp.n then 0 else x) sk_seed sk_prf pk_seed := by
  have := n_pos ps
  refine C100_root _ _ _ _ _ _ fun v _ => ⟨?_, ?_, ?_⟩
  · rw [bytewise_hits (by omega)]
    rintro ⟨j, x, h1, h2, -, h⟩
    exact h ((if_neg (by omega)).trans (if_neg (by omega)))
  · rw [bytewise_hits (by omega)]
    rintro ⟨j, x, h1, h2, -, h⟩
    exact h ((if_neg (by omega)).trans (if_neg (by omega)))
  · have hl := sk_len v
    rw [bytewise_hits (by omega)]
    refine ⟨4 * ps.sp.n - 1, v.toList[4 * ps.sp.n - 1], by omega, by omega, List.getElem?_eq_getElem _, ?_⟩
    rw [if_pos rfl]
    exact fun e => absurd (UInt8.add_eq_left.mp e) (by decide)

end Fips205.Props
