import Verif.Spec.Forgery
import Verif.Spec.Places
import Verif.Proofs.Bytes
import Verif.Proofs.Address

/-! # Addresses by field -/

namespace Fips205.Spec

/-- An address from its six fields. -/
def adrs6 (a t y d e f : Nat) : Bytes :=
  toByte a 4 ++ toByte t 12 ++ toByte y 4 ++ toByte d 4 ++ toByte e 4 ++ toByte f 4

theorem zeroAdrs_eq : zeroAdrs = adrs6 0 0 0 0 0 0 := rfl

theorem setLayerAddress_adrs6 (a t y d e f x : Nat) :
    setLayerAddress (adrs6 a t y d e f) x = adrs6 x t y d e f := rfl

theorem setTreeAddress_adrs6 (a t y d e f x : Nat) :
    setTreeAddress (adrs6 a t y d e f) x = adrs6 a x y d e f := rfl

theorem setTypeAndClear_adrs6 (a t y d e f x : Nat) :
    setTypeAndClear (adrs6 a t y d e f) x = adrs6 a t x 0 0 0 := rfl

theorem setKeyPairAddress_adrs6 (a t y d e f x : Nat) :
    setKeyPairAddress (adrs6 a t y d e f) x = adrs6 a t y x e f := rfl

theorem setChainAddress_adrs6 (a t y d e f x : Nat) :
    setChainAddress (adrs6 a t y d e f) x = adrs6 a t y d x f := rfl

theorem setTreeHeight_adrs6 (a t y d e f x : Nat) :
    setTreeHeight (adrs6 a t y d e f) x = adrs6 a t y d x f := rfl

theorem setHashAddress_adrs6 (a t y d e f x : Nat) :
    setHashAddress (adrs6 a t y d e f) x = adrs6 a t y d e x := rfl

theorem setTreeIndex_adrs6 (a t y d e f x : Nat) :
    setTreeIndex (adrs6 a t y d e f) x = adrs6 a t y d e x := rfl

theorem getKeyPairAddress_adrs6 (a t y e f : Nat) {d : Nat} (h : d < 2 ^ 32) :
    getKeyPairAddress (adrs6 a t y d e f) = d := by
  have : slice (adrs6 a t y d e f) 20 24 = toByte d 4 := rfl
  rw [getKeyPairAddress, this, toInt_toByte]; exact Nat.mod_eq_of_lt h

theorem compress_adrs6 (a t y d e f : Nat) : compress (adrs6 a t y d e f) =
    toByte a 1 ++ toByte t 8 ++ toByte y 1 ++ toByte d 4 ++ toByte e 4 ++ toByte f 4 := rfl

theorem toByte_append_inj {x y n : Nat} {X Y : Bytes} (hx : x < 256 ^ n) (hy : y < 256 ^ n)
    (h : X ++ toByte x n = Y ++ toByte y n) : X = Y ∧ x = y := by
  obtain ⟨h1, h2⟩ := List.append_inj' h (by rw [toByte_length, toByte_length])
  exact ⟨h1, toByte_inj hx hy h2⟩

/-- The compressed form determines the fields. -/
theorem compress_adrs6_inj {a t y d e f a' t' y' d' e' f' : Nat} (ha : a < 256) (ht : t < 2 ^ 64)
    (hy : y < 256) (hd : d < 2 ^ 32) (he : e < 2 ^ 32) (hf : f < 2 ^ 32) (ha' : a' < 256)
    (ht' : t' < 2 ^ 64) (hy' : y' < 256) (hd' : d' < 2 ^ 32) (he' : e' < 2 ^ 32) (hf' : f' < 2 ^ 32)
    (h : compress (adrs6 a t y d e f) = compress (adrs6 a' t' y' d' e' f')) :
    a = a' ∧ t = t' ∧ y = y' ∧ d = d' ∧ e = e' ∧ f = f' := by
  rw [compress_adrs6, compress_adrs6] at h
  obtain ⟨h, h6⟩ := toByte_append_inj (by omega) (by omega) h
  obtain ⟨h, h5⟩ := toByte_append_inj (by omega) (by omega) h
  obtain ⟨h, h4⟩ := toByte_append_inj (by omega) (by omega) h
  obtain ⟨h, h3⟩ := toByte_append_inj (by omega) (by omega) h
  obtain ⟨h, h2⟩ := toByte_append_inj (by omega) (by omega) h
  exact ⟨toByte_inj (by omega) (by omega) h, h2, h3, h4, h5, h6⟩

/-- The address of a WOTS+ key. -/
theorem wotsAdrs_eq (j t l : Nat) :
    setKeyPairAddress (setTypeAndClear (htAdrs j t) WOTS_HASH) l = adrs6 j t 0 l 0 0 := rfl

theorem wotsPkAdrs_eq (j t : Nat) {l : Nat} (hl : l < 2 ^ 32) (e f : Nat) :
    wotsPkAdrs (adrs6 j t 0 l e f) = adrs6 j t 1 l 0 0 := by
  rw [wotsPkAdrs, getKeyPairAddress_adrs6 _ _ _ _ _ hl]; rfl

theorem wotsSkAdrs_eq (j t : Nat) {l : Nat} (hl : l < 2 ^ 32) (e f : Nat) :
    wotsSkAdrs (adrs6 j t 0 l e f) = adrs6 j t 5 l 0 0 := by
  rw [wotsSkAdrs, getKeyPairAddress_adrs6 _ _ _ _ _ hl]; rfl

theorem forsAdrs_eq (t l : Nat) : forsAdrs t l = adrs6 0 t 3 l 0 0 := rfl

end Fips205.Spec

namespace Fips205

/-- The six fields of the address of a place. -/
def Place.fields : Place → Nat × Nat × Nat × Nat × Nat × Nat
  | .wotsHash j t l i s => (j, t, 0, l, i, s)
  | .wotsPk j t l => (j, t, 1, l, 0, 0)
  | .tree j t k i => (j, t, 2, 0, k, i)
  | .forsTree t l k i => (0, t, 3, l, k, i)
  | .forsRoots t l => (0, t, 4, l, 0, 0)
  | .wotsPrf j t l i => (j, t, 5, l, i, 0)
  | .forsPrf t l i => (0, t, 6, l, 0, i)

theorem Place.adrs_eq (x : Place) : x.adrs = Spec.adrs6 x.fields.1 x.fields.2.1 x.fields.2.2.1
    x.fields.2.2.2.1 x.fields.2.2.2.2.1 x.fields.2.2.2.2.2 := by
  cases x <;> rfl

theorem Place.fields_inj {x y : Place} (h : x.fields = y.fields) : x = y := by
  cases x <;> cases y <;> simp_all [Place.fields]

end Fips205
