import Verif.Spec.Forgery
import Verif.Proofs.Bytes
import Verif.Proofs.Address

/-! # The layers of the hypertree

`htTree t j`, `htLeaf t l j` are the tree and leaf index used in layer `j` when layer 0 uses `t`, `l`. -/

namespace Fips205.Spec

variable (p : Params) (hf : HashFns)

theorem htTree_zero (t : Nat) : htTree p t 0 = t := by simp [htTree]

theorem htTree_succ (t j : Nat) : htTree p t (j + 1) = htTree p t j / 2 ^ p.hp := by
  rw [htTree, htTree, Nat.div_div_eq_div_mul, ← Nat.pow_add, Nat.mul_succ]

theorem htLeaf_lt {t l : Nat} (hl : l < 2 ^ p.hp) (j : Nat) : htLeaf p t l j < 2 ^ p.hp := by
  cases j with
  | zero => exact hl
  | succ j => exact Nat.mod_lt _ (Nat.two_pow_pos _)

/-- The message signed in layer `j`, when `M` is signed. -/
def signMsg (SKseed PKseed M : Bytes) (t l : Nat) : Nat → Bytes
  | 0 => M
  | j + 1 =>
    let Mj := signMsg SKseed PKseed M t l j
    xmssPkFromSig p hf (htLeaf p t l j)
      (xmssSign p hf Mj SKseed (htLeaf p t l j) PKseed (htAdrs j (htTree p t j))) Mj PKseed
      (htAdrs j (htTree p t j))

/-- The signature in layer `j`, when `M` is signed. -/
def signSig (SKseed PKseed M : Bytes) (t l j : Nat) : Bytes :=
  xmssSign p hf (signMsg p hf SKseed PKseed M t l j) SKseed (htLeaf p t l j) PKseed
    (htAdrs j (htTree p t j))

theorem htSignFrom_eq (SKseed PKseed M : Bytes) (t l : Nat) : ∀ left j,
    htSignFrom p hf SKseed PKseed left j (signMsg p hf SKseed PKseed M t l j) (htTree p t j)
      (htLeaf p t l j) = concat left fun i => signSig p hf SKseed PKseed M t l (j + i) := by
  intro left
  induction left with
  | zero => intro j; rfl
  | succ left ih =>
    intro j
    have := ih (j + 1)
    rw [htTree_succ, htLeaf] at this
    rw [htSignFrom]
    rw [show (xmssPkFromSig p hf (htLeaf p t l j)
      (xmssSign p hf (signMsg p hf SKseed PKseed M t l j) SKseed (htLeaf p t l j) PKseed
        (htAdrs j (htTree p t j))) (signMsg p hf SKseed PKseed M t l j) PKseed
      (htAdrs j (htTree p t j))) = signMsg p hf SKseed PKseed M t l (j + 1) from rfl, this,
      Nat.add_comm left 1, concat_add 1 left]
    refine congrArg₂ _ ?_ (concat_congr fun i _ => by rw [Nat.add_assoc])
    rw [concat_succ, concat_zero, List.nil_append, Nat.add_zero, signSig]

theorem htSign_eq (SKseed PKseed M : Bytes) (t l : Nat) :
    htSign p hf M SKseed PKseed t l = concat p.d fun j => signSig p hf SKseed PKseed M t l j := by
  have := htSignFrom_eq p hf SKseed PKseed M t l p.d 0
  rw [htTree_zero] at this
  simp only [Nat.zero_add] at this
  exact this

theorem htRootFrom_eq (PKseed SIG M : Bytes) (t l : Nat) : ∀ left j,
    htRootFrom p hf PKseed left j (rootMsg p hf PKseed SIG M t l j) SIG (htTree p t j)
      (htLeaf p t l j) = rootMsg p hf PKseed SIG M t l (j + left) := by
  intro left
  induction left with
  | zero => intro j; rfl
  | succ left ih =>
    intro j
    have := ih (j + 1)
    rw [htTree_succ, htLeaf] at this
    rw [htRootFrom, show j + (left + 1) = j + 1 + left by omega, ← this]
    rfl

theorem htVerify_eq (M SIG PKseed PKroot : Bytes) (t l : Nat) :
    htVerify p hf M SIG PKseed t l PKroot = (rootMsg p hf PKseed SIG M t l p.d == PKroot) := by
  have := htRootFrom_eq p hf PKseed SIG M t l p.d 0
  rw [htTree_zero, Nat.zero_add] at this
  rw [htVerify, ← this]
  rfl

theorem htAdrs_zero (t : Nat) : htAdrs 0 t = setTreeAddress zeroAdrs t := rfl

theorem htAdrs_step (j t j' t' : Nat) :
    setTreeAddress (setLayerAddress (htAdrs j t) j') t' = htAdrs j' t' := by
  rw [htAdrs, htAdrs, ← setTreeAddress_setLayerAddress (setLayerAddress_length zeroAdrs_length _),
    setLayerAddress_setLayerAddress zeroAdrs_length,
    setTreeAddress_setTreeAddress (setLayerAddress_length zeroAdrs_length _)]

theorem htAdrs_length (j t : Nat) : (htAdrs j t).length = 32 :=
  setTreeAddress_length (setLayerAddress_length zeroAdrs_length _) _

end Fips205.Spec
