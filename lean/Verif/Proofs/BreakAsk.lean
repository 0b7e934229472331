import Verif.Proofs.Meet
import Verif.Proofs.Values
import Verif.Proofs.Ask

/-!
# What a verification asks when something is broken

The hash at which a break shows is one of those the verification asks for: either its argument is not the owner's but
the result is, or its argument is one of those kept unknown.
-/

namespace Fips205.Spec.Attempt
open Fips205

variable {c : Attempt} {m : Nat}

/-- A hash of the verification that gives a break away, if the FORS secrets in `u` were opened. -/
def Shows (c : Attempt) (u : Set Place) (x : Place) (z : Bytes) : Prop :=
  x.Exists c.p ∧ z.length ≤ (c.p.len + c.p.k) * c.p.n ∧ (x, z) ∈ (c.layersP c.p.d).asked (hashAt c.hf c.PKseed) ∧
  let v := valueAt c.p c.hf c.SKseed c.PKseed
  (z ≠ argAt c.p c.SKseed v x ∧ hashAt c.hf c.PKseed x z = v x ∨
    Hid c.p v u x ∧ z = argAt c.p c.SKseed v x)

theorem concat_length_le {k n : Nat} {f : Nat → Bytes} (h : ∀ i < k, (f i).length ≤ n) :
    (concat k f).length ≤ k * n := by
  induction k with
  | zero => simp [concat]
  | succ k ih =>
    rw [concat_succ, List.length_append, Nat.succ_mul]
    exact Nat.add_le_add (ih fun i hi => h i (by omega)) (h k (by omega))

theorem children_length {x : Nat} {a b : Bytes} : (children x a b).length = a.length + b.length := by
  rw [children]
  split <;> rw [List.length_append]
  omega

theorem Ok.vChain_length (o : c.Ok m) {j i : Nat} (hj : j < c.p.d) (hi : i < c.p.len) (s : Nat) :
    (c.vChain j i s).length = c.p.n :=
  chain_length o.valid (o.wots_length hj hi) _ _ _ _

theorem hChain_value (o : c.Ok m) (j i s : Nat) : c.hChain j i s =
    valueAt c.p c.hf c.SKseed c.PKseed (.link j (htTree c.p c.t j) (c.leaf j) i s) := by
  rw [valueAt_link, hChain, chainAdrs, wotsAdrs, adrs, wotsAdrs_eq, wotsSkAdrs_eq _ _ (o.leaf_lt32 j)]
  rfl

theorem hXmss_value (j i k : Nat) : c.hXmss j i k =
    valueAt c.p c.hf c.SKseed c.PKseed (.node j (htTree c.p c.t j) k i) := by
  rw [valueAt_node]
  rfl

theorem hDigit_value (o : c.Ok m) (j i : Nat) : c.hDigit j i =
    digitAt c.p (valueAt c.p c.hf c.SKseed c.PKseed) j (htTree c.p c.t j) (c.leaf j) i := by
  rw [digitAt, leaf, valueAt_msg o.l_lt c rfl rfl rfl rfl rfl rfl o.wf j]
  rfl

section
variable (hlen : 1 ≤ c.p.len) (hk1 : 1 ≤ c.p.k)
include hlen hk1

theorem bound2 : 2 * c.p.n ≤ (c.p.len + c.p.k) * c.p.n := Nat.mul_le_mul_right _ (by omega)

/-- A FORS secret that was not opened shows. -/
theorem fors_shows (o : c.Ok m) {u : Set Place} {i : Nat} (hi : i < c.p.k) (hv : c.vSecret i = c.hSecret (c.fLeaf i))
    (hu : Place.forsPrf c.t c.l (c.fLeaf i) ∉ u) : ∃ x z, c.Shows u x z := by
  have hb := bound2 hlen hk1
  refine ⟨.forsTree c.t c.l 0 (c.fLeaf i), c.vSecret i, ?_, ?_, asked_forsLeaf hi, .inr ⟨hu, hv⟩⟩
  · have := (place_fors o hi (k := 0) (Nat.zero_le _)).1
    rwa [Nat.pow_zero, Nat.div_one] at this
  · rw [hv, hSecret, forsSKgen, o.valid.PRF]
    omega

/-- A break shows. -/
theorem break_shows (o : c.Ok m) (h : c.Break) (u : Set Place) : ∃ x z, c.Shows u x z := by
  have hb := bound2 hlen hk1
  have b1 : c.p.len * c.p.n ≤ (c.p.len + c.p.k) * c.p.n := Nat.mul_le_mul_right _ (by omega)
  have b2 : c.p.k * c.p.n ≤ (c.p.len + c.p.k) * c.p.n := Nat.mul_le_mul_right _ (by omega)
  cases h with
  | chainStep j i s hj hi h1 h2 ne eq =>
    have hp := (place_chain o hj hi h1 h2).1
    refine ⟨_, _, hp, ?_, asked_chain o hj hi h1 h2, .inl ⟨?_, ?_⟩⟩
    · rw [o.vChain_length hj hi]; omega
    · rw [hChain_value o] at ne
      exact ne
    · rw [valueAt_eq o.wf hp]
      simp only [argAt]
      rw [← hChain_value o]
      rw [chainAdrs, wotsAdrs, adrs, wotsAdrs_eq] at eq
      exact eq
  | wotsPk j hj ne eq =>
    have hp := (place_wotsPk o hj).1
    have e : (concat c.p.len fun i => c.hChain j i (w - 1)) = argAt c.p c.SKseed
        (valueAt c.p c.hf c.SKseed c.PKseed) (.wotsPk j (htTree c.p c.t j) (c.leaf j)) :=
      concat_congr fun i _ => hChain_value o j i 15
    refine ⟨_, _, hp, ?_, asked_wots o hj, .inl ⟨?_, ?_⟩⟩
    · exact (concat_length_le fun i hi => (o.vChain_length hj hi _).le).trans b1
    · rwa [← e]
    · rw [valueAt_eq o.wf hp, ← e]
      rw [wotsAdrs, adrs, wotsAdrs_eq, wotsPkAdrs_eq _ _ (o.leaf_lt32 j)] at eq
      exact eq
  | xmssNode j k hj hk ne eq =>
    have hp := (place_tree o hj hk).1
    have e : children (c.leaf j / 2 ^ k) (c.hXmss j (c.leaf j / 2 ^ k) k)
          (c.hXmss j (sibling (c.leaf j / 2 ^ k)) k) = argAt c.p c.SKseed
        (valueAt c.p c.hf c.SKseed c.PKseed) (.tree j (htTree c.p c.t j) (k + 1) (c.leaf j / 2 ^ (k + 1))) := by
      rw [children_node (c.leaf j / 2 ^ k) (fun x => c.hXmss j x k), Nat.div_div_eq_div_mul, ← Nat.pow_succ]
      simp only [hXmss_value]
      rfl
    refine ⟨_, _, hp, ?_, asked_xmss o hj hk, .inl ⟨?_, ?_⟩⟩
    · rw [children_length, o.xmss_length, o.auth_length hj hk]; omega
    · rwa [← e]
    · rw [valueAt_eq o.wf hp, ← e]
      exact eq
  | forsPk ne eq =>
    have hp := (place_forsRoots o).1
    refine ⟨_, _, hp, ?_, asked_forsRoots o, .inl ⟨ne, ?_⟩⟩
    · exact (concat_length_le fun i hi => (o.forsNode_length i _).le).trans b2
    · rw [valueAt_eq o.wf hp]
      rw [fRootsAdrs, fAdrs, forsAdrs_eq, getKeyPairAddress_adrs6 _ _ _ _ _ o.l_lt32] at eq
      exact eq
  | forsNode i k hi hk ne eq =>
    have hp := (place_fors o hi (k := k + 1) hk).1
    have e : children (c.fLeaf i / 2 ^ k) (c.hFors (c.fLeaf i / 2 ^ k) k)
          (c.hFors (sibling (c.fLeaf i / 2 ^ k)) k) = argAt c.p c.SKseed
        (valueAt c.p c.hf c.SKseed c.PKseed) (.forsTree c.t c.l (k + 1) (c.fLeaf i / 2 ^ (k + 1))) := by
      rw [children_node (c.fLeaf i / 2 ^ k) (fun x => c.hFors x k), Nat.div_div_eq_div_mul, ← Nat.pow_succ]
      rfl
    refine ⟨_, _, hp, ?_, asked_forsNode o hi hk, .inl ⟨?_, ?_⟩⟩
    · rw [children_length, o.forsNode_length, (o.fors_slice hi).2.1 k hk]; omega
    · rwa [← e]
    · rw [valueAt_eq o.wf hp, ← e]
      exact eq
  | forsLeaf i hi ne eq =>
    have hp := (place_fors o hi (k := 0) (Nat.zero_le _)).1
    rw [Nat.pow_zero, Nat.div_one] at hp
    refine ⟨_, _, hp, ?_, asked_forsLeaf hi, .inl ⟨ne, ?_⟩⟩
    · rw [(o.fors_slice hi).1]; omega
    · rw [valueAt_eq o.wf hp]
      exact eq
  | unpublished j i hj hi ne lt eq =>
    have hd : c.hDigit j i ≤ 15 := by rw [hDigit_value o]; exact digitAt_le ..
    have hp := (place_chain o hj hi (Nat.le_refl _) (by omega)).1
    refine ⟨_, _, hp, ?_, asked_chain o hj hi (Nat.le_refl _) (by rw [w]; omega), .inr ⟨?_, ?_⟩⟩
    · rw [o.vChain_length hj hi]; omega
    · change c.vDigit j i < _
      rwa [← hDigit_value o]
    · rw [vChain_digit, eq, hChain_value o]
      rfl

end

end Fips205.Spec.Attempt
