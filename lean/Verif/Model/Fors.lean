import Verif.Model.Hashers

/-! # `src/fors.rs`

The const generic `A` of `fors_node` is not used by its body and is dropped. -/

namespace Fips205.Model

section
variable {m : Type → Type} [Rust m] {K LEN M N : Nat}

/-- `src/fors.rs:12-29` (`fors_sk_gen`) -/
def fors_sk_gen (hashers : Hashers m K LEN M N) (sk_seed pk_seed : List UInt8) (adrs : Adrs)
    (idx : UInt32) : m (Vector UInt8 N) :=
  let sk_adrs := adrs.set_type_and_clear FORS_PRF
  let sk_adrs := sk_adrs.set_key_pair_address adrs.get_key_pair_address
  let sk_adrs := sk_adrs.set_tree_index idx
  hashers.prf pk_seed sk_seed sk_adrs

/-- `src/fors.rs:39-93` (`fors_node`).  As for `xmss_node`, `z - 1` is written without its (vacuous)
overflow check. -/
def fors_node (hashers : Hashers m K LEN M N) (sk_seed : List UInt8) (i z : UInt32)
    (pk_seed : List UInt8) (adrs : Adrs) : m (Except String (Vector UInt8 N)) := do
  leak (.branch (z == 0))
  if _hz : z = 0 then do
    let sk ← fors_sk_gen hashers sk_seed pk_seed adrs i
    let adrs := adrs.set_tree_height 0
    let adrs := adrs.set_tree_index i
    let node ← hashers.f pk_seed adrs sk.toList
    pure (.ok node)
  else do
    let i2 ← mulU32 2 i
    let r ← fors_node hashers sk_seed i2 (z - 1) pk_seed adrs
    leak (.branch r.isOk)
    match r with
    | .error e => pure (.error e)
    | .ok lnode => do
      let i2 ← mulU32 2 i
      let i2 ← addU32 i2 1
      let r ← fors_node hashers sk_seed i2 (z - 1) pk_seed adrs
      leak (.branch r.isOk)
      match r with
      | .error e => pure (.error e)
      | .ok rnode => do
        let adrs := adrs.set_tree_height z
        let adrs := adrs.set_tree_index i
        let node ← hashers.h pk_seed adrs lnode.toList rnode.toList
        pure (.ok node)
termination_by z.toNat
decreasing_by
  all_goals
    have : z.toNat ≠ 0 := fun h => ‹¬ z = 0› (UInt32.toNat_inj.mp (by simpa using h))
    have hle : (1 : UInt32) ≤ z := by rw [UInt32.le_iff_toNat_le]; simp; omega
    rw [UInt32.toNat_sub_of_le _ _ hle]; simp; omega

/-- `src/fors.rs:102-163` (`fors_sign`) -/
def fors_sign (A : Nat) (hashers : Hashers m K LEN M N) (md sk_seed : List UInt8) (adrs : Adrs)
    (pk_seed : List UInt8) : m (Except String (ForsSig A K N)) := do
  let a32 ← u32TryFromUnwrap A
  let k32 ← u32TryFromUnwrap K
  let indices : Vector UInt32 K := Vector.replicate K 0
  let new ← base_2b md a32 k32 indices.toList
  let indices ← copyFromSlice K new
  forU32E 0 k32 (ForsSig.zero A K N) fun i sig => do
    let t ← shlU32 i a32
    let iu ← asUsize i
    let d ← vget indices iu
    let idx ← addU32 t d
    let v ← fors_sk_gen hashers sk_seed pk_seed adrs idx
    let iu ← asUsize i
    let private_key_value ← vset sig.private_key_value iu v
    let sig := { sig with private_key_value }
    forU32E 0 a32 sig fun j sig => do
      let iu ← asUsize i
      let d ← vget indices iu
      let t ← shrU32 d j
      let s := t ^^^ 1
      let t ← subU32 a32 j
      let t ← shlU32 i t
      let idx ← addU32 t s
      let r ← fors_node hashers sk_seed idx j pk_seed adrs
      leak (.branch r.isOk)
      match r with
      | .error e => pure (.error e)
      | .ok node => do
        let iu ← asUsize i
        let ju ← asUsize j
        let au ← vget sig.auth iu
        let tree ← vset au.tree ju node
        let auth ← vset sig.auth iu { tree }
        pure (.ok { sig with auth })

/-- `src/fors.rs:172-263` (`fors_pk_from_sig`) -/
def fors_pk_from_sig {A : Nat} (hashers : Hashers m K LEN M N) (sig_fors : ForsSig A K N)
    (md pk_seed : List UInt8) (adrs : Adrs) : m (ForsPk N) := do
  let a32 ← u32TryFromUnwrap A
  let k32 ← u32TryFromUnwrap K
  let indices : Vector UInt32 K := Vector.replicate K 0
  let new ← base_2b md a32 k32 indices.toList
  let indices ← copyFromSlice K new
  let root : Vector (Vector UInt8 N) K := Vector.replicate K (zeroBytes N)
  let (adrs, root) ← forU32 0 k32 (adrs, root) fun i (adrs, root) => do
    let iu ← asUsize i
    let sk ← vget sig_fors.private_key_value iu
    let adrs := adrs.set_tree_height 0
    let t ← shlU32 i a32
    let iu ← asUsize i
    let d ← vget indices iu
    let ti ← addU32 t d
    let adrs := adrs.set_tree_index ti
    let node_0 ← hashers.f pk_seed adrs sk.toList
    let iu ← asUsize i
    let auth ← vget sig_fors.auth iu
    let (adrs, node_0) ← forU32 0 a32 (adrs, node_0) fun j (adrs, node_0) => do
      let j1 ← addU32 j 1
      let adrs := adrs.set_tree_height j1
      let iu ← asUsize i
      let d ← vget indices iu
      let t ← shrU32 d j
      leak (.branch ((t &&& 0x01) == 0))
      if (t &&& 0x01) == 0 then do
        let tmp ← divU32 adrs.get_tree_index 2
        let adrs := adrs.set_tree_index tmp
        let ju ← asUsize j
        let a ← vget auth.tree ju
        let node_1 ← hashers.h pk_seed adrs node_0.toList a.toList
        pure (adrs, node_1)
      else do
        let tmp ← subU32 adrs.get_tree_index 1
        let tmp ← divU32 tmp 2
        let adrs := adrs.set_tree_index tmp
        let ju ← asUsize j
        let a ← vget auth.tree ju
        let node_1 ← hashers.h pk_seed adrs a.toList node_0.toList
        pure (adrs, node_1)
    let iu ← asUsize i
    let root ← vset root iu node_0
    pure (adrs, root)
  let fors_pk_adrs := adrs.set_type_and_clear FORS_ROOTS
  let fors_pk_adrs := fors_pk_adrs.set_key_pair_address adrs.get_key_pair_address
  let pk ← hashers.t_len pk_seed fors_pk_adrs root
  pure { key := pk }

end

end Fips205.Model
