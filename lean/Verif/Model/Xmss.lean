import Verif.Model.Wots

/-! # `src/xmss.rs`

The const generics `H` and `HP` of `xmss_node` are not used by its body and are dropped. -/

namespace Fips205.Model

section
variable {m : Type → Type} [Rust m] {K LEN M N : Nat}

/-- `src/xmss.rs:13-69` (`xmss_node`).  `z - 1` cannot overflow in the branch `z ≠ 0`, so it is written
without the overflow check; this lets Lean see the termination of the recursion. -/
def xmss_node (hashers : Hashers m K LEN M N) (sk_seed : List UInt8) (i z : UInt32)
    (pk_seed : List UInt8) (adrs : Adrs) : m (Vector UInt8 N) := do
  leak (.branch (z == 0))
  if hz : z = 0 then do
    let adrs := adrs.set_type_and_clear WOTS_HASH
    let adrs := adrs.set_key_pair_address i
    let pk ← wots_pkgen hashers sk_seed pk_seed adrs
    pure pk.val
  else do
    let i2 ← mulU32 2 i
    let lnode ← xmss_node hashers sk_seed i2 (z - 1) pk_seed adrs
    let i2 ← mulU32 2 i
    let i2 ← addU32 i2 1
    let rnode ← xmss_node hashers sk_seed i2 (z - 1) pk_seed adrs
    let adrs := adrs.set_type_and_clear TREE
    let adrs := adrs.set_tree_height z
    let adrs := adrs.set_tree_index i
    hashers.h pk_seed adrs lnode.toList rnode.toList
termination_by z.toNat
decreasing_by
  all_goals
    have : z.toNat ≠ 0 := fun h => hz (UInt32.toNat_inj.mp (by simpa using h))
    have hle : (1 : UInt32) ≤ z := by rw [UInt32.le_iff_toNat_le]; simp; omega
    rw [UInt32.toNat_sub_of_le _ _ hle]; simp; omega

/-- `src/xmss.rs:78-123` (`xmss_sign`) -/
def xmss_sign (HP : Nat) (hashers : Hashers m K LEN M N) (msg sk_seed : List UInt8) (idx : UInt32)
    (pk_seed : List UInt8) (adrs : Adrs) : m (XmssSig HP LEN N) := do
  let hp32 ← u32TryFromUnwrap HP
  let auth : Vector (Vector UInt8 N) HP := Vector.replicate HP (zeroBytes N)
  let auth ← forU32 0 hp32 auth fun j auth => do
    let k ← shrU32 idx j
    let k := k ^^^ 1
    let node ← xmss_node hashers sk_seed k j pk_seed adrs
    let ju ← asUsize j
    vset auth ju node
  let adrs := adrs.set_type_and_clear WOTS_HASH
  let adrs := adrs.set_key_pair_address idx
  let sig_wots ← wots_sign hashers msg sk_seed pk_seed adrs
  pure { sig_wots, auth }

/-- `src/xmss.rs:132-203` (`xmss_pk_from_sig`) -/
def xmss_pk_from_sig {HP : Nat} (hashers : Hashers m K LEN M N) (idx : UInt32)
    (sig_xmss : XmssSig HP LEN N) (msg pk_seed : List UInt8) (adrs : Adrs) :
    m (Vector UInt8 N) := do
  let hp32 ← u32TryFromUnwrap HP
  let adrs := adrs.set_type_and_clear WOTS_HASH
  let adrs := adrs.set_key_pair_address idx
  let sig := sig_xmss.get_wots_sig
  let auth := sig_xmss.get_xmss_auth
  let pk ← wots_pk_from_sig hashers sig msg pk_seed adrs
  let node_0 := pk.val
  let adrs := adrs.set_type_and_clear TREE
  let adrs := adrs.set_tree_index idx
  let (_, node_0) ← forU32 0 hp32 (adrs, node_0) fun k (adrs, node_0) => do
    let k1 ← addU32 k 1
    let adrs := adrs.set_tree_height k1
    let t ← shrU32 idx k
    leak (.branch ((t &&& 1) == 0))
    if (t &&& 1) == 0 then do
      let tmp ← divU32 adrs.get_tree_index 2
      let adrs := adrs.set_tree_index tmp
      let ku ← asUsize k
      let a ← vget auth ku
      let node_1 ← hashers.h pk_seed adrs node_0.toList a.toList
      pure (adrs, node_1)
    else do
      let tmp ← subU32 adrs.get_tree_index 1
      let tmp ← divU32 tmp 2
      let adrs := adrs.set_tree_index tmp
      let ku ← asUsize k
      let a ← vget auth ku
      let node_1 ← hashers.h pk_seed adrs a.toList node_0.toList
      pure (adrs, node_1)
  pure node_0

end

end Fips205.Model
