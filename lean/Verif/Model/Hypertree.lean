import Verif.Model.Xmss

/-! # `src/hypertree.rs` -/

namespace Fips205.Model

section
variable {m : Type → Type} [Rust m] {K LEN M N : Nat}

/-- The mutable variables of the loop of `ht_sign` (`src/hypertree.rs:25-49`). -/
structure HtSignState (D HP LEN N : Nat) where
  idx_tree : UInt64
  adrs : Adrs
  sig_ht : Vector (XmssSig HP LEN N) D
  root : Vector UInt8 N

/-- `src/hypertree.rs:13-91` (`ht_sign`) -/
def ht_sign (D HP : Nat) (hashers : Hashers m K LEN M N) (msg sk_seed pk_seed : List UInt8)
    (idx_tree : UInt64) (idx_leaf : UInt32) : m (Except String (HtSig D HP LEN N)) := do
  let d32 ← u32TryFromUnwrap D
  let hp32 ← u32TryFromUnwrap HP
  let adrs := Adrs.default
  let adrs := adrs.set_tree_address idx_tree
  let sig_tmp ← xmss_sign HP hashers msg sk_seed idx_leaf pk_seed adrs
  let sig_ht := (HtSig.zero D HP LEN N).xmss_sigs
  let sig_ht ← vset sig_ht 0 sig_tmp
  let root ← xmss_pk_from_sig hashers idx_leaf sig_tmp msg pk_seed adrs
  let r ← forU32E 1 d32 { idx_tree, adrs, sig_ht, root : HtSignState D HP LEN N } fun j st => do
    let t ← shlU64 1 hp32
    let t ← subU64 t 1
    let r := u32TryFromU64 (st.idx_tree &&& t)
    leak (.branch r.isOk)
    match r with
    | .error _ => pure (.error "Alg11: oversized idx leaf")
    | .ok idx_leaf => do
      let idx_tree ← shrU64 st.idx_tree hp32
      let adrs := st.adrs.set_layer_address j
      let adrs := adrs.set_tree_address idx_tree
      let sig_tmp ← xmss_sign HP hashers st.root.toList sk_seed idx_leaf pk_seed adrs
      let ju ← asUsize j
      let sig_ht ← vset st.sig_ht ju sig_tmp
      let d1 ← subU32 d32 1
      leak (.branch (decide (j < d1)))
      if j < d1 then do
        let root ← xmss_pk_from_sig hashers idx_leaf sig_tmp st.root.toList pk_seed adrs
        pure (.ok { idx_tree, adrs, sig_ht, root })
      else
        pure (.ok { idx_tree, adrs, sig_ht, root := st.root })
  match r with
  | .error e => pure (.error e)
  | .ok st => pure (.ok { xmss_sigs := st.sig_ht })

/-- The mutable variables of the loop of `ht_verify` (`src/hypertree.rs:111-124`). -/
structure HtVerifyState (N : Nat) where
  idx_tree : UInt64
  adrs : Adrs
  node : Vector UInt8 N

/-- `src/hypertree.rs:100-161` (`ht_verify`).  `return false` inside the loop is the error case of the
loop. -/
def ht_verify {D HP : Nat} (hashers : Hashers m K LEN M N) (msg : List UInt8)
    (sig_ht : HtSig D HP LEN N) (pk_seed : List UInt8) (idx_tree : UInt64) (idx_leaf : UInt32)
    (pk_root : Vector UInt8 N) : m Bool := do
  let d32 ← u32TryFromUnwrap D
  let hp32 ← u32TryFromUnwrap HP
  let adrs := Adrs.default
  let adrs := adrs.set_tree_address idx_tree
  let sig_tmp ← vget sig_ht.xmss_sigs 0
  let node ← xmss_pk_from_sig hashers idx_leaf sig_tmp msg pk_seed adrs
  let r ← forU32E 1 d32 { idx_tree, adrs, node : HtVerifyState N } fun j st => do
    let t ← shlU64 1 hp32
    let t ← subU64 t 1
    let r := u32TryFromU64 (st.idx_tree &&& t)
    leak (.branch r.isOk)
    match r with
    | .error _ => pure (.error ())
    | .ok idx_leaf => do
      let idx_tree ← shrU64 st.idx_tree hp32
      let adrs := st.adrs.set_layer_address j
      let adrs := adrs.set_tree_address idx_tree
      let ju ← asUsize j
      let sig_tmp ← vget sig_ht.xmss_sigs ju
      let node ← xmss_pk_from_sig hashers idx_leaf sig_tmp st.node.toList pk_seed adrs
      pure (.ok { idx_tree, adrs, node })
  match r with
  | .error _ => pure false
  | .ok st => do
    leak (.cmp st.node.toList pk_root.toList)
    pure (decide (st.node = pk_root))

end

end Fips205.Model
