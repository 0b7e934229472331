import Verif.Model.Hashers

/-! # `src/wots.rs` -/

namespace Fips205.Model

section
variable {m : Type → Type} [Rust m] {K LEN M N : Nat}

/-- `src/wots.rs:16-43` (`chain`) -/
def chain (hashers : Hashers m K LEN M N) (cap_x : Vector UInt8 N) (i s : UInt32)
    (pk_seed : List UInt8) (adrs : Adrs) : m (Vector UInt8 N) := do
  debugAssert (do let t ← addU32 i s; pure (decide (t < 0xffffffff)))
  let e ← addU32 i s
  let (_, tmp) ← forU32 i e (adrs, cap_x) fun j (adrs, tmp) => do
    let adrs := adrs.set_hash_address j
    let tmp ← hashers.f pk_seed adrs tmp.toList
    pure (adrs, tmp)
  pure tmp

/-- `src/wots.rs:55-103` (`wots_pkgen`) -/
def wots_pkgen (hashers : Hashers m K LEN M N) (sk_seed pk_seed : List UInt8) (adrs : Adrs) :
    m (WotsPk N) := do
  let len32 ← u32TryFromUnwrap LEN
  let tmp : Vector (Vector UInt8 N) LEN := Vector.replicate LEN (zeroBytes N)
  let sk_adrs := adrs.set_type_and_clear WOTS_PRF
  let sk_adrs := sk_adrs.set_key_pair_address adrs.get_key_pair_address
  let (_, adrs, tmp) ← forU32 0 len32 (sk_adrs, adrs, tmp) fun i (sk_adrs, adrs, tmp) => do
    let sk_adrs := sk_adrs.set_chain_address i
    let sk ← hashers.prf pk_seed sk_seed sk_adrs
    let adrs := adrs.set_chain_address i
    let w1 ← subU32 W 1
    let c ← chain hashers sk 0 w1 pk_seed adrs
    let iu ← asUsize i
    let tmp ← vset tmp iu c
    pure (sk_adrs, adrs, tmp)
  let wotspk_adrs := adrs.set_type_and_clear WOTS_PK
  let wotspk_adrs := wotspk_adrs.set_key_pair_address adrs.get_key_pair_address
  let pk ← hashers.t_l pk_seed wotspk_adrs tmp
  pure { val := pk }

/-- `src/wots.rs:120-144`, the first part of `wots_sign`: the base-`w` digits of the message followed
by those of the checksum. -/
def wots_sign_digits (LEN N : Nat) (msg_bytes : List UInt8) (n32 : UInt32) : m (Vector UInt32 LEN) := do
  let msg : Vector UInt32 LEN := Vector.replicate LEN 0
  let ol ← mulU32 2 n32
  let tn ← mulUsize 2 N
  let old ← slice msg.toList 0 tn
  let new ← base_2b msg_bytes LGW ol old
  let msg ← writeSlice msg 0 tn new
  let tn ← mulUsize 2 N
  let csum ← forEach (msg.toList.take tn) 0 fun item csum => do
    let t ← subU32 W 1
    let t ← subU32 t item
    addU32 csum t
  let t ← mulU32 LEN2 LGW
  let t ← subU32 8 (t &&& 0x07)
  let csum ← shlU32 csum (t &&& 0x07)
  let t ← mulU32 LEN2 LGW
  let t ← addU32 t 7
  let t ← divU32 t 8
  let cb ← to_byte csum t
  let tn ← mulUsize 2 N
  let old ← slice msg.toList tn LEN
  let new ← base_2b cb.toList LGW LEN2 old
  writeSlice msg tn LEN new

/-- `src/wots.rs:112-175` (`wots_sign`).  `msg.iter().zip(0u32..)` is a loop over `msg` with a `u32`
counter. -/
def wots_sign (hashers : Hashers m K LEN M N) (msg_bytes sk_seed pk_seed : List UInt8)
    (adrs : Adrs) : m (WotsSig LEN N) := do
  let n32 ← u32TryFromUnwrap N
  let sig : Vector (Vector UInt8 N) LEN := Vector.replicate LEN (zeroBytes N)
  let msg ← wots_sign_digits LEN N msg_bytes n32
  let sk_addrs := adrs.set_type_and_clear WOTS_PRF
  let sk_addrs := sk_addrs.set_key_pair_address adrs.get_key_pair_address
  let (_, _, _, sig) ← forEach msg.toList ((0 : UInt32), sk_addrs, adrs, sig)
    fun item (i, sk_addrs, adrs, sig) => do
      let sk_addrs := sk_addrs.set_chain_address i
      let sk ← hashers.prf pk_seed sk_seed sk_addrs
      let adrs := adrs.set_chain_address i
      let c ← chain hashers sk 0 item pk_seed adrs
      let iu ← asUsize i
      let sig ← vset sig iu c
      let i ← addU32 i 1
      pure (i, sk_addrs, adrs, sig)
  pure { data := sig }

/-- `src/wots.rs:191-215`, the first part of `wots_pk_from_sig` (the code repeats the block of
`wots_sign`, and so does the model). -/
def wots_pk_digits (LEN N : Nat) (msg_bytes : List UInt8) (n32 : UInt32) : m (Vector UInt32 LEN) := do
  let msg : Vector UInt32 LEN := Vector.replicate LEN 0
  let ol ← mulU32 2 n32
  let tn ← mulUsize 2 N
  let old ← slice msg.toList 0 tn
  let new ← base_2b msg_bytes LGW ol old
  let msg ← writeSlice msg 0 tn new
  let tn ← mulUsize 2 N
  let csum ← forEach (msg.toList.take tn) 0 fun item csum => do
    let t ← subU32 W 1
    let t ← subU32 t item
    addU32 csum t
  let t ← mulU32 LEN2 LGW
  let t ← subU32 8 (t &&& 0x07)
  let csum ← shlU32 csum (t &&& 0x07)
  let t ← mulU32 LEN2 LGW
  let t ← addU32 t 7
  let t ← divU32 t 8
  let cb ← to_byte csum t
  let tn ← mulUsize 2 N
  let old ← slice msg.toList tn LEN
  let new ← base_2b cb.toList LGW LEN2 old
  writeSlice msg tn LEN new

/-- `src/wots.rs:183-251` (`wots_pk_from_sig`) -/
def wots_pk_from_sig (hashers : Hashers m K LEN M N) (sig : WotsSig LEN N)
    (msg_bytes pk_seed : List UInt8) (adrs : Adrs) : m (WotsPk N) := do
  let n32 ← u32TryFromUnwrap N
  let tmp : Vector (Vector UInt8 N) LEN := Vector.replicate LEN (zeroBytes N)
  let msg ← wots_pk_digits LEN N msg_bytes n32
  let (adrs, tmp) ← forUsize 0 LEN (adrs, tmp) fun i (adrs, tmp) => do
    let adrs := adrs.set_chain_address (usizeAsU32 i)
    let x ← vget sig.data i
    let d ← vget msg i
    let t ← subU32 W 1
    let d' ← vget msg i
    let s ← subU32 t d'
    let c ← chain hashers x d s pk_seed adrs
    let tmp ← vset tmp i c
    pure (adrs, tmp)
  let wotspk_adrs := adrs.set_type_and_clear WOTS_PK
  let wotspk_adrs := wotspk_adrs.set_key_pair_address adrs.get_key_pair_address
  let pk ← hashers.t_l pk_seed wotspk_adrs tmp
  pure { val := pk }

end

end Fips205.Model
