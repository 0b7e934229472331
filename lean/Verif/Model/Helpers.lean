import Verif.Model.Types

/-! # `src/helpers.rs` (and the constants of `src/lib.rs:69-72`) -/

namespace Fips205.Model

/-- `src/lib.rs:70` -/
def LGW : UInt32 := 4
/-- `src/lib.rs:71` -/
def W : UInt32 := 16
/-- `src/lib.rs:72` -/
def LEN2 : UInt32 := 3

section
variable {m : Type → Type} [Rust m]

/-- `src/helpers.rs:9-27` (`to_int`).  `total` is a `u64`: the return type fixes it. -/
def to_int (x : List UInt8) (n : UInt32) : m UInt64 := do
  debugAssert (do let n ← asUsize n; pure (x.length == n))
  debugAssert (pure (n.toNat ≤ 8))
  let n ← asUsize n
  forEach (x.take n) 0 fun item total => do
    let t ← shlU64 total 8
    addU64 t item.toUInt64

/-- `src/helpers.rs:35-57` (`to_byte`).  The array length `((LEN2 * LGW + 7) / 8) as usize` is the
compile-time constant 2; `total.to_le_bytes()[0]` is the least significant byte. -/
def to_byte (x n : UInt32) : m (Vector UInt8 2) := do
  let s : Vector UInt8 2 := zeroBytes 2
  debugAssert (pure (n == 2))
  debugAssert (pure (n == 2))
  let (s, _) ← forU32 0 n (s, x) fun i (s, total) => do
    let t ← subU32 n 1
    let t ← subU32 t i
    let t ← asUsize t
    let s ← vset s t total.toUInt8
    let total ← shrU32 total 8
    pure (s, total)
  pure s

/-- The mutable variables of `base_2b`: `inn : usize`, `bits : u32`, `total : u32`
(`src/helpers.rs:71-77`). -/
structure Base2bState where
  inn : Nat
  bits : UInt32
  total : UInt32

/-- One iteration of the outer loop of `base_2b`, `src/helpers.rs:82-101`.  The `while` loop adds 8 to
`bits` in each iteration until it reaches `b`, so `b + 1` is enough fuel. -/
def base_2b_digit (x : List UInt8) (b : UInt32) (st : Base2bState) :
    m (UInt32 × Base2bState) := do
  let st ← whileFuel (fun st : Base2bState => decide (st.bits < b)) (fun st => do
      let t ← shlU32 st.total 8
      let xi ← lget x st.inn
      let total ← addU32 t xi.toUInt32
      let inn ← addUsize st.inn 1
      let bits ← addU32 st.bits 8
      pure { inn, bits, total }) (b.toNat + 1) st
  let bits ← subU32 st.bits b
  let hi ← shrU32 st.total bits
  let s ← subU32 32 b
  let mask ← shrU32 0xffffffff s
  pure (hi &&& mask, { st with bits })

/-- The outer loop of `base_2b`, `src/helpers.rs:80-104`: every element of the output slice is
overwritten in order. -/
def base_2b_loop (x : List UInt8) (b : UInt32) : List UInt32 → Base2bState → m (List UInt32)
  | [], _ => pure []
  | _ :: rest, st => do
    let (d, st) ← base_2b_digit x b st
    let ds ← base_2b_loop x b rest st
    pure (d :: ds)

/-- `src/helpers.rs:65-107` (`base_2b`).  `baseb` is the old contents of the output slice; the new
contents are returned. -/
def base_2b (x : List UInt8) (b out_len : UInt32) (baseb : List UInt32) : m (List UInt32) := do
  debugAssert (do
    let t ← mulU32 out_len b
    let t ← addU32 t 7
    let t ← divU32 t 8
    let t ← asUsize t
    pure (decide (t ≤ x.length)))
  debugAssert (pure (decide (b < 16)))
  debugAssert (do let o ← asUsize out_len; pure (o == baseb.length))
  leak (.trip baseb.length)
  base_2b_loop x b baseb { inn := 0, bits := 0, total := 0 }

/-- The length `N + N * K + K * A * N + D * (HP * N + LEN * N)` asserted in
`src/helpers.rs:121-126` and `153-158`. -/
def sigLenExpr (A D HP K LEN N : Nat) : m Nat := do
  let t1 ← mulUsize N K
  let t2 ← addUsize N t1
  let t3 ← mulUsize K A
  let t3 ← mulUsize t3 N
  let t4 ← addUsize t2 t3
  let t5 ← mulUsize HP N
  let t6 ← mulUsize LEN N
  let t7 ← addUsize t5 t6
  let t8 ← mulUsize D t7
  addUsize t4 t8

/-- `out[start..(start + N)].copy_from_slice(v); start += N;` — the step repeated throughout
`serialize` (`src/helpers.rs:130-131`, `133-134`, `139-141`, `144-145`). -/
def putChunk {L N : Nat} (v : Vector UInt8 N) (s : Vector UInt8 L × Nat) :
    m (Vector UInt8 L × Nat) := do
  let e ← addUsize s.2 N
  let out ← writeSlice s.1 s.2 e v.toList
  let start ← addUsize s.2 N
  pure (out, start)

/-- `src/helpers.rs:119-150` (`serialize`). -/
def SlhDsaSig.serialize {A D HP K LEN N : Nat} (SIG_LEN : Nat) (self : SlhDsaSig A D HP K LEN N) :
    m (Vector UInt8 SIG_LEN) := do
  let out := zeroBytes SIG_LEN
  debugAssert (do let e ← sigLenExpr A D HP K LEN N; pure (SIG_LEN == e))
  let out ← writeSlice out 0 N self.randomness.toList
  let start := N
  let s ← forUsize 0 K (out, start) fun k s => do
    let v ← vget self.fors_sig.private_key_value k
    let s ← putChunk v s
    forUsize 0 A s fun a s => do
      let au ← vget self.fors_sig.auth k
      let v ← vget au.tree a
      putChunk v s
  let s ← forUsize 0 D s fun d s => do
    let s ← forUsize 0 LEN s fun len s => do
      let xs ← vget self.ht_sig.xmss_sigs d
      let v ← vget xs.sig_wots.data len
      putChunk v s
    forUsize 0 HP s fun hp s => do
      let xs ← vget self.ht_sig.xmss_sigs d
      let v ← vget xs.auth hp
      putChunk v s
  debugAssert (pure (s.2 == SIG_LEN))
  pure s.1

/-- `dst.copy_from_slice(&bytes[start..(start + N)]); start += N;` — the step repeated throughout
`deserialize` (`src/helpers.rs:175-176`, `178-179`, `184-186`, `189-190`). -/
def getChunk (N : Nat) (bytes : List UInt8) (start : Nat) : m (Vector UInt8 N × Nat) := do
  let e ← addUsize start N
  let sl ← slice bytes start e
  let v ← copyFromSlice N sl
  let start ← addUsize start N
  pure (v, start)

/-- `src/helpers.rs:152-195` (`deserialize`). -/
def SlhDsaSig.deserialize (A D HP K LEN N : Nat) (bytes : List UInt8) :
    m (SlhDsaSig A D HP K LEN N) := do
  debugAssert (do let e ← sigLenExpr A D HP K LEN N; pure (bytes.length == e))
  let sl ← slice bytes 0 N
  let randomness ← copyFromSlice N sl
  let start := N
  let (fors_sig, start) ← forUsize 0 K (ForsSig.zero A K N, start) fun k (fs, start) => do
    let (v, start) ← getChunk N bytes start
    let pkv ← vset fs.private_key_value k v
    let fs := { fs with private_key_value := pkv }
    forUsize 0 A (fs, start) fun a (fs, start) => do
      let (v, start) ← getChunk N bytes start
      let au ← vget fs.auth k
      let tree ← vset au.tree a v
      let auth ← vset fs.auth k { tree }
      pure ({ fs with auth }, start)
  let (ht_sig, start) ← forUsize 0 D (HtSig.zero D HP LEN N, start) fun d (ht, start) => do
    let (ht, start) ← forUsize 0 LEN (ht, start) fun len (ht, start) => do
      let (v, start) ← getChunk N bytes start
      let xs ← vget ht.xmss_sigs d
      let data ← vset xs.sig_wots.data len v
      let xmss_sigs ← vset ht.xmss_sigs d { xs with sig_wots := { data } }
      pure ({ xmss_sigs }, start)
    forUsize 0 HP (ht, start) fun hp (ht, start) => do
      let (v, start) ← getChunk N bytes start
      let xs ← vget ht.xmss_sigs d
      let auth ← vset xs.auth hp v
      let xmss_sigs ← vset ht.xmss_sigs d { xs with auth }
      pure ({ xmss_sigs }, start)
  debugAssert (pure (start == bytes.length))
  pure { randomness, fors_sig, ht_sig }

end

namespace Adrs

/-- `src/helpers.rs:200` -/
def set_layer_address (a : Adrs) (la : UInt32) : Adrs := { a with f0 := u32ToBe la }

/-- `src/helpers.rs:202` -/
def get_key_pair_address (a : Adrs) : UInt32 := u32FromBe a.f5

/-- `src/helpers.rs:204` -/
def set_key_pair_address (a : Adrs) (kp_addr : UInt32) : Adrs := { a with f5 := u32ToBe kp_addr }

/-- `src/helpers.rs:206` -/
def set_chain_address (a : Adrs) (i : UInt32) : Adrs := { a with f6 := u32ToBe i }

/-- `src/helpers.rs:208-213` -/
def set_type_and_clear (a : Adrs) (type_t : UInt32) : Adrs :=
  { a with f4 := u32ToBe type_t, f5 := u32ToBe 0, f6 := u32ToBe 0, f7 := u32ToBe 0 }

/-- `src/helpers.rs:215-219` -/
def set_tree_address (a : Adrs) (t : UInt64) : Adrs :=
  let bytes := u64ToBe t
  { a with
    f2 := #v[bytes[0], bytes[1], bytes[2], bytes[3]]
    f3 := #v[bytes[4], bytes[5], bytes[6], bytes[7]] }

/-- `src/helpers.rs:221` -/
def set_hash_address (a : Adrs) (addr : UInt32) : Adrs := { a with f7 := u32ToBe addr }

/-- `src/helpers.rs:223` -/
def set_tree_height (a : Adrs) (z : UInt32) : Adrs := { a with f6 := u32ToBe z }

/-- `src/helpers.rs:225` -/
def get_tree_index (a : Adrs) : UInt32 := u32FromBe a.f7

/-- `src/helpers.rs:227` -/
def set_tree_index (a : Adrs) (i : UInt32) : Adrs := { a with f7 := u32ToBe i }

/-- The body of the loop of `to_32_bytes` (`src/helpers.rs:243-244`). -/
def putWord {m : Type → Type} [Rust m] (sl : Vector UInt8 4) (s : Vector UInt8 32 × Nat) :
    m (Vector UInt8 32 × Nat) := do
  let e ← addUsize s.2 4
  let ret ← writeSlice s.1 s.2 e sl.toList
  let start ← addUsize s.2 4
  pure (ret, start)

/-- `src/helpers.rs:237-247` (`to_32_bytes`) -/
def to_32_bytes {m : Type → Type} [Rust m] (a : Adrs) : m (Vector UInt8 32) := do
  let ret := zeroBytes 32
  let start := 0
  let (ret, _) ← forEach [a.f0, a.f1, a.f2, a.f3, a.f4, a.f5, a.f6, a.f7] (ret, start) putWord
  pure ret

/-- `src/helpers.rs:257-267` (`to_22_bytes`) -/
def to_22_bytes {m : Type → Type} [Rust m] (a : Adrs) : m (Vector UInt8 22) := do
  let ret := zeroBytes 22
  let ret ← vset ret 0 (← vget a.f0 3)
  let ret ← writeSlice ret 1 5 a.f2.toList
  let ret ← writeSlice ret 5 9 a.f3.toList
  let ret ← vset ret 9 (← vget a.f4 3)
  let ret ← writeSlice ret 10 14 a.f5.toList
  let ret ← writeSlice ret 14 18 a.f6.toList
  writeSlice ret 18 22 a.f7.toList

end Adrs

end Fips205.Model
