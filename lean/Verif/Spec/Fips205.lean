/-!
# FIPS 205 (August 2024), Algorithms 2–25

Written from the standard over byte strings (`List UInt8`) and natural numbers, independently of the
model of the code: addresses are 32-byte strings, signatures are byte strings accessed by slices, and
there is no machine arithmetic.  `lg_w = 4`, as in all parameter sets of the standard.
-/

namespace Fips205.Spec

abbrev Bytes := List UInt8

/-- `X[a : b]` -/
def slice (X : Bytes) (a b : Nat) : Bytes := (X.drop a).take (b - a)

/-- The concatenation of `f 0`, ..., `f (k-1)`. -/
def concat (k : Nat) (f : Nat → Bytes) : Bytes := (List.range k).flatMap f

/-! ## 4.4 Conversions (Algorithms 2–4) -/

/-- Algorithm 2, `toInt(X, |X|)`: the big-endian value. -/
def toInt (X : Bytes) : Nat := X.foldl (fun t b => 256 * t + b.toNat) 0

/-- Algorithm 3, `toByte(x, n)`: the `n` low-order bytes, big-endian. -/
def toByte (x n : Nat) : Bytes := (List.range n).map fun i => UInt8.ofNat (x / 256 ^ (n - 1 - i))

/-- Algorithm 4, `base_2b(X, b, out_len)`, given by its meaning: digit `i` is the `b`-bit field that
starts `i * b` bits from the most significant end of `X`. -/
def base2b (X : Bytes) (b outLen : Nat) : List Nat :=
  (List.range outLen).map fun i => toInt X / 2 ^ (8 * X.length - (i + 1) * b) % 2 ^ b

/-! ## 4.2, 4.3 Addresses (Table 1) -/

def WOTS_HASH := 0
def WOTS_PK := 1
def TREE := 2
def FORS_TREE := 3
def FORS_ROOTS := 4
def WOTS_PRF := 5
def FORS_PRF := 6

def zeroAdrs : Bytes := toByte 0 32
def setLayerAddress (A : Bytes) (l : Nat) : Bytes := toByte l 4 ++ slice A 4 32
def setTreeAddress (A : Bytes) (t : Nat) : Bytes := slice A 0 4 ++ toByte t 12 ++ slice A 16 32
def setTypeAndClear (A : Bytes) (Y : Nat) : Bytes := slice A 0 16 ++ toByte Y 4 ++ toByte 0 12
def setKeyPairAddress (A : Bytes) (i : Nat) : Bytes := slice A 0 20 ++ toByte i 4 ++ slice A 24 32
def setChainAddress (A : Bytes) (i : Nat) : Bytes := slice A 0 24 ++ toByte i 4 ++ slice A 28 32
def setTreeHeight (A : Bytes) (i : Nat) : Bytes := slice A 0 24 ++ toByte i 4 ++ slice A 28 32
def setHashAddress (A : Bytes) (i : Nat) : Bytes := slice A 0 28 ++ toByte i 4
def setTreeIndex (A : Bytes) (i : Nat) : Bytes := slice A 0 28 ++ toByte i 4
def getKeyPairAddress (A : Bytes) : Nat := toInt (slice A 20 24)
def getTreeIndex (A : Bytes) : Nat := toInt (slice A 28 32)

/-- 11.2: the compressed address `ADRSᶜ`. -/
def compress (A : Bytes) : Bytes := slice A 3 4 ++ slice A 8 16 ++ slice A 19 20 ++ slice A 20 32

/-! ## Parameters and hash functions -/

/-- The parameters of Table 2 the algorithms use. -/
structure Params where
  n : Nat
  h : Nat
  d : Nat
  /-- `h'` -/
  hp : Nat
  a : Nat
  k : Nat
  m : Nat

/-- The functions of section 4.1. -/
structure HashFns where
  PRFmsg : (SKprf optRand M : Bytes) → Bytes
  Hmsg : (R PKseed PKroot M : Bytes) → Bytes
  PRF : (PKseed SKseed ADRS : Bytes) → Bytes
  F : (PKseed ADRS M1 : Bytes) → Bytes
  H : (PKseed ADRS M2 : Bytes) → Bytes
  /-- `T_ℓ` -/
  T : (PKseed ADRS Ml : Bytes) → Bytes

/-- `w = 2^lg_w` -/
def w : Nat := 16
/-- `len_2` -/
def len2 : Nat := 3
/-- `len_1` -/
def Params.len1 (p : Params) : Nat := 2 * p.n
/-- `len` -/
def Params.len (p : Params) : Nat := p.len1 + len2

section
variable (p : Params) (hf : HashFns)

/-! ## 5 WOTS+ (Algorithms 5–8) -/

/-- Algorithm 5, `chain(X, i, s, PK.seed, ADRS)` -/
def chain (X : Bytes) (i : Nat) : (s : Nat) → (PKseed ADRS : Bytes) → Bytes
  | 0, _, _ => X
  | s + 1, PKseed, ADRS =>
    hf.F PKseed (setHashAddress ADRS (i + s)) (chain X i s PKseed ADRS)

/-- Algorithms 6–8: address of the secret values of a WOTS+ key. -/
def wotsSkAdrs (ADRS : Bytes) : Bytes :=
  setKeyPairAddress (setTypeAndClear ADRS WOTS_PRF) (getKeyPairAddress ADRS)

/-- Algorithms 6 and 8: address for compressing a WOTS+ public key. -/
def wotsPkAdrs (ADRS : Bytes) : Bytes :=
  setKeyPairAddress (setTypeAndClear ADRS WOTS_PK) (getKeyPairAddress ADRS)

/-- Algorithm 6, `wots_PKgen(SK.seed, PK.seed, ADRS)` -/
def wotsPKgen (SKseed PKseed ADRS : Bytes) : Bytes :=
  hf.T PKseed (wotsPkAdrs ADRS) <| concat p.len fun i =>
    let sk := hf.PRF PKseed SKseed (setChainAddress (wotsSkAdrs ADRS) i)
    chain hf sk 0 (w - 1) PKseed (setChainAddress ADRS i)

/-- Algorithms 7 and 8, lines 1–7: the digits of the message followed by those of the checksum.
`csum ≪ 4` is `csum * 16`. -/
def wotsDigits (M : Bytes) : List Nat :=
  let msg := base2b M 4 p.len1
  let csum := (msg.map fun x => w - 1 - x).sum
  msg ++ base2b (toByte (csum * 16) 2) 4 len2

/-- Algorithm 7, `wots_sign(M, SK.seed, PK.seed, ADRS)` -/
def wotsSign (M SKseed PKseed ADRS : Bytes) : Bytes :=
  let msg := wotsDigits p M
  concat p.len fun i =>
    let sk := hf.PRF PKseed SKseed (setChainAddress (wotsSkAdrs ADRS) i)
    chain hf sk 0 (msg.getD i 0) PKseed (setChainAddress ADRS i)

/-- Algorithm 8, `wots_pkFromSig(sig, M, PK.seed, ADRS)` -/
def wotsPkFromSig (sig M PKseed ADRS : Bytes) : Bytes :=
  let msg := wotsDigits p M
  hf.T PKseed (wotsPkAdrs ADRS) <| concat p.len fun i =>
    chain hf (slice sig (i * p.n) ((i + 1) * p.n)) (msg.getD i 0) (w - 1 - msg.getD i 0) PKseed
      (setChainAddress ADRS i)

/-! ## 6 XMSS (Algorithms 9–11) -/

/-- Algorithm 9, `xmss_node(SK.seed, i, z, PK.seed, ADRS)` -/
def xmssNode (SKseed : Bytes) (i : Nat) : (z : Nat) → (PKseed ADRS : Bytes) → Bytes
  | 0, PKseed, ADRS =>
    wotsPKgen p hf SKseed PKseed (setKeyPairAddress (setTypeAndClear ADRS WOTS_HASH) i)
  | z + 1, PKseed, ADRS =>
    let lnode := xmssNode SKseed (2 * i) z PKseed ADRS
    let rnode := xmssNode SKseed (2 * i + 1) z PKseed ADRS
    hf.H PKseed (setTreeIndex (setTreeHeight (setTypeAndClear ADRS TREE) (z + 1)) i)
      (lnode ++ rnode)

/-- `k xor 1`: the sibling of node `k`. -/
def sibling (k : Nat) : Nat := if k % 2 = 0 then k + 1 else k - 1

/-- Algorithm 10, `xmss_sign(M, SK.seed, idx, PK.seed, ADRS)` -/
def xmssSign (M SKseed : Bytes) (idx : Nat) (PKseed ADRS : Bytes) : Bytes :=
  wotsSign p hf M SKseed PKseed (setKeyPairAddress (setTypeAndClear ADRS WOTS_HASH) idx) ++
  concat p.hp fun j => xmssNode p hf SKseed (sibling (idx / 2 ^ j)) j PKseed ADRS

/-- Algorithm 11 lines 8–18 and Algorithm 17 lines 8–18: climb from a leaf with index `idx` (in its
tree) to the root along an authentication path. The state is the address and the node. -/
def climb (PKseed : Bytes) (idx : Nat) (AUTH : Nat → Bytes) (levels : Nat) (ADRS node : Bytes) :
    Bytes × Bytes :=
  (List.range levels).foldl (fun (st : Bytes × Bytes) k =>
    let ADRS := setTreeHeight st.1 (k + 1)
    if (idx / 2 ^ k) % 2 = 0 then
      let ADRS := setTreeIndex ADRS (getTreeIndex ADRS / 2)
      (ADRS, hf.H PKseed ADRS (st.2 ++ AUTH k))
    else
      let ADRS := setTreeIndex ADRS ((getTreeIndex ADRS - 1) / 2)
      (ADRS, hf.H PKseed ADRS (AUTH k ++ st.2))) (ADRS, node)

/-- Algorithm 11, `xmss_PKFromSig(idx, SIG_XMSS, M, PK.seed, ADRS)` -/
def xmssPkFromSig (idx : Nat) (SIG M PKseed ADRS : Bytes) : Bytes :=
  let ADRS := setKeyPairAddress (setTypeAndClear ADRS WOTS_HASH) idx
  let sig := slice SIG 0 (p.len * p.n)
  let AUTH := slice SIG (p.len * p.n) ((p.len + p.hp) * p.n)
  let node := wotsPkFromSig p hf sig M PKseed ADRS
  let ADRS := setTreeIndex (setTypeAndClear ADRS TREE) idx
  (climb hf PKseed idx (fun k => slice AUTH (k * p.n) ((k + 1) * p.n)) p.hp ADRS node).2

/-! ## 7 The hypertree (Algorithms 12, 13) -/

/-- The address of the XMSS tree `idxTree` of layer `j`: Algorithm 12 lines 1–2, 9–10, Algorithm 13
lines 1–2, 8–9. -/
def htAdrs (j idxTree : Nat) : Bytes := setTreeAddress (setLayerAddress zeroAdrs j) idxTree

/-- Algorithm 12, `ht_sign(M, SK.seed, PK.seed, idx_tree, idx_leaf)`.  Written as a recursion over the
layers from `j` up: sign `M` in layer `j`, then the root of that tree in the layers above; `left` is the
number of layers that remain. -/
def htSignFrom (SKseed PKseed : Bytes) : (left j : Nat) → (M : Bytes) → (idxTree idxLeaf : Nat) → Bytes
  | 0, _, _, _, _ => []
  | left + 1, j, M, idxTree, idxLeaf =>
    let ADRS := htAdrs j idxTree
    let sig := xmssSign p hf M SKseed idxLeaf PKseed ADRS
    let root := xmssPkFromSig p hf idxLeaf sig M PKseed ADRS
    sig ++ htSignFrom SKseed PKseed left (j + 1) root (idxTree / 2 ^ p.hp) (idxTree % 2 ^ p.hp)

/-- Algorithm 12 -/
def htSign (M SKseed PKseed : Bytes) (idxTree idxLeaf : Nat) : Bytes :=
  htSignFrom p hf SKseed PKseed p.d 0 M idxTree idxLeaf

/-- Algorithm 13 lines 3–12: the root of the top tree computed from a hypertree signature. -/
def htRootFrom (PKseed : Bytes) :
    (left j : Nat) → (M SIG : Bytes) → (idxTree idxLeaf : Nat) → Bytes
  | 0, _, M, _, _, _ => M
  | left + 1, j, M, SIG, idxTree, idxLeaf =>
    let sz := (p.hp + p.len) * p.n
    let node := xmssPkFromSig p hf idxLeaf (slice SIG (j * sz) ((j + 1) * sz)) M PKseed
      (htAdrs j idxTree)
    htRootFrom PKseed left (j + 1) node SIG (idxTree / 2 ^ p.hp) (idxTree % 2 ^ p.hp)

/-- Algorithm 13, `ht_verify(M, SIG_HT, PK.seed, idx_tree, idx_leaf, PK.root)` -/
def htVerify (M SIG PKseed : Bytes) (idxTree idxLeaf : Nat) (PKroot : Bytes) : Bool :=
  htRootFrom p hf PKseed p.d 0 M SIG idxTree idxLeaf == PKroot

/-! ## 8 FORS (Algorithms 14–17) -/

/-- Algorithm 14, `fors_SKgen(SK.seed, PK.seed, ADRS, idx)` -/
def forsSKgen (SKseed PKseed ADRS : Bytes) (idx : Nat) : Bytes :=
  hf.PRF PKseed SKseed
    (setTreeIndex (setKeyPairAddress (setTypeAndClear ADRS FORS_PRF) (getKeyPairAddress ADRS)) idx)

/-- Algorithm 15, `fors_node(SK.seed, i, z, PK.seed, ADRS)` -/
def forsNode (SKseed : Bytes) (i : Nat) : (z : Nat) → (PKseed ADRS : Bytes) → Bytes
  | 0, PKseed, ADRS =>
    hf.F PKseed (setTreeIndex (setTreeHeight ADRS 0) i) (forsSKgen hf SKseed PKseed ADRS i)
  | z + 1, PKseed, ADRS =>
    let lnode := forsNode SKseed (2 * i) z PKseed ADRS
    let rnode := forsNode SKseed (2 * i + 1) z PKseed ADRS
    hf.H PKseed (setTreeIndex (setTreeHeight ADRS (z + 1)) i) (lnode ++ rnode)

/-- Algorithm 16, `fors_sign(md, SK.seed, PK.seed, ADRS)` -/
def forsSign (md SKseed PKseed ADRS : Bytes) : Bytes :=
  let indices := base2b md p.a p.k
  concat p.k fun i =>
    forsSKgen hf SKseed PKseed ADRS (i * 2 ^ p.a + indices.getD i 0) ++
    concat p.a fun j =>
      forsNode hf SKseed (i * 2 ^ (p.a - j) + sibling (indices.getD i 0 / 2 ^ j)) j PKseed ADRS

/-- Algorithm 17, `fors_pkFromSig(SIG_FORS, md, PK.seed, ADRS)`.  The key pair address of `ADRS` is
not changed by the loop, so `forspkADRS` is computed from the original `ADRS`; the height and index
fields are set before each use. -/
def forsPkFromSig (SIG md PKseed ADRS : Bytes) : Bytes :=
  let indices := base2b md p.a p.k
  let forspkADRS := setKeyPairAddress (setTypeAndClear ADRS FORS_ROOTS) (getKeyPairAddress ADRS)
  hf.T PKseed forspkADRS <| concat p.k fun i =>
    let sk := slice SIG (i * (p.a + 1) * p.n) ((i * (p.a + 1) + 1) * p.n)
    let AUTH := slice SIG ((i * (p.a + 1) + 1) * p.n) ((i + 1) * (p.a + 1) * p.n)
    let ADRS := setTreeIndex (setTreeHeight ADRS 0) (i * 2 ^ p.a + indices.getD i 0)
    let node := hf.F PKseed ADRS sk
    (climb hf PKseed (indices.getD i 0) (fun j => slice AUTH (j * p.n) ((j + 1) * p.n)) p.a ADRS
      node).2

/-! ## 9, 10 SLH-DSA (Algorithms 18–25) -/

/-- Algorithm 18: the root of the key pair with the given seeds. -/
def pkRoot (SKseed PKseed : Bytes) : Bytes :=
  xmssNode p hf SKseed 0 p.hp PKseed (setLayerAddress zeroAdrs (p.d - 1))

/-- Figures 15, 16: encoding of a private key. -/
def encodeSK (SKseed SKprf PKseed PKroot : Bytes) : Bytes := SKseed ++ SKprf ++ PKseed ++ PKroot
/-- Figure 16: encoding of a public key. -/
def encodePK (PKseed PKroot : Bytes) : Bytes := PKseed ++ PKroot

/-- Algorithm 18, `slh_keygen_internal(SK.seed, SK.prf, PK.seed)`: private and public key. -/
def keygenInternal (SKseed SKprf PKseed : Bytes) : Bytes × Bytes :=
  let PKroot := pkRoot p hf SKseed PKseed
  (encodeSK SKseed SKprf PKseed PKroot, encodePK PKseed PKroot)

/-- Algorithms 19 and 20: `md`, the first `⌈k·a/8⌉` bytes of the digest. -/
def digestMd (digest : Bytes) : Bytes := slice digest 0 ((p.k * p.a + 7) / 8)

/-- Algorithms 19 and 20: `idx_tree`, from the next `⌈(h - h/d)/8⌉` bytes. -/
def digestTree (digest : Bytes) : Nat :=
  let i1 := (p.k * p.a + 7) / 8
  let i2 := i1 + (p.h - p.h / p.d + 7) / 8
  toInt (slice digest i1 i2) % 2 ^ (p.h - p.h / p.d)

/-- Algorithms 19 and 20: `idx_leaf`, from the next `⌈h/8d⌉` bytes. -/
def digestLeaf (digest : Bytes) : Nat :=
  let i1 := (p.k * p.a + 7) / 8
  let i2 := i1 + (p.h - p.h / p.d + 7) / 8
  let i3 := i2 + (p.h + 8 * p.d - 1) / (8 * p.d)
  toInt (slice digest i2 i3) % 2 ^ (p.h / p.d)

/-- Algorithms 19 and 20: the address of the FORS key. -/
def forsAdrs (idxTree idxLeaf : Nat) : Bytes :=
  setKeyPairAddress (setTypeAndClear (setTreeAddress zeroAdrs idxTree) FORS_TREE) idxLeaf

/-- Algorithm 19 from line 4 on: the signature with randomizer `R`. -/
def signWithR (R M SKseed PKseed PKroot : Bytes) : Bytes :=
  let digest := hf.Hmsg R PKseed PKroot M
  let md := digestMd p digest
  let idxTree := digestTree p digest
  let idxLeaf := digestLeaf p digest
  let ADRS := forsAdrs idxTree idxLeaf
  let SIGfors := forsSign p hf md SKseed PKseed ADRS
  let PKfors := forsPkFromSig p hf SIGfors md PKseed ADRS
  R ++ SIGfors ++ htSign p hf PKfors SKseed PKseed idxTree idxLeaf

/-- Algorithm 19, `slh_sign_internal(M, SK, addrnd)`; `optRand` is `addrnd`, or `PK.seed` in the
deterministic variant. -/
def signInternal (M SKseed SKprf PKseed PKroot optRand : Bytes) : Bytes :=
  signWithR p hf (hf.PRFmsg SKprf optRand M) M SKseed PKseed PKroot

/-- The length of a signature. -/
def Params.sigLen : Nat := (1 + p.k * (1 + p.a) + p.h + p.d * p.len) * p.n

/-- Algorithm 20, `slh_verify_internal(M, SIG, PK)` -/
def verifyInternal (M SIG PKseed PKroot : Bytes) : Bool :=
  if SIG.length ≠ p.sigLen then false
  else
    let R := slice SIG 0 p.n
    let SIGfors := slice SIG p.n ((1 + p.k * (1 + p.a)) * p.n)
    let SIGht := slice SIG ((1 + p.k * (1 + p.a)) * p.n) ((1 + p.k * (1 + p.a) + p.h + p.d * p.len) * p.n)
    let digest := hf.Hmsg R PKseed PKroot M
    let md := digestMd p digest
    let idxTree := digestTree p digest
    let idxLeaf := digestLeaf p digest
    let PKfors := forsPkFromSig p hf SIGfors md PKseed (forsAdrs idxTree idxLeaf)
    htVerify p hf PKfors SIGht PKseed idxTree idxLeaf PKroot

/-- Algorithms 22 and 24: the message `M'` of a pure signature. -/
def pureMsg (ctx M : Bytes) : Bytes := toByte 0 1 ++ toByte ctx.length 1 ++ ctx ++ M

/-- Algorithms 23 and 25: the message `M'` of a pre-hash signature. -/
def prehashMsg (ctx OID PHM : Bytes) : Bytes := toByte 1 1 ++ toByte ctx.length 1 ++ ctx ++ OID ++ PHM

/-- Algorithm 22, `slh_sign(M, ctx, SK)`; `none` is `⊥` -/
def sign (M ctx SKseed SKprf PKseed PKroot optRand : Bytes) : Option Bytes :=
  if ctx.length > 255 then none
  else some (signInternal p hf (pureMsg ctx M) SKseed SKprf PKseed PKroot optRand)

/-- Algorithm 23, `hash_slh_sign(M, ctx, PH, SK)`, with the OID and digest `PH(M)` of the pre-hash. -/
def hashSign (OID PHM ctx SKseed SKprf PKseed PKroot optRand : Bytes) : Option Bytes :=
  if ctx.length > 255 then none
  else some (signInternal p hf (prehashMsg ctx OID PHM) SKseed SKprf PKseed PKroot optRand)

/-- Algorithm 24, `slh_verify(M, SIG, ctx, PK)` -/
def verify (M SIG ctx PKseed PKroot : Bytes) : Bool :=
  if ctx.length > 255 then false else verifyInternal p hf (pureMsg ctx M) SIG PKseed PKroot

/-- Algorithm 25, `hash_slh_verify(M, SIG, ctx, PH, PK)` -/
def hashVerify (OID PHM SIG ctx PKseed PKroot : Bytes) : Bool :=
  if ctx.length > 255 then false else verifyInternal p hf (prehashMsg ctx OID PHM) SIG PKseed PKroot

end

end Fips205.Spec
