import Verif.Spec.Section11

/-! # What an accepted signature that is not the honest one reveals

The values computed while a signature is verified, next to those the owner of the key computes, and the
ways in which they can meet in the same public key.  Used to state C26 and C27. -/

namespace Fips205.Spec

section
variable (p : Params) (hf : HashFns)

/-- The index of the tree used in layer `j`. -/
def htTree (t j : Nat) : Nat := t / 2 ^ (p.hp * j)

/-- The index of the leaf used in layer `j`. -/
def htLeaf (t l : Nat) : Nat → Nat
  | 0 => l
  | j + 1 => htTree p t j % 2 ^ p.hp

/-- The size of an XMSS signature. -/
def Params.xmssLen : Nat := (p.hp + p.len) * p.n

/-- The node of layer `j` computed from the hypertree signature `SIG` on `M`: the message whose
signature layer `j` of `SIG` should be. -/
def rootMsg (PKseed SIG M : Bytes) (t l : Nat) : Nat → Bytes
  | 0 => M
  | j + 1 =>
    xmssPkFromSig p hf (htLeaf p t l j) (slice SIG (j * p.xmssLen) ((j + 1) * p.xmssLen))
      (rootMsg PKseed SIG M t l j) PKseed (htAdrs j (htTree p t j))

end

/-- The values of a verification: the key, the digest fields and the two parts of the signature. -/
structure Attempt where
  p : Params
  hf : HashFns
  SKseed : Bytes
  PKseed : Bytes
  /-- digest fields -/
  md : Bytes
  t : Nat
  l : Nat
  SIGfors : Bytes
  SIGht : Bytes

namespace Attempt
variable (c : Attempt)

/-! ## What the owner of the key computes

None of these values depends on the message or on the signature, except through the position `t`, `l`. -/

/-- The address of the tree used in layer `j`. -/
def adrs (j : Nat) : Bytes := htAdrs j (htTree c.p c.t j)

/-- The leaf used in layer `j`. -/
def leaf (j : Nat) : Nat := htLeaf c.p c.t c.l j

/-- The address of the WOTS+ key used in layer `j`. -/
def wotsAdrs (j : Nat) : Bytes := setKeyPairAddress (setTypeAndClear (c.adrs j) WOTS_HASH) (c.leaf j)

/-- The chain address of chain `i` of that key. -/
def chainAdrs (j i : Nat) : Bytes := setChainAddress (c.wotsAdrs j) i

/-- Value `s` of chain `i` of the WOTS+ key used in layer `j`. -/
def hChain (j i s : Nat) : Bytes :=
  chain c.hf (c.hf.PRF c.PKseed c.SKseed (setChainAddress (wotsSkAdrs (c.wotsAdrs j)) i)) 0 s c.PKseed
    (c.chainAdrs j i)

/-- Node `i` of height `k` of the XMSS tree used in layer `j`. -/
def hXmss (j i k : Nat) : Bytes := xmssNode c.p c.hf c.SKseed i k c.PKseed (c.adrs j)

/-- The address of the FORS key. -/
def fAdrs : Bytes := forsAdrs c.t c.l

/-- Node `i` of height `k` of the FORS trees. -/
def hFors (i k : Nat) : Bytes := forsNode c.hf c.SKseed i k c.PKseed c.fAdrs

/-- The address for compressing the FORS roots. -/
def fRootsAdrs : Bytes :=
  setKeyPairAddress (setTypeAndClear c.fAdrs FORS_ROOTS) (getKeyPairAddress c.fAdrs)

/-- The public key of the FORS key: the compressed roots of its trees. -/
def hForsPk : Bytes := c.hf.T c.PKseed c.fRootsAdrs (concat c.p.k fun i => c.hFors i c.p.a)

/-- The only value the owner ever signs with the WOTS+ key used in layer `j`: the FORS public key below
it, or the root of the XMSS tree below it. -/
def hMsg : Nat → Bytes
  | 0 => c.hForsPk
  | j + 1 => c.hXmss j 0 c.p.hp

/-- Digit `i` of that value. -/
def hDigit (j i : Nat) : Nat := (wotsDigits c.p (c.hMsg j)).getD i 0

/-! ## What the verifier computes from the signature -/

/-- The value layer `j` of the signature should sign. -/
def vMsg (j : Nat) : Bytes :=
  rootMsg c.p c.hf c.PKseed c.SIGht (forsPkFromSig c.p c.hf c.SIGfors c.md c.PKseed c.fAdrs) c.t c.l j

def vDigit (j i : Nat) : Nat := (wotsDigits c.p (c.vMsg j)).getD i 0

/-- Layer `j` of the signature. -/
def vLayer (j : Nat) : Bytes := slice c.SIGht (j * c.p.xmssLen) ((j + 1) * c.p.xmssLen)

/-- Element `i` of the WOTS+ signature of layer `j`. -/
def vWots (j i : Nat) : Bytes :=
  slice (slice (c.vLayer j) 0 (c.p.len * c.p.n)) (i * c.p.n) ((i + 1) * c.p.n)

/-- Element `k` of the authentication path of layer `j`. -/
def vAuth (j k : Nat) : Bytes :=
  slice (slice (c.vLayer j) (c.p.len * c.p.n) ((c.p.len + c.p.hp) * c.p.n)) (k * c.p.n) ((k + 1) * c.p.n)

/-- Value `s` of chain `i` of layer `j`, for `s` from the digit on. -/
def vChain (j i s : Nat) : Bytes :=
  chain c.hf (c.vWots j i) (c.vDigit j i) (s - c.vDigit j i) c.PKseed (c.chainAdrs j i)

/-- The node of height `k` on the path in layer `j`. -/
def vXmss (j k : Nat) : Bytes :=
  (climb c.hf c.PKseed (c.leaf j) (c.vAuth j) k
    (setTreeIndex (setTreeHeight (setTypeAndClear (c.adrs j) TREE) 0) (c.leaf j))
    (c.hf.T c.PKseed (wotsPkAdrs (c.wotsAdrs j)) (concat c.p.len fun i => c.vChain j i (w - 1)))).2

/-- The index of the leaf of FORS tree `i` the digest selects, in that tree. -/
def fDigit (i : Nat) : Nat := (base2b c.md c.p.a c.p.k).getD i 0

/-- The same, counted over all trees. -/
def fLeaf (i : Nat) : Nat := i * 2 ^ c.p.a + c.fDigit i

/-- The secret value for tree `i` in the signature. -/
def vSecret (i : Nat) : Bytes :=
  slice c.SIGfors (i * (c.p.a + 1) * c.p.n) ((i * (c.p.a + 1) + 1) * c.p.n)

/-- Element `k` of the authentication path of FORS tree `i`. -/
def vForsAuth (i k : Nat) : Bytes :=
  slice (slice c.SIGfors ((i * (c.p.a + 1) + 1) * c.p.n) ((i + 1) * (c.p.a + 1) * c.p.n))
    (k * c.p.n) ((k + 1) * c.p.n)

/-- The address of leaf `x` of the FORS trees. -/
def fLeafAdrs (x : Nat) : Bytes := setTreeIndex (setTreeHeight c.fAdrs 0) x

/-- The node of height `k` on the path in FORS tree `i`. -/
def vFors (i k : Nat) : Bytes :=
  (climb c.hf c.PKseed (c.fDigit i) (c.vForsAuth i) k (c.fLeafAdrs (c.fLeaf i))
    (c.hf.F c.PKseed (c.fLeafAdrs (c.fLeaf i)) (c.vSecret i))).2

/-- The secret value of leaf `x` of the FORS trees. -/
def hSecret (x : Nat) : Bytes := forsSKgen c.hf c.SKseed c.PKseed c.fAdrs x

/-- The two children hashed at a parent of node `x`, given the node and its sibling. -/
def children (x : Nat) (node sib : Bytes) : Bytes := if x % 2 = 0 then node ++ sib else sib ++ node

/-! ## Breaks -/

/-- What an accepted signature may reveal besides the honest one: at some place of the verification the
verifier hashes something else than the owner, with the same function, seed and address and the same
result; or the signature contains a chain value the owner never publishes. -/
inductive Break : Prop
  /-- a step of a WOTS+ chain -/
  | chainStep (j i s : Nat) (hj : j < c.p.d) (hi : i < c.p.len) (h1 : c.vDigit j i ≤ s) (h2 : s < w - 1)
      (ne : c.vChain j i s ≠ c.hChain j i s)
      (eq : c.hf.F c.PKseed (setHashAddress (c.chainAdrs j i) s) (c.vChain j i s) =
        c.hf.F c.PKseed (setHashAddress (c.chainAdrs j i) s) (c.hChain j i s))
  /-- compression of a WOTS+ public key -/
  | wotsPk (j : Nat) (hj : j < c.p.d)
      (ne : (concat c.p.len fun i => c.vChain j i (w - 1)) ≠ concat c.p.len fun i => c.hChain j i (w - 1))
      (eq : c.hf.T c.PKseed (wotsPkAdrs (c.wotsAdrs j)) (concat c.p.len fun i => c.vChain j i (w - 1)) =
        c.hf.T c.PKseed (wotsPkAdrs (c.wotsAdrs j)) (concat c.p.len fun i => c.hChain j i (w - 1)))
  /-- a node of an XMSS tree -/
  | xmssNode (j k : Nat) (hj : j < c.p.d) (hk : k < c.p.hp)
      (ne : children (c.leaf j / 2 ^ k) (c.vXmss j k) (c.vAuth j k) ≠
        children (c.leaf j / 2 ^ k) (c.hXmss j (c.leaf j / 2 ^ k) k)
          (c.hXmss j (sibling (c.leaf j / 2 ^ k)) k))
      (eq : c.hf.H c.PKseed
          (setTreeIndex (setTreeHeight (setTypeAndClear (c.adrs j) TREE) (k + 1)) (c.leaf j / 2 ^ (k + 1)))
          (children (c.leaf j / 2 ^ k) (c.vXmss j k) (c.vAuth j k)) =
        c.hf.H c.PKseed
          (setTreeIndex (setTreeHeight (setTypeAndClear (c.adrs j) TREE) (k + 1)) (c.leaf j / 2 ^ (k + 1)))
          (children (c.leaf j / 2 ^ k) (c.hXmss j (c.leaf j / 2 ^ k) k)
            (c.hXmss j (sibling (c.leaf j / 2 ^ k)) k)))
  /-- compression of the FORS roots -/
  | forsPk (ne : (concat c.p.k fun i => c.vFors i c.p.a) ≠ concat c.p.k fun i => c.hFors i c.p.a)
      (eq : c.hf.T c.PKseed c.fRootsAdrs (concat c.p.k fun i => c.vFors i c.p.a) =
        c.hf.T c.PKseed c.fRootsAdrs (concat c.p.k fun i => c.hFors i c.p.a))
  /-- a node of a FORS tree -/
  | forsNode (i k : Nat) (hi : i < c.p.k) (hk : k < c.p.a)
      (ne : children (c.fLeaf i / 2 ^ k) (c.vFors i k) (c.vForsAuth i k) ≠
        children (c.fLeaf i / 2 ^ k) (c.hFors (c.fLeaf i / 2 ^ k) k)
          (c.hFors (sibling (c.fLeaf i / 2 ^ k)) k))
      (eq : c.hf.H c.PKseed (setTreeIndex (setTreeHeight c.fAdrs (k + 1)) (c.fLeaf i / 2 ^ (k + 1)))
          (children (c.fLeaf i / 2 ^ k) (c.vFors i k) (c.vForsAuth i k)) =
        c.hf.H c.PKseed (setTreeIndex (setTreeHeight c.fAdrs (k + 1)) (c.fLeaf i / 2 ^ (k + 1)))
          (children (c.fLeaf i / 2 ^ k) (c.hFors (c.fLeaf i / 2 ^ k) k)
            (c.hFors (sibling (c.fLeaf i / 2 ^ k)) k)))
  /-- a leaf of a FORS tree -/
  | forsLeaf (i : Nat) (hi : i < c.p.k) (ne : c.vSecret i ≠ c.hSecret (c.fLeaf i))
      (eq : c.hf.F c.PKseed (c.fLeafAdrs (c.fLeaf i)) (c.vSecret i) =
        c.hf.F c.PKseed (c.fLeafAdrs (c.fLeaf i)) (c.hSecret (c.fLeaf i)))
  /-- the signature signs another value than the owner does with this WOTS+ key, and contains a value
  of one of its chains that lies before the one the owner publishes -/
  | unpublished (j i : Nat) (hj : j < c.p.d) (hi : i < c.p.len) (ne : c.vMsg j ≠ c.hMsg j)
      (lt : c.vDigit j i < c.hDigit j i) (eq : c.vWots j i = c.hChain j i (c.vDigit j i))

end Attempt

/-- The attempt a signature makes against the key with the given seeds. -/
def attempt (p : Params) (hf : HashFns) (M SIG SKseed PKseed PKroot : Bytes) : Attempt :=
  let digest := hf.Hmsg (slice SIG 0 p.n) PKseed PKroot M
  { p, hf, SKseed, PKseed
    md := digestMd p digest
    t := digestTree p digest
    l := digestLeaf p digest
    SIGfors := slice SIG p.n ((1 + p.k * (1 + p.a)) * p.n)
    SIGht := slice SIG ((1 + p.k * (1 + p.a)) * p.n) ((1 + p.k * (1 + p.a) + p.h + p.d * p.len) * p.n) }

end Fips205.Spec
