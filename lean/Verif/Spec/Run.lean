import Verif.Spec.Calls

/-!
# FIPS 205 with the calls of hash functions

The algorithms of `Verif.Spec.Fips205` and the functions of `Verif.Spec.Section11` once more, written as in
the standard as sequences of steps: every evaluation of SHA-256, SHA-512 and SHAKE is a step that is
recorded.  Used to state C63.  That the values are those of `Verif.Spec.Fips205` is proved in
`Verif.Proofs.Run`.
-/

namespace Fips205.Spec

/-- A value and the calls of hash functions made to compute it, in order. -/
structure Run (α : Type) where
  log : List Call
  val : α

namespace Run

instance : Monad Run where
  pure v := ⟨[], v⟩
  bind x f := ⟨x.log ++ (f x.val).log, (f x.val).val⟩

/-- The concatenation of the results of `f 0`, ..., `f (n-1)`, computed in this order. -/
def concat : (n : Nat) → (f : Nat → Run Bytes) → Run Bytes
  | 0, _ => pure []
  | n + 1, f => do
    let x ← concat n f
    let y ← f n
    pure (x ++ y)

/-! ## Section 11 -/

/-- The functions of section 4.1. -/
structure Fns where
  PRFmsg : (SKprf optRand M : Bytes) → Run Bytes
  Hmsg : (R PKseed PKroot M : Bytes) → Run Bytes
  PRF : (PKseed SKseed ADRS : Bytes) → Run Bytes
  F : (PKseed ADRS M1 : Bytes) → Run Bytes
  H : (PKseed ADRS M2 : Bytes) → Run Bytes
  T : (PKseed ADRS Ml : Bytes) → Run Bytes

section
variable (P : Prims)

def sha256 (X : Bytes) : Run Bytes := ⟨[⟨.sha256, X⟩], (P.sha256 X).toList⟩
def sha512 (X : Bytes) : Run Bytes := ⟨[⟨.sha512, X⟩], (P.sha512 X).toList⟩
def shake256 (X : Bytes) (n : Nat) : Run Bytes := ⟨[⟨.shake256, X⟩], (P.shake256 X n).toList⟩

/-- The first `n` bytes of the result. -/
def truncated (n : Nat) (x : Run Bytes) : Run Bytes := do
  let y ← x
  pure (trunc n y)

/-- RFC 8017 appendix B.2.1, `MGF1(seed, len)` -/
def mgf1 (hash : Bytes → Run Bytes) (hLen : Nat) (seed : Bytes) (len : Nat) : Run Bytes :=
  truncated len (concat ((len + hLen - 1) / hLen) fun c => hash (seed ++ toByte c 4))

/-- FIPS 198-1 -/
def hmac (hash : Bytes → Run Bytes) (B : Nat) (K text : Bytes) : Run Bytes := do
  let K0 ← if K.length ≤ B then pure K else hash K
  let K0 := K0 ++ List.replicate (B - K0.length) 0
  let inner ← hash (K0.map (· ^^^ 0x36) ++ text)
  hash (K0.map (· ^^^ 0x5c) ++ inner)

/-- 11.1 -/
def shakeFns (n m : Nat) : Fns where
  Hmsg R PKseed PKroot M := shake256 P (R ++ PKseed ++ PKroot ++ M) m
  PRF PKseed SKseed ADRS := shake256 P (PKseed ++ ADRS ++ SKseed) n
  PRFmsg SKprf optRand M := shake256 P (SKprf ++ optRand ++ M) n
  F PKseed ADRS M1 := shake256 P (PKseed ++ ADRS ++ M1) n
  H PKseed ADRS M2 := shake256 P (PKseed ++ ADRS ++ M2) n
  T PKseed ADRS Ml := shake256 P (PKseed ++ ADRS ++ Ml) n

/-- 11.2.1 -/
def sha2Cat1Fns (n m : Nat) : Fns where
  Hmsg R PKseed PKroot M := do
    let x ← sha256 P (R ++ PKseed ++ PKroot ++ M)
    mgf1 (sha256 P) 32 (R ++ PKseed ++ x) m
  PRF PKseed SKseed ADRS :=
    truncated n (sha256 P (PKseed ++ toByte 0 (64 - n) ++ compress ADRS ++ SKseed))
  PRFmsg SKprf optRand M := truncated n (hmac (sha256 P) 64 SKprf (optRand ++ M))
  F PKseed ADRS M1 := truncated n (sha256 P (PKseed ++ toByte 0 (64 - n) ++ compress ADRS ++ M1))
  H PKseed ADRS M2 := truncated n (sha256 P (PKseed ++ toByte 0 (64 - n) ++ compress ADRS ++ M2))
  T PKseed ADRS Ml := truncated n (sha256 P (PKseed ++ toByte 0 (64 - n) ++ compress ADRS ++ Ml))

/-- 11.2.2 -/
def sha2Cat35Fns (n m : Nat) : Fns where
  Hmsg R PKseed PKroot M := do
    let x ← sha512 P (R ++ PKseed ++ PKroot ++ M)
    mgf1 (sha512 P) 64 (R ++ PKseed ++ x) m
  PRF PKseed SKseed ADRS :=
    truncated n (sha256 P (PKseed ++ toByte 0 (64 - n) ++ compress ADRS ++ SKseed))
  PRFmsg SKprf optRand M := truncated n (hmac (sha512 P) 128 SKprf (optRand ++ M))
  F PKseed ADRS M1 := truncated n (sha256 P (PKseed ++ toByte 0 (64 - n) ++ compress ADRS ++ M1))
  H PKseed ADRS M2 := truncated n (sha512 P (PKseed ++ toByte 0 (128 - n) ++ compress ADRS ++ M2))
  T PKseed ADRS Ml := truncated n (sha512 P (PKseed ++ toByte 0 (128 - n) ++ compress ADRS ++ Ml))

/-- The functions of a parameter set. -/
def hashFns : Family → Row → Fns
  | .shake, r => shakeFns P r.n r.m
  | .sha2, r => if r.category = 1 then sha2Cat1Fns P r.n r.m else sha2Cat35Fns P r.n r.m

/-- Algorithms 23 and 25: the digest of the message. -/
def preHash (M : Bytes) (ph : PreHash) : Run Bytes := ⟨[⟨ph, M⟩], Spec.preHash P M ph⟩

end

section
variable (p : Params) (h : Fns)

/-! ## WOTS+ -/

/-- Algorithm 5 -/
def chain (X : Bytes) (i : Nat) : (s : Nat) → (PKseed ADRS : Bytes) → Run Bytes
  | 0, _, _ => pure X
  | s + 1, PKseed, ADRS => do
    let tmp ← chain X i s PKseed ADRS
    h.F PKseed (setHashAddress ADRS (i + s)) tmp

/-- Algorithm 6 -/
def wotsPKgen (SKseed PKseed ADRS : Bytes) : Run Bytes := do
  let tmp ← concat p.len fun i => do
    let sk ← h.PRF PKseed SKseed (setChainAddress (wotsSkAdrs ADRS) i)
    chain h sk 0 (w - 1) PKseed (setChainAddress ADRS i)
  h.T PKseed (wotsPkAdrs ADRS) tmp

/-- Algorithm 7 -/
def wotsSign (M SKseed PKseed ADRS : Bytes) : Run Bytes :=
  concat p.len fun i => do
    let sk ← h.PRF PKseed SKseed (setChainAddress (wotsSkAdrs ADRS) i)
    chain h sk 0 ((wotsDigits p M).getD i 0) PKseed (setChainAddress ADRS i)

/-- Algorithm 8 -/
def wotsPkFromSig (sig M PKseed ADRS : Bytes) : Run Bytes := do
  let msg := wotsDigits p M
  let tmp ← concat p.len fun i =>
    chain h (slice sig (i * p.n) ((i + 1) * p.n)) (msg.getD i 0) (w - 1 - msg.getD i 0) PKseed
      (setChainAddress ADRS i)
  h.T PKseed (wotsPkAdrs ADRS) tmp

/-! ## XMSS -/

/-- Algorithm 9 -/
def xmssNode (SKseed : Bytes) (i : Nat) : (z : Nat) → (PKseed ADRS : Bytes) → Run Bytes
  | 0, PKseed, ADRS =>
    wotsPKgen p h SKseed PKseed (setKeyPairAddress (setTypeAndClear ADRS WOTS_HASH) i)
  | z + 1, PKseed, ADRS => do
    let lnode ← xmssNode SKseed (2 * i) z PKseed ADRS
    let rnode ← xmssNode SKseed (2 * i + 1) z PKseed ADRS
    h.H PKseed (setTreeIndex (setTreeHeight (setTypeAndClear ADRS TREE) (z + 1)) i) (lnode ++ rnode)

/-- Algorithm 10: first the authentication path, then the WOTS+ signature. -/
def xmssSign (M SKseed : Bytes) (idx : Nat) (PKseed ADRS : Bytes) : Run Bytes := do
  let AUTH ← concat p.hp fun j => xmssNode p h SKseed (sibling (idx / 2 ^ j)) j PKseed ADRS
  let sig ← wotsSign p h M SKseed PKseed (setKeyPairAddress (setTypeAndClear ADRS WOTS_HASH) idx)
  pure (sig ++ AUTH)

/-- Algorithm 11 lines 8–18 and Algorithm 17 lines 8–18: the address and the node after `levels` steps. -/
def climb (PKseed : Bytes) (idx : Nat) (AUTH : Nat → Bytes) : (levels : Nat) → (ADRS node : Bytes) →
    Run (Bytes × Bytes)
  | 0, ADRS, node => pure (ADRS, node)
  | k + 1, ADRS, node => do
    let st ← climb PKseed idx AUTH k ADRS node
    let ADRS := setTreeHeight st.1 (k + 1)
    if (idx / 2 ^ k) % 2 = 0 then
      let ADRS := setTreeIndex ADRS (getTreeIndex ADRS / 2)
      let node ← h.H PKseed ADRS (st.2 ++ AUTH k)
      pure (ADRS, node)
    else
      let ADRS := setTreeIndex ADRS ((getTreeIndex ADRS - 1) / 2)
      let node ← h.H PKseed ADRS (AUTH k ++ st.2)
      pure (ADRS, node)

/-- Algorithm 11 -/
def xmssPkFromSig (idx : Nat) (SIG M PKseed ADRS : Bytes) : Run Bytes := do
  let ADRS := setKeyPairAddress (setTypeAndClear ADRS WOTS_HASH) idx
  let sig := slice SIG 0 (p.len * p.n)
  let AUTH := slice SIG (p.len * p.n) ((p.len + p.hp) * p.n)
  let node ← wotsPkFromSig p h sig M PKseed ADRS
  let ADRS := setTreeIndex (setTypeAndClear ADRS TREE) idx
  let st ← climb h PKseed idx (fun k => slice AUTH (k * p.n) ((k + 1) * p.n)) p.hp ADRS node
  pure st.2

/-! ## The hypertree -/

/-- Algorithm 12: the layers from `j` up, of which `left` remain.  The root is computed in all layers but
the last. -/
def htSignFrom (SKseed PKseed : Bytes) :
    (left j : Nat) → (M : Bytes) → (idxTree idxLeaf : Nat) → Run Bytes
  | 0, _, _, _, _ => pure []
  | left + 1, j, M, idxTree, idxLeaf => do
    let ADRS := htAdrs j idxTree
    let sig ← xmssSign p h M SKseed idxLeaf PKseed ADRS
    if left = 0 then pure sig
    else
      let root ← xmssPkFromSig p h idxLeaf sig M PKseed ADRS
      let rest ← htSignFrom SKseed PKseed left (j + 1) root (idxTree / 2 ^ p.hp) (idxTree % 2 ^ p.hp)
      pure (sig ++ rest)

/-- Algorithm 12 -/
def htSign (M SKseed PKseed : Bytes) (idxTree idxLeaf : Nat) : Run Bytes :=
  htSignFrom p h SKseed PKseed p.d 0 M idxTree idxLeaf

/-- Algorithm 13 lines 3–12 -/
def htRootFrom (PKseed : Bytes) :
    (left j : Nat) → (M SIG : Bytes) → (idxTree idxLeaf : Nat) → Run Bytes
  | 0, _, M, _, _, _ => pure M
  | left + 1, j, M, SIG, idxTree, idxLeaf => do
    let sz := (p.hp + p.len) * p.n
    let node ← xmssPkFromSig p h idxLeaf (slice SIG (j * sz) ((j + 1) * sz)) M PKseed (htAdrs j idxTree)
    htRootFrom PKseed left (j + 1) node SIG (idxTree / 2 ^ p.hp) (idxTree % 2 ^ p.hp)

/-- Algorithm 13 -/
def htVerify (M SIG PKseed : Bytes) (idxTree idxLeaf : Nat) (PKroot : Bytes) : Run Bool := do
  let node ← htRootFrom p h PKseed p.d 0 M SIG idxTree idxLeaf
  pure (node == PKroot)

/-! ## FORS -/

/-- Algorithm 14 -/
def forsSKgen (SKseed PKseed ADRS : Bytes) (idx : Nat) : Run Bytes :=
  h.PRF PKseed SKseed
    (setTreeIndex (setKeyPairAddress (setTypeAndClear ADRS FORS_PRF) (getKeyPairAddress ADRS)) idx)

/-- Algorithm 15 -/
def forsNode (SKseed : Bytes) (i : Nat) : (z : Nat) → (PKseed ADRS : Bytes) → Run Bytes
  | 0, PKseed, ADRS => do
    let sk ← forsSKgen h SKseed PKseed ADRS i
    h.F PKseed (setTreeIndex (setTreeHeight ADRS 0) i) sk
  | z + 1, PKseed, ADRS => do
    let lnode ← forsNode SKseed (2 * i) z PKseed ADRS
    let rnode ← forsNode SKseed (2 * i + 1) z PKseed ADRS
    h.H PKseed (setTreeIndex (setTreeHeight ADRS (z + 1)) i) (lnode ++ rnode)

/-- Algorithm 16 -/
def forsSign (md SKseed PKseed ADRS : Bytes) : Run Bytes :=
  let indices := base2b md p.a p.k
  concat p.k fun i => do
    let sk ← forsSKgen h SKseed PKseed ADRS (i * 2 ^ p.a + indices.getD i 0)
    let AUTH ← concat p.a fun j =>
      forsNode h SKseed (i * 2 ^ (p.a - j) + sibling (indices.getD i 0 / 2 ^ j)) j PKseed ADRS
    pure (sk ++ AUTH)

/-- Algorithm 17 -/
def forsPkFromSig (SIG md PKseed ADRS : Bytes) : Run Bytes := do
  let indices := base2b md p.a p.k
  let forspkADRS := setKeyPairAddress (setTypeAndClear ADRS FORS_ROOTS) (getKeyPairAddress ADRS)
  let root ← concat p.k fun i => do
    let sk := slice SIG (i * (p.a + 1) * p.n) ((i * (p.a + 1) + 1) * p.n)
    let AUTH := slice SIG ((i * (p.a + 1) + 1) * p.n) ((i + 1) * (p.a + 1) * p.n)
    let ADRS := setTreeIndex (setTreeHeight ADRS 0) (i * 2 ^ p.a + indices.getD i 0)
    let node ← h.F PKseed ADRS sk
    let st ← climb h PKseed (indices.getD i 0) (fun j => slice AUTH (j * p.n) ((j + 1) * p.n)) p.a ADRS node
    pure st.2
  h.T PKseed forspkADRS root

/-! ## SLH-DSA -/

/-- Algorithm 18: the root of the key pair with the given seeds. -/
def pkRoot (SKseed PKseed : Bytes) : Run Bytes :=
  xmssNode p h SKseed 0 p.hp PKseed (setLayerAddress zeroAdrs (p.d - 1))

/-- Algorithm 19 -/
def signInternal (M SKseed SKprf PKseed PKroot optRand : Bytes) : Run Bytes := do
  let R ← h.PRFmsg SKprf optRand M
  let digest ← h.Hmsg R PKseed PKroot M
  let md := digestMd p digest
  let idxTree := digestTree p digest
  let idxLeaf := digestLeaf p digest
  let ADRS := forsAdrs idxTree idxLeaf
  let SIGfors ← forsSign p h md SKseed PKseed ADRS
  let PKfors ← forsPkFromSig p h SIGfors md PKseed ADRS
  let SIGht ← htSign p h PKfors SKseed PKseed idxTree idxLeaf
  pure (R ++ SIGfors ++ SIGht)

/-- Algorithm 20 -/
def verifyInternal (M SIG PKseed PKroot : Bytes) : Run Bool :=
  if SIG.length ≠ p.sigLen then pure false
  else do
    let R := slice SIG 0 p.n
    let SIGfors := slice SIG p.n ((1 + p.k * (1 + p.a)) * p.n)
    let SIGht := slice SIG ((1 + p.k * (1 + p.a)) * p.n) ((1 + p.k * (1 + p.a) + p.h + p.d * p.len) * p.n)
    let digest ← h.Hmsg R PKseed PKroot M
    let md := digestMd p digest
    let idxTree := digestTree p digest
    let idxLeaf := digestLeaf p digest
    let PKfors ← forsPkFromSig p h SIGfors md PKseed (forsAdrs idxTree idxLeaf)
    htVerify p h PKfors SIGht PKseed idxTree idxLeaf PKroot

/-- Algorithm 22; `none` is `⊥` -/
def sign (M ctx SKseed SKprf PKseed PKroot optRand : Bytes) : Run (Option Bytes) :=
  if ctx.length > 255 then pure none
  else do
    let SIG ← signInternal p h (pureMsg ctx M) SKseed SKprf PKseed PKroot optRand
    pure (some SIG)

/-- Algorithm 23 -/
def hashSign (P : Prims) (ph : PreHash) (M ctx SKseed SKprf PKseed PKroot optRand : Bytes) :
    Run (Option Bytes) :=
  if ctx.length > 255 then pure none
  else do
    let PHM ← preHash P M ph
    let SIG ← signInternal p h (prehashMsg ctx (oid ph) PHM) SKseed SKprf PKseed PKroot optRand
    pure (some SIG)

/-- Algorithm 24 -/
def verify (M SIG ctx PKseed PKroot : Bytes) : Run Bool :=
  if ctx.length > 255 then pure false else verifyInternal p h (pureMsg ctx M) SIG PKseed PKroot

/-- Algorithm 25 -/
def hashVerify (P : Prims) (ph : PreHash) (M SIG ctx PKseed PKroot : Bytes) : Run Bool :=
  if ctx.length > 255 then pure false
  else do
    let PHM ← preHash P M ph
    verifyInternal p h (prehashMsg ctx (oid ph) PHM) SIG PKseed PKroot

end
end Run

end Fips205.Spec
