import Verif.Spec.Fips205

/-! # The places of a key where a hash is evaluated, and their addresses -/

namespace Fips205

/-- Where in the structure of a key a hash is computed: layer `j`, tree `t` of the layer, leaf `l` of the
tree. -/
inductive Place
  /-- step `s` of chain `i` of a WOTS+ key -/
  | wotsHash (j t l i s : Nat)
  /-- compression of a WOTS+ public key -/
  | wotsPk (j t l : Nat)
  /-- node `i` at height `k` of an XMSS tree -/
  | tree (j t k i : Nat)
  /-- node `i` at height `k` of the FORS trees below leaf `l` of tree `t` of layer 0 -/
  | forsTree (t l k i : Nat)
  /-- compression of the roots of the FORS trees -/
  | forsRoots (t l : Nat)
  /-- the secret value chain `i` of a WOTS+ key starts from -/
  | wotsPrf (j t l i : Nat)
  /-- the secret value of leaf `i` of the FORS trees -/
  | forsPrf (t l i : Nat)

/-- Table 1 and Figures 3 to 9 of the standard: the 32 bytes of the address. -/
def Place.adrs : Place → List UInt8
  | .wotsHash j t l i s => be j 4 ++ be t 12 ++ be 0 4 ++ be l 4 ++ be i 4 ++ be s 4
  | .wotsPk j t l => be j 4 ++ be t 12 ++ be 1 4 ++ be l 4 ++ be 0 4 ++ be 0 4
  | .tree j t k i => be j 4 ++ be t 12 ++ be 2 4 ++ be 0 4 ++ be k 4 ++ be i 4
  | .forsTree t l k i => be 0 4 ++ be t 12 ++ be 3 4 ++ be l 4 ++ be k 4 ++ be i 4
  | .forsRoots t l => be 0 4 ++ be t 12 ++ be 4 4 ++ be l 4 ++ be 0 4 ++ be 0 4
  | .wotsPrf j t l i => be j 4 ++ be t 12 ++ be 5 4 ++ be l 4 ++ be i 4 ++ be 0 4
  | .forsPrf t l i => be 0 4 ++ be t 12 ++ be 6 4 ++ be l 4 ++ be 0 4 ++ be i 4
where
  /-- big-endian, `n` bytes -/
  be (x n : Nat) : List UInt8 := Spec.toByte x n

/-- Which of the functions of the standard hashes at a place. -/
inductive Kind
  | PRF | F | H | T
  deriving DecidableEq

/-- Algorithms 5 to 17: the function that is evaluated at a place. -/
def Place.kind : Place → Kind
  | .wotsHash .. => .F
  | .wotsPk .. => .T
  | .tree .. => .H
  | .forsTree _ _ k _ => if k = 0 then .F else .H
  | .forsRoots .. => .T
  | .wotsPrf .. => .PRF
  | .forsPrf .. => .PRF

/-- The hash of the key's structure evaluated at a place; at secret places the argument is `SK.seed`. -/
def hashAt (hf : Spec.HashFns) (PKseed : List UInt8) (x : Place) (u : List UInt8) : List UInt8 :=
  match x.kind with
  | .PRF => hf.PRF PKseed u x.adrs
  | .F => hf.F PKseed x.adrs u
  | .H => hf.H PKseed x.adrs u
  | .T => hf.T PKseed x.adrs u

/-- The place exists in a key of the parameter set. -/
def Place.Exists (p : Spec.Params) : Place → Prop
  | .wotsHash j t l i s => j < p.d ∧ t < 2 ^ (p.hp * (p.d - 1 - j)) ∧ l < 2 ^ p.hp ∧ i < p.len ∧ s < 15
  | .wotsPk j t l => j < p.d ∧ t < 2 ^ (p.hp * (p.d - 1 - j)) ∧ l < 2 ^ p.hp
  | .tree j t k i => j < p.d ∧ t < 2 ^ (p.hp * (p.d - 1 - j)) ∧ 0 < k ∧ k ≤ p.hp ∧ i < 2 ^ (p.hp - k)
  | .forsTree t l k i =>
    t < 2 ^ (p.hp * (p.d - 1)) ∧ l < 2 ^ p.hp ∧ k ≤ p.a ∧ i < p.k * 2 ^ (p.a - k)
  | .forsRoots t l => t < 2 ^ (p.hp * (p.d - 1)) ∧ l < 2 ^ p.hp
  | .wotsPrf j t l i => j < p.d ∧ t < 2 ^ (p.hp * (p.d - 1 - j)) ∧ l < 2 ^ p.hp ∧ i < p.len
  | .forsPrf t l i => t < 2 ^ (p.hp * (p.d - 1)) ∧ l < 2 ^ p.hp ∧ i < p.k * 2 ^ p.a

end Fips205
