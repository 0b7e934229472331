import Verif.Props.Unforgeable
import Verif.Proofs.Meet

/-!
# What acceptance means without trust in the key (C60)

The public key may have been chosen by anybody, in any way.  All values are computed from it, the
signatures and the messages.
-/

namespace Fips205.Props
open Fips205 Fips205.Model

variable {P : Spec.Prims} {ps : ParamSet}

/-- The values computed in the verification of a signature. -/
def checked (P : Spec.Prims) (pk : PublicKey ps.params) (sig : Vector UInt8 ps.params.SIG_LEN)
    (M : List UInt8) : Spec.Attempt :=
  Spec.attempt ps.sp (ps.hf P) M sig.toList [] pk.key.pk_seed.toList pk.key.pk_root.toList

/-- **C60** Two signatures accepted by one public key, whoever made it, fit into one tree: wherever both
verifications hash at the same place they hash the same bytes; unless they meet in a collision, or use a
one-time key for two different values. -/
theorem C60_accepted_fit {pk : PublicKey ps.params} {sig sig' : Vector UInt8 ps.params.SIG_LEN}
    {M M' : List UInt8} (h : Accepted P pk sig M) (h' : Accepted P pk sig' M') :
    let c := checked P pk sig M
    let c' := checked P pk sig' M'
    c.Collision c' ∨ c.Reuse c' ∨ ∀ x, verifyPlaces c x → verifyPlaces c' x → c.seen x = c'.seen x := by
  obtain ⟨_, hc | hr | R⟩ := Spec.attempt_like ps.wf (ps.valid P) (n_le ps) h.internal h'.internal []
  · exact .inl hc
  · exact .inr (.inl hr)
  · exact .inr (.inr fun x hx hx' => R.same hx hx')

/-- **C60** What is seen at a place is what the verification hashes there: the value next on the way to the
root is its hash at that place. -/
theorem C60_seen {pk : PublicKey ps.params} {sig : Vector UInt8 ps.params.SIG_LEN} {M : List UInt8} :
    let c := checked P pk sig M
    let value x := hashAt (ps.hf P) pk.key.pk_seed.toList x (c.seen x)
    c.vMsg 0 = value (.forsRoots c.t c.l) ∧
    (∀ i < ps.sp.k, c.vFors i 0 = value (.forsTree c.t c.l 0 (c.fLeaf i)) ∧
      ∀ k < ps.sp.a, c.vFors i (k + 1) = value (.forsTree c.t c.l (k + 1) (c.fLeaf i / 2 ^ (k + 1)))) ∧
    ∀ j < ps.sp.d, c.vMsg (j + 1) = c.vXmss j ps.sp.hp ∧
      c.vXmss j 0 = value (.wotsPk j (Spec.htTree ps.sp c.t j) (c.leaf j)) ∧
      (∀ k < ps.sp.hp, c.vXmss j (k + 1) =
        value (.tree j (Spec.htTree ps.sp c.t j) (k + 1) (c.leaf j / 2 ^ (k + 1)))) ∧
      ∀ i < ps.sp.len, c.vChain j i (c.vDigit j i) = c.vWots j i ∧
        ∀ s, c.vDigit j i ≤ s → c.vChain j i (s + 1) =
          value (.wotsHash j (Spec.htTree ps.sp c.t j) (c.leaf j) i s) := by
  have o : (checked P pk sig M).Ok _ := (Spec.attempt_ok ps.wf (ps.valid P) (n_le ps)
    (by rw [Vector.length_toList]; cases ps <;> rfl)).1
  refine ⟨Spec.Attempt.forsRoots_value o, fun i hi => ⟨?_, fun k hk => ?_⟩, fun j hj =>
    ⟨Spec.Attempt.vMsg_succ _ j, Spec.Attempt.wotsPk_value o j, fun k hk => Spec.Attempt.tree_value o j hk,
      fun i hi => ⟨Spec.Attempt.vChain_digit _ j i, fun s hs => Spec.Attempt.chain_value j i hs⟩⟩⟩
  · refine (Spec.Attempt.forsLeaf_value i).trans (congrArg (hashAt _ _ _) ?_)
    simp only [Spec.Attempt.seen]
    rw [Spec.Attempt.fLeaf_top]
  · exact (Spec.Attempt.forsNode_value o hi hk).trans
      (congrArg (hashAt _ _ _) (Spec.Attempt.seen_fors (checked P pk sig M) _ _ i hk).symm)

/-- **C60** What a one-time key used for two values shows: each of the two signatures contains a value of
its chains that is reached from the other one by hashing on. -/
theorem C60_reuse {pk : PublicKey ps.params} {sig sig' : Vector UInt8 ps.params.SIG_LEN} {M M' : List UInt8}
    (h : Accepted P pk sig M) (h' : Accepted P pk sig' M') :
    let c := checked P pk sig M
    let c' := checked P pk sig' M'
    c.Reuse c' → c.Collision c' ∨
      ∃ j < ps.sp.d, ∃ i < ps.sp.len, ∃ i' < ps.sp.len,
        c.vDigit j i < c'.vDigit j i ∧ c'.vDigit j i' < c.vDigit j i' ∧
        c'.vWots j i = c.vChain j i (c'.vDigit j i) ∧ c.vWots j i' = c'.vChain j i' (c.vDigit j i') :=
  (Spec.attempt_like ps.wf (ps.valid P) (n_le ps) h.internal h'.internal []).1.reuse_meaning

/-- **C60** For one digest there is one signature: two accepted signatures with the same digest agree after
the randomizer, unless they meet in a collision or use a one-time key twice. -/
theorem C60_one_signature {pk : PublicKey ps.params} {sig sig' : Vector UInt8 ps.params.SIG_LEN}
    {M M' : List UInt8} (h : Accepted P pk sig M) (h' : Accepted P pk sig' M')
    (hd : digestOf P pk sig M = digestOf P pk sig' M') :
    (checked P pk sig M).Collision (checked P pk sig' M') ∨ (checked P pk sig M).Reuse (checked P pk sig' M') ∨
    sig.toList.drop ps.sp.n = sig'.toList.drop ps.sp.n := by
  obtain ⟨_, hc | hr | R⟩ := Spec.attempt_like ps.wf (ps.valid P) (n_le ps) h.internal h'.internal []
  · exact .inl hc
  · exact .inr (.inl hr)
  refine .inr (.inr ?_)
  obtain ⟨hf, ht⟩ := R.unique (congrArg (Spec.digestMd ps.sp) hd) (congrArg (Spec.digestTree ps.sp) hd)
    (congrArg (Spec.digestLeaf ps.sp) hd)
  have hlen : ∀ sig : Vector UInt8 ps.params.SIG_LEN, sig.toList.length = ps.sp.sigLen := fun sig => by
    rw [Vector.length_toList]; cases ps <;> rfl
  have hdrop : ∀ (sig : Vector UInt8 ps.params.SIG_LEN) M, sig.toList.drop ps.sp.n =
      (checked P pk sig M).SIGfors ++ (checked P pk sig M).SIGht := fun sig M => by
    have e := (Spec.attempt_ok ps.wf (ps.valid P) (n_le ps) (hlen sig) (M := M) (SKseed := [])
      (PKseed := pk.key.pk_seed.toList) (PKroot := pk.key.pk_root.toList)).2
    conv_lhs => rw [e]
    rw [List.append_assoc]
    have : (Spec.slice sig.toList 0 ps.sp.n).length = ps.sp.n := take_length sig
    exact List.drop_left' this
  rw [hdrop sig M, hdrop sig' M']
  exact congrArg₂ _ hf ht

/-- **C60** So an accepted signature cannot be altered after the randomizer, whoever made the key, unless the
two signatures meet in a collision or use a one-time key twice. -/
theorem C60_altered {pk : PublicKey ps.params} {sig sig' : Vector UInt8 ps.params.SIG_LEN}
    {M : List UInt8} (h : Accepted P pk sig M) (h' : Accepted P pk sig' M) (hne : sig' ≠ sig)
    (hR : sig'.toList.take ps.sp.n = sig.toList.take ps.sp.n) :
    (checked P pk sig M).Collision (checked P pk sig' M) ∨
    (checked P pk sig M).Reuse (checked P pk sig' M) := by
  rcases C60_one_signature h h' (by rw [digestOf, digestOf, hR]) with hc | hr | e
  · exact .inl hc
  · exact .inr hr
  · refine absurd (Vector.toList_inj.mp ?_) hne
    rw [← List.take_append_drop ps.sp.n sig'.toList, hR, ← e, List.take_append_drop]

/-- **C60** Signatures made with one private key through the API never meet in a collision and never use a
one-time key for two values. -/
theorem C60_signed {pk : PublicKey ps.params} {sk : PrivateKey ps.params} (hk : Generated P pk sk)
    {sig sig' : Vector UInt8 ps.params.SIG_LEN} {M M' : List UInt8} (h : SignedBy P sk sig M)
    (h' : SignedBy P sk sig' M') :
    ¬ (checked P pk sig M).Collision (checked P pk sig' M') ∧
    ¬ (checked P pk sig M).Reuse (checked P pk sig' M') := by
  have a := (h.accepted hk).internal
  have a' := (h'.accepted hk).internal
  obtain ⟨_, rfl⟩ := hk.consistent
  obtain ⟨L, _⟩ := Spec.attempt_like ps.wf (ps.valid P) (n_le ps) a a' sk.key.sk_seed.toList
  have parts : ∀ {sig M}, SignedBy P sk sig M → let c := against P sk sig M
      c.SIGfors = Spec.forsSign c.p c.hf c.md c.SKseed c.PKseed c.fAdrs ∧
      c.SIGht = Spec.htSign c.p c.hf c.hForsPk c.SKseed c.PKseed c.t c.l := fun {sig M} h => by
    have := (Spec.attempt_signWithR_parts ps.wf (ps.valid P) (M := M) (SKseed := sk.key.sk_seed.toList)
      (PKseed := sk.key.pk_seed.toList) (PKroot := sk.key.pk_root.toList) (take_length sig)).2
    rw [← h.withR] at this
    exact this
  exact L.owner rfl (parts h).1 (parts h).2 (parts h').1 (parts h').2

/-! ## All cases occur -/

/-- Hash functions that return the last byte of their input. -/
def lastBytePrims : Spec.Prims where
  sha256 x := Vector.replicate _ (x.getLastD 0)
  sha512 x := Vector.replicate _ (x.getLastD 0)
  shake128 x _ := Vector.replicate _ (x.getLastD 0)
  shake256 x _ := Vector.replicate _ (x.getLastD 0)

theorem getLastD_append_replicate (x : List UInt8) (l : Nat) (v : UInt8) :
    (x ++ List.replicate (l + 1) v).getLastD 0 = v := by
  rw [List.replicate_succ', ← List.append_assoc, List.getLastD_concat]

/-- Constant strings are hashed to constant strings. -/
theorem last_const (ps : ParamSet) (a b : List UInt8) (l : Nat) (v : UInt8) :
    (ps.hf lastBytePrims).F a b (List.replicate (l + 1) v) = List.replicate ps.sp.n v ∧
    (ps.hf lastBytePrims).H a b (List.replicate (l + 1) v) = List.replicate ps.sp.n v ∧
    (ps.hf lastBytePrims).T a b (List.replicate (l + 1) v) = List.replicate ps.sp.n v := by
  cases ps <;> refine ⟨?_, ?_, ?_⟩ <;>
    first
    | (show (Vector.replicate _ _).toList = _
       rw [getLastD_append_replicate, Vector.toList_replicate]; rfl)
    | (show Spec.trunc _ (Vector.replicate _ _).toList = _
       rw [getLastD_append_replicate, Vector.toList_replicate, Spec.trunc, List.take_replicate]; rfl)

theorem const_climb (ps : ParamSet) (v : UInt8) {PKseed : List UInt8} {idx : Nat} {AUTH : Nat → List UInt8}
    {A : List UInt8} : ∀ {k : Nat}, (∀ r < k, AUTH r = List.replicate ps.sp.n v) →
      (Spec.climb (ps.hf lastBytePrims) PKseed idx AUTH k A (List.replicate ps.sp.n v)).2 =
        List.replicate ps.sp.n v
  | 0, _ => rfl
  | k + 1, h => by
    have ih := const_climb ps v (PKseed := PKseed) (idx := idx) (A := A) (k := k) (AUTH := AUTH)
      fun r hr => h r (by omega)
    have hn : ps.sp.n + ps.sp.n = ps.sp.n + ps.sp.n - 1 + 1 := by cases ps <;> rfl
    rw [Spec.climb_succ, Spec.climbStep]
    dsimp only
    rw [ih, h k (by omega), ← List.replicate_add, hn]
    split <;> exact (last_const ps _ _ _ v).2.1

theorem const_chain (ps : ParamSet) (v : UInt8) (PKseed A : List UInt8) (i : Nat) : ∀ s,
    Spec.chain (ps.hf lastBytePrims) (List.replicate ps.sp.n v) i s PKseed A = List.replicate ps.sp.n v
  | 0 => rfl
  | s + 1 => by
    have hn : ps.sp.n = ps.sp.n - 1 + 1 := by cases ps <;> rfl
    rw [Spec.chain, const_chain ps v PKseed A i s]
    generalize hx : List.replicate ps.sp.n v = x
    rw [hn] at hx
    rw [← hx, (last_const ps _ _ _ v).1, ← hn]

theorem concat_const (n k : Nat) (v : UInt8) :
    Spec.concat k (fun _ => List.replicate n v) = List.replicate (k * n) v := by
  rw [List.eq_replicate_iff, Spec.concat_length fun _ _ => List.length_replicate]
  refine ⟨rfl, fun x hx => ?_⟩
  rw [Spec.concat, List.mem_flatMap] at hx
  obtain ⟨_, _, hx⟩ := hx
  exact (List.mem_replicate.mp hx).2

theorem mem_slice {x : UInt8} {X : List UInt8} {i j : Nat} (h : x ∈ Spec.slice X i j) : x ∈ X :=
  List.mem_of_mem_drop (List.mem_of_mem_take h)

/-- The values for a signature with constant parts. -/
theorem const_values {ps : ParamSet} {c : Spec.Attempt} {m : Nat} (o : c.Ok m) (hp : c.p = ps.sp)
    (hh : c.hf = ps.hf lastBytePrims) {u v : UInt8} (hT : ∀ x ∈ c.SIGht, x = u) (hF : ∀ x ∈ c.SIGfors, x = v) :
    c.vMsg 0 = List.replicate ps.sp.n v ∧
    (∀ j < ps.sp.d, ∀ i < ps.sp.len, ∀ s, c.vChain j i s = List.replicate ps.sp.n u) ∧
    ∀ j < ps.sp.d, c.vMsg (j + 1) = List.replicate ps.sp.n u := by
  have hn : ps.sp.n = ps.sp.n - 1 + 1 := by cases ps <;> rfl
  have hT' : ∀ {X : List UInt8}, X.length = c.p.n → (∀ x ∈ X, x ∈ c.SIGht) → X = List.replicate ps.sp.n u :=
    fun hl h => List.eq_replicate_iff.mpr ⟨by rw [hl, hp], fun x hx => hT x (h x hx)⟩
  have hF' : ∀ {X : List UInt8}, X.length = c.p.n → (∀ x ∈ X, x ∈ c.SIGfors) →
      X = List.replicate ps.sp.n v :=
    fun hl h => List.eq_replicate_iff.mpr ⟨by rw [hl, hp], fun x hx => hF x (h x hx)⟩
  have hchain : ∀ j < ps.sp.d, ∀ i < ps.sp.len, ∀ s, c.vChain j i s = List.replicate ps.sp.n u := by
    intro j hj i hi s
    have hw : c.vWots j i = List.replicate ps.sp.n u := hT' (o.wots_length (by rw [hp]; exact hj)
      (by rw [hp]; exact hi)) fun x hx => mem_slice (mem_slice (mem_slice hx))
    rw [Spec.Attempt.vChain, hw, hh, const_chain]
  refine ⟨?_, hchain, fun j hj => ?_⟩
  · rw [Spec.Attempt.vMsg_zero]
    have : ∀ i < ps.sp.k, c.vFors i c.p.a = List.replicate ps.sp.n v := by
      intro i hi
      obtain ⟨h1, h2, _⟩ := o.fors_slice (i := i) (by rw [hp]; exact hi)
      have hs : c.vSecret i = List.replicate ps.sp.n v := hF' h1 fun x hx => mem_slice hx
      rw [Spec.Attempt.vFors, hs, hh]
      have hleaf : (ps.hf lastBytePrims).F c.PKseed (c.fLeafAdrs (c.fLeaf i)) (List.replicate ps.sp.n v) =
          List.replicate ps.sp.n v := by
        have := (last_const ps c.PKseed (c.fLeafAdrs (c.fLeaf i)) (ps.sp.n - 1) v).1
        rwa [← hn] at this
      rw [hleaf]
      exact const_climb ps v fun r hr => hF' (h2 r hr) fun x hx => mem_slice (mem_slice hx)
    rw [hp] at this ⊢
    rw [Spec.concat_congr this, concat_const, hh]
    have hk : ps.sp.k * ps.sp.n = ps.sp.k * ps.sp.n - 1 + 1 := by cases ps <;> rfl
    rw [hk]
    exact (last_const ps _ _ _ v).2.2
  · rw [Spec.Attempt.vMsg_succ, Spec.Attempt.vXmss, hp, Spec.concat_congr (fun i hi => hchain j hj i hi _),
      concat_const, hh]
    have hk : ps.sp.len * ps.sp.n = ps.sp.len * ps.sp.n - 1 + 1 := by cases ps <;> rfl
    rw [hk, (last_const ps _ _ _ u).2.2]
    exact const_climb ps u fun r hr => hT' (o.auth_length (by rw [hp]; exact hj) (by rw [hp]; exact hr))
      fun x hx => mem_slice (mem_slice (mem_slice hx))

/-- A key and two signatures it accepts, which use a one-time key for two values. -/
theorem two_values (ps : ParamSet) : ∃ (pk : PublicKey ps.params) (sig sig' : Vector UInt8 ps.params.SIG_LEN),
    let M := Spec.pureMsg [] [1]
    let c := checked lastBytePrims pk sig M
    let c' := checked lastBytePrims pk sig' M
    Accepted lastBytePrims pk sig M ∧ Accepted lastBytePrims pk sig' M ∧ sig' ≠ sig ∧
    sig'.toList.take ps.sp.n = sig.toList.take ps.sp.n ∧ sig.toList.take ps.sp.n = List.replicate ps.sp.n 0 ∧
    c.vMsg 0 = List.replicate ps.sp.n 0 ∧ 0 < ps.sp.d ∧
    Spec.htTree ps.sp c.t 0 = Spec.htTree ps.sp c'.t 0 ∧ c.leaf 0 = c'.leaf 0 ∧ c.vMsg 0 ≠ c'.vMsg 0 ∧
    ∀ i < ps.sp.len, c.vChain 0 i (Spec.w - 1) = c'.vChain 0 i (Spec.w - 1) := by
  let pk : PublicKey ps.params := ⟨⟨Vector.replicate _ 0, Vector.replicate _ 0⟩⟩
  let part (v : UInt8) := List.replicate ps.sp.n (0 : UInt8) ++
    (List.replicate (ps.sp.k * ((ps.sp.a + 1) * ps.sp.n)) v ++
      List.replicate (ps.sp.d * ps.sp.xmssLen) 0)
  have hlen : ∀ v, (part v).length = ps.params.SIG_LEN := fun v => by
    simp only [part, List.length_append, List.length_replicate]; cases ps <;> rfl
  let sg (v : UInt8) : Vector UInt8 ps.params.SIG_LEN := ⟨(part v).toArray, hlen v⟩
  have hsg : ∀ v, (sg v).toList = part v := fun v => rfl
  have hR : ∀ v, (sg v).toList.take ps.sp.n = List.replicate ps.sp.n 0 := fun v => by
    rw [hsg]; exact List.take_left' List.length_replicate
  let M := Spec.pureMsg [] [1]
  have hl : ∀ v, (sg v).toList.length = ps.sp.sigLen := fun v => by
    rw [Vector.length_toList]; cases ps <;> rfl
  have hok := fun v => Spec.attempt_ok ps.wf (ps.valid lastBytePrims) (n_le ps) (hl v) (M := M) (SKseed := [])
    (PKseed := pk.key.pk_seed.toList) (PKroot := pk.key.pk_root.toList)
  have hparts : ∀ v, (checked lastBytePrims pk (sg v) M).SIGfors =
        List.replicate (ps.sp.k * ((ps.sp.a + 1) * ps.sp.n)) v ∧
      (checked lastBytePrims pk (sg v) M).SIGht = List.replicate (ps.sp.d * ps.sp.xmssLen) 0 := fun v => by
    have e := (hok v).2
    have hRs : Spec.slice (sg v).toList 0 ps.sp.n = List.replicate ps.sp.n 0 := hR v
    rw [hRs, hsg, List.append_assoc] at e
    have e := (List.append_inj e rfl).2
    have := List.append_inj e (by rw [List.length_replicate]; exact ((hok v).1.fors).symm)
    exact ⟨this.1.symm, this.2.symm⟩
  have hv := fun v => const_values (ps := ps) (c := checked lastBytePrims pk (sg v) M) (u := 0) (v := v)
    (hok v).1 rfl rfl (fun x hx => by rw [(hparts v).2] at hx; exact (List.mem_replicate.mp hx).2)
    (fun x hx => by rw [(hparts v).1] at hx; exact (List.mem_replicate.mp hx).2)
  have hd : 0 < ps.sp.d := ps.wf.d_pos
  have hacc : ∀ v, Accepted lastBytePrims pk (sg v) M := fun v => by
    refine .pure demoBuild [1] [] ?_
    rw [exec_verify, Spec.verify, if_neg (by simp)]
    refine congrArg _ ((Spec.attempt_accepts _ _ [] _ _).mpr ⟨hl v, ?_⟩)
    have := (hv v).2.2 (ps.sp.d - 1) (by omega)
    rw [Nat.sub_add_cancel hd] at this
    refine this.trans ?_
    show _ = (Vector.replicate ps.params.N (0 : UInt8)).toList
    rw [Vector.toList_replicate, ← ps.matches.n]
  have hd01 : digestOf lastBytePrims pk (sg 0) M = digestOf lastBytePrims pk (sg 1) M := by
    rw [digestOf, digestOf, hR, hR]
  have ht : (checked lastBytePrims pk (sg 0) M).t = (checked lastBytePrims pk (sg 1) M).t :=
    congrArg (Spec.digestTree ps.sp) hd01
  have hlf : (checked lastBytePrims pk (sg 0) M).l = (checked lastBytePrims pk (sg 1) M).l :=
    congrArg (Spec.digestLeaf ps.sp) hd01
  have hne : (checked lastBytePrims pk (sg 0) M).vMsg 0 ≠ (checked lastBytePrims pk (sg 1) M).vMsg 0 := by
    rw [(hv 0).1, (hv 1).1]
    cases ps <;> decide
  refine ⟨pk, sg 0, sg 1, hacc 0, hacc 1, fun e => hne (by rw [e]), by rw [hR, hR], hR 0, (hv 0).1, hd, ?_, hlf, hne,
    fun i hi => ?_⟩
  · rw [ht]
  · rw [(hv 0).2.1 0 hd i hi, (hv 1).2.1 0 hd i hi]

example (ps : ParamSet) : ∃ (pk : PublicKey ps.params) (sig sig' : Vector UInt8 ps.params.SIG_LEN)
    (M : List UInt8), Accepted lastBytePrims pk sig M ∧ Accepted lastBytePrims pk sig' M ∧ sig' ≠ sig ∧
    sig'.toList.take ps.sp.n = sig.toList.take ps.sp.n ∧
    (checked lastBytePrims pk sig M).Reuse (checked lastBytePrims pk sig' M) := by
  obtain ⟨pk, sig, sig', h1, h2, h3, h4, _, _, h5, h6, h7, h8, h9⟩ := two_values ps
  exact ⟨pk, sig, sig', _, h1, h2, h3, h4, 0, h5, h6, h7, h8, h9⟩

/-- With the hash functions of C27, an accepted signature and an altered one. -/
example (ps : ParamSet) : ∃ (pk : PublicKey ps.params) (sig sig' : Vector UInt8 ps.params.SIG_LEN)
    (M : List UInt8), Accepted zeroPrims pk sig M ∧ Accepted zeroPrims pk sig' M ∧
    (checked zeroPrims pk sig M).Collision (checked zeroPrims pk sig' M) := by
  let sd : Vector UInt8 ps.params.N := Vector.replicate _ 0
  let pk := (keyPair ps zeroPrims sd sd sd).1
  have hacc : ∀ sig, Accepted zeroPrims pk sig (Spec.pureMsg [] [1]) := by
    intro sig
    refine .pure demoBuild [1] [] ?_
    rw [exec_verify, Spec.verify, if_neg (by simp)]
    refine congrArg _ ?_
    rw [show pk.key.pk_root.toList = _ from rootVec_toList _ _]
    refine zero_accepts ps _ _ _ _ ?_
    rw [Vector.length_toList]
    cases ps <;> rfl
  let sig : Vector UInt8 ps.params.SIG_LEN := Vector.replicate _ 0
  have hlast : ps.params.SIG_LEN - 1 < ps.params.SIG_LEN := by cases ps <;> decide
  let sig' := sig.set (ps.params.SIG_LEN - 1) 1
  have hne : sig' ≠ sig := by
    intro e
    have := congrArg (fun v => v[ps.params.SIG_LEN - 1]) e
    simp [sig', sig] at this
  refine ⟨pk, sig, sig', _, hacc sig, hacc sig', ?_⟩
  refine (C60_altered (hacc sig) (hacc sig') hne ?_).resolve_right ?_
  · simp only [sig']
    rw [Vector.toList_set, List.take_set_of_le]
    cases ps <;> decide
  · rintro ⟨j, hj, -, -, hm, -⟩
    have hz : ∀ sig, (checked zeroPrims pk sig (Spec.pureMsg [] [1])).vMsg j =
        List.replicate ps.sp.n 0 := by
      intro sig
      have o : (checked zeroPrims pk sig (Spec.pureMsg [] [1])).Ok _ := (Spec.attempt_ok ps.wf
        (ps.valid zeroPrims) (n_le ps) (by rw [Vector.length_toList]; cases ps <;> rfl)).1
      cases j with
      | zero => rw [Spec.Attempt.vMsg_zero]; cases ps <;> rfl
      | succ j =>
        have hq : ps.sp.hp = ps.sp.hp - 1 + 1 := by cases ps <;> rfl
        rw [Spec.Attempt.vMsg_succ]
        have := Spec.Attempt.tree_value o j (k := ps.sp.hp - 1)
          (show ps.sp.hp - 1 < ps.sp.hp by omega)
        rw [← hq] at this
        exact this.trans (zero_H ps _ _ _)
    exact hm ((hz sig).trans (hz sig').symm)

/-- **C60** A signature, the digest and the public seed determine the public key: two keys with the same
public seed that accept a signature with the same digest are the same key. -/
theorem C60_key_determined {pk pk' : PublicKey ps.params} {sig : Vector UInt8 ps.params.SIG_LEN}
    {M M' : List UInt8} (h : Accepted P pk sig M) (h' : Accepted P pk' sig M')
    (hs : pk.key.pk_seed = pk'.key.pk_seed) (hd : digestOf P pk sig M = digestOf P pk' sig M') : pk = pk' := by
  have r := ((Spec.attempt_accepts M sig.toList [] pk.key.pk_seed.toList _).mp h.internal).2
  have r' := ((Spec.attempt_accepts M' sig.toList [] pk'.key.pk_seed.toList _).mp h'.internal).2
  have e : Spec.attempt ps.sp (ps.hf P) M sig.toList [] pk.key.pk_seed.toList pk.key.pk_root.toList =
      Spec.attempt ps.sp (ps.hf P) M' sig.toList [] pk'.key.pk_seed.toList pk'.key.pk_root.toList := by
    simp only [Spec.attempt]
    have hd : (ps.hf P).Hmsg (Spec.slice sig.toList 0 ps.sp.n) pk.key.pk_seed.toList pk.key.pk_root.toList M =
      (ps.hf P).Hmsg (Spec.slice sig.toList 0 ps.sp.n) pk'.key.pk_seed.toList pk'.key.pk_root.toList M' := hd
    rw [hd, hs]
  rw [e] at r
  obtain ⟨⟨a, b⟩⟩ := pk
  obtain ⟨⟨a', b'⟩⟩ := pk'
  obtain rfl : a = a' := hs
  obtain rfl : b = b' := Vector.toList_inj.mp (r.symm.trans r')
  rfl

theorem zero_Hmsg (ps : ParamSet) (a b c d d' : List UInt8) :
    (ps.hf zeroPrims).Hmsg a b c d = (ps.hf zeroPrims).Hmsg a b c d' := by
  cases ps <;> rfl

/-- Different messages with one digest. -/
example (ps : ParamSet) : ∃ (pk : PublicKey ps.params) (sig : Vector UInt8 ps.params.SIG_LEN)
    (M M' : List UInt8), Accepted zeroPrims pk sig M ∧ Accepted zeroPrims pk sig M' ∧ M ≠ M' ∧
    digestOf zeroPrims pk sig M = digestOf zeroPrims pk sig M' := by
  let sd : Vector UInt8 ps.params.N := Vector.replicate _ 0
  let pk := (keyPair ps zeroPrims sd sd sd).1
  have hacc : ∀ sig msg, Accepted zeroPrims pk sig (Spec.pureMsg [] msg) := by
    intro sig msg
    refine .pure demoBuild msg [] ?_
    rw [exec_verify, Spec.verify, if_neg (by simp)]
    refine congrArg _ ?_
    rw [show pk.key.pk_root.toList = _ from rootVec_toList _ _]
    refine zero_accepts ps _ _ _ _ ?_
    rw [Vector.length_toList]
    cases ps <;> rfl
  refine ⟨pk, Vector.replicate _ 0, _, _, hacc _ [0], hacc _ [1], by simp [Spec.pureMsg], zero_Hmsg ..⟩

end Fips205.Props
