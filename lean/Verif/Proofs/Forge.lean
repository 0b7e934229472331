import Verif.Proofs.Digits

/-! # What an accepted signature that is not the honest one reveals -/

namespace Fips205.Spec

/-! ## Chains and trees -/

section
variable {p : Params} {hf : HashFns}

theorem chain_extract {X Y : Bytes} {i : Nat} {PKseed ADRS : Bytes} : ∀ {s : Nat},
    chain hf X i s PKseed ADRS = chain hf Y i s PKseed ADRS →
    X = Y ∨ ∃ u < s, chain hf X i u PKseed ADRS ≠ chain hf Y i u PKseed ADRS ∧
      hf.F PKseed (setHashAddress ADRS (i + u)) (chain hf X i u PKseed ADRS) =
        hf.F PKseed (setHashAddress ADRS (i + u)) (chain hf Y i u PKseed ADRS) := by
  intro s
  induction s with
  | zero => intro h; exact .inl h
  | succ s ih =>
    intro h
    by_cases e : chain hf X i s PKseed ADRS = chain hf Y i s PKseed ADRS
    · rcases ih e with h | ⟨u, hu, h⟩
      · exact .inl h
      · exact .inr ⟨u, by omega, h⟩
    · exact .inr ⟨s, by omega, e, h⟩

theorem climb_length {n m : Nat} (V : Valid hf n m) {PKseed : Bytes} {idx : Nat} {AUTH : Nat → Bytes}
    {A node : Bytes} (hn : node.length = n) (k : Nat) :
    (climb hf PKseed idx AUTH k A node).2.length = n := by
  cases k with
  | zero => exact hn
  | succ k =>
    rw [climb_succ, climbStep]
    dsimp only
    split <;> exact V.H _ _ _

theorem children_node (x : Nat) (nd : Nat → Bytes) :
    Attempt.children x (nd x) (nd (sibling x)) = nd (2 * (x / 2)) ++ nd (2 * (x / 2) + 1) := by
  rw [Attempt.children, sibling]
  by_cases h : x % 2 = 0
  · rw [if_pos h, if_pos h, show 2 * (x / 2) = x by omega]
  · rw [if_neg h, if_neg h, show 2 * (x / 2) = x - 1 by omega, show x - 1 + 1 = x by omega]

theorem children_inj {x : Nat} {a b a' b' : Bytes} (ha : a.length = a'.length)
    (hb : b.length = b'.length) (h : Attempt.children x a b = Attempt.children x a' b') :
    a = a' ∧ b = b' := by
  rw [Attempt.children, Attempt.children] at h
  split at h
  · exact List.append_inj h ha
  · exact (List.append_inj h hb).symm

/-- A path that leads to the honest root is the honest path, or shows a second preimage. -/
theorem climb_extract {n m : Nat} (V : Valid hf n m) {PKseed : Bytes} {idx T : Nat}
    {AUTH : Nat → Bytes} {B node : Bytes} (hB : B.length = 32) (hT : T < 2 ^ 32) {levels : Nat}
    (hbits : ∀ k < levels, (idx / 2 ^ k) % 2 = (T / 2 ^ k) % 2) (nd : Nat → Nat → Bytes)
    (hnd : ∀ i k, nd i (k + 1) = hf.H PKseed (setTreeIndex (setTreeHeight B (k + 1)) i)
      (nd (2 * i) k ++ nd (2 * i + 1) k)) (hlen : ∀ i k, (nd i k).length = n)
    (hnode : node.length = n) (hauth : ∀ k < levels, (AUTH k).length = n) :
    ∀ r ≤ levels, (climb hf PKseed idx AUTH r (setTreeIndex (setTreeHeight B 0) T) node).2 =
      nd (T / 2 ^ r) r →
    (node = nd T 0 ∧ ∀ k < r, AUTH k = nd (sibling (T / 2 ^ k)) k) ∨
    ∃ k < r, Attempt.children (T / 2 ^ k)
        (climb hf PKseed idx AUTH k (setTreeIndex (setTreeHeight B 0) T) node).2 (AUTH k) ≠
        Attempt.children (T / 2 ^ k) (nd (T / 2 ^ k) k) (nd (sibling (T / 2 ^ k)) k) ∧
      hf.H PKseed (setTreeIndex (setTreeHeight B (k + 1)) (T / 2 ^ (k + 1)))
        (Attempt.children (T / 2 ^ k)
          (climb hf PKseed idx AUTH k (setTreeIndex (setTreeHeight B 0) T) node).2 (AUTH k)) =
      hf.H PKseed (setTreeIndex (setTreeHeight B (k + 1)) (T / 2 ^ (k + 1)))
        (Attempt.children (T / 2 ^ k) (nd (T / 2 ^ k) k) (nd (sibling (T / 2 ^ k)) k)) := by
  intro r
  induction r with
  | zero =>
    intro _ h
    rw [climb_zero, Nat.pow_zero, Nat.div_one] at h
    exact .inl ⟨h, fun k hk => by omega⟩
  | succ r ih =>
    intro hr h
    rw [climb_node hB hT hbits hr, hnd] at h
    have e2 : T / 2 ^ (r + 1) = T / 2 ^ r / 2 := by rw [Nat.pow_succ, Nat.div_div_eq_div_mul]
    have e3 := children_node (T / 2 ^ r) (nd · r)
    rw [← e2] at e3
    rw [← e3] at h
    change hf.H PKseed _ (Attempt.children (T / 2 ^ r) _ _) = _ at h
    by_cases e : Attempt.children (T / 2 ^ r)
        (climb hf PKseed idx AUTH r (setTreeIndex (setTreeHeight B 0) T) node).2 (AUTH r) =
        Attempt.children (T / 2 ^ r) (nd (T / 2 ^ r) r) (nd (sibling (T / 2 ^ r)) r)
    · obtain ⟨e1, e2⟩ := children_inj (by rw [climb_length V hnode, hlen])
        (by rw [hauth r (by omega), hlen]) e
      rcases ih (by omega) e1 with ⟨h1, h2⟩ | ⟨k, hk, h⟩
      · refine .inl ⟨h1, fun k hk => ?_⟩
        by_cases hkr : k = r
        · rw [hkr]; exact e2
        · exact h2 k (by omega)
      · exact .inr ⟨k, by omega, h⟩
    · exact .inr ⟨r, by omega, e, h⟩

end

namespace Attempt
variable {c : Attempt}

/-- The signature parts have the right lengths and the indices are in range. -/
structure Ok (c : Attempt) (m : Nat) : Prop where
  wf : c.p.WF
  valid : Valid c.hf c.p.n m
  n_le : c.p.n ≤ 128
  fors : c.SIGfors.length = c.p.k * ((c.p.a + 1) * c.p.n)
  ht : c.SIGht.length = c.p.d * c.p.xmssLen
  t_lt : c.t < 2 ^ (c.p.h - c.p.hp)
  l_lt : c.l < 2 ^ c.p.hp

variable {m : Nat}

theorem Ok.leaf_lt (o : c.Ok m) (j : Nat) : c.leaf j < 2 ^ c.p.hp := htLeaf_lt _ o.l_lt _

theorem Ok.leaf_lt32 (o : c.Ok m) (j : Nat) : c.leaf j < 2 ^ 32 := by
  have := o.leaf_lt j
  have h31 : 2 ^ c.p.hp ≤ 2 ^ 31 := Nat.pow_le_pow_right (by decide) o.wf.hp_le
  omega

theorem adrs_length (c : Attempt) (j : Nat) : (c.adrs j).length = 32 := htAdrs_length _ _

theorem fAdrs_length (c : Attempt) : c.fAdrs.length = 32 :=
  setKeyPairAddress_length (setTypeAndClear_length (setTreeAddress_length zeroAdrs_length _) _) _

theorem Ok.layer_length (o : c.Ok m) {j : Nat} (hj : j < c.p.d) :
    (c.vLayer j).length = (c.p.len + c.p.hp) * c.p.n := by
  have : (j + 1) * c.p.xmssLen ≤ c.p.d * c.p.xmssLen := Nat.mul_le_mul_right _ hj
  rw [vLayer, slice_length (by rw [o.ht]; exact this), Nat.add_mul, Nat.one_mul,
    Nat.add_sub_cancel_left, Params.xmssLen, Nat.add_comm]

theorem Ok.wots_length (o : c.Ok m) {j i : Nat} (hj : j < c.p.d) (hi : i < c.p.len) :
    (c.vWots j i).length = c.p.n := by
  have h1 : (i + 1) * c.p.n ≤ c.p.len * c.p.n := Nat.mul_le_mul_right _ hi
  have h2 := o.layer_length hj
  have h3 : (c.p.len + c.p.hp) * c.p.n = c.p.len * c.p.n + c.p.hp * c.p.n := Nat.add_mul _ _ _
  rw [vWots, slice_length (by rw [slice_length (by omega)]; omega), Nat.add_mul, Nat.one_mul,
    Nat.add_sub_cancel_left]

theorem Ok.auth_length (o : c.Ok m) {j k : Nat} (hj : j < c.p.d) (hk : k < c.p.hp) :
    (c.vAuth j k).length = c.p.n := by
  have h1 : (k + 1) * c.p.n ≤ c.p.hp * c.p.n := Nat.mul_le_mul_right _ hk
  have h2 := o.layer_length hj
  have h3 : (c.p.len + c.p.hp) * c.p.n = c.p.len * c.p.n + c.p.hp * c.p.n := Nat.add_mul _ _ _
  rw [vAuth, slice_length (by rw [slice_length (by omega)]; omega), Nat.add_mul, Nat.one_mul,
    Nat.add_sub_cancel_left]

theorem Ok.vMsg_length (o : c.Ok m) (j : Nat) : (c.vMsg j).length = c.p.n := by
  cases j with
  | zero => exact o.valid.T _ _ _
  | succ j => exact climb_length o.valid (o.valid.T _ _ _) _

theorem Ok.hMsg_length (o : c.Ok m) (j : Nat) : (c.hMsg j).length = c.p.n := by
  cases j with
  | zero => exact o.valid.T _ _ _
  | succ j => exact xmssNode_length o.valid _ _ _ _ _

theorem Ok.hChain_length (o : c.Ok m) (j i s : Nat) : (c.hChain j i s).length = c.p.n :=
  chain_length o.valid (o.valid.PRF _ _ _) _ _ _ _

theorem vMsg_succ (c : Attempt) (j : Nat) : c.vMsg (j + 1) = c.vXmss j c.p.hp := by
  have h1 := xmss_adrs (c.adrs_length j) (c.leaf j)
  have h2 := setTreeHeight_setTypeAndClear (c.adrs_length j) TREE
  rw [vMsg, rootMsg, xmssPkFromSig]
  change (climb c.hf c.PKseed _ _ _ (setTreeIndex (setTypeAndClear (c.wotsAdrs j) TREE) (c.leaf j)) _).2 = _
  rw [wotsAdrs, h1, ← h2]
  rfl

theorem hXmss_zero (c : Attempt) (j : Nat) : c.hXmss j (c.leaf j) 0 =
    c.hf.T c.PKseed (wotsPkAdrs (c.wotsAdrs j)) (concat c.p.len fun i => c.hChain j i (w - 1)) := rfl

theorem vDigit_le (c : Attempt) (j i : Nat) : c.vDigit j i ≤ w - 1 := by
  have : c.vDigit j i < 16 := Model.wotsDigits_lt i
  rw [w]; omega

theorem hChain_add (c : Attempt) (j i d u : Nat) :
    chain c.hf (c.hChain j i d) d u c.PKseed (c.chainAdrs j i) = c.hChain j i (d + u) := by
  have := chain_add (hf := c.hf)
    (c.hf.PRF c.PKseed c.SKseed (setChainAddress (wotsSkAdrs (c.wotsAdrs j)) i)) 0 d u c.PKseed
    (c.chainAdrs j i)
  rwa [Nat.zero_add] at this

/-- The elements of a WOTS+ signature that leads to the honest key lie on the honest chains. -/
theorem chain_honest {j i : Nat} (hj : j < c.p.d) (hi : i < c.p.len)
    (h : c.vChain j i (w - 1) = c.hChain j i (w - 1)) :
    c.Break ∨ c.vWots j i = c.hChain j i (c.vDigit j i) := by
  have hle := c.vDigit_le j i
  have e : c.hChain j i (w - 1) =
      chain c.hf (c.hChain j i (c.vDigit j i)) (c.vDigit j i) (w - 1 - c.vDigit j i) c.PKseed
        (c.chainAdrs j i) := by
    rw [hChain_add, show c.vDigit j i + (w - 1 - c.vDigit j i) = w - 1 by omega]
  rw [e] at h
  rcases chain_extract h with h | ⟨u, hu, h1, h2⟩
  · exact .inr h
  · rw [hChain_add] at h1 h2
    refine .inl (.chainStep j i (c.vDigit j i + u) hj hi (by omega) (by omega) ?_ ?_)
    · rwa [vChain, Nat.add_sub_cancel_left]
    · rwa [vChain, Nat.add_sub_cancel_left]

/-- One layer of the hypertree. -/
theorem layer_honest (o : c.Ok m) {j : Nat} (hj : j < c.p.d) (h : c.vMsg (j + 1) = c.hMsg (j + 1)) :
    c.Break ∨ (c.vMsg j = c.hMsg j ∧
      c.vLayer j = xmssSign c.p c.hf (c.hMsg j) c.SKseed (c.leaf j) c.PKseed (c.adrs j)) := by
  by_cases hb : c.Break
  · exact .inl hb
  right
  rw [vMsg_succ] at h
  have h0 : c.leaf j / 2 ^ c.p.hp = 0 := Nat.div_eq_of_lt (o.leaf_lt j)
  have hroot : c.vXmss j c.p.hp = c.hXmss j (c.leaf j / 2 ^ c.p.hp) c.p.hp := by rw [h0]; exact h
  have := climb_extract (hf := c.hf) o.valid (PKseed := c.PKseed) (idx := c.leaf j) (T := c.leaf j)
    (AUTH := c.vAuth j) (B := setTypeAndClear (c.adrs j) TREE)
    (node := c.hf.T c.PKseed (wotsPkAdrs (c.wotsAdrs j)) (concat c.p.len fun i => c.vChain j i (w - 1)))
    (setTypeAndClear_length (c.adrs_length j) _)
    (o.leaf_lt32 j) (levels := c.p.hp) (fun _ _ => rfl) (c.hXmss j) (fun i k => rfl)
    (fun i k => xmssNode_length o.valid _ _ _ _ _) (o.valid.T _ _ _)
    (fun k hk => o.auth_length hj hk) c.p.hp (Nat.le_refl _) hroot
  rcases this with ⟨h1, h2⟩ | ⟨k, hk, h1, h2⟩
  swap
  · exact absurd (.xmssNode j k hj hk h1 h2) hb
  rw [hXmss_zero] at h1
  have hcat : (concat c.p.len fun i => c.vChain j i (w - 1)) =
      concat c.p.len fun i => c.hChain j i (w - 1) := by
    by_contra hne
    exact hb (.wotsPk j hj hne h1)
  have hends := concat_inj (n := c.p.n)
    (fun i hi => chain_length o.valid (o.wots_length hj hi) _ _ _ _)
    (fun i _ => o.hChain_length j i _) hcat
  have hw : ∀ i < c.p.len, c.vWots j i = c.hChain j i (c.vDigit j i) := fun i hi =>
    (chain_honest hj hi (hends i hi)).resolve_left hb
  have hm : c.vMsg j = c.hMsg j := by
    by_contra hne
    obtain ⟨i, hi, hlt⟩ := wotsDigits_dominate o.n_le (o.hMsg_length j) (o.vMsg_length j) (Ne.symm hne)
    exact hb (.unpublished j i hj hi hne hlt (hw i hi))
  refine ⟨hm, ?_⟩
  have hl := o.layer_length hj
  have hle : c.p.len * c.p.n ≤ (c.p.len + c.p.hp) * c.p.n := Nat.mul_le_mul_right _ (by omega)
  have e1 : c.vLayer j = slice (c.vLayer j) 0 (c.p.len * c.p.n) ++
      slice (c.vLayer j) (c.p.len * c.p.n) ((c.p.len + c.p.hp) * c.p.n) := by
    rw [slice_append_slice _ (by omega) hle, ← hl, slice_all]
  rw [e1, xmssSign]
  refine congrArg₂ _ ?_ ?_
  · have := concat_slice (slice (c.vLayer j) 0 (c.p.len * c.p.n)) c.p.len c.p.n
    have e2 : slice (slice (c.vLayer j) 0 (c.p.len * c.p.n)) 0 (c.p.len * c.p.n) =
        slice (c.vLayer j) 0 (c.p.len * c.p.n) := by
      rw [slice_slice _ (by omega), Nat.zero_add, Nat.zero_add]
    rw [e2] at this
    rw [← this, wotsSign]
    refine concat_congr fun i hi => ?_
    have := hw i hi
    rw [vDigit, hm] at this
    exact this
  · have := concat_slice (slice (c.vLayer j) (c.p.len * c.p.n) ((c.p.len + c.p.hp) * c.p.n)) c.p.hp c.p.n
    have e3 : c.p.len * c.p.n + c.p.hp * c.p.n = (c.p.len + c.p.hp) * c.p.n := (Nat.add_mul _ _ _).symm
    have e2 : slice (slice (c.vLayer j) (c.p.len * c.p.n) ((c.p.len + c.p.hp) * c.p.n)) 0
        (c.p.hp * c.p.n) = slice (c.vLayer j) (c.p.len * c.p.n) ((c.p.len + c.p.hp) * c.p.n) := by
      rw [slice_slice _ (by omega), Nat.add_zero, e3]
    rw [e2] at this
    rw [← this]
    exact concat_congr fun k hk => h2 k hk

/-- All layers of the hypertree. -/
theorem layers_honest (o : c.Ok m) (h : c.vMsg c.p.d = c.hMsg c.p.d) :
    c.Break ∨ (c.vMsg 0 = c.hMsg 0 ∧ ∀ j < c.p.d,
      c.vLayer j = xmssSign c.p c.hf (c.hMsg j) c.SKseed (c.leaf j) c.PKseed (c.adrs j)) := by
  by_cases hb : c.Break
  · exact .inl hb
  right
  have : ∀ r ≤ c.p.d, c.vMsg (c.p.d - r) = c.hMsg (c.p.d - r) ∧ ∀ j, c.p.d - r ≤ j → j < c.p.d →
      c.vLayer j = xmssSign c.p c.hf (c.hMsg j) c.SKseed (c.leaf j) c.PKseed (c.adrs j) := by
    intro r
    induction r with
    | zero => intro _; exact ⟨h, fun j h1 h2 => by omega⟩
    | succ r ih =>
      intro hr
      obtain ⟨h1, h2⟩ := ih (by omega)
      have e : c.p.d - r = c.p.d - (r + 1) + 1 := by omega
      rw [e] at h1
      obtain ⟨h3, h4⟩ := (layer_honest o (by omega) h1).resolve_left hb
      refine ⟨h3, fun j h5 h6 => ?_⟩
      by_cases he : j = c.p.d - (r + 1)
      · rw [he]; exact h4
      · exact h2 j (by omega) h6
  obtain ⟨h1, h2⟩ := this c.p.d (Nat.le_refl _)
  rw [Nat.sub_self] at h1 h2
  exact ⟨h1, fun j hj => h2 j (by omega) hj⟩

/-! ### FORS -/

theorem fDigit_lt (c : Attempt) (i : Nat) : c.fDigit i < 2 ^ c.p.a := Model.base2b_getD_lt

theorem fLeaf_lt (o : c.Ok m) {i : Nat} (hi : i < c.p.k) : c.fLeaf i < 2 ^ 32 := by
  have h1 := c.fDigit_lt i
  have h2 : (i + 1) * 2 ^ c.p.a ≤ c.p.k * 2 ^ c.p.a := Nat.mul_le_mul_right _ hi
  rw [Nat.add_mul, Nat.one_mul] at h2
  have := o.wf.fors
  rw [fLeaf]; omega

theorem fLeaf_bits (c : Attempt) (i : Nat) {k : Nat} (hk : k < c.p.a) :
    (c.fDigit i / 2 ^ k) % 2 = (c.fLeaf i / 2 ^ k) % 2 := by
  obtain ⟨r, hr⟩ := Nat.exists_eq_add_of_lt hk
  have e : c.fLeaf i = c.fDigit i + 2 ^ k * (2 * (i * 2 ^ r)) := by
    rw [fLeaf, hr, Nat.pow_add, Nat.pow_add, Nat.pow_one]; ring
  rw [e, Nat.add_mul_div_left _ _ (Nat.two_pow_pos k), Nat.add_mul_mod_self_left]

theorem fLeaf_top (c : Attempt) (i : Nat) : c.fLeaf i / 2 ^ c.p.a = i := by
  rw [fLeaf, Nat.mul_comm, Nat.mul_add_div (Nat.two_pow_pos _), Nat.div_eq_of_lt (c.fDigit_lt i),
    Nat.add_zero]

theorem sibling_fLeaf (c : Attempt) (i : Nat) {k : Nat} (hk : k < c.p.a) :
    sibling (c.fLeaf i / 2 ^ k) = i * 2 ^ (c.p.a - k) + sibling (c.fDigit i / 2 ^ k) := by
  obtain ⟨r, hr⟩ := Nat.exists_eq_add_of_lt hk
  have e : c.fLeaf i = c.fDigit i + 2 ^ k * (2 * (i * 2 ^ r)) := by
    rw [fLeaf, hr, Nat.pow_add, Nat.pow_add, Nat.pow_one]; ring
  have e2 : i * 2 ^ (c.p.a - k) = 2 * (i * 2 ^ r) := by
    rw [show c.p.a - k = r + 1 by omega, Nat.pow_succ]; ring
  rw [e, Nat.add_mul_div_left _ _ (Nat.two_pow_pos k), e2]
  generalize c.fDigit i / 2 ^ k = x
  generalize i * 2 ^ r = y
  rw [sibling, sibling, Nat.add_mul_mod_self_left]
  split <;> omega

theorem Ok.fors_slice (o : c.Ok m) {i : Nat} (hi : i < c.p.k) :
    (c.vSecret i).length = c.p.n ∧ (∀ k < c.p.a, (c.vForsAuth i k).length = c.p.n) ∧
    slice c.SIGfors (i * ((c.p.a + 1) * c.p.n)) ((i + 1) * ((c.p.a + 1) * c.p.n)) =
      c.vSecret i ++ concat c.p.a fun k => c.vForsAuth i k := by
  have h1 : (i + 1) * ((c.p.a + 1) * c.p.n) ≤ c.p.k * ((c.p.a + 1) * c.p.n) :=
    Nat.mul_le_mul_right _ hi
  have e1 : i * (c.p.a + 1) * c.p.n = i * ((c.p.a + 1) * c.p.n) := Nat.mul_assoc _ _ _
  have e2 : (i * (c.p.a + 1) + 1) * c.p.n = i * ((c.p.a + 1) * c.p.n) + c.p.n := by ring
  have e3 : (i + 1) * (c.p.a + 1) * c.p.n = i * ((c.p.a + 1) * c.p.n) + c.p.n + c.p.a * c.p.n := by ring
  have e4 : (i + 1) * ((c.p.a + 1) * c.p.n) = i * ((c.p.a + 1) * c.p.n) + c.p.n + c.p.a * c.p.n := by ring
  have hl := o.fors
  refine ⟨?_, fun k hk => ?_, ?_⟩
  · rw [vSecret, e1, e2, slice_length (by omega)]
    omega
  · have : (k + 1) * c.p.n ≤ c.p.a * c.p.n := Nat.mul_le_mul_right _ hk
    rw [vForsAuth, slice_length (by rw [slice_length (by omega)]; omega), Nat.add_mul, Nat.one_mul,
      Nat.add_sub_cancel_left]
  · simp only [vForsAuth]
    rw [concat_slice, vSecret, e1, e2, e3, e4, slice_slice _ (by omega),
      Nat.add_zero (i * ((c.p.a + 1) * c.p.n) + c.p.n), slice_append_slice _ (by omega) (by omega)]

theorem vMsg_zero (c : Attempt) :
    c.vMsg 0 = c.hf.T c.PKseed c.fRootsAdrs (concat c.p.k fun i => c.vFors i c.p.a) := rfl

/-- The FORS part. -/
theorem fors_honest (o : c.Ok m) (h : c.vMsg 0 = c.hForsPk) :
    c.Break ∨ c.SIGfors = forsSign c.p c.hf c.md c.SKseed c.PKseed c.fAdrs := by
  by_cases hb : c.Break
  · exact .inl hb
  right
  rw [vMsg_zero, hForsPk] at h
  have hcat : (concat c.p.k fun i => c.vFors i c.p.a) = concat c.p.k fun i => c.hFors i c.p.a := by
    by_contra hne
    exact hb (.forsPk hne h)
  have hroots := concat_inj (n := c.p.n) (fun i _ => climb_length o.valid (o.valid.F _ _ _) _)
    (fun i _ => forsNode_length o.valid _ _ _ _ _) hcat
  have hall : c.SIGfors = concat c.p.k fun i =>
      slice c.SIGfors (i * ((c.p.a + 1) * c.p.n)) ((i + 1) * ((c.p.a + 1) * c.p.n)) := by
    rw [concat_slice, ← o.fors, slice_all]
  rw [hall, forsSign]
  refine concat_congr fun i hi => ?_
  obtain ⟨hl1, hl2, hs⟩ := o.fors_slice hi
  rw [hs]
  have hroot : c.vFors i c.p.a = c.hFors (c.fLeaf i / 2 ^ c.p.a) c.p.a := by
    rw [fLeaf_top]; exact hroots i hi
  have := climb_extract (hf := c.hf) o.valid (PKseed := c.PKseed) (idx := c.fDigit i) (T := c.fLeaf i)
    (AUTH := c.vForsAuth i) (B := c.fAdrs)
    (node := c.hf.F c.PKseed (c.fLeafAdrs (c.fLeaf i)) (c.vSecret i)) c.fAdrs_length
    (fLeaf_lt o hi) (levels := c.p.a) (fun k hk => c.fLeaf_bits i hk) c.hFors (fun i k => rfl)
    (fun i k => forsNode_length o.valid _ _ _ _ _) (o.valid.F _ _ _) hl2 c.p.a (Nat.le_refl _) hroot
  rcases this with ⟨h1, h2⟩ | ⟨k, hk, h1, h2⟩
  swap
  · exact absurd (.forsNode i k hi hk h1 h2) hb
  have hsec : c.vSecret i = c.hSecret (c.fLeaf i) := by
    by_contra hne
    exact hb (.forsLeaf i hi hne h1)
  refine congrArg₂ _ hsec (concat_congr fun k hk => ?_)
  rw [h2 k hk, sibling_fLeaf c i hk]
  rfl

end Attempt

section
variable {p : Params} {hf : HashFns} {m : Nat}

/-- The values in an honest FORS signature, and those the verifier computes from it. -/
theorem fors_sign_values (c : Attempt) (W : c.p.WF) (V : Valid c.hf c.p.n m)
    (hS : c.SIGfors = forsSign c.p c.hf c.md c.SKseed c.PKseed c.fAdrs) {i : Nat} (hi : i < c.p.k) :
    c.vSecret i = c.hSecret (c.fLeaf i) ∧
    (∀ k < c.p.a, c.vForsAuth i k = c.hFors (sibling (c.fLeaf i / 2 ^ k)) k) ∧
    ∀ k ≤ c.p.a, c.vFors i k = c.hFors (c.fLeaf i / 2 ^ k) k := by
  have hnl : ∀ x k, (c.hFors x k).length = c.p.n := fun _ _ => forsNode_length V _ _ _ _ _
  have hpart : ∀ i, (c.hSecret (c.fLeaf i) ++ concat c.p.a fun k =>
      c.hFors (i * 2 ^ (c.p.a - k) + sibling (c.fDigit i / 2 ^ k)) k).length = (c.p.a + 1) * c.p.n := by
    intro i
    rw [List.length_append, Attempt.hSecret, forsSKgen, V.PRF,
      concat_length (n := c.p.n) fun _ _ => hnl _ _]
    ring
  have hs : slice c.SIGfors (i * ((c.p.a + 1) * c.p.n)) ((i + 1) * ((c.p.a + 1) * c.p.n)) =
      c.hSecret (c.fLeaf i) ++ concat c.p.a fun k =>
        c.hFors (i * 2 ^ (c.p.a - k) + sibling (c.fDigit i / 2 ^ k)) k := by
    rw [hS]
    exact slice_concat (fun i _ => hpart i) hi
  have hlen : (c.hSecret (c.fLeaf i)).length = c.p.n := V.PRF _ _ _
  have hcl : (concat c.p.a fun k =>
      c.hFors (i * 2 ^ (c.p.a - k) + sibling (c.fDigit i / 2 ^ k)) k).length = c.p.a * c.p.n :=
    concat_length fun _ _ => forsNode_length V _ _ _ _ _
  have e1 : i * (c.p.a + 1) * c.p.n = i * ((c.p.a + 1) * c.p.n) + 0 := by ring
  have e2 : (i * (c.p.a + 1) + 1) * c.p.n = i * ((c.p.a + 1) * c.p.n) + c.p.n := by ring
  have e3 : (i + 1) * (c.p.a + 1) * c.p.n = i * ((c.p.a + 1) * c.p.n) + (c.p.n + c.p.a * c.p.n) := by
    ring
  have e4 : (i + 1) * ((c.p.a + 1) * c.p.n) = i * ((c.p.a + 1) * c.p.n) + c.p.n + c.p.a * c.p.n := by
    ring
  have hsec : c.vSecret i = c.hSecret (c.fLeaf i) := by
    have := congrArg (fun x => slice x 0 c.p.n) hs
    rw [slice_slice _ (by omega), ← e1, ← e2] at this
    rw [Attempt.vSecret]
    refine this.trans ?_
    have h := slice_zero_append (c.hSecret (c.fLeaf i)) (concat c.p.a fun k =>
      c.hFors (i * 2 ^ (c.p.a - k) + sibling (c.fDigit i / 2 ^ k)) k)
    rwa [hlen] at h
  have hauth : ∀ k < c.p.a, c.vForsAuth i k = c.hFors (sibling (c.fLeaf i / 2 ^ k)) k := by
    intro k hk
    have := congrArg (fun x => slice x c.p.n (c.p.n + c.p.a * c.p.n)) hs
    rw [slice_slice _ (by omega), ← e2, ← e3] at this
    rw [Attempt.vForsAuth]
    have h := slice_append_right (c.hSecret (c.fLeaf i)) (concat c.p.a fun k =>
      c.hFors (i * 2 ^ (c.p.a - k) + sibling (c.fDigit i / 2 ^ k)) k) 0 (c.p.a * c.p.n)
    rw [hlen, Nat.add_zero] at h
    rw [h, ← hcl, slice_all] at this
    rw [this, slice_concat (fun _ _ => hnl _ _) hk]
    exact congrArg (fun x => c.hFors x k) (Attempt.sibling_fLeaf c i hk).symm
  have hleaf : c.fLeaf i < 2 ^ 32 := by
    have h1 := c.fDigit_lt i
    have h2 : (i + 1) * 2 ^ c.p.a ≤ c.p.k * 2 ^ c.p.a := Nat.mul_le_mul_right _ hi
    rw [Nat.add_mul, Nat.one_mul] at h2
    have := W.fors
    rw [Attempt.fLeaf]
    omega
  refine ⟨hsec, hauth, fun k hk => ?_⟩
  exact climb_tree (hf := c.hf) (PKseed := c.PKseed) (idx := c.fDigit i) (T := c.fLeaf i)
    (AUTH := c.vForsAuth i) (B := c.fAdrs)
    (node := c.hf.F c.PKseed (c.fLeafAdrs (c.fLeaf i)) (c.vSecret i)) c.fAdrs_length hleaf
    (levels := c.p.a) (fun k hk => c.fLeaf_bits i hk) c.hFors (fun i k => rfl) hauth
    (by rw [hsec]; rfl) k hk

theorem vMsg_fors_honest (c : Attempt) (W : c.p.WF) (V : Valid c.hf c.p.n m)
    (hS : c.SIGfors = forsSign c.p c.hf c.md c.SKseed c.PKseed c.fAdrs) : c.vMsg 0 = c.hMsg 0 := by
  rw [Attempt.vMsg_zero]
  refine congrArg _ (concat_congr fun i hi => ?_)
  have := (fors_sign_values c W V hS hi).2.2 c.p.a (Nat.le_refl _)
  rwa [Attempt.fLeaf_top] at this

/-- The public key computed from an honest FORS signature does not depend on the message digest. -/
theorem fors_correct (W : p.WF) (V : Valid hf p.n m) (md SKseed PKseed : Bytes) (t l : Nat) :
    forsPkFromSig p hf (forsSign p hf md SKseed PKseed (forsAdrs t l)) md PKseed (forsAdrs t l) =
      Attempt.hForsPk ⟨p, hf, SKseed, PKseed, [], t, l, [], []⟩ :=
  vMsg_fors_honest ⟨p, hf, SKseed, PKseed, md, t, l, forsSign p hf md SKseed PKseed (forsAdrs t l), []⟩
    W V rfl

theorem signMsg_honest (W : p.WF) (V : Valid hf p.n m) (c : Attempt) (hp : c.p = p) (hh : c.hf = hf)
    (hl : c.l < 2 ^ p.hp) (j : Nat) :
    signMsg p hf c.SKseed c.PKseed c.hForsPk c.t c.l j = c.hMsg j := by
  subst hp hh
  cases j with
  | zero => rfl
  | succ j => exact signMsg_succ W V _ _ _ _ hl j

/-- An accepted signature is the honest one for the randomizer it contains, or yields a break. -/
theorem verify_extract (W : p.WF) (V : Valid hf p.n m) (hn : p.n ≤ 128) {M SIG SKseed PKseed : Bytes}
    (h : verifyInternal p hf M SIG PKseed (pkRoot p hf SKseed PKseed) = true) :
    (attempt p hf M SIG SKseed PKseed (pkRoot p hf SKseed PKseed)).Break ∨
    SIG = signWithR p hf (slice SIG 0 p.n) M SKseed PKseed (pkRoot p hf SKseed PKseed) := by
  rw [verifyInternal] at h
  split at h
  · cases h
  rename_i hlen
  have hlen : SIG.length = p.sigLen := by omega
  generalize hc : attempt p hf M SIG SKseed PKseed (pkRoot p hf SKseed PKseed) = c
  have hcp : c.p = p := by rw [← hc]; rfl
  have hch : c.hf = hf := by rw [← hc]; rfl
  have hsl : p.sigLen = p.n + p.k * ((p.a + 1) * p.n) + p.d * p.xmssLen := by
    rw [Params.sigLen, Params.xmssLen, W.h_eq]; ring
  have e1 : (1 + p.k * (1 + p.a)) * p.n = p.n + p.k * ((p.a + 1) * p.n) := by ring
  have e2 : (1 + p.k * (1 + p.a) + p.h + p.d * p.len) * p.n = p.sigLen := rfl
  have hcf : c.SIGfors = slice SIG p.n (p.n + p.k * ((p.a + 1) * p.n)) := by rw [← hc, ← e1]; rfl
  have hct : c.SIGht = slice SIG (p.n + p.k * ((p.a + 1) * p.n)) p.sigLen := by
    rw [← hc, ← e1, ← e2]; rfl
  have o : c.Ok m := by
    constructor
    · rw [hcp]; exact W
    · rw [hcp, hch]; exact V
    · rw [hcp]; exact hn
    · rw [hcf, hcp, slice_length (by omega)]; omega
    · rw [hct, hcp, slice_length (by omega)]; omega
    · have := digestTree_lt (p := p) (hf.Hmsg (slice SIG 0 p.n) PKseed (pkRoot p hf SKseed PKseed) M)
      rw [W.hd] at this
      rw [← hc]; exact this
    · have := digestLeaf_lt (p := p) (hf.Hmsg (slice SIG 0 p.n) PKseed (pkRoot p hf SKseed PKseed) M)
      rw [W.hd] at this
      rw [← hc]; exact this
  by_cases hb : c.Break
  · exact .inl hb
  right
  have hroot : c.vMsg c.p.d = c.hMsg c.p.d := by
    dsimp only at h
    rw [htVerify_eq] at h
    have h := eq_of_beq h
    have htop : htTree p c.t (p.d - 1) = 0 := htTree_top W (by have := o.t_lt; rwa [hcp] at this)
    have e : c.hMsg (p.d - 1 + 1) = pkRoot p hf SKseed PKseed := by
      rw [Attempt.hMsg, Attempt.hXmss, Attempt.adrs, hcp, htop, htAdrs_zero_tree, hch, pkRoot, ← hc]
      rfl
    rw [Nat.sub_add_cancel W.d_pos] at e
    rw [hcp, e, ← h, ← hc]
    rfl
  obtain ⟨h0, hlay⟩ := (Attempt.layers_honest o hroot).resolve_left hb
  have hfors := (Attempt.fors_honest o h0).resolve_left hb
  have hht : c.SIGht = htSign p hf c.hForsPk SKseed PKseed c.t c.l := by
    have hk : c.SKseed = SKseed ∧ c.PKseed = PKseed := by rw [← hc]; exact ⟨rfl, rfl⟩
    have : c.SIGht = concat c.p.d c.vLayer := by
      have := concat_slice c.SIGht c.p.d c.p.xmssLen
      rw [← o.ht, slice_all] at this
      exact this.symm
    rw [this, htSign_eq, hcp]
    refine concat_congr fun j hj => ?_
    rw [hlay j (by rw [hcp]; exact hj), signSig, ← hk.1, ← hk.2,
      signMsg_honest W V c hcp hch (by have := o.l_lt; rwa [hcp] at this)]
    rw [Attempt.leaf, Attempt.adrs, hcp, hch]
  have hsplit : SIG = slice SIG 0 p.n ++ c.SIGfors ++ c.SIGht := by
    rw [hcf, hct, slice_append_slice _ (by omega) (by omega), slice_append_slice _ (by omega) (by omega),
      ← hlen, slice_all]
  rw [signWithR]
  have hf1 : c.SIGfors = forsSign p hf (digestMd p (hf.Hmsg (slice SIG 0 p.n) PKseed
      (pkRoot p hf SKseed PKseed) M)) SKseed PKseed (forsAdrs (digestTree p (hf.Hmsg (slice SIG 0 p.n) PKseed
      (pkRoot p hf SKseed PKseed) M)) (digestLeaf p (hf.Hmsg (slice SIG 0 p.n) PKseed
      (pkRoot p hf SKseed PKseed) M))) := by
    rw [hfors, ← hc]; rfl
  rw [fors_correct W V, ← hf1]
  conv_lhs => rw [hsplit]
  refine congrArg _ ?_
  rw [hht, ← hc]
  rfl

/-- The values the verifier computes from an honest signature. -/
theorem honest_values (W : p.WF) (V : Valid hf p.n m) {c : Attempt} (hp : c.p = p) (hh : c.hf = hf)
    (hl : c.l < 2 ^ p.hp) (hF : c.SIGfors = forsSign p hf c.md c.SKseed c.PKseed c.fAdrs)
    (hT : c.SIGht = htSign p hf c.hForsPk c.SKseed c.PKseed c.t c.l) :
    (∀ j ≤ c.p.d, c.vMsg j = c.hMsg j) ∧
    (∀ j < c.p.d, ∀ i < c.p.len, ∀ s, c.vDigit j i ≤ s → c.vChain j i s = c.hChain j i s) ∧
    (∀ j < c.p.d, ∀ k < c.p.hp, c.vAuth j k = c.hXmss j (sibling (c.leaf j / 2 ^ k)) k) ∧
    (∀ j < c.p.d, ∀ k ≤ c.p.hp, c.vXmss j k = c.hXmss j (c.leaf j / 2 ^ k) k) ∧
    ∀ i < c.p.k, c.vSecret i = c.hSecret (c.fLeaf i) ∧
      (∀ k < c.p.a, c.vForsAuth i k = c.hFors (sibling (c.fLeaf i / 2 ^ k)) k) ∧
      ∀ k ≤ c.p.a, c.vFors i k = c.hFors (c.fLeaf i / 2 ^ k) k := by
  subst hp hh
  have h31 : 2 ^ c.p.hp ≤ 2 ^ 31 := Nat.pow_le_pow_right (by decide) W.hp_le
  have h0 : c.vMsg 0 = c.hMsg 0 := vMsg_fors_honest c W V hF
  have h0' : forsPkFromSig c.p c.hf c.SIGfors c.md c.PKseed c.fAdrs = c.hForsPk := h0
  have hmsg : ∀ j ≤ c.p.d, c.vMsg j = c.hMsg j := by
    intro j hj
    rw [Attempt.vMsg, h0', hT, rootMsg_sign V _ _ _ _ _ j hj]
    exact signMsg_honest W V c rfl rfl hl j
  have hlayer : ∀ j < c.p.d, c.vLayer j =
      xmssSign c.p c.hf (c.hMsg j) c.SKseed (c.leaf j) c.PKseed (c.adrs j) := by
    intro j hj
    rw [Attempt.vLayer, hT, signSig_slice V _ _ _ _ _ hj, signSig,
      signMsg_honest W V c rfl rfl hl j]
    rfl
  have hwots : ∀ j < c.p.d, ∀ i < c.p.len, c.vWots j i = c.hChain j i (c.vDigit j i) := by
    intro j hj i hi
    rw [Attempt.vWots, hlayer j hj, xmssSign_wots V, wotsSign_slice V _ _ _ _ hi, Attempt.vDigit,
      hmsg j (by omega)]
    rfl
  have hauth : ∀ j < c.p.d, ∀ k < c.p.hp, c.vAuth j k = c.hXmss j (sibling (c.leaf j / 2 ^ k)) k := by
    intro j hj k hk
    rw [Attempt.vAuth, hlayer j hj, xmssSign_auth V _ _ _ _ _ hk]
    rfl
  have hchain : ∀ j < c.p.d, ∀ i < c.p.len, ∀ s, c.vDigit j i ≤ s → c.vChain j i s = c.hChain j i s := by
    intro j hj i hi s hs
    rw [Attempt.vChain, hwots j hj i hi, Attempt.hChain_add, Nat.add_sub_cancel' hs]
  have hends : ∀ j < c.p.d, (concat c.p.len fun i => c.vChain j i (w - 1)) =
      concat c.p.len fun i => c.hChain j i (w - 1) := fun j hj =>
    concat_congr fun i hi => hchain j hj i hi _ (c.vDigit_le j i)
  have hnodes : ∀ j < c.p.d, ∀ k ≤ c.p.hp, c.vXmss j k = c.hXmss j (c.leaf j / 2 ^ k) k := by
    intro j hj k hk
    have hlt : c.leaf j < 2 ^ c.p.hp := htLeaf_lt _ hl _
    exact climb_tree (hf := c.hf) (PKseed := c.PKseed) (idx := c.leaf j) (T := c.leaf j)
      (AUTH := c.vAuth j) (B := setTypeAndClear (c.adrs j) TREE)
      (node := c.hf.T c.PKseed (wotsPkAdrs (c.wotsAdrs j))
        (concat c.p.len fun i => c.vChain j i (w - 1)))
      (setTypeAndClear_length (c.adrs_length j) _) (by omega) (levels := c.p.hp) (fun _ _ => rfl)
      (c.hXmss j) (fun i k => rfl) (hauth j hj) (by rw [hends j hj, Attempt.hXmss_zero]) k hk
  exact ⟨hmsg, hchain, hauth, hnodes, fun i hi => fors_sign_values c W V hF hi⟩

/-- An honest signature yields no break. -/
theorem honest_no_break (W : p.WF) (V : Valid hf p.n m) {c : Attempt} (hp : c.p = p) (hh : c.hf = hf)
    (hl : c.l < 2 ^ p.hp) (hF : c.SIGfors = forsSign p hf c.md c.SKseed c.PKseed c.fAdrs)
    (hT : c.SIGht = htSign p hf c.hForsPk c.SKseed c.PKseed c.t c.l) : ¬ c.Break := by
  obtain ⟨hmsg, hchain, hauth, hnodes, hfors⟩ := honest_values W V hp hh hl hF hT
  intro hb
  cases hb with
  | chainStep j i s hj hi h1 h2 ne eq => exact ne (hchain j hj i hi s h1)
  | wotsPk j hj ne eq => exact ne (concat_congr fun i hi => hchain j hj i hi _ (c.vDigit_le j i))
  | xmssNode j k hj hk ne eq => exact ne (by rw [hnodes j hj k (by omega), hauth j hj k hk])
  | forsPk ne eq =>
    refine ne (concat_congr fun i hi => ?_)
    have := (hfors i hi).2.2 c.p.a (Nat.le_refl _)
    rwa [Attempt.fLeaf_top] at this
  | forsNode i k hi hk ne eq =>
    obtain ⟨_, h2, h3⟩ := hfors i hi
    exact ne (by rw [h2 k hk, h3 k (by omega)])
  | forsLeaf i hi ne eq => exact ne (hfors i hi).1
  | unpublished j i hj hi ne lt eq => exact ne (hmsg j (by omega))

/-- The parts of an honest signature. -/
theorem attempt_signWithR_parts (W : p.WF) (V : Valid hf p.n m) {R M SKseed PKseed PKroot : Bytes}
    (hR : R.length = p.n) :
    let c := attempt p hf M (signWithR p hf R M SKseed PKseed PKroot) SKseed PKseed PKroot
    c.l < 2 ^ p.hp ∧ c.SIGfors = forsSign p hf c.md c.SKseed c.PKseed c.fAdrs ∧
    c.SIGht = htSign p hf c.hForsPk c.SKseed c.PKseed c.t c.l := by
  have hsl : (1 + p.k * (1 + p.a) + p.h + p.d * p.len) * p.n =
      p.n + (p.k * ((p.a + 1) * p.n) + p.d * p.xmssLen) := by
    rw [Params.xmssLen, W.h_eq]; ring
  have e1 : (1 + p.k * (1 + p.a)) * p.n = p.n + p.k * ((p.a + 1) * p.n) := by ring
  generalize hc : attempt p hf M (signWithR p hf R M SKseed PKseed PKroot) SKseed PKseed PKroot = c
  have hSIG : signWithR p hf R M SKseed PKseed PKroot = R ++
      (forsSign p hf (digestMd p (hf.Hmsg R PKseed PKroot M)) SKseed PKseed
        (forsAdrs (digestTree p (hf.Hmsg R PKseed PKroot M)) (digestLeaf p (hf.Hmsg R PKseed PKroot M))) ++
      htSign p hf (forsPkFromSig p hf (forsSign p hf (digestMd p (hf.Hmsg R PKseed PKroot M)) SKseed PKseed
        (forsAdrs (digestTree p (hf.Hmsg R PKseed PKroot M)) (digestLeaf p (hf.Hmsg R PKseed PKroot M))))
        (digestMd p (hf.Hmsg R PKseed PKroot M)) PKseed
        (forsAdrs (digestTree p (hf.Hmsg R PKseed PKroot M)) (digestLeaf p (hf.Hmsg R PKseed PKroot M))))
        SKseed PKseed (digestTree p (hf.Hmsg R PKseed PKroot M))
        (digestLeaf p (hf.Hmsg R PKseed PKroot M))) := List.append_assoc _ _ _
  have hRs : slice (signWithR p hf R M SKseed PKseed PKroot) 0 p.n = R := by
    have := slice_zero_append R (forsSign p hf (digestMd p (hf.Hmsg R PKseed PKroot M)) SKseed PKseed
        (forsAdrs (digestTree p (hf.Hmsg R PKseed PKroot M)) (digestLeaf p (hf.Hmsg R PKseed PKroot M))) ++
      htSign p hf (forsPkFromSig p hf (forsSign p hf (digestMd p (hf.Hmsg R PKseed PKroot M)) SKseed PKseed
        (forsAdrs (digestTree p (hf.Hmsg R PKseed PKroot M)) (digestLeaf p (hf.Hmsg R PKseed PKroot M))))
        (digestMd p (hf.Hmsg R PKseed PKroot M)) PKseed
        (forsAdrs (digestTree p (hf.Hmsg R PKseed PKroot M)) (digestLeaf p (hf.Hmsg R PKseed PKroot M))))
        SKseed PKseed (digestTree p (hf.Hmsg R PKseed PKroot M))
        (digestLeaf p (hf.Hmsg R PKseed PKroot M)))
    rw [hR] at this
    rw [hSIG]
    exact this
  rw [fors_correct W V] at hSIG
  have hmd : c.md = digestMd p (hf.Hmsg R PKseed PKroot M) := by rw [← hc, attempt, hRs]
  have ht : c.t = digestTree p (hf.Hmsg R PKseed PKroot M) := by rw [← hc, attempt, hRs]
  have hlf : c.l = digestLeaf p (hf.Hmsg R PKseed PKroot M) := by rw [← hc, attempt, hRs]
  have hcp : c.p = p := by rw [← hc]; rfl
  have hch : c.hf = hf := by rw [← hc]; rfl
  have hsk : c.SKseed = SKseed := by rw [← hc]; rfl
  have hpk : c.PKseed = PKseed := by rw [← hc]; rfl
  have hpkf : c.hForsPk = Attempt.hForsPk ⟨p, hf, SKseed, PKseed, [], c.t, c.l, [], []⟩ := by
    rw [← hc]; rfl
  rw [← hmd, ← ht, ← hlf, ← hpkf] at hSIG
  have hlF := forsSign_length V c.md SKseed PKseed (forsAdrs c.t c.l)
  have hlT := htSign_length V SKseed PKseed c.hForsPk c.t c.l
  refine ⟨?_, ?_, ?_⟩
  · rw [hlf]
    have := digestLeaf_lt (p := p) (hf.Hmsg R PKseed PKroot M)
    rwa [W.hd] at this
  · have : c.SIGfors = slice (signWithR p hf R M SKseed PKseed PKroot) p.n
        (p.n + p.k * ((p.a + 1) * p.n)) := by rw [← hc, ← e1]; rfl
    rw [this, hSIG, hsk, hpk]
    have h1 := slice_append_right R (forsSign p hf c.md SKseed PKseed (forsAdrs c.t c.l) ++
      htSign p hf c.hForsPk SKseed PKseed c.t c.l) 0 (p.k * ((p.a + 1) * p.n))
    rw [hR, Nat.add_zero] at h1
    rw [h1, ← hlF]
    exact slice_zero_append _ _
  · have : c.SIGht = slice (signWithR p hf R M SKseed PKseed PKroot) (p.n + p.k * ((p.a + 1) * p.n))
        (p.n + (p.k * ((p.a + 1) * p.n) + p.d * p.xmssLen)) := by rw [← hc, ← e1, ← hsl]; rfl
    rw [this, hSIG, hsk, hpk]
    have h1 := slice_append_right R (forsSign p hf c.md SKseed PKseed (forsAdrs c.t c.l) ++
      htSign p hf c.hForsPk SKseed PKseed c.t c.l) (p.k * ((p.a + 1) * p.n))
      (p.k * ((p.a + 1) * p.n) + p.d * p.xmssLen)
    rw [hR] at h1
    rw [h1]
    have h2 := slice_append_right (forsSign p hf c.md SKseed PKseed (forsAdrs c.t c.l))
      (htSign p hf c.hForsPk SKseed PKseed c.t c.l) 0 (p.d * p.xmssLen)
    rw [hlF, Nat.add_zero] at h2
    rw [h2, ← hlT, slice_all]

theorem attempt_signWithR (W : p.WF) (V : Valid hf p.n m) {R M SKseed PKseed PKroot : Bytes}
    (hR : R.length = p.n) :
    ¬ (attempt p hf M (signWithR p hf R M SKseed PKseed PKroot) SKseed PKseed PKroot).Break := by
  obtain ⟨h1, h2, h3⟩ := attempt_signWithR_parts W V (M := M) (SKseed := SKseed) (PKseed := PKseed)
    (PKroot := PKroot) hR
  exact honest_no_break W V rfl rfl h1 h2 h3

/-- The FORS part of an honest signature. -/
theorem attempt_signWithR_fors (V : Valid hf p.n m) {R M SKseed PKseed PKroot : Bytes}
    (hR : R.length = p.n) {c : Attempt}
    (hc : attempt p hf M (signWithR p hf R M SKseed PKseed PKroot) SKseed PKseed PKroot = c) :
    c.SIGfors = forsSign c.p c.hf c.md c.SKseed c.PKseed c.fAdrs := by
  obtain ⟨X, hX⟩ : ∃ X, signWithR p hf R M SKseed PKseed PKroot = R ++
      (forsSign p hf (digestMd p (hf.Hmsg R PKseed PKroot M)) SKseed PKseed
        (forsAdrs (digestTree p (hf.Hmsg R PKseed PKroot M)) (digestLeaf p (hf.Hmsg R PKseed PKroot M))) ++
      X) := ⟨_, List.append_assoc _ _ _⟩
  have hRs : slice (signWithR p hf R M SKseed PKseed PKroot) 0 p.n = R := by
    rw [hX, ← hR]
    exact slice_zero_append _ _
  have e1 : (1 + p.k * (1 + p.a)) * p.n = p.n + p.k * ((p.a + 1) * p.n) := by ring
  have hF : c.SIGfors = slice (signWithR p hf R M SKseed PKseed PKroot) p.n
      (p.n + p.k * ((p.a + 1) * p.n)) := by rw [← hc, ← e1]; rfl
  have hS : forsSign c.p c.hf c.md c.SKseed c.PKseed c.fAdrs =
      forsSign p hf (digestMd p (hf.Hmsg R PKseed PKroot M)) SKseed PKseed
        (forsAdrs (digestTree p (hf.Hmsg R PKseed PKroot M)) (digestLeaf p (hf.Hmsg R PKseed PKroot M))) := by
    rw [← hc, Attempt.fAdrs, attempt, hRs]
  rw [hS, hF, hX]
  generalize hG : forsSign p hf (digestMd p (hf.Hmsg R PKseed PKroot M)) SKseed PKseed
    (forsAdrs (digestTree p (hf.Hmsg R PKseed PKroot M)) (digestLeaf p (hf.Hmsg R PKseed PKroot M))) = G
  have hl : G.length = p.k * ((p.a + 1) * p.n) := by rw [← hG, forsSign_length V]
  have h1 := slice_append_right R (G ++ X) 0 (p.k * ((p.a + 1) * p.n))
  rw [hR, Nat.add_zero] at h1
  rw [h1, ← hl]
  exact slice_zero_append _ _

/-- Layer `j` of an honest signature. -/
theorem signWithR_layer (W : p.WF) (V : Valid hf p.n m) {R M SKseed PKseed PKroot : Bytes}
    (hR : R.length = p.n) {t l : Nat} (ht : t = digestTree p (hf.Hmsg R PKseed PKroot M))
    (hl : l = digestLeaf p (hf.Hmsg R PKseed PKroot M)) {j : Nat} (hj : j < p.d) :
    slice (signWithR p hf R M SKseed PKseed PKroot) ((1 + p.k * (1 + p.a)) * p.n + j * p.xmssLen)
      ((1 + p.k * (1 + p.a)) * p.n + (j + 1) * p.xmssLen) =
    signSig p hf SKseed PKseed (Attempt.hForsPk ⟨p, hf, SKseed, PKseed, [], t, l, [], []⟩) t l j := by
  have hSIG : signWithR p hf R M SKseed PKseed PKroot = R ++
      forsSign p hf (digestMd p (hf.Hmsg R PKseed PKroot M)) SKseed PKseed (forsAdrs t l) ++
      htSign p hf (forsPkFromSig p hf (forsSign p hf (digestMd p (hf.Hmsg R PKseed PKroot M)) SKseed PKseed
        (forsAdrs t l)) (digestMd p (hf.Hmsg R PKseed PKroot M)) PKseed (forsAdrs t l))
        SKseed PKseed t l := by rw [ht, hl]; rfl
  rw [fors_correct W V] at hSIG
  have hlen : (R ++ forsSign p hf (digestMd p (hf.Hmsg R PKseed PKroot M)) SKseed PKseed
      (forsAdrs t l)).length = (1 + p.k * (1 + p.a)) * p.n := by
    rw [List.length_append, hR, forsSign_length V]; ring
  rw [hSIG, ← hlen, slice_append_right, signSig_slice V _ _ _ _ _ hj]

end

end Fips205.Spec
