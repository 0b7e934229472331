import Verif.Proofs.Meet

/-!
# Signing with a one-time key that was used for two values

From two signatures that use a one-time key for different values, every value can be signed whose digits are all at least
as large as one of theirs.
-/

namespace Fips205.Spec
open Fips205

/-- The one-time signature of `m` computed from those in layer `j` of two signatures. -/
def Attempt.mixed (c c' : Attempt) (j : Nat) (m : Bytes) : Bytes :=
  concat c.p.len fun i =>
    let e := (wotsDigits c.p m).getD i 0
    if c.vDigit j i ≤ e then c.vChain j i e else c'.vChain j i e

/-- Where layer `j` begins in a signature. -/
def Params.layerAt (p : Params) (j : Nat) : Nat := (1 + p.k * (1 + p.a)) * p.n + j * p.xmssLen

/-- The signature `own`, its layers from `j` on replaced: the one-time signature by `W`, the others by those of `SIG`. -/
def regraft (p : Params) (own W SIG : Bytes) (j : Nat) : Bytes :=
  own.take (p.layerAt j) ++ (W ++ SIG.drop (p.layerAt j + p.len * p.n))

variable {p : Params} {hf : HashFns} {m : Nat}

theorem vLayer_eq (W : p.WF) {M SIG SKseed PKseed PKroot : Bytes} {k : Nat} (hk : k < p.d) :
    (attempt p hf M SIG SKseed PKseed PKroot).vLayer k = slice SIG (p.layerAt k) (p.layerAt (k + 1)) := by
  rw [Attempt.vLayer]
  change slice (slice SIG _ _) (k * p.xmssLen) ((k + 1) * p.xmssLen) = _
  rw [slice_slice]
  · rfl
  · have : (k + 1) * p.xmssLen ≤ p.d * p.xmssLen := Nat.mul_le_mul_right _ hk
    have e : (1 + p.k * (1 + p.a) + p.h + p.d * p.len) * p.n = (1 + p.k * (1 + p.a)) * p.n + p.d * p.xmssLen := by
      rw [Params.xmssLen, W.h_eq]; ring
    omega

theorem vMsg_step (c : Attempt) (j : Nat) : c.vMsg (j + 1) =
    xmssPkFromSig c.p c.hf (c.leaf j) (c.vLayer j) (c.vMsg j) c.PKseed (c.adrs j) := rfl

theorem signWithR_length (W : p.WF) (V : Valid hf p.n m) {R M S PKseed PKroot : Bytes} (hR : R.length = p.n) :
    (signWithR p hf R M S PKseed PKroot).length = p.sigLen := by
  rw [signWithR, List.length_append, List.length_append, hR, forsSign_length V, htSign_length V, Params.sigLen,
    Params.xmssLen, W.h_eq]
  ring

theorem slice_signWithR {R M S PKseed PKroot : Bytes} (hR : R.length = p.n) :
    slice (signWithR p hf R M S PKseed PKroot) 0 p.n = R := by
  rw [signWithR, List.append_assoc, ← hR]
  exact slice_zero_append _ _

section
variable {own W' SIG : Bytes} {j : Nat}

theorem layerAt_le (W : p.WF) {k : Nat} (hk : k ≤ p.d) : p.layerAt k ≤ p.sigLen := by
  have : k * p.xmssLen ≤ p.d * p.xmssLen := Nat.mul_le_mul_right _ hk
  have e : p.sigLen = (1 + p.k * (1 + p.a)) * p.n + p.d * p.xmssLen := by
    rw [Params.sigLen, Params.xmssLen, W.h_eq]; ring
  rw [e, Params.layerAt]
  omega

theorem layerAt_succ (k : Nat) : p.layerAt (k + 1) = p.layerAt k + p.len * p.n + p.hp * p.n := by
  rw [Params.layerAt, Params.layerAt, Params.xmssLen]; ring

theorem layerAt_mono {k k' : Nat} (h : k ≤ k') : p.layerAt k ≤ p.layerAt k' := by
  have : k * p.xmssLen ≤ k' * p.xmssLen := Nat.mul_le_mul_right _ h
  rw [Params.layerAt, Params.layerAt]
  omega

theorem regraft_length (W : p.WF) (h1 : own.length = p.sigLen) (h2 : SIG.length = p.sigLen) (h3 : W'.length = p.len * p.n)
    (hj : j < p.d) : (regraft p own W' SIG j).length = p.sigLen := by
  have h4 := layerAt_le W (k := j + 1) hj
  rw [layerAt_succ] at h4
  rw [regraft, List.length_append, List.length_append, List.length_take, List.length_drop, h1, h2, h3]
  omega

/-- Before layer `j` it is `own`. -/
theorem regraft_before (W : p.WF) (h1 : own.length = p.sigLen) (hj : j < p.d) {a b : Nat} (hb : b ≤ p.layerAt j) :
    slice (regraft p own W' SIG j) a b = slice own a b := by
  have h4 := layerAt_le W (k := j) (by omega)
  rw [regraft, slice_append_left _ (by rw [List.length_take, h1]; omega)]
  conv_rhs => rw [← List.take_append_drop (p.layerAt j) own]
  rw [slice_append_left _ (by rw [List.length_take, h1]; omega)]

theorem regraft_wots (W : p.WF) (h1 : own.length = p.sigLen) (h3 : W'.length = p.len * p.n)
    (hj : j < p.d) : slice (regraft p own W' SIG j) (p.layerAt j) (p.layerAt j + p.len * p.n) = W' := by
  have h4 := layerAt_le W (k := j) (by omega)
  have h5 : (own.take (p.layerAt j)).length = p.layerAt j := by rw [List.length_take, h1]; omega
  have h6 := slice_append_right (own.take (p.layerAt j)) (W' ++ SIG.drop (p.layerAt j + p.len * p.n)) 0 W'.length
  rw [h5, slice_zero_append, h3] at h6
  exact h6

/-- After the one-time signature of layer `j` it is `SIG`. -/
theorem regraft_after (W : p.WF) (h1 : own.length = p.sigLen) (h3 : W'.length = p.len * p.n)
    (hj : j < p.d) {a b : Nat} (ha : p.layerAt j + p.len * p.n ≤ a) (hab : a ≤ b) :
    slice (regraft p own W' SIG j) a b = slice SIG a b := by
  have h4 := layerAt_le W (k := j) (by omega)
  have h5 : (own.take (p.layerAt j) ++ W').length = p.layerAt j + p.len * p.n := by
    rw [List.length_append, List.length_take, h1, h3]; omega
  rw [regraft, ← List.append_assoc]
  obtain ⟨a', rfl⟩ := Nat.exists_eq_add_of_le ha
  obtain ⟨b', rfl⟩ := Nat.exists_eq_add_of_le (Nat.le_trans ha hab)
  have h6 := slice_append_right (own.take (p.layerAt j) ++ W') (SIG.drop (p.layerAt j + p.len * p.n)) a' b'
  rw [h5] at h6
  rw [h6, slice, slice, List.drop_drop, Nat.add_sub_add_left]

end

/-- Chains are computed with `F` only. -/
theorem chain_F {hf' : HashFns} (h : hf'.F = hf.F) (X : Bytes) (i : Nat) (PKseed ADRS : Bytes) :
    ∀ s, chain hf' X i s PKseed ADRS = chain hf X i s PKseed ADRS
  | 0 => rfl
  | s + 1 => by rw [chain, chain, chain_F h X i PKseed ADRS s, h]

/-- The one-time signature put together leads to the public key of the others.  The second signature may belong to
another parameter set, provided that it has the same `n` and the same function `F`. -/
theorem mixed_end {m' : Nat} {c c' C : Attempt} (o : c.Ok m) (o' : c'.Ok m') (hp : c'.p.n = c.p.n) (hh : c'.hf.F = c.hf.F)
    (hs : c'.PKseed = c.PKseed) (hP : C.p = c.p) (hH : C.hf = c.hf) (hS : C.PKseed = c.PKseed) {j : Nat} (hj : j < c.p.d)
    (hj' : j < c'.p.d)
    (hc : c'.chainAdrs j = c.chainAdrs j) (hC : C.chainAdrs j = c.chainAdrs j)
    (hend : ∀ i < c.p.len, c.vChain j i (w - 1) = c'.vChain j i (w - 1))
    (hdig : ∀ i < c.p.len, min (c.vDigit j i) (c'.vDigit j i) ≤ C.vDigit j i)
    (hW : slice (C.vLayer j) 0 (c.p.len * c.p.n) = c.mixed c' j (C.vMsg j)) :
    ∀ i < c.p.len, C.vChain j i (w - 1) = c.vChain j i (w - 1) := by
  intro i hi
  have hlen : ∀ i < c.p.len, (if c.vDigit j i ≤ (wotsDigits c.p (C.vMsg j)).getD i 0 then
      c.vChain j i ((wotsDigits c.p (C.vMsg j)).getD i 0) else
      c'.vChain j i ((wotsDigits c.p (C.vMsg j)).getD i 0)).length = c.p.n := by
    intro i hi
    split
    · exact chain_length o.valid (o.wots_length hj hi) _ _ _ _
    · have := chain_length o'.valid (o'.wots_length (j := j) (i := i) hj' (by
        rwa [Params.len, Params.len1, hp]))
        (c'.vDigit j i) ((wotsDigits c.p (C.vMsg j)).getD i 0 - c'.vDigit j i) c'.PKseed (c'.chainAdrs j i)
      rwa [hp] at this
  have hw : C.vWots j i = if c.vDigit j i ≤ C.vDigit j i then c.vChain j i (C.vDigit j i) else
      c'.vChain j i (C.vDigit j i) := by
    rw [Attempt.vWots, hP, hW, Attempt.mixed]
    have e : C.vDigit j i = (wotsDigits c.p (C.vMsg j)).getD i 0 := by rw [Attempt.vDigit, hP]
    rw [slice_concat hlen hi, e]
  have hle := C.vDigit_le j i
  have hd := hdig i hi
  rw [Attempt.vChain, hw, hS, hH, hC]
  split
  · next h =>
    have := chain_add (hf := c.hf) (c.vWots j i) (c.vDigit j i) (C.vDigit j i - c.vDigit j i) (w - 1 - C.vDigit j i)
      c.PKseed (c.chainAdrs j i)
    rw [Nat.add_sub_cancel' h] at this
    rw [Attempt.vChain, this, Attempt.vChain]
    congr 1
    omega
  · next h =>
    have h' : c'.vDigit j i ≤ C.vDigit j i := by omega
    rw [hend i hi]
    have := chain_add (hf := c'.hf) (c'.vWots j i) (c'.vDigit j i) (C.vDigit j i - c'.vDigit j i) (w - 1 - C.vDigit j i)
      c'.PKseed (c'.chainAdrs j i)
    rw [Nat.add_sub_cancel' h'] at this
    rw [← hc, ← hs, ← chain_F hh, Attempt.vChain, this, Attempt.vChain]
    congr 1
    omega

/-- The signature put together is accepted. -/
theorem regraft_accepts {p' : Params} {hf' : HashFns} {m' : Nat} (W : p.WF) (V : Valid hf p.n m) (hn : p.n ≤ 128)
    (W' : p'.WF) (V' : Valid hf' p'.n m') (hpn : p'.n = p.n) (hF' : hf'.F = hf.F)
    {M1 SIG1 M2 SIG2 PKseed PKroot PKroot' : Bytes}
    (h1 : verifyInternal p hf M1 SIG1 PKseed PKroot = true) (l2 : SIG2.length = p'.sigLen)
    {j : Nat} (hj : j < p.d) (hj' : j < p'.d) {R M S : Bytes} (hR : R.length = p.n) :
    let c := attempt p hf M1 SIG1 [] PKseed PKroot
    let c' := attempt p' hf' M2 SIG2 [] PKseed PKroot'
    let own := signWithR p hf R M S PKseed PKroot
    let f := attempt p hf M own S PKseed PKroot
    htTree p c.t j = htTree p' c'.t j → c.leaf j = c'.leaf j →
    (∀ i < p.len, c.vChain j i (w - 1) = c'.vChain j i (w - 1)) →
    htTree p f.t j = htTree p c.t j → f.leaf j = c.leaf j →
    (∀ i < p.len, min (c.vDigit j i) (c'.vDigit j i) ≤ f.hDigit j i) →
    (regraft p own (c.mixed c' j (f.hMsg j)) SIG1 j).length = p.sigLen ∧
    slice (regraft p own (c.mixed c' j (f.hMsg j)) SIG1 j) 0 p.n = R ∧
    verifyInternal p hf M (regraft p own (c.mixed c' j (f.hMsg j)) SIG1 j) PKseed PKroot = true := by
  intro c c' own f ht hl hend htf hlf hdig
  obtain ⟨l1, r1⟩ := (attempt_accepts M1 SIG1 [] PKseed PKroot).mp h1
  have o : c.Ok m := (attempt_ok W V hn l1).1
  have o' : c'.Ok m' := (attempt_ok W' V' (by rw [hpn]; exact hn) l2).1
  have lo : own.length = p.sigLen := signWithR_length W V hR
  have hRo : slice own 0 p.n = R := slice_signWithR hR
  obtain ⟨p1, p2, p3⟩ := attempt_signWithR_parts W V (M := M) (SKseed := S) (PKseed := PKseed) (PKroot := PKroot) hR
  obtain ⟨hv, -⟩ := honest_values W V (c := f) rfl rfl p1 p2 p3
  have hmix : (c.mixed c' j (f.hMsg j)).length = p.len * p.n := by
    refine concat_length fun i hi => ?_
    dsimp only
    split
    · exact chain_length o.valid (o.wots_length hj hi) _ _ _ _
    · have := chain_length o'.valid (o'.wots_length hj' (i := i) (by
        change i < p'.len
        rwa [Params.len, Params.len1, hpn]))
        (c'.vDigit j i) ((wotsDigits p (f.hMsg j)).getD i 0 - c'.vDigit j i) c'.PKseed (c'.chainAdrs j i)
      exact this.trans hpn
  have lf := regraft_length W lo l1 hmix hj
  have hF : p.n ≤ (1 + p.k * (1 + p.a)) * p.n := Nat.le_mul_of_pos_left _ (by omega)
  have hFj : (1 + p.k * (1 + p.a)) * p.n ≤ p.layerAt j := Nat.le_add_right _ _
  have hRf : slice (regraft p own (c.mixed c' j (f.hMsg j)) SIG1 j) 0 p.n = R := by
    rw [regraft_before W lo hj (by omega), hRo]
  refine ⟨lf, hRf, (attempt_accepts M _ [] PKseed PKroot).mpr ⟨lf, ?_⟩⟩
  generalize hC : attempt p hf M (regraft p own (c.mixed c' j (f.hMsg j)) SIG1 j) [] PKseed PKroot = C
  have hCp : C.p = p := by rw [← hC]; rfl
  have hCh : C.hf = hf := by rw [← hC]; rfl
  have hCs : C.PKseed = PKseed := by rw [← hC]; rfl
  have hCt : C.t = f.t := by
    rw [← hC]
    change digestTree p (hf.Hmsg (slice _ 0 p.n) PKseed PKroot M) = digestTree p (hf.Hmsg (slice _ 0 p.n) PKseed PKroot M)
    rw [hRf, hRo]
  have hCl : C.l = f.l := by
    rw [← hC]
    change digestLeaf p (hf.Hmsg (slice _ 0 p.n) PKseed PKroot M) = digestLeaf p (hf.Hmsg (slice _ 0 p.n) PKseed PKroot M)
    rw [hRf, hRo]
  have hCmd : C.md = f.md := by
    rw [← hC]
    change digestMd p (hf.Hmsg (slice _ 0 p.n) PKseed PKroot M) = digestMd p (hf.Hmsg (slice _ 0 p.n) PKseed PKroot M)
    rw [hRf, hRo]
  have hCf : C.SIGfors = f.SIGfors := by
    rw [← hC]
    exact regraft_before W lo hj hFj
  have hCleaf : ∀ k, C.leaf k = f.leaf k := fun k => by rw [Attempt.leaf, Attempt.leaf, hCt, hCl, hCp]; rfl
  have hCadrs : ∀ k, C.adrs k = f.adrs k := fun k => by rw [Attempt.adrs, Attempt.adrs, hCt, hCp]; rfl
  -- below layer `j`
  have hbelow : ∀ k ≤ j, C.vMsg k = f.vMsg k := by
    intro k
    induction k with
    | zero =>
      intro _
      rw [Attempt.vMsg, Attempt.vMsg, rootMsg, rootMsg, hCp, hCh, hCs, hCmd, hCf, Attempt.fAdrs, hCt, hCl]
      rfl
    | succ k ih =>
      intro hk
      have hlay : C.vLayer k = f.vLayer k := by
        rw [← hC, vLayer_eq W (by omega), vLayer_eq W (by omega)]
        exact regraft_before W lo hj (layerAt_mono hk)
      rw [vMsg_step, vMsg_step, hCleaf, hCadrs, hlay, ih (by omega), hCp, hCh, hCs]
      rfl
  have hm : C.vMsg j = f.hMsg j := (hbelow j (Nat.le_refl _)).trans (hv j (Nat.le_of_lt hj))
  have hdigit : ∀ i, C.vDigit j i = f.hDigit j i := fun i => by
    rw [Attempt.vDigit, Attempt.hDigit, hm, hCp]; rfl
  -- layer `j`
  have haj : ∀ {c c' : Attempt}, htTree c.p c.t j = htTree c'.p c'.t j → c.adrs j = c'.adrs j := by
    intro c c' h
    rw [Attempt.adrs, Attempt.adrs, h]
  have hja : C.adrs j = c.adrs j := by rw [hCadrs]; exact haj (c := f) (c' := c) htf
  have hjl : C.leaf j = c.leaf j := by rw [hCleaf, hlf]
  have hja' : c'.adrs j = c.adrs j := (haj (c := c) (c' := c') ht).symm
  have hcw : ∀ {c c' : Attempt}, c.adrs j = c'.adrs j → c.leaf j = c'.leaf j → c.wotsAdrs j = c'.wotsAdrs j := by
    intro c c' h h'
    rw [Attempt.wotsAdrs, Attempt.wotsAdrs, h, h']
  have hlayer : C.vLayer j = c.mixed c' j (f.hMsg j) ++ slice SIG1 (p.layerAt j + p.len * p.n) (p.layerAt (j + 1)) := by
    rw [← hC, vLayer_eq W hj, ← slice_append_slice _ (b := p.layerAt j + p.len * p.n) (by omega)
      (by rw [layerAt_succ]; omega), regraft_wots W lo hmix hj,
      regraft_after W lo hmix hj (Nat.le_refl _) (by rw [layerAt_succ]; omega)]
  have hlay1 : c.vLayer j = slice SIG1 (p.layerAt j) (p.layerAt j + p.len * p.n) ++
      slice SIG1 (p.layerAt j + p.len * p.n) (p.layerAt (j + 1)) := by
    rw [vLayer_eq W hj, slice_append_slice _ (by omega) (by rw [layerAt_succ]; omega)]
  have hauth : ∀ k, C.vAuth j k = c.vAuth j k := by
    intro k
    have e1 : (p.len + p.hp) * p.n = p.len * p.n + p.hp * p.n := Nat.add_mul _ _ _
    have e2 : ∀ X Y : Bytes, X.length = p.len * p.n → slice (X ++ Y) (p.len * p.n) ((p.len + p.hp) * p.n) =
        slice Y 0 (p.hp * p.n) := by
      intro X Y hX
      have := slice_append_right X Y 0 (p.hp * p.n)
      rwa [hX, Nat.add_zero, ← e1] at this
    have l4 := layerAt_le W (k := j + 1) hj
    rw [layerAt_succ] at l4
    rw [Attempt.vAuth, Attempt.vAuth, hCp, hlayer, hlay1, e2 _ _ hmix]
    change _ = slice (slice _ (p.len * p.n) ((p.len + p.hp) * p.n)) (k * p.n) ((k + 1) * p.n)
    rw [e2 _ _ (by rw [slice_length (by rw [l1]; omega)]; omega)]
  have hjm : C.vMsg (j + 1) = c.vMsg (j + 1) := by
    have hends := mixed_end (c := c) (c' := c') (C := C) o o' hpn hF' rfl hCp hCh hCs hj hj'
      (by funext i; rw [Attempt.chainAdrs, Attempt.chainAdrs, hcw hja' hl.symm])
      (by funext i; rw [Attempt.chainAdrs, Attempt.chainAdrs, hcw hja hjl]) hend
      (fun i hi => by rw [hdigit]; exact hdig i hi)
      (by rw [hlayer, hm]
          change slice _ 0 (p.len * p.n) = _
          rw [← hmix]
          exact slice_zero_append _ _)
    have hcc : (concat p.len fun i => C.vChain j i (w - 1)) = concat p.len fun i => c.vChain j i (w - 1) :=
      concat_congr hends
    rw [Attempt.vMsg_succ, Attempt.vMsg_succ, Attempt.vXmss, Attempt.vXmss, hCp, hCh, hCs, hja, hjl, hcw hja hjl,
      hcc, funext hauth]
    rfl
  -- above layer `j`
  have habove : ∀ k, j + 1 + k ≤ p.d → C.vMsg (j + 1 + k) = c.vMsg (j + 1 + k) ∧
      htTree p C.t (j + k) = htTree p c.t (j + k) := by
    intro k
    induction k with
    | zero => exact fun _ => ⟨hjm, by rw [hCt]; exact htf⟩
    | succ k ih =>
      intro hk
      obtain ⟨i1, i2⟩ := ih (by omega)
      have i3 : htTree p C.t (j + 1 + k) = htTree p c.t (j + 1 + k) := by
        rw [show j + 1 + k = j + k + 1 by omega, Attempt.htTree_succ, Attempt.htTree_succ, i2]
      have hlay : C.vLayer (j + 1 + k) = c.vLayer (j + 1 + k) := by
        rw [← hC, vLayer_eq W (by omega), vLayer_eq W (by omega)]
        refine regraft_after W lo hmix hj (Nat.le_trans ?_ (layerAt_mono (k := j + 1) (by omega))) (layerAt_mono (by omega))
        rw [layerAt_succ]
        omega
      have hleaf : C.leaf (j + 1 + k) = c.leaf (j + 1 + k) := by
        rw [show j + 1 + k = j + k + 1 by omega]
        simp only [Attempt.leaf, htLeaf]
        rw [hCp, i2]
        rfl
      have hadr : C.adrs (j + 1 + k) = c.adrs (j + 1 + k) := by
        rw [Attempt.adrs, Attempt.adrs, hCp, i3]
        rfl
      refine ⟨?_, by rw [← show j + 1 + k = j + (k + 1) by omega]; exact i3⟩
      change C.vMsg (j + 1 + k + 1) = c.vMsg (j + 1 + k + 1)
      rw [vMsg_step, vMsg_step, hleaf, hadr, hlay, i1, hCp, hCh, hCs]
      rfl
  have := (habove (p.d - (j + 1)) (by omega)).1
  rw [show j + 1 + (p.d - (j + 1)) = p.d by omega] at this
  exact this.trans r1

end Fips205.Spec
