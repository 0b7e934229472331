import Verif.Proofs.Slh

/-! # `serialize` and `deserialize` (`src/helpers.rs`) -/

namespace Fips205.Spec

theorem concat_slice_from (X : Bytes) (o k n : Nat) :
    (concat k fun i => slice X (o + i * n) (o + (i + 1) * n)) = slice X o (o + k * n) := by
  induction k with
  | zero => simp [concat_zero, slice_self]
  | succ k ih =>
    rw [concat_succ, ih, slice_append_slice _ (by omega) (by rw [Nat.succ_mul]; omega)]

end Fips205.Spec

namespace Fips205.Model
open Fips205

set_option linter.unusedSectionVars false

/-! ## Structures are determined by their bytes -/

theorem append_inj_len {α : Type} {a b c d : List α} (hl : a.length = c.length)
    (h : a ++ b = c ++ d) : a = c ∧ b = d := List.append_inj h hl

theorem flatMap_inj {α : Type} {n l : Nat} {v w : Vector α n} {g : α → List UInt8}
    (hl : ∀ a, (g a).length = l) (hg : ∀ a b, g a = g b → a = b)
    (h : v.toList.flatMap g = w.toList.flatMap g) : v = w := by
  apply Vector.ext
  intro i hi
  have h1 := slice_flatMap v hl hi
  have h2 := slice_flatMap w hl hi
  rw [h] at h1
  exact hg _ _ (h1.symm.trans h2)

theorem XmssSig.bytes_inj {HP LEN N : Nat} {s t : XmssSig HP LEN N} (h : s.bytes = t.bytes) :
    s = t := by
  obtain ⟨⟨a⟩, b⟩ := s
  obtain ⟨⟨c⟩, d⟩ := t
  obtain ⟨h1, h2⟩ := append_inj_len (by rw [absorbAll_length, absorbAll_length]) h
  have e1 : a = c := absorbAll_inj h1
  have e2 : b = d := absorbAll_inj h2
  rw [e1, e2]

theorem HtSig.bytes_inj {D HP LEN N : Nat} {s t : HtSig D HP LEN N} (h : s.bytes = t.bytes) :
    s = t := by
  obtain ⟨a⟩ := s
  obtain ⟨b⟩ := t
  congr 1
  exact flatMap_inj XmssSig.bytes_length (fun _ _ => XmssSig.bytes_inj) h

theorem forsPart_inj {A N : Nat} {x y : Vector UInt8 N × Auth A N} (h : forsPart x = forsPart y) :
    x = y := by
  obtain ⟨a, ⟨b⟩⟩ := x
  obtain ⟨c, ⟨d⟩⟩ := y
  obtain ⟨h1, h2⟩ := append_inj_len (by simp) h
  have e1 : a = c := Vector.toList_inj.mp h1
  have e2 : b = d := absorbAll_inj h2
  rw [e1, e2]

theorem ForsSig.bytes_inj {A K N : Nat} {s t : ForsSig A K N} (h : s.bytes = t.bytes) : s = t := by
  obtain ⟨a, b⟩ := s
  obtain ⟨c, d⟩ := t
  have := flatMap_inj forsPart_length (fun _ _ => forsPart_inj) h
  have h1 : ∀ i (hi : i < K), a[i] = c[i] ∧ b[i] = d[i] := by
    intro i hi
    have := congrArg (fun v => v[i]) this
    simpa [Vector.getElem_zip] using this
  congr 1
  · exact Vector.ext fun i hi => (h1 i hi).1
  · exact Vector.ext fun i hi => (h1 i hi).2

theorem SlhDsaSig.bytes_inj {A D HP K LEN N : Nat} {s t : SlhDsaSig A D HP K LEN N}
    (h : s.bytes = t.bytes) : s = t := by
  obtain ⟨a, b, c⟩ := s
  obtain ⟨d, e, f⟩ := t
  obtain ⟨h1, h2⟩ := append_inj_len (by simp [ForsSig.bytes_length]) h
  obtain ⟨h3, h4⟩ := append_inj_len (by simp) h1
  have e1 : a = d := Vector.toList_inj.mp h3
  have e2 : b = e := ForsSig.bytes_inj h4
  have e3 : c = f := HtSig.bytes_inj h2
  rw [e1, e2, e3]

variable {m : Type → Type} [Rust m] [LawfulMonad m] {K LEN M N A D H HP : Nat} {p : Spec.Params}

/-! ## `serialize` -/

/-- `pre` has been written so far. -/
def Wrote {L : Nat} (pre : List UInt8) (s : Vector UInt8 L × Nat) : Prop :=
  s.2 = pre.length ∧ s.1.toList.take s.2 = pre

theorem writeSlice_wrote {L : Nat} {pre c : List UInt8} {out out' : Vector UInt8 L} {st : Nat}
    (h : Wrote pre (out, st))
    (hw : out'.toList = out.toList.take st ++ c ++ out.toList.drop (st + c.length)) :
    Wrote (pre ++ c) (out', st + c.length) := by
  obtain ⟨h1, h2⟩ := h
  simp only at h1 h2
  refine ⟨by simp [h1], ?_⟩
  dsimp only
  rw [hw, h2, List.take_append_of_le_length (by simp [h1]), List.take_of_length_le (by simp [h1])]

theorem putChunk_returns {L : Nat} (hL : L < 2 ^ 16) {pre : List UInt8} {v : Vector UInt8 N}
    {s : Vector UInt8 L × Nat} (h : Wrote pre s) (hle : pre.length + N ≤ L) :
    Returns (putChunk v s : m _) (Wrote (pre ++ v.toList)) := by
  obtain ⟨out, st⟩ := s
  have h1 : st = pre.length := h.1
  unfold putChunk
  dsimp only
  refine Returns.addUsize (by omega) ?_
  refine Returns.writeSlice (by omega) (by omega) (by simp) fun w hw => ?_
  refine Returns.addUsize (by omega) (Returns.pure ?_)
  have := writeSlice_wrote (c := v.toList) (out' := w) h (by simpa using hw)
  rwa [Vector.length_toList] at this

/-- A loop that writes the elements of `v`. -/
theorem putLoop_returns {L n : Nat} {pre : List UInt8} (v : Vector (Vector UInt8 N) n)
    {s : Vector UInt8 L × Nat} (h : Wrote pre s) (hle : pre.length + n * N ≤ L)
    {body : Nat → Vector UInt8 L × Nat → m (Vector UInt8 L × Nat)}
    (hbody : ∀ i (hi : i < n) s (pre : List UInt8), Wrote pre s → pre.length + N ≤ L →
      Returns (body i s) (Wrote (pre ++ v[i].toList))) :
    Returns (forUsize 0 n s body) (Wrote (pre ++ absorbAll v)) := by
  let f : Nat → List UInt8 := fun k => if h : k < n then v[k].toList else []
  have hv : absorbAll v = Spec.concat n f := absorbAll_eq fun k hk => by simp [f, hk]
  have hcl : ∀ i ≤ n, (Spec.concat i f).length = i * N := fun i hi =>
    Spec.concat_length fun j hj => by simp [f, show j < n by omega]
  rw [hv]
  refine Returns.forUsize (fun i s => Wrote (pre ++ Spec.concat i f) s) (by omega)
    (by rwa [Spec.concat_zero, List.append_nil]) ?_
  intro i s _ hi hs
  refine (hbody i hi s _ hs ?_).mono fun s' hs' => ?_
  · rw [List.length_append, hcl i (by omega)]
    have : (i + 1) * N ≤ n * N := Nat.mul_le_mul_right _ hi
    rw [Nat.succ_mul] at this
    omega
  · rw [Spec.concat_succ, ← List.append_assoc]
    simpa [f, hi] using hs'

theorem sigLenExpr_ok (hp : Matches p K LEN M N A D H HP) :
    (sigLenExpr A D HP K LEN N : m Nat) =
      pure (N + N * K + K * A * N + D * (HP * N + LEN * N)) := by
  have hb := hp.sig
  have e : (1 + K * (1 + A) + H + D * LEN) * N =
      N + N * K + K * A * N + D * (HP * N + LEN * N) := by rw [hp.H_eq]; ring
  rw [e] at hb
  have hD := hp.D_ge
  have hN := hp.N_ge
  have h1 : HP * N + LEN * N ≤ D * (HP * N + LEN * N) := Nat.le_mul_of_pos_left _ (by omega)
  have h2 : K * A ≤ K * A * N := Nat.le_mul_of_pos_right _ (by omega)
  unfold sigLenExpr
  rw [mulUsize_ok (by omega), pure_bind, addUsize_ok (by omega), pure_bind, mulUsize_ok (by omega),
    pure_bind, mulUsize_ok (by omega), pure_bind, addUsize_ok (by omega), pure_bind,
    mulUsize_ok (by omega), pure_bind, mulUsize_ok (by omega), pure_bind, addUsize_ok (by omega),
    pure_bind, mulUsize_ok (by omega), pure_bind, addUsize_ok (by omega)]

theorem Matches.bytes_length (hp : Matches p K LEN M N A D H HP) (s : SlhDsaSig A D HP K LEN N) :
    s.bytes.length = p.sigLen := by
  rw [SlhDsaSig.bytes_length, Spec.Params.sigLen, hp.k, hp.a, hp.h, hp.d, hp.len_eq, hp.n, hp.H_eq]
  ring

theorem Matches.sigLen_lt (hp : Matches p K LEN M N A D H HP) : p.sigLen < 2 ^ 16 := by
  rw [Spec.Params.sigLen, hp.k, hp.a, hp.h, hp.d, hp.len_eq, hp.n]; exact hp.sig

theorem Matches.sigLen_eq (hp : Matches p K LEN M N A D H HP) :
    p.sigLen = N + K * ((A + 1) * N) + D * ((HP + LEN) * N) := by
  rw [Spec.Params.sigLen, hp.k, hp.a, hp.h, hp.d, hp.len_eq, hp.n, hp.H_eq]; ring

theorem serialize_returns (hp : Matches p K LEN M N A D H HP) (s : SlhDsaSig A D HP K LEN N)
    {SIG_LEN : Nat} (hL : SIG_LEN = p.sigLen) :
    Returns (s.serialize SIG_LEN : m _) (fun v => v.toList = s.bytes) := by
  unfold SlhDsaSig.serialize
  have hlt := hp.sigLen_lt
  rw [← hL] at hlt
  have hsl : SIG_LEN = N + K * ((A + 1) * N) + D * ((HP + LEN) * N) := by rw [hL, hp.sigLen_eq]
  refine Returns.debugAssert ?_ ?_
  · rw [sigLenExpr_ok hp, pure_bind]
    refine Returns.pure ?_
    rw [beq_iff_eq, hsl]; ring
  refine Returns.writeSlice (by omega) (by omega) (by simp) fun out hout => ?_
  have hw0 : Wrote s.randomness.toList (out, N) := by
    refine ⟨by simp, ?_⟩
    dsimp only
    rw [hout]
    simp
  let gf : Nat → List UInt8 := fun k =>
    if h : k < K then s.fors_sig.private_key_value[k].toList ++ absorbAll s.fors_sig.auth[k].tree
    else []
  have hgl : ∀ i < K, (gf i).length = (A + 1) * N := by
    intro i hi; simp [gf, hi, absorbAll_length]; ring
  refine Returns.bind (Returns.forUsize (fun k st =>
    Wrote (s.randomness.toList ++ Spec.concat k gf) st) (by omega)
    (by rwa [Spec.concat_zero, List.append_nil]) ?_) ?_
  · intro k st _ hk hst
    have hkl : (s.randomness.toList ++ Spec.concat k gf).length = N + k * ((A + 1) * N) := by
      rw [List.length_append, Spec.concat_length fun i hi => hgl i (by omega), Vector.length_toList]
    have hkb : (k + 1) * ((A + 1) * N) ≤ K * ((A + 1) * N) := Nat.mul_le_mul_right _ hk
    rw [Nat.succ_mul, Nat.succ_mul A] at hkb
    rw [Nat.succ_mul A] at hsl hkl
    refine Returns.vget hk ?_
    refine (putChunk_returns hlt hst (by omega)).bind fun st2 hst2 => ?_
    refine (putLoop_returns s.fors_sig.auth[k].tree hst2 (by
      rw [List.length_append, hkl, Vector.length_toList]; omega) ?_).mono fun st3 hst3 => ?_
    · intro i hi s2 pre hpre hle
      refine Returns.vget hk ?_
      refine Returns.vget hi ?_
      exact putChunk_returns hlt hpre hle
    · rw [Spec.concat_succ, ← List.append_assoc]
      simpa [gf, hk] using hst3
  · intro st hst
    have hfb : Spec.concat K gf = s.fors_sig.bytes := by
      rw [ForsSig.bytes]
      refine (flatMap_eq_concat fun k hk => ?_).symm
      rw [Vector.getElem_zip]
      simp [gf, hk, forsPart]
    rw [hfb] at hst
    let gh : Nat → List UInt8 := fun k => if h : k < D then s.ht_sig.xmss_sigs[k].bytes else []
    have hhl : ∀ i < D, (gh i).length = (HP + LEN) * N := by
      intro i hi; simp [gh, hi, XmssSig.bytes_length]
    refine Returns.bind (Returns.forUsize (fun k st =>
      Wrote (s.randomness.toList ++ s.fors_sig.bytes ++ Spec.concat k gh) st) (by omega)
      (by rwa [Spec.concat_zero, List.append_nil]) ?_) ?_
    · intro k st _ hk hst
      have hkl : (s.randomness.toList ++ s.fors_sig.bytes ++ Spec.concat k gh).length =
          N + K * ((A + 1) * N) + k * ((HP + LEN) * N) := by
        rw [List.length_append, List.length_append, ForsSig.bytes_length,
          Spec.concat_length fun i hi => hhl i (by omega), Vector.length_toList]
      have hkb : (k + 1) * ((HP + LEN) * N) ≤ D * ((HP + LEN) * N) := Nat.mul_le_mul_right _ hk
      rw [Nat.succ_mul, Nat.add_mul HP] at hkb
      rw [Nat.add_mul HP] at hsl hkl
      refine (putLoop_returns s.ht_sig.xmss_sigs[k].sig_wots.data hst (by omega) ?_).bind
        fun st2 hst2 => ?_
      · intro i hi s2 pre hpre hle
        refine Returns.vget hk ?_
        refine Returns.vget hi ?_
        exact putChunk_returns hlt hpre hle
      refine (putLoop_returns s.ht_sig.xmss_sigs[k].auth hst2 (by
        rw [List.length_append, hkl, absorbAll_length]; omega) ?_).mono fun st3 hst3 => ?_
      · intro i hi s2 pre hpre hle
        refine Returns.vget hk ?_
        refine Returns.vget hi ?_
        exact putChunk_returns hlt hpre hle
      · rw [Spec.concat_succ, ← List.append_assoc]
        simpa [gh, hk, XmssSig.bytes] using hst3
    · intro st hst
      have hhb : Spec.concat D gh = s.ht_sig.bytes := by
        rw [HtSig.bytes]
        exact (flatMap_eq_concat fun k hk => by simp [gh, hk]).symm
      rw [hhb, show s.randomness.toList ++ s.fors_sig.bytes ++ s.ht_sig.bytes = s.bytes from rfl] at hst
      have hle : st.2 = SIG_LEN := by rw [hst.1, hL, hp.bytes_length]
      refine Returns.debugAssert (Returns.pure (by rw [beq_iff_eq, hle])) (Returns.pure ?_)
      have := hst.2
      rwa [List.take_of_length_le (by simp [hle])] at this

/-! ## `deserialize` -/

theorem getChunk_returns {bytes : List UInt8} (hL : bytes.length < 2 ^ 16) {start : Nat}
    (hle : start + N ≤ bytes.length) {β : Type} {f : Vector UInt8 N × Nat → m β} {Q : β → Prop}
    (h : ∀ v : Vector UInt8 N, v.toList = Spec.slice bytes start (start + N) →
      Returns (f (v, start + N)) Q) :
    Returns (getChunk N bytes start >>= f) Q := by
  have : Returns (getChunk N bytes start : m _) (fun r => r.2 = start + N ∧
      r.1.toList = Spec.slice bytes start (start + N)) := by
    unfold getChunk
    refine Returns.addUsize (by omega) ?_
    refine Returns.slice (by omega) hle ?_
    refine Returns.copyFromSlice (by simp; omega) fun v hv => ?_
    refine Returns.addUsize (by omega) (Returns.pure ⟨rfl, hv⟩)
  refine this.bind ?_
  rintro ⟨v, e⟩ ⟨h1, h2⟩
  simp only at h1 h2
  subst h1
  exact h v h2

theorem deserialize_returns (hp : Matches p K LEN M N A D H HP) {bytes : List UInt8}
    (hL : bytes.length = p.sigLen) :
    Returns (SlhDsaSig.deserialize A D HP K LEN N bytes : m _) (fun s => s.bytes = bytes) := by
  unfold SlhDsaSig.deserialize
  have hlt := hp.sigLen_lt
  rw [← hL] at hlt
  have hsl : bytes.length = N + K * ((A + 1) * N) + D * ((HP + LEN) * N) := by rw [hL, hp.sigLen_eq]
  refine Returns.debugAssert ?_ ?_
  · rw [sigLenExpr_ok hp, pure_bind]
    refine Returns.pure ?_
    rw [beq_iff_eq, hsl]; ring
  refine Returns.slice (by omega) (by omega) ?_
  refine Returns.copyFromSlice (by simp; omega) fun rnd hrnd => ?_
  rw [Nat.succ_mul A, Nat.add_mul HP] at hsl
  -- the FORS signature
  refine Returns.bind (Returns.forUsize (fun k (st : ForsSig A K N × Nat) =>
    st.2 = N + k * (A * N + N) ∧
    (∀ i (hi : i < K), i < k → st.1.private_key_value[i].toList =
      Spec.slice bytes (N + i * (A * N + N)) (N + i * (A * N + N) + N)) ∧
    (∀ i (hi : i < K) j (hj : j < A), i < k → st.1.auth[i].tree[j].toList =
      Spec.slice bytes (N + i * (A * N + N) + N + j * N) (N + i * (A * N + N) + N + (j + 1) * N)))
    (by omega) ⟨by simp, by simp, by simp⟩ ?_) ?_
  · rintro k ⟨fs, start⟩ - hk ⟨h1, h2, h3⟩
    simp only at h1 h2 h3
    subst h1
    dsimp only
    have hkb : (k + 1) * (A * N + N) ≤ K * (A * N + N) := Nat.mul_le_mul_right _ hk
    rw [Nat.succ_mul] at hkb
    refine getChunk_returns hlt (by omega) fun v hv => ?_
    dsimp only
    refine Returns.vset hk ?_
    refine Returns.mono (Returns.forUsize (fun j (st : ForsSig A K N × Nat) =>
      st.2 = N + k * (A * N + N) + N + j * N ∧
      (∀ i (hi : i < K), i < k + 1 → st.1.private_key_value[i].toList =
        Spec.slice bytes (N + i * (A * N + N)) (N + i * (A * N + N) + N)) ∧
      (∀ i (hi : i < K) j' (hj : j' < A), i < k ∨ (i = k ∧ j' < j) → st.1.auth[i].tree[j'].toList =
        Spec.slice bytes (N + i * (A * N + N) + N + j' * N) (N + i * (A * N + N) + N + (j' + 1) * N)))
      (by omega) ⟨by simp, ?_, ?_⟩ ?_) ?_
    · exact set_step hk h2 hv
    · intro i hi j' hj' h
      exact h3 i hi j' hj' (by omega)
    · rintro j ⟨fs, start⟩ - hj ⟨h4, h5, h6⟩
      simp only at h4 h5 h6
      subst h4
      dsimp only
      have hjb : (j + 1) * N ≤ A * N := Nat.mul_le_mul_right _ hj
      rw [Nat.succ_mul] at hjb
      refine getChunk_returns hlt (by omega) fun v hv => ?_
      dsimp only
      refine Returns.vget hk ?_
      refine Returns.vset hj ?_
      refine Returns.vset hk (Returns.pure ⟨?_, h5, ?_⟩)
      · dsimp only; rw [Nat.succ_mul]; omega
      · intro i hi j' hj' h
        dsimp only
        rw [Vector.getElem_set]
        split
        · rename_i e
          subst e
          dsimp only
          rw [Vector.getElem_set]
          split
          · rename_i e
            subst e
            rw [hv, Nat.succ_mul, ← Nat.add_assoc]
          · exact h6 _ hk j' hj' (by omega)
        · exact h6 i hi j' hj' (by omega)
    · rintro ⟨fs, start⟩ ⟨h4, h5, h6⟩
      refine ⟨?_, h5, fun i hi j hj h => h6 i hi j hj (by omega)⟩
      simp only at h4
      dsimp only
      rw [h4, Nat.succ_mul]; omega
  rintro ⟨fs, start⟩ ⟨h1, h2, h3⟩
  simp only at h1 h2 h3
  subst h1
  dsimp only
  have hfors : fs.bytes = Spec.slice bytes N (N + K * (A * N + N)) := by
    rw [ForsSig.bytes, ← Spec.concat_slice_from]
    refine flatMap_eq_concat fun k hk => ?_
    rw [Vector.getElem_zip, forsPart]
    dsimp only
    rw [h2 k hk hk, absorbAll_eq fun j hj => h3 k hk j hj hk, Spec.concat_slice_from,
      Spec.slice_append_slice _ (by omega) (by omega), Nat.succ_mul]
    congr 1
    omega
  -- the hypertree signature
  let o := N + K * (A * N + N)
  refine Returns.bind (Returns.forUsize (fun d (st : HtSig D HP LEN N × Nat) =>
    st.2 = o + d * (HP * N + LEN * N) ∧
    (∀ i (hi : i < D) j (hj : j < LEN), i < d → st.1.xmss_sigs[i].sig_wots.data[j].toList =
      Spec.slice bytes (o + i * (HP * N + LEN * N) + j * N)
        (o + i * (HP * N + LEN * N) + (j + 1) * N)) ∧
    (∀ i (hi : i < D) j (hj : j < HP), i < d → st.1.xmss_sigs[i].auth[j].toList =
      Spec.slice bytes (o + i * (HP * N + LEN * N) + LEN * N + j * N)
        (o + i * (HP * N + LEN * N) + LEN * N + (j + 1) * N)))
    (by omega) ⟨by simp [o], by simp, by simp⟩ ?_) ?_
  · rintro d ⟨ht, start⟩ - hd ⟨h1, h2, h3⟩
    simp only at h1 h2 h3
    subst h1
    dsimp only
    have hdb : (d + 1) * (HP * N + LEN * N) ≤ D * (HP * N + LEN * N) := Nat.mul_le_mul_right _ hd
    rw [Nat.succ_mul] at hdb
    refine Returns.bind (Returns.forUsize (fun l (st : HtSig D HP LEN N × Nat) =>
      st.2 = o + d * (HP * N + LEN * N) + l * N ∧
      (∀ i (hi : i < D) j (hj : j < LEN), i < d ∨ (i = d ∧ j < l) →
        st.1.xmss_sigs[i].sig_wots.data[j].toList =
        Spec.slice bytes (o + i * (HP * N + LEN * N) + j * N)
          (o + i * (HP * N + LEN * N) + (j + 1) * N)) ∧
      (∀ i (hi : i < D) j (hj : j < HP), i < d → st.1.xmss_sigs[i].auth[j].toList =
        Spec.slice bytes (o + i * (HP * N + LEN * N) + LEN * N + j * N)
          (o + i * (HP * N + LEN * N) + LEN * N + (j + 1) * N)))
      (by omega) ⟨by simp, fun i hi j hj h => h2 i hi j hj (by omega), h3⟩ ?_) ?_
    · rintro l ⟨ht, start⟩ - hl ⟨h4, h5, h6⟩
      simp only at h4 h5 h6
      subst h4
      dsimp only
      have hlb : (l + 1) * N ≤ LEN * N := Nat.mul_le_mul_right _ hl
      rw [Nat.succ_mul] at hlb
      refine getChunk_returns hlt (by omega) fun v hv => ?_
      dsimp only
      refine Returns.vget hd ?_
      refine Returns.vset hl ?_
      refine Returns.vset hd (Returns.pure ⟨?_, ?_, ?_⟩)
      · dsimp only; rw [Nat.succ_mul]; omega
      · intro i hi j hj h
        dsimp only
        rw [Vector.getElem_set]
        split
        · rename_i e
          subst e
          dsimp only
          rw [Vector.getElem_set]
          split
          · rename_i e
            subst e
            rw [hv, Nat.succ_mul, ← Nat.add_assoc]
          · exact h5 _ hd j hj (by omega)
        · exact h5 i hi j hj (by omega)
      · intro i hi j hj h
        dsimp only
        rw [Vector.getElem_set_ne _ _ (by omega)]
        exact h6 i hi j hj h
    rintro ⟨ht, start⟩ ⟨h4, h5, h6⟩
    simp only at h4 h5 h6
    subst h4
    dsimp only
    refine Returns.mono (Returns.forUsize (fun l (st : HtSig D HP LEN N × Nat) =>
      st.2 = o + d * (HP * N + LEN * N) + LEN * N + l * N ∧
      (∀ i (hi : i < D) j (hj : j < LEN), i < d + 1 → st.1.xmss_sigs[i].sig_wots.data[j].toList =
        Spec.slice bytes (o + i * (HP * N + LEN * N) + j * N)
          (o + i * (HP * N + LEN * N) + (j + 1) * N)) ∧
      (∀ i (hi : i < D) j (hj : j < HP), i < d ∨ (i = d ∧ j < l) →
        st.1.xmss_sigs[i].auth[j].toList =
        Spec.slice bytes (o + i * (HP * N + LEN * N) + LEN * N + j * N)
          (o + i * (HP * N + LEN * N) + LEN * N + (j + 1) * N)))
      (by omega) ⟨by simp, fun i hi j hj h => h5 i hi j hj (by omega),
        fun i hi j hj h => h6 i hi j hj (by omega)⟩ ?_) ?_
    · rintro l ⟨ht, start⟩ - hl ⟨h7, h8, h9⟩
      simp only at h7 h8 h9
      subst h7
      dsimp only
      have hlb : (l + 1) * N ≤ HP * N := Nat.mul_le_mul_right _ hl
      rw [Nat.succ_mul] at hlb
      refine getChunk_returns hlt (by omega) fun v hv => ?_
      dsimp only
      refine Returns.vget hd ?_
      refine Returns.vset hl ?_
      refine Returns.vset hd (Returns.pure ⟨?_, ?_, ?_⟩)
      · dsimp only; rw [Nat.succ_mul]; omega
      · intro i hi j hj h
        dsimp only
        rw [Vector.getElem_set]
        split
        · rename_i e
          subst e
          exact h8 _ hd j hj h
        · exact h8 i hi j hj h
      · intro i hi j hj h
        dsimp only
        rw [Vector.getElem_set]
        split
        · rename_i e
          subst e
          dsimp only
          rw [Vector.getElem_set]
          split
          · rename_i e
            subst e
            rw [hv, Nat.succ_mul, ← Nat.add_assoc]
          · exact h9 _ hd j hj (by omega)
        · exact h9 i hi j hj (by omega)
    · rintro ⟨ht, start⟩ ⟨h7, h8, h9⟩
      refine ⟨?_, h8, fun i hi j hj h => h9 i hi j hj (by omega)⟩
      simp only at h7
      dsimp only
      rw [h7, Nat.succ_mul]; omega
  rintro ⟨ht, start⟩ ⟨h4, h5, h6⟩
  simp only at h4 h5 h6
  subst h4
  dsimp only
  have hht : ht.bytes = Spec.slice bytes o (o + D * (HP * N + LEN * N)) := by
    rw [HtSig.bytes, ← Spec.concat_slice_from]
    refine flatMap_eq_concat fun k hk => ?_
    rw [XmssSig.bytes, absorbAll_eq fun j hj => h5 k hk j hj hk,
      absorbAll_eq fun j hj => h6 k hk j hj hk, Spec.concat_slice_from, Spec.concat_slice_from,
      Spec.slice_append_slice _ (by omega) (by omega), Nat.succ_mul]
    congr 1
    omega
  have hend : o + D * (HP * N + LEN * N) = bytes.length := by rw [hsl]
  refine Returns.debugAssert (Returns.pure (by rw [beq_iff_eq, hend])) (Returns.pure ?_)
  rw [SlhDsaSig.bytes]
  dsimp only
  rw [hrnd, hfors, hht, show (bytes.drop 0).take (N - 0) = Spec.slice bytes 0 N from rfl,
    Spec.slice_append_slice _ (by omega) (by omega),
    Spec.slice_append_slice _ (by omega) (by omega), hend, Spec.slice_all]

end Fips205.Model
