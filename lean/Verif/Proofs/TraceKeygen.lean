import Verif.Proofs.Trace
import Verif.Proofs.Slh

/-! # What an observer sees of the functions that handle secrets

The lemmas compare two runs on secrets of the same length, possibly with different hash functions. -/

namespace Fips205.Model
open Fips205

variable {b : Build} {K LEN M N A D H HP : Nat}

/-- No relation between the results. -/
abbrev Any {α β : Type} : α → β → Prop := fun _ _ => True

/-- What both hash function records show depends on the lengths of the inputs only. -/
structure HashersRel (hs hs' : Hashers (TraceExec b) K LEN M N) : Prop where
  prf : ∀ pk pk' sk sk' a a', pk.length = pk'.length → sk.length = sk'.length →
    Rel Any (hs.prf pk sk a) (hs'.prf pk' sk' a')
  prf_msg : ∀ sk sk' o o' ms, sk.length = sk'.length → o.length = o'.length →
    Rel Any (hs.prf_msg sk o ms) (hs'.prf_msg sk' o' ms)
  f : ∀ pk pk' a a' m m', pk.length = pk'.length → m.length = m'.length →
    Rel Any (hs.f pk a m) (hs'.f pk' a' m')
  h : ∀ pk pk' a a' m m' n n', pk.length = pk'.length → m.length = m'.length → n.length = n'.length →
    Rel Any (hs.h pk a m n) (hs'.h pk' a' m' n')
  t_l : ∀ pk pk' a a' ml ml', pk.length = pk'.length → Rel Any (hs.t_l pk a ml) (hs'.t_l pk' a' ml')
  t_len : ∀ pk pk' a a' ml ml', pk.length = pk'.length →
    Rel Any (hs.t_len pk a ml) (hs'.t_len pk' a' ml')

section
variable (P P' : Spec.Prims)

theorem Rel.sha256 {x x' : List (List UInt8)} (h : x.map List.length = x'.map List.length) :
    Rel (b := b) Any ((crypto P).sha256 x) ((crypto P').sha256 x') :=
  Rel.leakEq (by rw [h]) (Rel.pure trivial)

theorem Rel.sha512 {x x' : List (List UInt8)} (h : x.map List.length = x'.map List.length) :
    Rel (b := b) Any ((crypto P).sha512 x) ((crypto P').sha512 x') :=
  Rel.leakEq (by rw [h]) (Rel.pure trivial)

theorem Rel.shake256 {x x' : List (List UInt8)} {n : Nat} (h : x.map List.length = x'.map List.length) :
    Rel (b := b) Any ((crypto P).shake256 x n) ((crypto P').shake256 x' n) :=
  Rel.leakEq (by rw [h]) (Rel.pure trivial)

theorem Rel.sha256_trunc {x x' : List (List UInt8)} {n : Nat} (h : x.map List.length = x'.map List.length) :
    Rel (b := b) Any
      ((crypto P).sha256 x >>= fun d => Model.slice d.toList 0 n >>= fun s => Model.copyFromSlice n s)
      ((crypto P').sha256 x' >>= fun d => Model.slice d.toList 0 n >>= fun s => Model.copyFromSlice n s) := by
  refine (Rel.sha256 P P' h).bind fun d d' _ => Rel.slice (by simp) fun t t' ht => Rel.tail ?_
  exact Rel.copyFromSlice ht fun _ _ => Rel.pure trivial

theorem Rel.sha512_trunc {x x' : List (List UInt8)} {n : Nat} (h : x.map List.length = x'.map List.length) :
    Rel (b := b) Any
      ((crypto P).sha512 x >>= fun d => Model.slice d.toList 0 n >>= fun s => Model.copyFromSlice n s)
      ((crypto P').sha512 x' >>= fun d => Model.slice d.toList 0 n >>= fun s => Model.copyFromSlice n s) := by
  refine (Rel.sha512 P P' h).bind fun d d' _ => Rel.slice (by simp) fun t t' ht => Rel.tail ?_
  exact Rel.copyFromSlice ht fun _ _ => Rel.pure trivial

theorem Rel.sha2_256 {x x' : List (List UInt8)} {n : Nat} (h : x.map List.length = x'.map List.length) :
    Rel (b := b) Any (sha2_cat_1.sha2_256 (crypto P) x n) (sha2_cat_1.sha2_256 (crypto P') x' n) :=
  Rel.leakEq (by simpa using congrArg List.length h) (Rel.sha256_trunc P P' h)

theorem Rel.sha2_512 {x x' : List (List UInt8)} {n : Nat} (h : x.map List.length = x'.map List.length) :
    Rel (b := b) Any (sha2_cat_3_5.sha2_512 (crypto P) x n) (sha2_cat_3_5.sha2_512 (crypto P') x' n) :=
  Rel.leakEq (by simpa using congrArg List.length h) (Rel.sha512_trunc P P' h)

theorem Rel.shake {x x' : List (List UInt8)} {n : Nat} (h : x.map List.length = x'.map List.length) :
    Rel (b := b) Any (shake.shake256 (crypto P) x n) (shake.shake256 (crypto P') x' n) :=
  Rel.leakEq (by simpa using congrArg List.length h) (Rel.shake256 P P' h)

/-- A loop over two lists of the same length. -/
theorem Rel.foldlM₂ {ε σ τ : Type} {body : σ → ε → TraceExec b σ} {body' : τ → ε → TraceExec b τ}
    (I : σ → τ → Prop) (hs : ∀ x y s t, I s t → Rel I (body s x) (body' t y)) :
    ∀ (xs ys : List ε) (s : σ) (t : τ), xs.length = ys.length → I s t →
      Rel I (xs.foldlM body s) (ys.foldlM body' t)
  | [], [], _, _, _, h0 => Rel.pure h0
  | x :: xs, y :: ys, s, t, hl, h0 => by
    rw [List.foldlM_cons, List.foldlM_cons]
    exact (hs x y s t h0).bind fun s' t' h' => foldlM₂ I hs xs ys s' t' (by simpa using hl) h'

theorem to_32_bytes_rel (a a' : Adrs) :
    Rel (b := b) Any (a.to_32_bytes) (a'.to_32_bytes) := by
  unfold Adrs.to_32_bytes
  refine Rel.bind (Q := fun s t => s.2 = t.2) ?_ fun _ _ _ => Rel.pure trivial
  refine Rel.leakEq rfl (Rel.foldlM₂ _ ?_ _ _ _ _ rfl rfl)
  rintro x y ⟨v, i⟩ ⟨w, _⟩ rfl
  refine Rel.same _ fun e => Rel.writeSlice (by simp) fun v w => ?_
  exact Rel.same _ fun e => Rel.pure rfl

theorem to_22_bytes_rel (a a' : Adrs) :
    Rel (b := b) Any (a.to_22_bytes) (a'.to_22_bytes) := by
  unfold Adrs.to_22_bytes
  refine Rel.vget fun _ => Rel.vset fun _ => ?_
  refine Rel.writeSlice (by simp) fun _ _ => Rel.writeSlice (by simp) fun _ _ => ?_
  refine Rel.vget fun _ => Rel.vset fun _ => ?_
  refine Rel.writeSlice (by simp) fun _ _ => Rel.writeSlice (by simp) fun _ _ => ?_
  exact Rel.tail (Rel.writeSlice (by simp) fun _ _ => Rel.pure trivial)

theorem items_length {X Y : Nat} (ml : Vector (Vector UInt8 Y) X) :
    (items ml).map List.length = List.replicate X Y := by
  rw [List.eq_replicate_iff]
  exact ⟨by simp [items], by simp [items]⟩

theorem length_xorZip (p k : List UInt8) : (xorZip p k).length = p.length := by
  induction p generalizing k with
  | nil => cases k <;> rfl
  | cons a p ih => cases k <;> simp [xorZip, ih]

theorem writeSlice_flatten_rel {n : Nat} {v v' : Vector (List UInt8) n} {lo hi : Nat}
    {ms : List (List UInt8)} (hv : v.toList.map List.length = v'.toList.map List.length)
    {γ δ : Type} {Q : γ → δ → Prop} {f : Vector (List UInt8) n → TraceExec b γ}
    {g : Vector (List UInt8) n → TraceExec b δ}
    (hf : ∀ w w' : Vector (List UInt8) n, w.toList.map List.length = w'.toList.map List.length →
      Rel Q (f w) (g w')) :
    Rel Q (Model.writeSlice v lo hi ms >>= f) (Model.writeSlice v' lo hi ms >>= g) := by
  rw [Model.writeSlice, Model.writeSlice, bind_assoc, bind_assoc]
  refine Rel.leak ?_
  by_cases h : lo ≤ hi ∧ hi ≤ n
  · rw [dif_pos h, dif_pos h]
    by_cases h' : ms.length = hi - lo
    · rw [dif_pos h', dif_pos h', pure_bind, pure_bind]
      apply hf
      have e1 : (v.toList.take lo).map List.length = (v'.toList.take lo).map List.length := by
        rw [List.map_take, List.map_take, hv]
      have e2 : (v.toList.drop hi).map List.length = (v'.toList.drop hi).map List.length := by
        rw [List.map_drop, List.map_drop, hv]
      simp [Vector.toList] at e1 e2 ⊢
      rw [e1, e2]
    · rw [dif_neg h', dif_neg h']
      exact Rel.bind (Rel.panic _) fun _ _ (h : False) => h.elim
  · rw [dif_neg h, dif_neg h]
    exact Rel.bind (Rel.panic _) fun _ _ (h : False) => h.elim

theorem HASHERS_rel (p : Params) : HashersRel (b := b) (HASHERS p (crypto P)) (HASHERS p (crypto P')) := by
  unfold HASHERS
  cases p.fam with
  | shake =>
    constructor
    · intros; exact (to_32_bytes_rel _ _).bind fun _ _ _ => Rel.shake P P' (by simp [*])
    · intro sk sk' o o' ms h1 h2
      refine Rel.same _ fun e => writeSlice_flatten_rel (by simp [h1, h2]) fun w w' hw => ?_
      exact Rel.shake P P' hw
    · intros; exact (to_32_bytes_rel _ _).bind fun _ _ _ => Rel.shake P P' (by simp [*])
    · intros; exact (to_32_bytes_rel _ _).bind fun _ _ _ => Rel.shake P P' (by simp [*])
    · intros; exact (to_32_bytes_rel _ _).bind fun _ _ _ => Rel.leak
        (Rel.shake256 P P' (by simp [*, -List.map_map, items_length]))
    · intros; exact (to_32_bytes_rel _ _).bind fun _ _ _ => Rel.leak
        (Rel.shake256 P P' (by simp [*, -List.map_map, items_length]))
  | sha2_cat_1 =>
    constructor
    · intros
      exact Rel.same _ fun zl => Rel.same _ fun z => (to_22_bytes_rel _ _).bind fun _ _ _ =>
        Rel.sha2_256 P P' (by simp [*])
    · intro sk sk' o o' ms h1 h2
      refine Rel.bind (Q := Any) ?_ fun d d' _ => Rel.slice (by simp) fun t t' ht => Rel.tail ?_
      · refine Rel.leakEq (by rw [h1]) (Rel.leak (Rel.leakEq (by simp [length_xorZip]) ?_))
        refine (Rel.sha256 P P' (by simp [length_xorZip, h2])).bind fun i i' _ => ?_
        exact Rel.sha256 P P' (by simp [length_xorZip])
      · exact Rel.copyFromSlice ht fun _ _ => Rel.pure trivial
    · intros
      exact Rel.same _ fun zl => Rel.same _ fun z => (to_22_bytes_rel _ _).bind fun _ _ _ =>
        Rel.sha2_256 P P' (by simp [*])
    · intros
      exact Rel.same _ fun zl => Rel.same _ fun z => (to_22_bytes_rel _ _).bind fun _ _ _ =>
        Rel.sha2_256 P P' (by simp [*])
    · intros
      exact Rel.same _ fun zl => Rel.same _ fun z => (to_22_bytes_rel _ _).bind fun _ _ _ => Rel.leak
        (Rel.sha256_trunc P P' (by simp [*, -List.map_map, items_length]))
    · intros
      exact Rel.same _ fun zl => Rel.same _ fun z => (to_22_bytes_rel _ _).bind fun _ _ _ => Rel.leak
        (Rel.sha256_trunc P P' (by simp [*, -List.map_map, items_length]))
  | sha2_cat_3_5 =>
    constructor
    · intros
      exact Rel.same _ fun zl => Rel.same _ fun z => (to_22_bytes_rel _ _).bind fun _ _ _ =>
        Rel.sha2_256 P P' (by simp [*])
    · intro sk sk' o o' ms h1 h2
      refine Rel.bind (Q := Any) ?_ fun d d' _ => Rel.slice (by simp) fun t t' ht => Rel.tail ?_
      · refine Rel.leakEq (by rw [h1]) (Rel.leak (Rel.leakEq (by simp [length_xorZip]) ?_))
        refine (Rel.sha512 P P' (by simp [length_xorZip, h2])).bind fun i i' _ => ?_
        exact Rel.sha512 P P' (by simp [length_xorZip])
      · exact Rel.copyFromSlice ht fun _ _ => Rel.pure trivial
    · intros
      exact Rel.same _ fun zl => Rel.same _ fun z => (to_22_bytes_rel _ _).bind fun _ _ _ =>
        Rel.sha2_256 P P' (by simp [*])
    · intros
      exact Rel.same _ fun zl => Rel.same _ fun z => (to_22_bytes_rel _ _).bind fun _ _ _ =>
        Rel.sha2_512 P P' (by simp [*])
    · intros
      exact Rel.same _ fun zl => Rel.same _ fun z => (to_22_bytes_rel _ _).bind fun _ _ _ => Rel.leak
        (Rel.sha512_trunc P P' (by simp [*, -List.map_map, items_length]))
    · intros
      exact Rel.same _ fun zl => Rel.same _ fun z => (to_22_bytes_rel _ _).bind fun _ _ _ => Rel.leak
        (Rel.sha512_trunc P P' (by simp [*, -List.map_map, items_length]))

end

/-! ## WOTS+, XMSS and key generation -/

variable {hs hs' : Hashers (TraceExec b) K LEN M N}

theorem chain_rel (R : HashersRel hs hs') (x x' : Vector UInt8 N) (i s : UInt32)
    {pk pk' : List UInt8} (hpk : pk.length = pk'.length) (adrs adrs' : Adrs) :
    Rel Any (chain hs x i s pk adrs) (chain hs' x' i s pk' adrs') := by
  refine Rel.same _ fun _ => Rel.same _ fun e => Rel.bind (Rel.forU32' Any trivial ?_) ?_
  · rintro j ⟨a, t⟩ ⟨a', t'⟩ -
    exact (R.f _ _ _ _ _ _ hpk (by simp)).bind fun _ _ _ => Rel.pure trivial
  · rintro ⟨a, t⟩ ⟨a', t'⟩ -
    exact Rel.pure trivial

theorem wots_pkgen_rel (R : HashersRel hs hs') {sk sk' pk pk' : List UInt8}
    (hsk : sk.length = sk'.length) (hpk : pk.length = pk'.length) (adrs adrs' : Adrs) :
    Rel Any (wots_pkgen hs sk pk adrs) (wots_pkgen hs' sk' pk' adrs') := by
  refine Rel.same _ fun len32 => Rel.bind (Rel.forU32' Any trivial ?_) ?_
  · rintro i ⟨ska, a, t⟩ ⟨ska', a', t'⟩ -
    refine (R.prf _ _ _ _ _ _ hpk hsk).bind fun k k' _ => Rel.same _ fun w1 => ?_
    refine (chain_rel R _ _ _ _ hpk _ _).bind fun c c' _ => Rel.same _ fun iu => ?_
    exact Rel.vset fun _ => Rel.pure trivial
  · rintro ⟨ska, a, t⟩ ⟨ska', a', t'⟩ -
    exact (R.t_l _ _ _ _ _ _ hpk).bind fun _ _ _ => Rel.pure trivial

theorem xmss_node_rel (R : HashersRel hs hs') {sk sk' pk pk' : List UInt8}
    (hsk : sk.length = sk'.length) (hpk : pk.length = pk'.length) :
    ∀ (n : Nat) (i z : UInt32), z.toNat = n → ∀ adrs adrs' : Adrs,
      Rel Any (xmss_node hs sk i z pk adrs) (xmss_node hs' sk' i z pk' adrs') := by
  intro n
  induction n with
  | zero =>
    intro i z hz adrs adrs'
    have hz : z = 0 := UInt32.toNat_inj.mp hz
    rw [xmss_node, xmss_node]
    refine Rel.leak ?_
    rw [dif_pos hz, dif_pos hz]
    exact (wots_pkgen_rel R hsk hpk _ _).bind fun _ _ _ => Rel.pure trivial
  | succ n ih =>
    intro i z hz adrs adrs'
    have hz0 : z ≠ 0 := by rintro rfl; simp at hz
    have hz1 : (z - 1).toNat = n := by
      rw [UInt32.toNat_sub_of_le _ _ (by rw [UInt32.le_iff_toNat_le, hz]; simp), hz]; simp
    rw [xmss_node, xmss_node]
    refine Rel.leak ?_
    rw [dif_neg hz0, dif_neg hz0]
    refine Rel.same _ fun i2 => (ih _ _ hz1 _ _).bind fun l l' _ => ?_
    refine Rel.same _ fun i2 => Rel.same _ fun i3 => (ih _ _ hz1 _ _).bind fun r r' _ => ?_
    exact R.h _ _ _ _ _ _ _ _ hpk (by simp) (by simp)

theorem slh_keygen_internal_rel (R : HashersRel hs hs') (s s' prf prf' pk pk' : Vector UInt8 N) :
    Rel Any (slh_keygen_internal D HP hs s prf pk) (slh_keygen_internal D HP hs' s' prf' pk') := by
  refine Rel.same _ fun d32 => Rel.same _ fun hp32 => Rel.same _ fun d1 => ?_
  exact (xmss_node_rel R (by simp) (by simp) _ _ _ rfl _ _).bind fun _ _ _ => Rel.pure trivial

end Fips205.Model
