import Verif.Proofs.Hom
import Verif.Proofs.Trace
import Verif.Proofs.Slh
import Verif.Proofs.Serialize

/-! # Counting hash calls

`Cost n P x`: the run `x` calls hash functions at most `n` times, whether or not it panics, and if it
returns, the value satisfies `P`. -/

namespace Fips205.Model
open Fips205

/-- The number of calls of hash functions the observer saw. -/
def hashCalls (t : List Leak) : Nat := t.countP Leak.isHash

theorem hashCalls_append (s t : List Leak) : hashCalls (s ++ t) = hashCalls s + hashCalls t :=
  List.countP_append

variable {b : Build} {α β σ : Type}

def Cost (n : Nat) (P : α → Prop) (x : TraceExec b α) : Prop :=
  hashCalls x.trace ≤ n ∧ ∀ v, x.result = .ok v → P v

namespace Cost

theorem pure {P : α → Prop} {v : α} (h : P v) : Cost 0 P (Pure.pure v : TraceExec b α) :=
  ⟨Nat.le_refl _, fun w hw => by
    obtain rfl : v = w := Except.ok.inj hw
    exact h⟩

theorem panic {P : α → Prop} {e : Panic} : Cost 0 P (Rust.panic e : TraceExec b α) :=
  ⟨Nat.le_refl _, fun w (hw : Except.error _ = Except.ok _) => by cases hw⟩

theorem mono {n n' : Nat} {P P' : α → Prop} {x : TraceExec b α} (h : Cost n P x) (hn : n ≤ n')
    (hP : ∀ v, P v → P' v) : Cost n' P' x :=
  ⟨Nat.le_trans h.1 hn, fun v hv => hP v (h.2 v hv)⟩

theorem le {n n' : Nat} {P : α → Prop} {x : TraceExec b α} (h : Cost n P x) (hn : n ≤ n') :
    Cost n' P x := h.mono hn fun _ => id

theorem bind {n n' : Nat} {P : α → Prop} {Q : β → Prop} {x : TraceExec b α}
    {f : α → TraceExec b β} (h : Cost n P x) (hf : ∀ v, P v → Cost n' Q (f v)) :
    Cost (n + n') Q (x >>= f) := by
  obtain ⟨t, r⟩ := x
  cases r with
  | error e =>
    exact ⟨Nat.le_trans h.1 (Nat.le_add_right _ _), fun w (hw : Except.error _ = Except.ok _) => by
      cases hw⟩
  | ok v =>
    have := hf v (h.2 v rfl)
    refine ⟨?_, this.2⟩
    show hashCalls (t ++ (f v).1) ≤ _
    rw [hashCalls_append]
    exact Nat.add_le_add h.1 this.1

theorem know {n : Nat} {P Q : α → Prop} {x : TraceExec b α} (h : Cost n P x) (hx : Returns x Q) :
    Cost n (fun v => P v ∧ Q v) x := by
  obtain ⟨w, hw, hQ⟩ := TraceExec.returns_iff.mp hx
  refine ⟨h.1, fun v hv => ⟨h.2 v hv, ?_⟩⟩
  rw [hw] at hv
  exact Except.ok.inj hv ▸ hQ

theorem tail {n : Nat} {P : α → Prop} {x : TraceExec b α} (h : Cost n P (x >>= Pure.pure)) :
    Cost n P x := by simpa using h

/-- A step without hash calls. -/
theorem free {n : Nat} {Q : β → Prop} {x : TraceExec b α} {f : α → TraceExec b β}
    (h : Cost 0 (fun _ => True) x) (hf : ∀ v, Cost n Q (f v)) : Cost n Q (x >>= f) :=
  (h.bind fun v _ => hf v).le (by omega)

/-- The same, when it is known what the step returns. -/
theorem step {n : Nat} {P : α → Prop} {Q : β → Prop} {x : TraceExec b α} {f : α → TraceExec b β}
    (h : Cost 0 (fun _ => True) x) (hx : Returns x P) (hf : ∀ v, P v → Cost n Q (f v)) :
    Cost n Q (x >>= f) :=
  ((h.know hx).bind fun v hv => hf v hv.2).le (by omega)

theorem leak {n : Nat} {Q : β → Prop} {e : Leak} (he : e.isHash = false)
    {f : Unit → TraceExec b β} (hf : Cost n Q (f ())) : Cost n Q (Rust.leak e >>= f) := by
  refine (bind (n := 0) (n' := n) (P := fun _ => True) ⟨?_, fun _ _ => trivial⟩ fun _ _ => hf).le
    (by omega)
  show hashCalls [e] ≤ 0
  simp [hashCalls, he]

theorem hash {alg : HashAlg} {i : List Nat} {o : Nat} {P : Unit → Prop} (h : P ()) :
    Cost 1 P (Rust.leak (.hash alg i o) : TraceExec b Unit) :=
  ⟨Nat.le_refl _, fun _ _ => h⟩

/-! ## Basic operations call no hash function -/

theorem ovf {c : Bool} {v : α} : Cost 0 (fun _ => True) (Model.ovf c v : TraceExec b α) := by
  unfold Model.ovf
  split
  · exact panic
  · exact pure trivial

theorem addU32 {x y : UInt32} : Cost 0 (fun _ => True) (Model.addU32 x y : TraceExec b _) := ovf
theorem subU32 {x y : UInt32} : Cost 0 (fun _ => True) (Model.subU32 x y : TraceExec b _) := ovf
theorem mulU32 {x y : UInt32} : Cost 0 (fun _ => True) (Model.mulU32 x y : TraceExec b _) := ovf
theorem shlU32 {x y : UInt32} : Cost 0 (fun _ => True) (Model.shlU32 x y : TraceExec b _) := ovf
theorem shrU32 {x y : UInt32} : Cost 0 (fun _ => True) (Model.shrU32 x y : TraceExec b _) := ovf
theorem addU64 {x y : UInt64} : Cost 0 (fun _ => True) (Model.addU64 x y : TraceExec b _) := ovf
theorem subU64 {x y : UInt64} : Cost 0 (fun _ => True) (Model.subU64 x y : TraceExec b _) := ovf
theorem addUsize {x y : Nat} : Cost 0 (fun _ => True) (Model.addUsize x y : TraceExec b _) := ovf
theorem subUsize {x y : Nat} : Cost 0 (fun _ => True) (Model.subUsize x y : TraceExec b _) := ovf
theorem mulUsize {x y : Nat} : Cost 0 (fun _ => True) (Model.mulUsize x y : TraceExec b _) := ovf
theorem shlU64 {x : UInt64} {y : UInt32} : Cost 0 (fun _ => True) (Model.shlU64 x y : TraceExec b _) := ovf
theorem shrU64 {x : UInt64} {y : UInt32} : Cost 0 (fun _ => True) (Model.shrU64 x y : TraceExec b _) := ovf

theorem ite {n : Nat} {P : α → Prop} {c : Prop} [Decidable c] {x y : TraceExec b α}
    (hx : c → Cost n P x) (hy : ¬ c → Cost n P y) : Cost n P (if c then x else y) := by
  split
  · exact hx ‹_›
  · exact hy ‹_›

theorem divU32 {x y : UInt32} : Cost 0 (fun _ => True) (Model.divU32 x y : TraceExec b _) :=
  ite (fun _ => panic) fun _ => pure trivial

theorem divUsize {x y : Nat} : Cost 0 (fun _ => True) (Model.divUsize x y : TraceExec b _) :=
  ite (fun _ => panic) fun _ => pure trivial

theorem u32TryFromUnwrap {x : Nat} :
    Cost 0 (fun _ => True) (Model.u32TryFromUnwrap x : TraceExec b _) :=
  ite (fun _ => pure trivial) fun _ => panic

theorem debugAssert {c : TraceExec b Bool} (hc : Cost 0 (fun _ => True) c) :
    Cost 0 (fun _ => True) (Model.debugAssert c) := by
  unfold Model.debugAssert
  split
  · exact free hc fun v => ite (fun _ => pure trivial) fun _ => panic
  · exact pure trivial

theorem vget {n : Nat} {v : Vector α n} {i : Nat} :
    Cost 0 (fun _ => True) (Model.vget v i : TraceExec b _) := by
  refine leak rfl ?_
  split
  · exact pure trivial
  · exact panic

theorem vset {n : Nat} {v : Vector α n} {i : Nat} {x : α} :
    Cost 0 (fun _ => True) (Model.vset v i x : TraceExec b _) := by
  refine leak rfl ?_
  split
  · exact pure trivial
  · exact panic

theorem lget {v : List α} {i : Nat} :
    Cost 0 (fun _ => True) (Model.lget v i : TraceExec b _) := by
  refine leak rfl ?_
  split
  · exact pure trivial
  · exact panic

theorem slice {v : List α} {lo hi : Nat} :
    Cost 0 (fun _ => True) (Model.slice v lo hi : TraceExec b _) :=
  leak rfl (ite (fun _ => pure trivial) fun _ => panic)

theorem copyFromSlice {n : Nat} {v : List α} :
    Cost 0 (fun _ => True) (Model.copyFromSlice n v : TraceExec b _) := by
  unfold Model.copyFromSlice
  split
  · exact pure trivial
  · exact panic

theorem writeSlice {n : Nat} {v : Vector α n} {lo hi : Nat} {s : List α} :
    Cost 0 (fun _ => True) (Model.writeSlice v lo hi s : TraceExec b _) := by
  refine leak rfl ?_
  split
  · split
    · exact pure trivial
    · exact panic
  · exact panic

theorem asUsize {x : UInt32} : Cost 0 (fun _ => True) (Model.asUsize x : TraceExec b _) :=
  pure trivial

/-! ## Loops -/

theorem loopFrom {c : Nat} {body : Nat → σ → TraceExec b σ} (I : Nat → σ → Prop) :
    ∀ (count lo : Nat) (s : σ), I lo s →
      (∀ i s, lo ≤ i → i < lo + count → I i s → Cost c (I (i + 1)) (body i s)) →
      Cost (count * c) (I (lo + count)) (Model.loopFrom body count lo s)
  | 0, _, _, h0, _ => (pure h0).le (Nat.zero_le _)
  | k + 1, lo, s, h0, hs => by
    have := (hs lo s (Nat.le_refl _) (by omega) h0).bind fun s' h' =>
      loopFrom I k (lo + 1) s' h' fun i s h1 h2 => hs i s (by omega) (by omega)
    rw [show lo + 1 + k = lo + (k + 1) by omega] at this
    exact this.le (by rw [Nat.succ_mul, Nat.add_comm])

theorem forUsize {c lo hi : Nat} {s : σ} {body : Nat → σ → TraceExec b σ} (I : Nat → σ → Prop)
    (h0 : I lo s) (hs : ∀ i s, lo ≤ i → i < hi → I i s → Cost c (I (i + 1)) (body i s)) :
    Cost ((hi - lo) * c) (I (max lo hi)) (Model.forUsize lo hi s body) := by
  refine leak rfl ?_
  have := loopFrom I (hi - lo) lo s h0 fun i s h1 h2 => hs i s h1 (by omega)
  rwa [show lo + (hi - lo) = max lo hi by omega] at this

theorem forU32 {c : Nat} {lo hi : UInt32} {s : σ} {body : UInt32 → σ → TraceExec b σ}
    (I : Nat → σ → Prop) (h0 : I lo.toNat s)
    (hs : ∀ (i : UInt32) s, lo.toNat ≤ i.toNat → i.toNat < hi.toNat → I i.toNat s →
      Cost c (I (i.toNat + 1)) (body i s)) :
    Cost ((hi.toNat - lo.toNat) * c) (I (max lo.toNat hi.toNat)) (Model.forU32 lo hi s body) := by
  refine leak rfl ?_
  have := loopFrom (body := fun i => body (UInt32.ofNat i)) I
    (hi.toNat - lo.toNat) lo.toNat s h0 fun i s h1 h2 hI => by
      have hi' : (UInt32.ofNat i).toNat = i := by
        have := hi.toNat_lt
        rw [UInt32.toNat_ofNat', Nat.mod_eq_of_lt (by omega)]
      have := hs (UInt32.ofNat i) s (by omega) (by omega) (by rwa [hi'])
      rwa [hi'] at this
  rwa [show lo.toNat + (hi.toNat - lo.toNat) = max lo.toNat hi.toNat by omega] at this

theorem loopFromE {ε : Type} {c : Nat} {body : Nat → σ → TraceExec b (Except ε σ)} :
    ∀ (count lo : Nat) (s : σ), (∀ i s, Cost c (fun _ => True) (body i s)) →
      Cost (count * c) (fun _ => True) (Model.loopFromE body count lo s)
  | 0, _, _, _ => (pure trivial).le (Nat.zero_le _)
  | k + 1, lo, s, hs => by
    refine ((hs lo s).bind (n' := k * c) fun r _ => ?_).le
      (by rw [Nat.succ_mul, Nat.add_comm])
    cases r with
    | error e => exact leak rfl ((pure trivial).le (Nat.zero_le _))
    | ok s' => exact leak rfl (loopFromE k (lo + 1) s' hs)

theorem forU32E {ε : Type} {c : Nat} {lo hi : UInt32} {s : σ}
    {body : UInt32 → σ → TraceExec b (Except ε σ)}
    (hs : ∀ (i : UInt32) s, Cost c (fun _ => True) (body i s)) :
    Cost ((hi.toNat - lo.toNat) * c) (fun _ => True) (Model.forU32E lo hi s body) :=
  leak rfl (loopFromE _ _ _ fun _ s => hs _ s)

theorem foldlM {ε : Type} {body : σ → ε → TraceExec b σ}
    (hs : ∀ s x, Cost 0 (fun _ => True) (body s x)) :
    ∀ (xs : List ε) (s : σ), Cost 0 (fun _ => True) (xs.foldlM body s)
  | [], _ => pure trivial
  | x :: xs, s => by
    rw [List.foldlM_cons]
    exact free (hs s x) fun s' => foldlM hs xs s'

theorem forEach {ε : Type} {xs : List ε} {s : σ} {body : ε → σ → TraceExec b σ}
    (hs : ∀ x s, Cost 0 (fun _ => True) (body x s)) :
    Cost 0 (fun _ => True) (Model.forEach xs s body) :=
  leak rfl (foldlM (fun s x => hs x s) xs s)

/-- A `while` loop with cost `c` per iteration and at most `μ s` iterations. -/
theorem whileFuel {c : Nat} {cond : σ → Bool} {body : σ → TraceExec b σ} (I : σ → Prop) (μ : σ → Nat)
    (hμ : ∀ s, I s → cond s = true → 1 ≤ μ s)
    (hs : ∀ s, I s → cond s = true → Cost c (fun s' => I s' ∧ μ s' + 1 ≤ μ s) (body s)) :
    ∀ (fuel : Nat) (s : σ), I s → Cost (μ s * c) (fun _ => True) (Model.whileFuel cond body fuel s)
  | 0, _, _ => panic.le (Nat.zero_le _)
  | fuel + 1, s, h0 => by
    refine leak rfl (ite (fun hc => ?_) fun _ => (pure trivial).le (Nat.zero_le _))
    have := hs s h0 hc
    refine ⟨?_, fun _ _ => trivial⟩
    generalize body s = x at this
    obtain ⟨t, r⟩ := x
    cases r with
    | error e =>
      refine Nat.le_trans this.1 ?_
      exact Nat.le_mul_of_pos_left _ (hμ s h0 hc)
    | ok s' =>
      obtain ⟨hI, hd⟩ := this.2 s' rfl
      have h2 := (whileFuel I μ hμ hs fuel s' hI).1
      show hashCalls (t ++ _) ≤ _
      rw [hashCalls_append]
      refine Nat.le_trans (Nat.add_le_add this.1 h2) ?_
      calc c + μ s' * c = (μ s' + 1) * c := by rw [Nat.succ_mul, Nat.add_comm]
        _ ≤ μ s * c := Nat.mul_le_mul_right _ hd

theorem whileFuel' {cond : σ → Bool} {body : σ → TraceExec b σ}
    (hs : ∀ s, Cost 0 (fun _ => True) (body s)) :
    ∀ (fuel : Nat) (s : σ), Cost 0 (fun _ => True) (Model.whileFuel cond body fuel s)
  | 0, _ => panic
  | fuel + 1, s => leak rfl (ite (fun _ => free (hs s) (whileFuel' hs fuel)) fun _ => pure trivial)

theorem forUsize' {lo hi : Nat} {s : σ} {body : Nat → σ → TraceExec b σ}
    (hs : ∀ i s, Cost 0 (fun _ => True) (body i s)) :
    Cost 0 (fun _ => True) (Model.forUsize lo hi s body) :=
  forUsize (c := 0) (fun _ _ => True) trivial fun i s _ _ _ => hs i s

theorem forU32' {lo hi : UInt32} {s : σ} {body : UInt32 → σ → TraceExec b σ}
    (hs : ∀ i s, Cost 0 (fun _ => True) (body i s)) :
    Cost 0 (fun _ => True) (Model.forU32 lo hi s body) :=
  forU32 (c := 0) (fun _ _ => True) trivial fun i s _ _ _ => hs i s

end Cost

/-- Proves that a piece of straight-line code or a simple loop calls no hash function. -/
macro "no_hash" : tactic => `(tactic| repeat (with_reducible first
  | refine Cost.leak rfl ?_
  | refine Cost.free ?_ ?_
  | intro _
  | exact Cost.pure trivial
  | exact Cost.addU32
  | exact Cost.subU32
  | exact Cost.mulU32
  | exact Cost.shlU32
  | exact Cost.shrU32
  | exact Cost.addU64
  | exact Cost.subU64
  | exact Cost.shlU64
  | exact Cost.shrU64
  | exact Cost.addUsize
  | exact Cost.subUsize
  | exact Cost.mulUsize
  | exact Cost.divU32
  | exact Cost.divUsize
  | exact Cost.u32TryFromUnwrap
  | exact Cost.vget
  | exact Cost.vset
  | exact Cost.lget
  | exact Cost.slice
  | exact Cost.copyFromSlice
  | exact Cost.writeSlice
  | exact Cost.asUsize
  | exact Cost.panic
  | apply_assumption
  | refine Cost.debugAssert ?_
  | refine Cost.forUsize' ?_
  | refine Cost.forU32' ?_
  | refine Cost.forEach ?_
  | refine Cost.whileFuel' ?_ _ _
  | refine Cost.ite (fun _ => ?_) (fun _ => ?_)
  | split))

theorem base_2b_cost (x : List UInt8) (c o : UInt32) (old : List UInt32) :
    Cost 0 (fun _ => True) (base_2b x c o old : TraceExec b _) := by
  have h : ∀ old st, Cost 0 (fun _ => True) (base_2b_loop x c old st : TraceExec b _) := by
    intro old
    induction old with
    | nil => intro st; exact Cost.pure trivial
    | cons a l ih =>
      intro st
      refine Cost.free ?_ ?_
      · unfold base_2b_digit
        no_hash
      · intro r
        exact Cost.free (ih _) fun _ => Cost.pure trivial
  have := h old
  unfold base_2b
  no_hash

theorem to_int_cost (x : List UInt8) (n : UInt32) :
    Cost 0 (fun _ => True) (to_int x n : TraceExec b _) := by
  unfold to_int
  no_hash

theorem to_byte_cost (x n : UInt32) : Cost 0 (fun _ => True) (to_byte x n : TraceExec b _) := by
  unfold to_byte
  no_hash

theorem wots_digits_cost (LEN N : Nat) (msg : List UInt8) (n32 : UInt32) :
    Cost 0 (fun _ => True) (wots_pk_digits LEN N msg n32 : TraceExec b _) := by
  unfold wots_pk_digits
  have h1 := base_2b_cost (b := b)
  have h2 := to_byte_cost (b := b)
  no_hash

theorem slh_verify_split_cost {M : Nat} (A D H K : Nat) (d32 h32 : UInt32) (digest : Vector UInt8 M) :
    Cost 0 (fun _ => True) (slh_verify_split A D H K d32 h32 digest : TraceExec b _) := by
  unfold slh_verify_split
  have h1 := to_int_cost (b := b)
  no_hash

theorem sigLenExpr_cost (A D HP K LEN N : Nat) :
    Cost 0 (fun _ => True) (sigLenExpr A D HP K LEN N : TraceExec b _) := by
  unfold sigLenExpr
  no_hash

theorem deserialize_cost (A D HP K LEN N : Nat) (bytes : List UInt8) :
    Cost 0 (fun _ => True) (SlhDsaSig.deserialize A D HP K LEN N bytes : TraceExec b _) := by
  unfold SlhDsaSig.deserialize getChunk
  have h1 := sigLenExpr_cost (b := b)
  no_hash

/-! ## Hash functions -/

section
variable (P : Spec.Prims)

theorem sha256_cost (x : List (List UInt8)) :
    Cost (b := b) 1 (fun _ => True) ((crypto P).sha256 x) :=
  Cost.bind (n' := 0) (P := fun _ => True) (Cost.hash trivial) fun _ _ => Cost.pure trivial

theorem sha512_cost (x : List (List UInt8)) :
    Cost (b := b) 1 (fun _ => True) ((crypto P).sha512 x) :=
  Cost.bind (n' := 0) (P := fun _ => True) (Cost.hash trivial) fun _ _ => Cost.pure trivial

theorem shake128_cost (x : List (List UInt8)) (n : Nat) :
    Cost (b := b) 1 (fun _ => True) ((crypto P).shake128 x n) :=
  Cost.bind (n' := 0) (P := fun _ => True) (Cost.hash trivial) fun _ _ => Cost.pure trivial

theorem shake256_cost (x : List (List UInt8)) (n : Nat) :
    Cost (b := b) 1 (fun _ => True) ((crypto P).shake256 x n) :=
  Cost.bind (n' := 0) (P := fun _ => True) (Cost.hash trivial) fun _ _ => Cost.pure trivial

/-- Writing an address out calls no hash function. -/
theorem to_32_bytes_cost (a : Adrs) : Cost (b := b) 0 (fun _ => True) (a.to_32_bytes) := by
  unfold Adrs.to_32_bytes Adrs.putWord
  no_hash

theorem to_22_bytes_cost (a : Adrs) : Cost (b := b) 0 (fun _ => True) (a.to_22_bytes) := by
  unfold Adrs.to_22_bytes
  no_hash

theorem sha256_trunc_cost (x : List (List UInt8)) (n : Nat) :
    Cost (b := b) 1 (fun _ => True)
      ((crypto P).sha256 x >>= fun d => slice d.toList 0 n >>= fun s => copyFromSlice n s) :=
  Cost.bind (n' := 0) (sha256_cost P x) fun _ _ => by no_hash

theorem sha512_trunc_cost (x : List (List UInt8)) (n : Nat) :
    Cost (b := b) 1 (fun _ => True)
      ((crypto P).sha512 x >>= fun d => slice d.toList 0 n >>= fun s => copyFromSlice n s) :=
  Cost.bind (n' := 0) (sha512_cost P x) fun _ _ => by no_hash

/-- How often the hash functions behind each function pointer are called. -/
structure HashersCost {K LEN M N : Nat} (hs : Hashers (TraceExec b) K LEN M N) (cmsg cprf : Nat) :
    Prop where
  h_msg : ∀ r s t ms, Cost cmsg (fun _ => True) (hs.h_msg r s t ms)
  prf : ∀ pk sk a, Cost 1 (fun _ => True) (hs.prf pk sk a)
  prf_msg : ∀ sk o ms, Cost cprf (fun _ => True) (hs.prf_msg sk o ms)
  f : ∀ pk a m, Cost 1 (fun _ => True) (hs.f pk a m)
  h : ∀ pk a m n, Cost 1 (fun _ => True) (hs.h pk a m n)
  t_l : ∀ pk a ml, Cost 1 (fun _ => True) (hs.t_l pk a ml)
  t_len : ∀ pk a ml, Cost 1 (fun _ => True) (hs.t_len pk a ml)

/-- Hash calls of `H_msg`. -/
def hMsgCalls (p : Params) : Nat :=
  match p.fam with
  | .shake => 1
  | .sha2_cat_1 => 1 + (p.M + 31) / 32
  | .sha2_cat_3_5 => 1 + (p.M + 63) / 64

/-- Hash calls of `PRF_msg`. -/
def prfMsgCalls (p : Params) : Nat :=
  match p.fam with
  | .shake => 1
  | .sha2_cat_1 => 2
  | .sha2_cat_3_5 => 2

theorem usize_pow (b : Build) : 2 ^ 16 ≤ 2 ^ b.usizeBits :=
  Nat.pow_le_pow_right (by decide) b.usizeBits_ge

/-- `start += n` in an MGF1 loop. -/
theorem addUsize_cost {x y : Nat} (h : x + y < 2 ^ 16) :
    Cost (b := b) 0 (· = x + y) (addUsize x y) := by
  have hb := usize_pow b
  have : (addUsize x y : TraceExec b Nat) = pure (x + y) := by
    show (if (decide (2 ^ b.usizeBits ≤ x + y) && b.overflowChecks) then _ else _) = _
    rw [decide_eq_false (by omega), Bool.false_and, if_neg (by simp)]
    show pure ((x + y) % 2 ^ b.usizeBits) = _
    rw [Nat.mod_eq_of_lt (by omega)]
  rw [this]
  exact Cost.pure rfl

theorem sha2_cat_1_h_msg_cost {M : Nat} (hM : M ≤ 255) (r s t : List UInt8) (ms : List (List UInt8)) :
    Cost (b := b) (1 + (M + 31) / 32) (fun _ => True) (sha2_cat_1.h_msg (crypto P) M r s t ms) := by
  unfold sha2_cat_1.h_msg sha2_cat_1.sha2_256
  refine Cost.free Cost.addUsize fun e => Cost.free Cost.writeSlice fun inp => ?_
  refine Cost.bind (Cost.leak rfl (sha256_trunc_cost P _ _)) fun d1 _ => ?_
  refine (Cost.bind (n' := 0) (Cost.whileFuel (c := 1) (fun _ => True)
    (fun st : MgfState M => (M - st.start + 31) / 32) ?_ ?_ _ _ trivial)
    fun _ _ => Cost.pure trivial).le (by simp)
  · intro st _ h
    have h : st.start < M := by simpa using h
    omega
  · intro st _ h
    have h : st.start < M := by simpa using h
    refine Cost.bind (n' := 0) (Cost.leak rfl (sha256_trunc_cost P _ _)) fun tmp _ => ?_
    refine Cost.free Cost.subUsize fun d => Cost.free Cost.addUsize fun e =>
      Cost.free Cost.slice fun src => Cost.free Cost.writeSlice fun res => ?_
    refine Cost.bind (n := 0) (n' := 0) (addUsize_cost (x := st.start) (y := 32) (by omega)) fun start hst => ?_
    refine Cost.free Cost.addU32 fun c => Cost.pure ⟨trivial, ?_⟩
    subst hst
    dsimp only
    omega

theorem sha2_cat_3_5_h_msg_cost {M : Nat} (hM : M ≤ 255) (r s t : List UInt8)
    (ms : List (List UInt8)) :
    Cost (b := b) (1 + (M + 63) / 64) (fun _ => True) (sha2_cat_3_5.h_msg (crypto P) M r s t ms) := by
  unfold sha2_cat_3_5.h_msg sha2_cat_3_5.sha2_512
  refine Cost.free Cost.addUsize fun e => Cost.free Cost.writeSlice fun inp => ?_
  refine Cost.bind (Cost.leak rfl (sha512_trunc_cost P _ _)) fun d1 _ => ?_
  refine (Cost.bind (n' := 0) (Cost.whileFuel (c := 1) (fun _ => True)
    (fun st : MgfState M => (M - st.start + 63) / 64) ?_ ?_ _ _ trivial)
    fun _ _ => Cost.pure trivial).le (by simp)
  · intro st _ h
    have h : st.start < M := by simpa using h
    omega
  · intro st _ h
    have h : st.start < M := by simpa using h
    refine Cost.bind (n' := 0) (Cost.leak rfl (sha512_trunc_cost P _ _)) fun tmp _ => ?_
    refine Cost.free Cost.subUsize fun d => Cost.free Cost.addUsize fun e =>
      Cost.free Cost.slice fun src => Cost.free Cost.writeSlice fun res => ?_
    refine Cost.bind (n := 0) (n' := 0) (addUsize_cost (x := st.start) (y := 64) (by omega)) fun start hst => ?_
    refine Cost.free Cost.addU32 fun c => Cost.pure ⟨trivial, ?_⟩
    subst hst
    dsimp only
    omega

theorem HASHERS_cost (p : Params) (hM : p.M ≤ 255) :
    HashersCost (b := b) (HASHERS p (crypto P)) (hMsgCalls p) (prfMsgCalls p) := by
  unfold HASHERS hMsgCalls prfMsgCalls
  cases p.fam with
  | shake =>
    constructor
    · intros
      exact Cost.free Cost.addUsize fun e => Cost.free Cost.writeSlice fun inp => Cost.leak rfl (shake256_cost P _ _)
    · intros; exact Cost.free (to_32_bytes_cost _) fun a => Cost.leak rfl (shake256_cost P _ _)
    · intros
      exact Cost.free Cost.addUsize fun e => Cost.free Cost.writeSlice fun inp => Cost.leak rfl (shake256_cost P _ _)
    · intros; exact Cost.free (to_32_bytes_cost _) fun a => Cost.leak rfl (shake256_cost P _ _)
    · intros; exact Cost.free (to_32_bytes_cost _) fun a => Cost.leak rfl (shake256_cost P _ _)
    · intros; exact Cost.free (to_32_bytes_cost _) fun a => Cost.leak rfl (shake256_cost P _ _)
    · intros; exact Cost.free (to_32_bytes_cost _) fun a => Cost.leak rfl (shake256_cost P _ _)
  | sha2_cat_1 =>
    constructor
    · intros; exact sha2_cat_1_h_msg_cost P hM _ _ _ _
    · intros
      exact Cost.free Cost.subUsize fun zl => Cost.free Cost.slice fun z =>
        Cost.free (to_22_bytes_cost _) fun a => Cost.leak rfl (sha256_trunc_cost P _ _)
    · intros
      refine Cost.bind (n := 2) (n' := 0) (Cost.leak rfl (Cost.leak rfl
        (Cost.leak rfl (Cost.bind (n := 1) (n' := 1) (sha256_cost P _) fun i _ => sha256_cost P _)))) fun d _ => ?_
      no_hash
    · intros
      exact Cost.free Cost.subUsize fun zl => Cost.free Cost.slice fun z =>
        Cost.free (to_22_bytes_cost _) fun a => Cost.leak rfl (sha256_trunc_cost P _ _)
    · intros
      exact Cost.free Cost.subUsize fun zl => Cost.free Cost.slice fun z =>
        Cost.free (to_22_bytes_cost _) fun a => Cost.leak rfl (sha256_trunc_cost P _ _)
    · intros
      exact Cost.free Cost.subUsize fun zl => Cost.free Cost.slice fun z => Cost.free (to_22_bytes_cost _) fun a => Cost.leak rfl
        (sha256_trunc_cost P _ _)
    · intros
      exact Cost.free Cost.subUsize fun zl => Cost.free Cost.slice fun z => Cost.free (to_22_bytes_cost _) fun a => Cost.leak rfl
        (sha256_trunc_cost P _ _)
  | sha2_cat_3_5 =>
    constructor
    · intros; exact sha2_cat_3_5_h_msg_cost P hM _ _ _ _
    · intros
      exact Cost.free Cost.subUsize fun zl => Cost.free Cost.slice fun z =>
        Cost.free (to_22_bytes_cost _) fun a => Cost.leak rfl (sha256_trunc_cost P _ _)
    · intros
      refine Cost.bind (n := 2) (n' := 0) (Cost.leak rfl (Cost.leak rfl
        (Cost.leak rfl (Cost.bind (n := 1) (n' := 1) (sha512_cost P _) fun i _ => sha512_cost P _)))) fun d _ => ?_
      no_hash
    · intros
      exact Cost.free Cost.subUsize fun zl => Cost.free Cost.slice fun z =>
        Cost.free (to_22_bytes_cost _) fun a => Cost.leak rfl (sha256_trunc_cost P _ _)
    · intros
      exact Cost.free Cost.subUsize fun zl => Cost.free Cost.slice fun z =>
        Cost.free (to_22_bytes_cost _) fun a => Cost.leak rfl (sha512_trunc_cost P _ _)
    · intros
      exact Cost.free Cost.subUsize fun zl => Cost.free Cost.slice fun z => Cost.free (to_22_bytes_cost _) fun a => Cost.leak rfl
        (sha512_trunc_cost P _ _)
    · intros
      exact Cost.free Cost.subUsize fun zl => Cost.free Cost.slice fun z => Cost.free (to_22_bytes_cost _) fun a => Cost.leak rfl
        (sha512_trunc_cost P _ _)

theorem hash_message_cost (msg : List UInt8) (ph : Ph) (buf : Vector UInt8 64) :
    Cost (b := b) 1 (fun _ => True) (hash_message (crypto P) msg ph buf) := by
  cases ph with
  | SHA256 => exact Cost.bind (n' := 0) (sha256_cost P _) fun _ _ => by no_hash
  | SHA512 => exact Cost.bind (n' := 0) (sha512_cost P _) fun _ _ => by no_hash
  | SHAKE128 => exact Cost.bind (n' := 0) (shake128_cost P _ _) fun _ _ => by no_hash
  | SHAKE256 => exact Cost.bind (n' := 0) (shake256_cost P _ _) fun _ _ => by no_hash

end

/-! ## Verification -/

variable {K LEN M N A D H HP cm cp : Nat} {hs : Hashers (TraceExec b) K LEN M N} {p : Spec.Params}

theorem addU32_le_cost {x y : UInt32} :
    Cost (b := b) 0 (fun e => e.toNat - x.toNat ≤ y.toNat) (addU32 x y) := by
  refine Cost.ite (fun _ => Cost.panic) fun _ => Cost.pure ?_
  rw [UInt32.toNat_add]
  have : (x.toNat + y.toNat) % 2 ^ 32 ≤ x.toNat + y.toNat := Nat.mod_le _ _
  omega

theorem chain_cost (C : HashersCost hs cm cp) (x : Vector UInt8 N) (i s : UInt32) (pk : List UInt8)
    (adrs : Adrs) : Cost s.toNat (fun _ => True) (chain hs x i s pk adrs) := by
  unfold chain
  refine Cost.free (by no_hash) fun _ => ?_
  refine (Cost.bind (n := 0) (n' := s.toNat) addU32_le_cost fun e he => ?_).le (by omega)
  refine (Cost.bind (n' := 0) (Cost.forU32 (c := 1) (fun _ _ => True) trivial ?_)
    fun _ _ => Cost.pure trivial).le (by omega)
  rintro j ⟨a, t⟩ - - -
  exact Cost.bind (n' := 0) (C.f _ _ _) fun _ _ => Cost.pure trivial

theorem wots_pk_from_sig_cost (hp : Matches p K LEN M N A D H HP) (C : HashersCost hs cm cp)
    (sig : WotsSig LEN N) {msg : List UInt8} (hmsg : msg.length = N) (pk : List UInt8) (adrs : Adrs) :
    Cost (LEN * 15 + 1) (fun _ => True) (wots_pk_from_sig hs sig msg pk adrs) := by
  unfold wots_pk_from_sig
  have hN := hp.N_le
  refine Cost.step (P := fun v => v.toNat = N) Cost.u32TryFromUnwrap
    (Returns.tail (Returns.u32TryFromUnwrap (by omega) fun _ hd => Returns.pure hd)) fun n32 hn => ?_
  refine Cost.step (wots_digits_cost LEN N msg n32) (wots_sign_digits_returns hp hmsg hn)
    fun v hv => ?_
  refine Cost.bind (n := LEN * 15) (n' := 1) (Cost.forUsize (c := 15) (fun _ _ => True) trivial ?_)
    fun st _ => ?_
  · rintro i ⟨a, t⟩ - hi -
    dsimp only
    have hd := digit_of hv hi
    have hd2 := wotsDigits_lt (p := p) (msg := msg) i
    have e : (W - 1 - v[i]).toNat = 15 - v[i].toNat := by
      rw [UInt32.toNat_sub_of_le _ _ (by rw [UInt32.le_iff_toNat_le, w_sub_one]; omega), w_sub_one]
    refine Cost.free Cost.vget fun x => Cost.free Cost.vget fun d => ?_
    refine Cost.step (P := (· = W - 1)) Cost.subU32
      (Returns.tail (Returns.subU32 (by decide) (Returns.pure rfl))) ?_
    rintro _ rfl
    refine Cost.step (P := (· = v[i])) Cost.vget
      (Returns.tail (Returns.vget hi (Returns.pure rfl))) ?_
    rintro _ rfl
    refine Cost.step (P := (· = W - 1 - v[i])) Cost.subU32
      (Returns.tail (Returns.subU32 (by rw [w_sub_one]; omega) (Returns.pure rfl))) ?_
    rintro _ rfl
    refine Cost.bind (n := 15) (n' := 0) ((chain_cost C _ _ _ _ _).le (by omega)) fun c _ => ?_
    no_hash
  · exact Cost.bind (n' := 0) (C.t_l _ _ _) fun _ _ => Cost.pure trivial

theorem xmss_pk_from_sig_cost (hp : Matches p K LEN M N A D H HP) (C : HashersCost hs cm cp)
    (idx : UInt32) (sig : XmssSig HP LEN N) {msg : List UInt8} (hmsg : msg.length = N)
    (pk : List UInt8) (adrs : Adrs) :
    Cost (LEN * 15 + 1 + HP) (fun _ => True) (xmss_pk_from_sig hs idx sig msg pk adrs) := by
  unfold xmss_pk_from_sig
  have hHP := hp.HP_le
  refine Cost.step (P := fun v => v.toNat = HP) Cost.u32TryFromUnwrap
    (Returns.tail (Returns.u32TryFromUnwrap (by omega) fun _ hd => Returns.pure hd)) fun hp32 hh => ?_
  refine Cost.bind (wots_pk_from_sig_cost hp C _ hmsg _ _) fun w _ => ?_
  refine (Cost.bind (n' := 0) (Cost.forU32 (c := 1) (fun _ _ => True) trivial ?_)
    fun _ _ => Cost.pure trivial).le (by rw [hh]; simp)
  rintro k ⟨a, t⟩ - - -
  dsimp only
  refine Cost.free Cost.addU32 fun k1 => Cost.free Cost.shrU32 fun t => Cost.leak rfl ?_
  refine Cost.ite (fun _ => ?_) fun _ => ?_
  · refine Cost.free Cost.divU32 fun _ => Cost.free Cost.asUsize fun _ => Cost.free Cost.vget fun _ => ?_
    exact Cost.bind (n' := 0) (C.h _ _ _ _) fun _ _ => Cost.pure trivial
  · refine Cost.free Cost.subU32 fun _ => Cost.free Cost.divU32 fun _ => Cost.free Cost.asUsize
      fun _ => Cost.free Cost.vget fun _ => ?_
    exact Cost.bind (n' := 0) (C.h _ _ _ _) fun _ _ => Cost.pure trivial

theorem ht_verify_cost (hp : Matches p K LEN M N A D H HP) (C : HashersCost hs cm cp)
    {msg : List UInt8} (hmsg : msg.length = N) (sig : HtSig D HP LEN N) (pk : List UInt8)
    (t : UInt64) (l : UInt32) (root : Vector UInt8 N) :
    Cost (D * (LEN * 15 + 1 + HP)) (fun _ => True) (ht_verify hs msg sig pk t l root) := by
  unfold ht_verify
  have hD := hp.D_le
  have hD2 := hp.D_ge
  refine Cost.step (P := fun v => v.toNat = D) Cost.u32TryFromUnwrap
    (Returns.tail (Returns.u32TryFromUnwrap (by omega) fun _ hd => Returns.pure hd)) fun d32 hd => ?_
  refine Cost.free Cost.u32TryFromUnwrap fun hp32 => Cost.free Cost.vget fun sig0 => ?_
  refine (Cost.bind (xmss_pk_from_sig_cost hp C _ _ hmsg _ _) fun node _ => Cost.bind (n' := 0)
    (Cost.forU32E (c := LEN * 15 + 1 + HP) ?_) fun r _ => ?_).le ?_
  · intro j st
    refine Cost.free Cost.shlU64 fun _ => Cost.free Cost.subU64 fun _ => ?_
    refine Cost.leak rfl ?_
    split
    · exact (Cost.pure trivial).le (Nat.zero_le _)
    · refine Cost.free Cost.shrU64 fun _ => Cost.free Cost.asUsize fun _ => Cost.free Cost.vget
        fun _ => ?_
      exact Cost.bind (n' := 0) (xmss_pk_from_sig_cost hp C _ _ (by simp) _ _)
        fun _ _ => Cost.pure trivial
  · split
    · exact Cost.pure trivial
    · exact Cost.leak rfl (Cost.pure trivial)
  · rw [hd, Nat.add_zero, show (1 : UInt32).toNat = 1 from rfl]
    obtain ⟨d, rfl⟩ : ∃ d, D = d + 1 := ⟨D - 1, by omega⟩
    rw [Nat.add_sub_cancel, Nat.succ_mul]
    omega

theorem fors_pk_from_sig_cost (hp : Matches p K LEN M N A D H HP) (C : HashersCost hs cm cp)
    (sig : ForsSig A K N) (md pk : List UInt8) (adrs : Adrs) :
    Cost (K * (1 + A) + 1) (fun _ => True) (fors_pk_from_sig hs sig md pk adrs) := by
  unfold fors_pk_from_sig
  have hA := hp.A_lt
  have hK := hp.K_le
  refine Cost.step (P := fun v => v.toNat = A) Cost.u32TryFromUnwrap
    (Returns.tail (Returns.u32TryFromUnwrap (by omega) fun _ hd => Returns.pure hd)) fun a32 ha => ?_
  refine Cost.step (P := fun v => v.toNat = K) Cost.u32TryFromUnwrap
    (Returns.tail (Returns.u32TryFromUnwrap (by omega) fun _ hd => Returns.pure hd)) fun k32 hk => ?_
  refine Cost.free (base_2b_cost _ _ _ _) fun new => Cost.free Cost.copyFromSlice fun ind => ?_
  refine Cost.bind (n := K * (1 + A)) (n' := 1) ((Cost.forU32 (c := 1 + A) (fun _ _ => True) trivial
    ?_).le (by rw [hk]; simp)) fun st _ => ?_
  · rintro i ⟨a, root⟩ - - -
    dsimp only
    refine Cost.free Cost.asUsize fun _ => Cost.free Cost.vget fun _ => Cost.free Cost.shlU32 fun _ =>
      Cost.free Cost.asUsize fun _ => Cost.free Cost.vget fun _ => Cost.free Cost.addU32 fun _ => ?_
    refine Cost.bind (C.f _ _ _) fun _ _ => Cost.free Cost.asUsize fun _ => Cost.free Cost.vget
      fun _ => ?_
    refine Cost.bind (n := A) (n' := 0) ((Cost.forU32 (c := 1) (fun _ _ => True) trivial
      ?_).le (by rw [ha]; simp)) fun st _ => by no_hash
    rintro j ⟨a, node⟩ - - -
    dsimp only
    refine Cost.free Cost.addU32 fun k1 => Cost.free Cost.asUsize fun _ => Cost.free Cost.vget fun _ =>
      Cost.free Cost.shrU32 fun t => Cost.leak rfl ?_
    refine Cost.ite (fun _ => ?_) fun _ => ?_
    · refine Cost.free Cost.divU32 fun _ => Cost.free Cost.asUsize fun _ => Cost.free Cost.vget
        fun _ => ?_
      exact Cost.bind (n' := 0) (C.h _ _ _ _) fun _ _ => Cost.pure trivial
    · refine Cost.free Cost.subU32 fun _ => Cost.free Cost.divU32 fun _ => Cost.free Cost.asUsize
        fun _ => Cost.free Cost.vget fun _ => ?_
      exact Cost.bind (n' := 0) (C.h _ _ _ _) fun _ _ => Cost.pure trivial
  · exact Cost.bind (n' := 0) (C.t_len _ _ _) fun _ _ => Cost.pure trivial

theorem slh_verify_internal_cost (hp : Matches p K LEN M N A D H HP) (C : HashersCost hs cm cp)
    (msg : List (List UInt8)) (sig : SlhDsaSig A D HP K LEN N) (pk : SlhPublicKey N) :
    Cost (cm + (K * (1 + A) + 1 + D * (LEN * 15 + 1 + HP))) (fun _ => True)
      (slh_verify_internal H hs msg sig pk) := by
  unfold slh_verify_internal
  refine Cost.free Cost.u32TryFromUnwrap fun d32 => Cost.free Cost.u32TryFromUnwrap fun h32 => ?_
  refine Cost.bind (C.h_msg _ _ _ _) fun dig _ => Cost.free (slh_verify_split_cost _ _ _ _ _ _ _) ?_
  rintro ⟨md, t, l⟩
  dsimp only
  refine Cost.leak rfl ?_
  split
  · exact (Cost.pure trivial).le (Nat.zero_le _)
  · refine Cost.bind (fors_pk_from_sig_cost hp C _ _ _ _) fun pkf _ => ?_
    exact ht_verify_cost hp C (by simp) _ _ _ _ _

end Fips205.Model
