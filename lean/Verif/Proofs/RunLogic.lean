import Verif.Proofs.Run
import Verif.Proofs.VisitMsg

/-! # Rules for runs with known calls -/

namespace Fips205.Model
open Fips205

variable {b : Build} {α β σ : Type}

namespace Makes

theorem pure {Q : α → Prop} {v : α} (h : Q v) : Makes [] Q (Pure.pure v : LogExec b α) := ⟨v, rfl, h⟩

theorem congr {L L' : List Call} {Q : α → Prop} {x : LogExec b α} (h : Makes L Q x) (e : L = L') :
    Makes L' Q x := e ▸ h

theorem tail {L : List Call} {Q : α → Prop} {x : LogExec b α} (h : Makes L Q (x >>= Pure.pure)) :
    Makes L Q x := by simpa using h

section
variable {L : List Call} {Q : β → Prop}

theorem addU32 {x y : UInt32} (h : x.toNat + y.toNat < 2 ^ 32) {f : UInt32 → LogExec b β}
    (hf : Makes L Q (f (x + y))) : Makes L Q (Model.addU32 x y >>= f) := by
  rwa [addU32_ok h, pure_bind]

theorem subU32 {x y : UInt32} (h : y.toNat ≤ x.toNat) {f : UInt32 → LogExec b β}
    (hf : Makes L Q (f (x - y))) : Makes L Q (Model.subU32 x y >>= f) := by
  rwa [subU32_ok h, pure_bind]

theorem mulU32 {x y : UInt32} (h : x.toNat * y.toNat < 2 ^ 32) {f : UInt32 → LogExec b β}
    (hf : Makes L Q (f (x * y))) : Makes L Q (Model.mulU32 x y >>= f) := by
  rwa [mulU32_ok h, pure_bind]

theorem divU32 {x y : UInt32} (h : y ≠ 0) {f : UInt32 → LogExec b β}
    (hf : Makes L Q (f (x / y))) : Makes L Q (Model.divU32 x y >>= f) := by
  rwa [divU32_ok h, pure_bind]

theorem shlU32 {x y : UInt32} (h : y.toNat < 32) {f : UInt32 → LogExec b β}
    (hf : Makes L Q (f (x <<< y))) : Makes L Q (Model.shlU32 x y >>= f) := by
  rwa [shlU32_ok h, pure_bind]

theorem shrU32 {x y : UInt32} (h : y.toNat < 32) {f : UInt32 → LogExec b β}
    (hf : Makes L Q (f (x >>> y))) : Makes L Q (Model.shrU32 x y >>= f) := by
  rwa [shrU32_ok h, pure_bind]

theorem subU64 {x y : UInt64} (h : y.toNat ≤ x.toNat) {f : UInt64 → LogExec b β}
    (hf : Makes L Q (f (x - y))) : Makes L Q (Model.subU64 x y >>= f) := by
  rwa [subU64_ok h, pure_bind]

theorem shlU64 {x : UInt64} {y : UInt32} (h : y.toNat < 64) {f : UInt64 → LogExec b β}
    (hf : Makes L Q (f (x <<< y.toUInt64))) : Makes L Q (Model.shlU64 x y >>= f) := by
  rwa [shlU64_ok h, pure_bind]

theorem shrU64 {x : UInt64} {y : UInt32} (h : y.toNat < 64) {f : UInt64 → LogExec b β}
    (hf : Makes L Q (f (x >>> y.toUInt64))) : Makes L Q (Model.shrU64 x y >>= f) := by
  rwa [shrU64_ok h, pure_bind]

theorem asUsize {x : UInt32} (h : x.toNat < 2 ^ 16) {f : Nat → LogExec b β}
    (hf : Makes L Q (f x.toNat)) : Makes L Q (Model.asUsize x >>= f) := by
  rwa [asUsize_ok h, pure_bind]

theorem subUsize {x y : Nat} (h : y ≤ x) (hx : x < 2 ^ 16) {f : Nat → LogExec b β}
    (hf : Makes L Q (f (x - y))) : Makes L Q (Model.subUsize x y >>= f) := by
  rwa [subUsize_ok h hx, pure_bind]

theorem u32TryFromUnwrap {x : Nat} (h : x < 2 ^ 32) {f : UInt32 → LogExec b β}
    (hf : ∀ y : UInt32, y.toNat = x → Makes L Q (f y)) :
    Makes L Q (Model.u32TryFromUnwrap x >>= f) := by
  rw [u32TryFromUnwrap_ok h, pure_bind]
  exact hf _ (by rw [UInt32.toNat_ofNat', Nat.mod_eq_of_lt h])

theorem vget {n : Nat} {v : Vector α n} {i : Nat} (hi : i < n) {f : α → LogExec b β}
    (hf : Makes L Q (f v[i])) : Makes L Q (Model.vget v i >>= f) :=
  ret (P := (· = v[i])) (Returns.tail (Returns.vget hi (Returns.pure rfl))) fun _ h => h ▸ hf

theorem vset {n : Nat} {v : Vector α n} {i : Nat} {x : α} (hi : i < n)
    {f : Vector α n → LogExec b β} (hf : Makes L Q (f (v.set i x))) :
    Makes L Q (Model.vset v i x >>= f) :=
  ret (P := (· = v.set i x)) (Returns.tail (Returns.vset hi (Returns.pure rfl))) fun _ h => h ▸ hf

theorem slice {s : List α} {lo hi : Nat} (h1 : lo ≤ hi) (h2 : hi ≤ s.length)
    {f : List α → LogExec b β} (hf : Makes L Q (f ((s.drop lo).take (hi - lo)))) :
    Makes L Q (Model.slice s lo hi >>= f) :=
  ret (P := (· = (s.drop lo).take (hi - lo))) (Returns.tail (Returns.slice h1 h2 (Returns.pure rfl)))
    fun _ h => h ▸ hf

theorem copyFromSlice {n : Nat} {s : List α} (h : s.length = n) {f : Vector α n → LogExec b β}
    (hf : ∀ v : Vector α n, v.toList = s → Makes L Q (f v)) :
    Makes L Q (Model.copyFromSlice n s >>= f) :=
  ret (Returns.tail (Returns.copyFromSlice h fun _ hv => Returns.pure hv)) hf

theorem debugAssert {c : LogExec b Bool} {f : Unit → LogExec b β} (hc : Returns c (· = true))
    (hf : Makes L Q (f ())) : Makes L Q (Model.debugAssert c >>= f) :=
  ret (P := fun _ => True) (Returns.tail (Returns.debugAssert hc (Returns.pure trivial))) fun _ _ => hf

end

/-! ## Loops

Iteration `i` makes the calls `g i`. -/

variable {g : Nat → List Call}

theorem loopFrom {body : Nat → σ → LogExec b σ} (I : Nat → σ → Prop) :
    ∀ (c lo : Nat) (s : σ), I lo s →
      (∀ i s, lo ≤ i → i < lo + c → I i s → Makes (g i) (I (i + 1)) (body i s)) →
      Makes ((List.range' lo c).flatMap g) (I (lo + c)) (Model.loopFrom body c lo s)
  | 0, _, _, h0, _ => pure h0
  | c + 1, lo, s, h0, hs => by
    refine bind (hs lo s (Nat.le_refl _) (by omega) h0) fun s' hs' => ?_
    have := loopFrom I c (lo + 1) s' hs' fun i s h1 h2 => hs i s (by omega) (by omega)
    rwa [show lo + 1 + c = lo + (c + 1) by omega] at this

theorem loopFromE {ε : Type} {body : Nat → σ → LogExec b (Except ε σ)} (I : Nat → σ → Prop) :
    ∀ (c lo : Nat) (s : σ), I lo s →
      (∀ i s, lo ≤ i → i < lo + c → I i s →
        Makes (g i) (fun r => ∃ s', r = .ok s' ∧ I (i + 1) s') (body i s)) →
      Makes ((List.range' lo c).flatMap g) (fun r => ∃ s', r = .ok s' ∧ I (lo + c) s')
        (Model.loopFromE body c lo s)
  | 0, _, s, h0, _ => pure ⟨s, rfl, h0⟩
  | c + 1, lo, s, h0, hs => by
    refine bind (hs lo s (Nat.le_refl _) (by omega) h0) fun r hr => ?_
    obtain ⟨s', rfl, hs'⟩ := hr
    have := loopFromE I c (lo + 1) s' hs' fun i s h1 h2 => hs i s (by omega) (by omega)
    rwa [show lo + 1 + c = lo + (c + 1) by omega] at this

theorem forU32 {lo hi : UInt32} {s : σ} {body : UInt32 → σ → LogExec b σ} (g : Nat → List Call)
    (I : Nat → σ → Prop) (hle : lo.toNat ≤ hi.toNat) (h0 : I lo.toNat s)
    (hs : ∀ (i : UInt32) s, lo.toNat ≤ i.toNat → i.toNat < hi.toNat → I i.toNat s →
      Makes (g i.toNat) (I (i.toNat + 1)) (body i s)) :
    Makes ((List.range' lo.toNat (hi.toNat - lo.toNat)).flatMap g) (I hi.toNat)
      (Model.forU32 lo hi s body) := by
  have := loopFrom (g := g) (body := fun i => body (UInt32.ofNat i)) I (hi.toNat - lo.toNat) lo.toNat s h0
    (fun i s h1 h2 hI => by
      have hi' := Visits.toNat_ofNat_of_lt (i := i) (hi := hi) (by omega)
      have := hs (UInt32.ofNat i) s (by omega) (by omega) (by rwa [hi'])
      rwa [hi'] at this)
  rw [show lo.toNat + (hi.toNat - lo.toNat) = hi.toNat by omega] at this
  exact leak this

theorem forU32E {ε : Type} {lo hi : UInt32} {s : σ} {body : UInt32 → σ → LogExec b (Except ε σ)}
    (g : Nat → List Call) (I : Nat → σ → Prop) (hle : lo.toNat ≤ hi.toNat) (h0 : I lo.toNat s)
    (hs : ∀ (i : UInt32) s, lo.toNat ≤ i.toNat → i.toNat < hi.toNat → I i.toNat s →
      Makes (g i.toNat) (fun r => ∃ s', r = .ok s' ∧ I (i.toNat + 1) s') (body i s)) :
    Makes ((List.range' lo.toNat (hi.toNat - lo.toNat)).flatMap g)
      (fun r => ∃ s', r = .ok s' ∧ I hi.toNat s') (Model.forU32E lo hi s body) := by
  have := loopFromE (g := g) (body := fun i => body (UInt32.ofNat i)) I (hi.toNat - lo.toNat) lo.toNat s h0
    (fun i s h1 h2 hI => by
      have hi' := Visits.toNat_ofNat_of_lt (i := i) (hi := hi) (by omega)
      have := hs (UInt32.ofNat i) s (by omega) (by omega) (by rwa [hi'])
      rwa [hi'] at this)
  rw [show lo.toNat + (hi.toNat - lo.toNat) = hi.toNat by omega] at this
  exact leak this

theorem forUsize {lo hi : Nat} {s : σ} {body : Nat → σ → LogExec b σ} (g : Nat → List Call)
    (I : Nat → σ → Prop) (hle : lo ≤ hi) (h0 : I lo s)
    (hs : ∀ i s, lo ≤ i → i < hi → I i s → Makes (g i) (I (i + 1)) (body i s)) :
    Makes ((List.range' lo (hi - lo)).flatMap g) (I hi) (Model.forUsize lo hi s body) := by
  have := loopFrom (g := g) (body := body) I (hi - lo) lo s h0
    (fun i s h1 h2 hI => hs i s h1 (by omega) hI)
  rw [show lo + (hi - lo) = hi by omega] at this
  exact leak this

theorem foldlM {ε : Type} {body : σ → ε → LogExec b σ} (I : Nat → σ → Prop) :
    ∀ (xs : List ε) (k : Nat) (s : σ), I k s →
      (∀ i s (hi : i < xs.length), I (k + i) s → Makes (g (k + i)) (I (k + i + 1)) (body s xs[i])) →
      Makes ((List.range' k xs.length).flatMap g) (I (k + xs.length)) (xs.foldlM body s)
  | [], _, s, h0, _ => pure h0
  | x :: xs, k, s, h0, hs => by
    rw [List.foldlM_cons, List.length_cons, List.range'_succ, List.flatMap_cons]
    refine bind (L := g k) (hs 0 s (by simp) h0) fun s' hs' => ?_
    have := foldlM I xs (k + 1) s' hs' (fun i s hi hI => by
      have := hs (i + 1) s (by simpa using hi) (by rwa [← Nat.add_assoc, Nat.add_right_comm])
      simpa [Nat.add_assoc, Nat.add_comm 1 i] using this)
    simpa [Nat.add_assoc, Nat.add_comm 1] using this

theorem forEach {ε : Type} {xs : List ε} {s : σ} {body : ε → σ → LogExec b σ} (g : Nat → List Call)
    (I : Nat → σ → Prop) (h0 : I 0 s)
    (hs : ∀ i s (hi : i < xs.length), I i s → Makes (g i) (I (i + 1)) (body xs[i] s)) :
    Makes ((List.range xs.length).flatMap g) (I xs.length) (Model.forEach xs s body) := by
  refine leak ?_
  have := foldlM (g := g) (body := fun s x => body x s) I xs 0 s h0
    (fun i s hi hI => by simpa using hs i s hi (by simpa using hI))
  simpa [List.range_eq_range'] using this

end Makes

/-! ## Hash functions -/

/-- The run makes the calls of `r` and returns its value. -/
abbrev Does {n : Nat} (r : Spec.Run (List UInt8)) (x : LogExec b (Vector UInt8 n)) : Prop :=
  Makes r.log (fun v => v.toList = r.val) x

/-- The functions make the calls and compute the values of `hr`. -/
structure HashersRun {K LEN M N : Nat} (hs : Hashers (LogExec b) K LEN M N) (hr : Spec.Run.Fns) : Prop where
  h_msg : ∀ r pk_seed pk_root ms, ms.length ≤ 5 →
    Does (hr.Hmsg r pk_seed pk_root ms.flatten) (hs.h_msg r pk_seed pk_root ms)
  prf : ∀ pk_seed sk_seed adrs, Does (hr.PRF pk_seed sk_seed adrs.bytes32) (hs.prf pk_seed sk_seed adrs)
  prf_msg : ∀ sk_prf opt_rand ms, sk_prf.length ≤ 64 → ms.length ≤ 5 →
    Does (hr.PRFmsg sk_prf opt_rand ms.flatten) (hs.prf_msg sk_prf opt_rand ms)
  f : ∀ pk_seed adrs m1, Does (hr.F pk_seed adrs.bytes32 m1) (hs.f pk_seed adrs m1)
  h : ∀ pk_seed adrs m1 m2, Does (hr.H pk_seed adrs.bytes32 (m1 ++ m2)) (hs.h pk_seed adrs m1 m2)
  t_l : ∀ pk_seed adrs ml, Does (hr.T pk_seed adrs.bytes32 (absorbAll ml)) (hs.t_l pk_seed adrs ml)
  t_len : ∀ pk_seed adrs ml, Does (hr.T pk_seed adrs.bytes32 (absorbAll ml)) (hs.t_len pk_seed adrs ml)

end Fips205.Model
