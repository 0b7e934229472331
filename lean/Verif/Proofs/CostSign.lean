import Verif.Proofs.Cost

/-! # Counting the hash calls of key generation and signing -/

namespace Fips205.Model
open Fips205

variable {b : Build} {σ : Type}

namespace Cost

/-- A loop whose iteration `i` costs at most `S (i + 1) - S i`. -/
theorem loopFromE_sum {ε : Type} (S : Nat → Nat) (hS : ∀ i, S i ≤ S (i + 1))
    {body : Nat → σ → TraceExec b (Except ε σ)} :
    ∀ (count lo : Nat) (s : σ), (∀ i s, lo ≤ i → i < lo + count →
        Cost (S (i + 1) - S i) (fun _ => True) (body i s)) →
      Cost (S (lo + count) - S lo) (fun _ => True) (Model.loopFromE body count lo s)
  | 0, _, _, _ => (pure trivial).le (Nat.zero_le _)
  | k + 1, lo, s, hs => by
    have hm : S (lo + 1) ≤ S (lo + 1 + k) := monotone_nat_of_le_succ hS (by omega)
    have h1 := hS lo
    refine ((hs lo s (Nat.le_refl _) (by omega)).bind (n' := S (lo + 1 + k) - S (lo + 1))
      fun r _ => ?_).le (by rw [show lo + (k + 1) = lo + 1 + k by omega]; omega)
    cases r with
    | error e => exact leak rfl ((pure trivial).le (Nat.zero_le _))
    | ok s' =>
      exact leak rfl (loopFromE_sum S hS k (lo + 1) s' fun i s h1 h2 => hs i s (by omega) (by omega))

theorem forU32E_sum {ε : Type} (S : Nat → Nat) (hS : ∀ i, S i ≤ S (i + 1)) {lo hi : UInt32} {s : σ}
    {body : UInt32 → σ → TraceExec b (Except ε σ)}
    (hs : ∀ (i : UInt32) s, i.toNat < hi.toNat →
      Cost (S (i.toNat + 1) - S i.toNat) (fun _ => True) (body i s)) :
    Cost (S (max lo.toNat hi.toNat) - S lo.toNat) (fun _ => True) (Model.forU32E lo hi s body) := by
  refine leak rfl ?_
  have := loopFromE_sum S hS (body := fun i => body (UInt32.ofNat i)) (hi.toNat - lo.toNat) lo.toNat s
    fun i s h1 h2 => by
      have hi' : (UInt32.ofNat i).toNat = i := by
        have := hi.toNat_lt
        rw [UInt32.toNat_ofNat', Nat.mod_eq_of_lt (by omega)]
      have := hs (UInt32.ofNat i) s (by omega)
      rwa [hi'] at this
  rwa [show lo.toNat + (hi.toNat - lo.toNat) = max lo.toNat hi.toNat by omega] at this

theorem loopFrom_sum (S : Nat → Nat) (hS : ∀ i, S i ≤ S (i + 1)) {body : Nat → σ → TraceExec b σ} :
    ∀ (count lo : Nat) (s : σ), (∀ i s, lo ≤ i → i < lo + count →
        Cost (S (i + 1) - S i) (fun _ => True) (body i s)) →
      Cost (S (lo + count) - S lo) (fun _ => True) (Model.loopFrom body count lo s)
  | 0, _, _, _ => (pure trivial).le (Nat.zero_le _)
  | k + 1, lo, s, hs => by
    have hm : S (lo + 1) ≤ S (lo + 1 + k) := monotone_nat_of_le_succ hS (by omega)
    have h1 := hS lo
    exact ((hs lo s (Nat.le_refl _) (by omega)).bind fun s' _ =>
      loopFrom_sum S hS k (lo + 1) s' fun i s h1 h2 => hs i s (by omega) (by omega)).le
      (by rw [show lo + (k + 1) = lo + 1 + k by omega]; omega)

theorem forU32_sum (S : Nat → Nat) (hS : ∀ i, S i ≤ S (i + 1)) {lo hi : UInt32} {s : σ}
    {body : UInt32 → σ → TraceExec b σ}
    (hs : ∀ (i : UInt32) s, i.toNat < hi.toNat →
      Cost (S (i.toNat + 1) - S i.toNat) (fun _ => True) (body i s)) :
    Cost (S (max lo.toNat hi.toNat) - S lo.toNat) (fun _ => True) (Model.forU32 lo hi s body) := by
  refine leak rfl ?_
  have := loopFrom_sum S hS (body := fun i => body (UInt32.ofNat i)) (hi.toNat - lo.toNat) lo.toNat s
    fun i s h1 h2 => by
      have hi' : (UInt32.ofNat i).toNat = i := by
        have := hi.toNat_lt
        rw [UInt32.toNat_ofNat', Nat.mod_eq_of_lt (by omega)]
      have := hs (UInt32.ofNat i) s (by omega)
      rwa [hi'] at this
  rwa [show lo.toNat + (hi.toNat - lo.toNat) = max lo.toNat hi.toNat by omega] at this

theorem foldlM_le {ε : Type} {c : Nat} {body : σ → ε → TraceExec b σ} :
    ∀ (xs : List ε) (s : σ), (∀ s, ∀ x ∈ xs, Cost c (fun _ => True) (body s x)) →
      Cost (xs.length * c) (fun _ => True) (xs.foldlM body s)
  | [], _, _ => (pure trivial).le (Nat.zero_le _)
  | x :: xs, s, hs => by
    rw [List.foldlM_cons]
    refine ((hs s x (by simp)).bind fun s' _ =>
      foldlM_le xs s' fun s y hy => hs s y (by simp [hy])).le ?_
    rw [List.length_cons, Nat.succ_mul, Nat.add_comm]

theorem forEach_le {ε : Type} {c : Nat} {xs : List ε} {s : σ} {body : ε → σ → TraceExec b σ}
    (hs : ∀ x ∈ xs, ∀ s, Cost c (fun _ => True) (body x s)) :
    Cost (xs.length * c) (fun _ => True) (Model.forEach xs s body) :=
  leak rfl (foldlM_le xs s fun s x hx => hs x hx s)

end Cost

variable {K LEN M N A D H HP cm cp : Nat} {hs : Hashers (TraceExec b) K LEN M N} {p : Spec.Params}

theorem wots_pkgen_cost (C : HashersCost hs cm cp) (sk pk : List UInt8) (adrs : Adrs) :
    Cost (LEN * 16 + 1) (fun _ => True) (wots_pkgen hs sk pk adrs) := by
  unfold wots_pkgen
  have : Cost (b := b) 0 (fun v => v.toNat ≤ LEN) (u32TryFromUnwrap LEN) := by
    refine Cost.ite (fun h => Cost.pure ?_) fun _ => Cost.panic
    rw [UInt32.toNat_ofNat']; exact Nat.mod_le _ _
  refine (this.bind fun len32 hl => ?_).le (Nat.le_of_eq (Nat.zero_add _))
  refine Cost.bind (n := LEN * 16) (n' := 1) ((Cost.forU32 (c := 16) (fun _ _ => True) trivial ?_).le
    (Nat.mul_le_mul_right _ (by simpa using hl))) fun st _ => ?_
  · rintro i ⟨ska, a, t⟩ - - -
    dsimp only
    refine Cost.bind (n := 1) (n' := 15) (C.prf _ _ _) fun s _ => ?_
    refine Cost.step (P := (· = W - 1)) Cost.subU32
      (Returns.tail (Returns.subU32 (by decide) (Returns.pure rfl))) ?_
    rintro _ rfl
    refine Cost.bind (n := 15) (n' := 0) ((chain_cost C _ _ _ _ _).le (by decide)) fun c _ => ?_
    no_hash
  · exact Cost.bind (n' := 0) (C.t_l _ _ _) fun _ _ => Cost.pure trivial

theorem xmss_node_cost (C : HashersCost hs cm cp) (sk pk : List UInt8) (adrs : Adrs) :
    ∀ (n : Nat) (i z : UInt32), z.toNat = n →
      Cost (2 ^ n * (LEN * 16 + 2) - 1) (fun _ => True) (xmss_node hs sk i z pk adrs) := by
  intro n
  induction n with
  | zero =>
    intro i z hz
    have hz : z = 0 := UInt32.toNat_inj.mp hz
    rw [xmss_node]
    refine Cost.leak rfl ?_
    rw [dif_pos hz]
    exact (Cost.bind (n' := 0) (wots_pkgen_cost C _ _ _) fun _ _ => Cost.pure trivial).le (by omega)
  | succ n ih =>
    intro i z hz
    have hz0 : z ≠ 0 := by rintro rfl; simp at hz
    have hz1 : (z - 1).toNat = n := by
      rw [UInt32.toNat_sub_of_le _ _ (by rw [UInt32.le_iff_toNat_le, hz]; simp), hz]; simp
    rw [xmss_node]
    refine Cost.leak rfl ?_
    rw [dif_neg hz0]
    refine Cost.free Cost.mulU32 fun _ => ((ih _ _ hz1).bind fun l _ => Cost.free Cost.mulU32 fun _ =>
      Cost.free Cost.addU32 fun _ => (ih _ _ hz1).bind fun r _ => C.h _ _ _ _).le ?_
    have h1 : 1 ≤ 2 ^ n * (LEN * 16 + 2) := Nat.mul_pos (Nat.two_pow_pos _) (by omega)
    have : 2 ^ (n + 1) * (LEN * 16 + 2) = 2 * (2 ^ n * (LEN * 16 + 2)) := by rw [Nat.pow_succ]; ring
    omega

theorem slh_keygen_internal_cost (hp : Matches p K LEN M N A D H HP) (C : HashersCost hs cm cp)
    (s r k : Vector UInt8 N) :
    Cost (2 ^ HP * (LEN * 16 + 2) - 1) (fun _ => True) (slh_keygen_internal D HP hs s r k) := by
  unfold slh_keygen_internal
  have hHP := hp.HP_le
  refine Cost.free Cost.u32TryFromUnwrap fun d32 => ?_
  refine Cost.step (P := fun v => v.toNat = HP) Cost.u32TryFromUnwrap
    (Returns.tail (Returns.u32TryFromUnwrap (by omega) fun _ hd => Returns.pure hd)) fun hp32 hh => ?_
  refine Cost.free Cost.subU32 fun d1 => ?_
  exact Cost.bind (n' := 0) (xmss_node_cost C _ _ _ _ _ _ hh) fun _ _ => Cost.pure trivial

/-! ## Signing -/

theorem wots_sign_cost (hp : Matches p K LEN M N A D H HP) (C : HashersCost hs cm cp)
    {msg : List UInt8} (hmsg : msg.length = N) (sk pk : List UInt8) (adrs : Adrs) :
    Cost (LEN * 16) (fun _ => True) (wots_sign hs msg sk pk adrs) := by
  unfold wots_sign
  have hN := hp.N_le
  refine Cost.step (P := fun v => v.toNat = N) Cost.u32TryFromUnwrap
    (Returns.tail (Returns.u32TryFromUnwrap (by omega) fun _ hd => Returns.pure hd)) fun n32 hn => ?_
  refine Cost.step (wots_digits_cost LEN N msg n32) (wots_sign_digits_returns hp hmsg hn)
    fun v hv => ?_
  refine (Cost.bind (n' := 0) (Cost.forEach_le (c := 16) ?_)
    fun st _ => Cost.pure trivial).le (by simp)
  rintro item hit ⟨i, ska, a, t⟩
  dsimp only
  obtain ⟨k, hk, rfl⟩ := List.getElem_of_mem hit
  have hk' : k < LEN := by simpa using hk
  have hd := digit_of hv hk'
  have hd2 := wotsDigits_lt (p := p) (msg := msg) k
  rw [Vector.getElem_toList]
  refine Cost.bind (n := 1) (n' := 15) (C.prf _ _ _) fun s _ => ?_
  refine Cost.bind (n := 15) (n' := 0) ((chain_cost C _ _ _ _ _).le (by omega)) fun c _ => ?_
  no_hash

/-- Bound on the hash calls of `xmss_sign`. -/
def xmssSignCalls (HP LEN : Nat) : Nat := (2 ^ HP - 1) * (LEN * 16 + 2) - HP + LEN * 16

theorem xmss_sign_cost (hp : Matches p K LEN M N A D H HP) (C : HashersCost hs cm cp)
    {msg : List UInt8} (hmsg : msg.length = N) (sk pk : List UInt8) (idx : UInt32) (adrs : Adrs) :
    Cost (xmssSignCalls HP LEN) (fun _ => True) (xmss_sign HP hs msg sk idx pk adrs) := by
  unfold xmss_sign
  have hHP := hp.HP_le
  refine Cost.step (P := fun v => v.toNat = HP) Cost.u32TryFromUnwrap
    (Returns.tail (Returns.u32TryFromUnwrap (by omega) fun _ hd => Returns.pure hd)) fun hp32 hh => ?_
  have hpos : ∀ i, 1 ≤ 2 ^ i * (LEN * 16 + 2) := fun i => Nat.mul_pos (Nat.two_pow_pos _) (by omega)
  have hexp : ∀ i, 2 ^ (i + 1) * (LEN * 16 + 2) = 2 * (2 ^ i * (LEN * 16 + 2)) := fun i => by
    rw [Nat.pow_succ]; ring
  have hge : ∀ i, i + 1 ≤ 2 ^ i * (LEN * 16 + 2) := fun i => by
    have := Nat.lt_two_pow_self (n := i)
    have h2 : 2 ^ i * 1 ≤ 2 ^ i * (LEN * 16 + 2) := Nat.mul_le_mul_left _ (by omega)
    omega
  refine Cost.bind (n := (2 ^ HP - 1) * (LEN * 16 + 2) - HP) (n' := LEN * 16)
    ((Cost.forU32_sum (fun i => 2 ^ i * (LEN * 16 + 2) - i) ?_ ?_).le ?_) fun auth _ => ?_
  · intro i
    have := hexp i; have := hge i
    omega
  · intro j auth hj
    refine Cost.free Cost.shrU32 fun k => ?_
    refine (Cost.bind (n' := 0) (xmss_node_cost C _ _ _ _ _ _ rfl) fun nd _ => by no_hash).le ?_
    have := hexp j.toNat; have := hge j.toNat
    omega
  · rw [hh, Nat.sub_mul, show (0 : UInt32).toNat = 0 from rfl, Nat.zero_max]
    have := hge HP
    omega
  · exact Cost.bind (n' := 0) (wots_sign_cost hp C hmsg _ _ _) fun _ _ => Cost.pure trivial

theorem ht_sign_cost (hp : Matches p K LEN M N A D H HP) (C : HashersCost hs cm cp)
    {msg : List UInt8} (hmsg : msg.length = N) (sk pk : List UInt8) (t : UInt64) (l : UInt32) :
    Cost (D * xmssSignCalls HP LEN + (D - 1) * (LEN * 15 + 1 + HP)) (fun _ => True)
      (ht_sign D HP hs msg sk pk t l) := by
  unfold ht_sign
  have hD := hp.D_le
  have hD2 := hp.D_ge
  refine Cost.step (P := fun v => v.toNat = D) Cost.u32TryFromUnwrap
    (Returns.tail (Returns.u32TryFromUnwrap (by omega) fun _ hd => Returns.pure hd)) fun d32 hd => ?_
  refine Cost.free Cost.u32TryFromUnwrap fun hp32 => ?_
  have hmul : ∀ i, (i + 1) * xmssSignCalls HP LEN = i * xmssSignCalls HP LEN + xmssSignCalls HP LEN :=
    fun i => Nat.succ_mul _ _
  have hmin : ∀ i, min i (D - 1) ≤ min (i + 1) (D - 1) := fun i => by omega
  have hmul2 : ∀ i, min i (D - 1) * (LEN * 15 + 1 + HP) ≤ min (i + 1) (D - 1) * (LEN * 15 + 1 + HP) :=
    fun i => Nat.mul_le_mul_right _ (hmin i)
  refine (Cost.bind (xmss_sign_cost hp C hmsg _ _ _ _) fun sig0 _ => Cost.free Cost.vset fun sigs =>
    Cost.bind (xmss_pk_from_sig_cost hp C _ _ hmsg _ _) fun root _ => Cost.bind (n' := 0)
    (Cost.forU32E_sum
      (fun i => i * xmssSignCalls HP LEN + min i (D - 1) * (LEN * 15 + 1 + HP)) ?_ ?_) fun r _ => ?_).le ?_
  · intro i
    have := hmul i; have := hmul2 i
    omega
  · intro j st hj
    have := hmul j.toNat; have := hmul2 j.toNat
    refine Cost.free Cost.shlU64 fun _ => Cost.free Cost.subU64 fun _ => ?_
    refine Cost.leak rfl ?_
    split
    · exact (Cost.pure trivial).le (Nat.zero_le _)
    · refine Cost.free Cost.shrU64 fun _ => ?_
      refine (Cost.bind
        (n' := (min (j.toNat + 1) (D - 1) - min j.toNat (D - 1)) * (LEN * 15 + 1 + HP))
        (xmss_sign_cost hp C (by simp) _ _ _ _) fun sig _ => ?_).le
        (by rw [Nat.sub_mul]; omega)
      refine Cost.free Cost.asUsize fun _ => Cost.free Cost.vset fun _ =>
        Cost.step (P := fun v => v.toNat = D - 1) Cost.subU32
          (Returns.tail (Returns.subU32 (by rw [hd]; exact (by omega : 1 ≤ D)) (Returns.pure
            (by rw [UInt32.toNat_sub_of_le _ _ (by rw [UInt32.le_iff_toNat_le, hd]; exact (by omega : 1 ≤ D)), hd]; rfl))))
          fun d1 hd1 => Cost.leak rfl
            (Cost.ite (fun hlt => ?_) fun _ => (Cost.pure trivial).le (Nat.zero_le _))
      rw [UInt32.lt_iff_toNat_lt, hd1] at hlt
      rw [show min (j.toNat + 1) (D - 1) - min j.toNat (D - 1) = 1 by omega, Nat.one_mul]
      exact Cost.bind (n' := 0) (xmss_pk_from_sig_cost hp C _ _ (by simp) _ _)
        fun _ _ => Cost.pure trivial
  · split <;> exact Cost.pure trivial
  · rw [hd, Nat.add_zero, show (1 : UInt32).toNat = 1 from rfl]
    rw [Nat.max_eq_right (by omega : 1 ≤ D), Nat.min_eq_right (by omega : D - 1 ≤ D),
      Nat.min_eq_left (by omega : 1 ≤ D - 1)]
    have := Nat.mul_le_mul_right (LEN * 15 + 1 + HP) (by omega : 1 ≤ D - 1)
    have := Nat.mul_le_mul_right (xmssSignCalls HP LEN) (by omega : 1 ≤ D)
    omega

theorem fors_node_cost (C : HashersCost hs cm cp) (sk pk : List UInt8) (adrs : Adrs) :
    ∀ (n : Nat) (i z : UInt32), z.toNat = n →
      Cost (3 * 2 ^ n - 1) (fun _ => True) (fors_node hs sk i z pk adrs) := by
  intro n
  induction n with
  | zero =>
    intro i z hz
    have hz : z = 0 := UInt32.toNat_inj.mp hz
    rw [fors_node]
    refine Cost.leak rfl ?_
    rw [dif_pos hz]
    exact Cost.bind (n := 1) (n' := 1) (C.prf _ _ _) fun _ _ =>
      Cost.bind (n := 1) (n' := 0) (C.f _ _ _) fun _ _ => Cost.pure trivial
  | succ n ih =>
    intro i z hz
    have hz0 : z ≠ 0 := by rintro rfl; simp at hz
    have hz1 : (z - 1).toNat = n := by
      rw [UInt32.toNat_sub_of_le _ _ (by rw [UInt32.le_iff_toNat_le, hz]; simp), hz]; simp
    rw [fors_node]
    refine Cost.leak rfl ?_
    rw [dif_neg hz0]
    have h1 := Nat.two_pow_pos n
    refine Cost.free Cost.mulU32 fun _ => ((ih _ _ hz1).bind (n' := 3 * 2 ^ n) fun l _ => ?_).le
      (by rw [Nat.pow_succ]; omega)
    refine Cost.leak rfl ?_
    cases l with
    | error e => exact (Cost.pure trivial).le (Nat.zero_le _)
    | ok l =>
      refine Cost.free Cost.mulU32 fun _ => Cost.free Cost.addU32 fun _ =>
        ((ih _ _ hz1).bind (n' := 1) fun r _ => ?_).le (by omega)
      refine Cost.leak rfl ?_
      cases r with
      | error e => exact (Cost.pure trivial).le (Nat.zero_le _)
      | ok r => exact Cost.bind (n' := 0) (C.h _ _ _ _) fun _ _ => Cost.pure trivial

theorem fors_sign_cost (hp : Matches p K LEN M N A D H HP) (C : HashersCost hs cm cp)
    (md sk pk : List UInt8) (adrs : Adrs) :
    Cost (K * (1 + (3 * 2 ^ A - 3 - A))) (fun _ => True) (fors_sign A hs md sk adrs pk) := by
  unfold fors_sign
  have hA := hp.A_lt
  have hK := hp.K_le
  refine Cost.step (P := fun v => v.toNat = A) Cost.u32TryFromUnwrap
    (Returns.tail (Returns.u32TryFromUnwrap (by omega) fun _ hd => Returns.pure hd)) fun a32 ha => ?_
  refine Cost.step (P := fun v => v.toNat = K) Cost.u32TryFromUnwrap
    (Returns.tail (Returns.u32TryFromUnwrap (by omega) fun _ hd => Returns.pure hd)) fun k32 hk => ?_
  refine Cost.free (base_2b_cost _ _ _ _) fun new => Cost.free Cost.copyFromSlice fun ind => ?_
  refine (Cost.forU32E (c := 1 + (3 * 2 ^ A - 3 - A)) fun i sig => ?_).le (by rw [hk]; simp)
  refine Cost.free Cost.shlU32 fun _ => Cost.free Cost.asUsize fun _ => Cost.free Cost.vget fun _ =>
    Cost.free Cost.addU32 fun _ => Cost.bind (C.prf _ _ _) fun _ _ => Cost.free Cost.asUsize fun _ =>
    Cost.free Cost.vset fun _ => ?_
  have hge : ∀ i, i + 1 ≤ 2 ^ i := fun i => Nat.lt_two_pow_self
  refine (Cost.forU32E_sum (fun i => 3 * 2 ^ i - i) ?_ ?_).le ?_
  · intro i
    have := hge i
    rw [Nat.pow_succ]; omega
  · intro j sig hj
    refine Cost.free Cost.asUsize fun _ => Cost.free Cost.vget fun _ => Cost.free Cost.shrU32 fun _ =>
      Cost.free Cost.subU32 fun _ => Cost.free Cost.shlU32 fun _ => Cost.free Cost.addU32 fun _ => ?_
    refine (Cost.bind (n' := 0) (fors_node_cost C _ _ _ _ _ _ rfl) fun r _ => ?_).le ?_
    · refine Cost.leak rfl ?_
      cases r with
      | error e => exact Cost.pure trivial
      | ok v => no_hash
    · have := hge j.toNat
      rw [Nat.pow_succ]; omega
  · rw [ha, show (0 : UInt32).toNat = 0 from rfl, Nat.zero_max]
    have := hge A
    omega

theorem slh_sign_internal_cost (hp : Matches p K LEN M N A D H HP) (C : HashersCost hs cm cp)
    (msg : List (List UInt8)) (sk : SlhPrivateKey N) (o : Vector UInt8 N) :
    Cost (cp + (cm + (K * (1 + (3 * 2 ^ A - 3 - A)) + (K * (1 + A) + 1 +
        (D * xmssSignCalls HP LEN + (D - 1) * (LEN * 15 + 1 + HP)))))) (fun _ => True)
      (slh_sign_internal A D H HP hs msg sk o) := by
  unfold slh_sign_internal
  refine Cost.free Cost.u32TryFromUnwrap fun d32 => Cost.free Cost.u32TryFromUnwrap fun h32 => ?_
  refine Cost.bind (C.prf_msg _ _ _) fun r _ => ?_
  refine Cost.bind (C.h_msg _ _ _ _) fun dig _ => Cost.free (slh_verify_split_cost _ _ _ _ _ _ _) ?_
  rintro ⟨md, t, l⟩
  dsimp only
  refine Cost.bind (fors_sign_cost hp C _ _ _ _) fun fs _ => ?_
  refine Cost.leak rfl ?_
  cases fs with
  | error e => exact (Cost.pure trivial).le (Nat.zero_le _)
  | ok fs =>
    refine Cost.bind (fors_pk_from_sig_cost hp C _ _ _ _) fun pkf _ => ?_
    refine Cost.bind (n' := 0) (ht_sign_cost hp C (by simp) _ _ _ _) fun r _ => ?_
    refine Cost.leak rfl ?_
    cases r <;> exact Cost.pure trivial

end Fips205.Model
