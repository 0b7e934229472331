import Verif.Proofs.VisitHash

/-! # The places visited by `src/wots.rs` -/

namespace Fips205.Model
open Fips205

/-- A set of places of one XMSS tree: steps of chains, public keys and secret values of its WOTS+ keys,
and inner nodes. -/
def onTree (j t : Nat) (step : Nat → Nat → Nat → Prop) (pk : Nat → Prop) (prf : Nat → Nat → Prop)
    (node : Nat → Nat → Prop) : Place → Prop
  | .wotsHash j' t' l c s => j' = j ∧ t' = t ∧ step l c s
  | .wotsPk j' t' l => j' = j ∧ t' = t ∧ pk l
  | .wotsPrf j' t' l c => j' = j ∧ t' = t ∧ prf l c
  | .tree j' t' k i => j' = j ∧ t' = t ∧ node k i
  | _ => False

section
variable {j t : Nat} {s1 s2 s3 : Nat → Nat → Nat → Prop} {k1 k2 k3 : Nat → Prop}
  {r1 r2 r3 : Nat → Nat → Prop} {n1 n2 n3 : Nat → Nat → Prop}

theorem onTree.disj (hs : ∀ l c s, s1 l c s → s2 l c s → False) (hk : ∀ l, k1 l → k2 l → False)
    (hr : ∀ l c, r1 l c → r2 l c → False) (hn : ∀ k i, n1 k i → n2 k i → False) (p : Place)
    (h1 : onTree j t s1 k1 r1 n1 p) (h2 : onTree j t s2 k2 r2 n2 p) : False := by
  cases p with
  | wotsHash => exact hs _ _ _ h1.2.2 h2.2.2
  | wotsPk => exact hk _ h1.2.2 h2.2.2
  | wotsPrf => exact hr _ _ h1.2.2 h2.2.2
  | tree => exact hn _ _ h1.2.2 h2.2.2
  | _ => exact h1

theorem onTree.union (hs : ∀ l c s, s3 l c s ↔ s1 l c s ∨ s2 l c s) (hk : ∀ l, k3 l ↔ k1 l ∨ k2 l)
    (hr : ∀ l c, r3 l c ↔ r1 l c ∨ r2 l c) (hn : ∀ k i, n3 k i ↔ n1 k i ∨ n2 k i) (p : Place) :
    onTree j t s3 k3 r3 n3 p ↔ onTree j t s1 k1 r1 n1 p ∨ onTree j t s2 k2 r2 n2 p := by
  cases p with
  | wotsHash => simp only [onTree, hs]; tauto
  | wotsPk => simp only [onTree, hk]; tauto
  | wotsPrf => simp only [onTree, hr]; tauto
  | tree => simp only [onTree, hn]; tauto
  | _ => simp only [onTree, or_self]

theorem onTree.congr (hs : ∀ l c s, s1 l c s ↔ s2 l c s) (hk : ∀ l, k1 l ↔ k2 l)
    (hr : ∀ l c, r1 l c ↔ r2 l c) (hn : ∀ k i, n1 k i ↔ n2 k i) (p : Place) :
    onTree j t s1 k1 r1 n1 p ↔ onTree j t s2 k2 r2 n2 p := by
  cases p with
  | wotsHash => simp only [onTree, hs]
  | wotsPk => simp only [onTree, hk]
  | wotsPrf => simp only [onTree, hr]
  | tree => simp only [onTree, hn]
  | _ => rfl

/-- The union of a family of sets. -/
theorem onTree.iUnion {ι : Type} {T : ι → Prop} {s : ι → Nat → Nat → Nat → Prop} {k : ι → Nat → Prop}
    {r n : ι → Nat → Nat → Prop} (p : Place) :
    (∃ i, T i ∧ onTree j t (s i) (k i) (r i) (n i) p) ↔
      onTree j t (fun l c x => ∃ i, T i ∧ s i l c x) (fun l => ∃ i, T i ∧ k i l)
        (fun l c => ∃ i, T i ∧ r i l c) (fun h x => ∃ i, T i ∧ n i h x) p := by
  have key : ∀ {A B : Prop} {C : ι → Prop}, (∃ i, T i ∧ A ∧ B ∧ C i) ↔ (A ∧ B ∧ ∃ i, T i ∧ C i) :=
    ⟨fun ⟨i, h, a, b, c⟩ => ⟨a, b, i, h, c⟩, fun ⟨a, b, i, h, c⟩ => ⟨i, h, a, b, c⟩⟩
  cases p with
  | wotsHash => exact key
  | wotsPk => exact key
  | wotsPrf => exact key
  | tree => exact key
  | _ => exact ⟨fun ⟨_, _, h⟩ => h, fun h => h.elim⟩

end

/-- Steps `lo c`, ..., `hi c - 1` of every chain `c` of a WOTS+ key. -/
def stepsOf (len l : Nat) (lo hi : Nat → Nat) (l' c s : Nat) : Prop :=
  l' = l ∧ c < len ∧ lo c ≤ s ∧ s < hi c

/-- Steps `lo`, ..., `hi - 1` of chain `c`. -/
def chainPlaces (j t l c lo hi : Nat) : Place → Prop :=
  onTree j t (fun l' c' s => l' = l ∧ c' = c ∧ lo ≤ s ∧ s < hi) (fun _ => False) (fun _ _ => False)
    fun _ _ => False

/-- The steps of a signature of a message, and the rest of the key. -/
def wotsSignPlaces (p : Spec.Params) (j t l : Nat) (msg : List UInt8) : Place → Prop :=
  onTree j t (stepsOf p.len l (fun _ => 0) fun c => (Spec.wotsDigits p msg).getD c 0) (fun _ => False)
    (fun l' c => l' = l ∧ c < p.len) fun _ _ => False

def wotsVerifyPlaces (p : Spec.Params) (j t l : Nat) (msg : List UInt8) : Place → Prop :=
  onTree j t (stepsOf p.len l (fun c => (Spec.wotsDigits p msg).getD c 0) fun _ => 15) (· = l)
    (fun _ _ => False) fun _ _ => False

/-- The whole key. -/
def wotsPlaces (p : Spec.Params) (j t l : Nat) : Place → Prop :=
  onTree j t (stepsOf p.len l (fun _ => 0) fun _ => 15) (· = l) (fun l' c => l' = l ∧ c < p.len)
    fun _ _ => False

variable {b : Build} {K LEN M N A D H HP : Nat} {p : Spec.Params} {hs : Hashers (LogExec b) K LEN M N}
  {At : Place → Call → Prop} {pk_seed : List UInt8}

/-- The address of a step in chain `c` of WOTS+ key `l`. -/
theorem to_32_step {j t l e f : Nat} {adrs : Adrs} (h : adrs.bytes32 = Spec.adrs6 j t 0 l e f)
    (c : UInt32) : (adrs.set_chain_address c).bytes32 = Spec.adrs6 j t 0 l c.toNat f := by
  rw [Adrs.to_32_set_chain_address, h, Spec.setChainAddress_adrs6]

theorem to_32_sk {j t l e f : Nat} (hl : l < 2 ^ 32) {adrs : Adrs}
    (h : adrs.bytes32 = Spec.adrs6 j t 0 l e f) :
    ((adrs.set_type_and_clear WOTS_PRF).set_key_pair_address adrs.get_key_pair_address).bytes32 =
      Spec.adrs6 j t 5 l 0 0 := by
  rw [to_32_sk_adrs, h, Spec.wotsSkAdrs_eq _ _ hl]

theorem to_32_pk {j t l e f : Nat} (hl : l < 2 ^ 32) {adrs : Adrs}
    (h : adrs.bytes32 = Spec.adrs6 j t 0 l e f) :
    ((adrs.set_type_and_clear WOTS_PK).set_key_pair_address adrs.get_key_pair_address).bytes32 =
      Spec.adrs6 j t 1 l 0 0 := by
  rw [to_32_pk_adrs (EqC.refl _), h, Spec.wotsPkAdrs_eq _ _ hl]

theorem chain_visits (R : HashersAt At pk_seed hs) (x : Vector UInt8 N) {i s : UInt32}
    (h : i.toNat + s.toNat < 2 ^ 32 - 1) {adrs : Adrs} {j t l c f : Nat}
    (ha : adrs.bytes32 = Spec.adrs6 j t 0 l c f) :
    Visits At (chainPlaces j t l c i.toNat (i.toNat + s.toNat)) (fun _ => True)
      (chain hs x i s pk_seed adrs) := by
  unfold chain
  have hadd : (i + s).toNat = i.toNat + s.toNat := by
    rw [UInt32.toNat_add, Nat.mod_eq_of_lt (by omega)]
  refine Visits.debugAssert ?_ ?_
  · refine Returns.addU32 (by omega) (Returns.pure ?_)
    simp only [decide_eq_true_eq, UInt32.lt_iff_toNat_lt, hadd]
    simpa using h
  refine Visits.addU32 (by omega) ?_
  refine Visits.congr (S := fun p => ∃ s', i.toNat ≤ s' ∧ s' < (i + s).toNat ∧
    p = .wotsHash j t l c s') ?_ ?_
  · refine Visits.last (Visits.forU32 (T := fun s' p => p = .wotsHash j t l c s')
      (fun _ (st : Adrs × Vector UInt8 N) => ∃ f, st.1.bytes32 = Spec.adrs6 j t 0 l c f)
      (by omega) ⟨f, ha⟩ ?_ ?_) fun v _ => Returns.pure trivial
    · rintro s' ⟨a, tmp⟩ h1 h2 ⟨f, hf⟩
      simp only at hf
      have ha : (a.set_hash_address s').bytes32 = (Place.wotsHash j t l c s'.toNat).adrs := by
        rw [Adrs.to_32_set_hash_address, hf]; rfl
      exact Visits.last (R.f _ rfl ha) fun v _ => Returns.pure ⟨s'.toNat, ha⟩
    · rintro i i' p - h1 - rfl h2
      simp at h2; omega
  · intro p
    rw [hadd]
    cases p with
    | wotsHash j' t' l' c' s' =>
      simp only [chainPlaces, onTree, Place.wotsHash.injEq]
      constructor
      · rintro ⟨s, h1, h2, rfl, rfl, rfl, rfl, rfl⟩; tauto
      · rintro ⟨rfl, rfl, rfl, rfl, h1, h2⟩; exact ⟨s', h1, h2, rfl, rfl, rfl, rfl, rfl⟩
    | _ => simp [chainPlaces, onTree]

theorem eq_wotsPrf {j t l c : Nat} (p : Place) : p = .wotsPrf j t l c ↔
    onTree j t (fun _ _ _ => False) (fun _ => False) (fun l' c' => l' = l ∧ c' = c)
      (fun _ _ => False) p := by
  cases p <;> simp [onTree]

theorem eq_wotsPk {j t l : Nat} (p : Place) : p = .wotsPk j t l ↔
    onTree j t (fun _ _ _ => False) (· = l) (fun _ _ => False) (fun _ _ => False) p := by
  cases p <;> simp [onTree]

theorem eq_tree {j t k i : Nat} (p : Place) : p = .tree j t k i ↔
    onTree j t (fun _ _ _ => False) (fun _ => False) (fun _ _ => False)
      (fun k' i' => k' = k ∧ i' = i) p := by
  cases p <;> simp [onTree]

theorem wots_pkgen_visits (hp : Matches p K LEN M N A D H HP) (R : HashersAt At pk_seed hs)
    (sk_seed : List UInt8) {adrs : Adrs} {j t l e f : Nat} (hl : l < 2 ^ 32)
    (ha : adrs.bytes32 = Spec.adrs6 j t 0 l e f) :
    Visits At (wotsPlaces p j t l) (fun _ => True) (wots_pkgen hs sk_seed pk_seed adrs) := by
  unfold wots_pkgen
  have hlen := hp.len
  have hN := hp.N_le
  have hpl := hp.len_eq
  refine Visits.u32TryFromUnwrap (by omega) fun len32 hl32 => ?_
  refine Visits.bind
    (onTree j t (stepsOf LEN l (fun _ => 0) fun _ => 15) (fun _ => False)
      (fun l' c => l' = l ∧ c < LEN) fun _ _ => False)
    (onTree j t (fun _ _ _ => False) (· = l) (fun _ _ => False) fun _ _ => False)
    (P := fun st => ∃ e f, st.2.1.bytes32 = Spec.adrs6 j t 0 l e f) ?_ ?_ ?_ ?_
  · refine Visits.mono (Q := fun st => (∃ e f, st.2.1.bytes32 = Spec.adrs6 j t 0 l e f) ∧
      ∃ e, st.1.bytes32 = Spec.adrs6 j t 5 l e 0) (Visits.congr (Visits.forU32
      (T := fun c => onTree j t (fun l' c' s => l' = l ∧ c' = c ∧ 0 ≤ s ∧ s < 15) (fun _ => False)
        (fun l' c' => l' = l ∧ c' = c) fun _ _ => False)
      (fun _ (st : Adrs × Adrs × Vector (Vector UInt8 N) LEN) =>
        (∃ e f, st.2.1.bytes32 = Spec.adrs6 j t 0 l e f) ∧
        ∃ e, st.1.bytes32 = Spec.adrs6 j t 5 l e 0)
      (by simp) ?_ ?_ ?_) ?_) fun _ h => h.1
    · exact ⟨⟨e, f, ha⟩, 0, to_32_sk hl ha⟩
    · rintro i ⟨ska, a, tmp⟩ - hi ⟨⟨e, f, ha⟩, e', hska⟩
      simp only at ha hska
      dsimp only
      have hska' : (ska.set_chain_address i).bytes32 = (Place.wotsPrf j t l i.toNat).adrs := by
        rw [Adrs.to_32_set_chain_address, hska]; rfl
      refine Visits.bind (· = .wotsPrf j t l i.toNat) (chainPlaces j t l i.toNat 0 15) (R.prf _ rfl hska') ?_ ?_ fun sk _ => ?_
      rotate_left 2
      · refine Visits.subU32 (by decide) ?_
        refine Visits.last (chain_visits R sk (i := 0) (s := W - 1) (by decide) (to_32_step ha i))
          fun c _ => ?_
        refine Returns.asUsize (by omega) ?_
        refine Returns.vset (by omega) ?_
        exact Returns.pure ⟨⟨_, _, to_32_step ha i⟩, _, hska'⟩
      · rintro _ rfl h; exact h.2.2
      · intro p
        rw [eq_wotsPrf]
        refine onTree.union ?_ ?_ ?_ ?_ p <;> simp
    · intro i i' p _ h1 _
      refine onTree.disj ?_ ?_ ?_ ?_ p <;> simp <;> intros <;> omega
    · intro p
      have := onTree.iUnion (j := j) (t := t) (T := fun i => 0 ≤ i ∧ i < LEN)
        (s := fun c l' c' s => l' = l ∧ c' = c ∧ 0 ≤ s ∧ s < 15) (k := fun _ _ => False)
        (r := fun c l' c' => l' = l ∧ c' = c) (n := fun _ _ _ => False) p
      simp only [and_assoc] at this
      rw [hl32]
      refine Iff.trans this (onTree.congr ?_ ?_ ?_ ?_ p) <;> simp [stepsOf] <;> intros <;> tauto
  · refine onTree.disj ?_ ?_ ?_ ?_ <;> simp
  · rw [wotsPlaces, hpl]
    refine onTree.union ?_ ?_ ?_ ?_ <;> simp
  · rintro ⟨ska, a, tmp⟩ ⟨e, f, ha⟩
    dsimp only
    exact Visits.last ((R.t_l _ rfl (to_32_pk hl ha)).congr eq_wotsPk) fun _ _ =>
      Returns.pure trivial

theorem wots_sign_visits (hp : Matches p K LEN M N A D H HP) (R : HashersAt At pk_seed hs)
    {msg : List UInt8} (hmsg : msg.length = N) (sk_seed : List UInt8) {adrs : Adrs} {j t l e f : Nat}
    (hl : l < 2 ^ 32) (ha : adrs.bytes32 = Spec.adrs6 j t 0 l e f) :
    Visits At (wotsSignPlaces p j t l msg) (fun _ => True)
      (wots_sign hs msg sk_seed pk_seed adrs) := by
  unfold wots_sign
  have hlen := hp.len
  have hN := hp.N_le
  have hpl := hp.len_eq
  refine Visits.u32TryFromUnwrap (by omega) fun n32 hn => ?_
  refine Visits.ret (wots_sign_digits_returns hp hmsg hn) fun v hv => ?_
  refine Visits.last (P := fun _ => True) (Visits.mono (Visits.congr (Visits.forEach
    (T := fun c => onTree j t
      (fun l' c' s => l' = l ∧ c' = c ∧ 0 ≤ s ∧ s < (Spec.wotsDigits p msg).getD c 0) (fun _ => False)
      (fun l' c' => l' = l ∧ c' = c) fun _ _ => False)
    (fun i (st : UInt32 × Adrs × Adrs × Vector (Vector UInt8 N) LEN) => st.1.toNat = i ∧
      (∃ e f, st.2.2.1.bytes32 = Spec.adrs6 j t 0 l e f) ∧
      ∃ e, st.2.1.bytes32 = Spec.adrs6 j t 5 l e 0) ?_ ?_ ?_) ?_) fun _ _ => trivial)
    fun _ _ => Returns.pure trivial
  · exact ⟨rfl, ⟨e, f, ha⟩, 0, to_32_sk hl ha⟩
  · rintro i ⟨i32, ska, a, sig⟩ hi ⟨h0, ⟨e, f, ha⟩, e', hska⟩
    simp only at h0 ha hska
    dsimp only
    have hi' : i < LEN := by simpa using hi
    have hd : v.toList[i].toNat = (Spec.wotsDigits p msg).getD i 0 := by
      rw [← digit_of hv hi']; simp
    have hd2 := wotsDigits_lt (p := p) (msg := msg) i
    have hska' : (ska.set_chain_address i32).bytes32 = (Place.wotsPrf j t l i).adrs := by
      rw [Adrs.to_32_set_chain_address, hska, h0]; rfl
    have hc : (a.set_chain_address i32).bytes32 = Spec.adrs6 j t 0 l i f := by
      rw [to_32_step ha, h0]
    refine Visits.bind (· = .wotsPrf j t l i)
      (chainPlaces j t l i 0 ((Spec.wotsDigits p msg).getD i 0)) (R.prf _ rfl hska') ?_ ?_ fun sk _ => ?_
    · rintro _ rfl h; exact h.2.2
    · intro p
      rw [eq_wotsPrf]
      refine onTree.union ?_ ?_ ?_ ?_ p <;> simp
    · have := chain_visits R sk (i := 0) (s := v.toList[i])
        (by rw [hd, show (0 : UInt32).toNat = 0 from rfl]; omega) hc
      rw [hd, show (0 : UInt32).toNat = 0 from rfl, Nat.zero_add] at this
      refine Visits.last this fun c _ => ?_
      refine Returns.asUsize (by omega) ?_
      refine Returns.vset (by omega) ?_
      refine Returns.addU32 (by simp; omega) ?_
      refine Returns.pure ⟨?_, ⟨_, _, hc⟩, _, hska'⟩
      show (i32 + 1).toNat = i + 1
      rw [UInt32.toNat_add, h0, Nat.mod_eq_of_lt (by simp; omega)]; rfl
  · intro i i' p h1 _
    refine onTree.disj ?_ ?_ ?_ ?_ p <;> simp <;> intros <;> omega
  · intro q
    refine Iff.trans (onTree.iUnion (T := fun i => i < v.toList.length) q) ?_
    rw [wotsSignPlaces, hpl]
    refine onTree.congr ?_ ?_ ?_ ?_ q <;> simp [stepsOf] <;> intros <;> tauto

theorem wots_pk_from_sig_visits (hp : Matches p K LEN M N A D H HP) (R : HashersAt At pk_seed hs)
    (sig : WotsSig LEN N) {msg : List UInt8} (hmsg : msg.length = N) {adrs : Adrs} {j t l e f : Nat}
    (hl : l < 2 ^ 32) (ha : adrs.bytes32 = Spec.adrs6 j t 0 l e f) :
    Visits At (wotsVerifyPlaces p j t l msg) (fun _ => True)
      (wots_pk_from_sig hs sig msg pk_seed adrs) := by
  unfold wots_pk_from_sig
  have hlen := hp.len
  have hN := hp.N_le
  have hpl := hp.len_eq
  refine Visits.u32TryFromUnwrap (by omega) fun n32 hn => ?_
  refine Visits.ret (wots_sign_digits_returns hp hmsg hn) fun v hv => ?_
  refine Visits.bind
    (onTree j t (stepsOf LEN l (fun c => (Spec.wotsDigits p msg).getD c 0) fun _ => 15)
      (fun _ => False) (fun _ _ => False) fun _ _ => False)
    (onTree j t (fun _ _ _ => False) (· = l) (fun _ _ => False) fun _ _ => False)
    (P := fun st => ∃ e f, st.1.bytes32 = Spec.adrs6 j t 0 l e f) ?_ ?_ ?_ ?_
  · refine Visits.congr (Visits.forUsize
      (T := fun c => chainPlaces j t l c ((Spec.wotsDigits p msg).getD c 0) 15)
      (fun _ (st : Adrs × Vector (Vector UInt8 N) LEN) =>
        ∃ e f, st.1.bytes32 = Spec.adrs6 j t 0 l e f)
      (by omega) ?_ ?_ ?_) ?_
    · exact ⟨e, f, ha⟩
    · rintro i ⟨a, tmp⟩ - hi ⟨e, f, ha⟩
      simp only at ha
      dsimp only
      have hd := digit_of hv hi
      have hd2 := wotsDigits_lt (p := p) (msg := msg) i
      have e : (W - 1 - v[i]).toNat = 15 - v[i].toNat := by
        rw [UInt32.toNat_sub_of_le _ _ (by rw [UInt32.le_iff_toNat_le, w_sub_one]; omega), w_sub_one]
      have hc : (a.set_chain_address (usizeAsU32 i)).bytes32 = Spec.adrs6 j t 0 l i f := by
        rw [to_32_step ha, usizeAsU32, UInt32.toNat_ofNat', Nat.mod_eq_of_lt (by omega)]
      refine Visits.vget hi ?_
      refine Visits.vget hi ?_
      refine Visits.subU32 (by decide) ?_
      refine Visits.vget hi ?_
      refine Visits.subU32 (by rw [w_sub_one]; omega) ?_
      have := chain_visits R sig.data[i] (i := v[i]) (s := W - 1 - v[i]) (by rw [e]; omega) hc
      rw [e, show v[i].toNat + (15 - v[i].toNat) = 15 by omega, hd] at this
      refine Visits.last this fun c _ => ?_
      exact Returns.vset hi (Returns.pure ⟨_, _, hc⟩)
    · intro i i' p _ h1 _
      refine onTree.disj ?_ ?_ ?_ ?_ p <;> simp <;> intros <;> omega
    · intro q
      refine Iff.trans (b := ∃ i, (0 ≤ i ∧ i < LEN) ∧
        chainPlaces j t l i ((Spec.wotsDigits p msg).getD i 0) 15 q) (by simp only [and_assoc]) (Iff.trans (onTree.iUnion (T := fun i => 0 ≤ i ∧ i < LEN) q) ?_)
      refine onTree.congr ?_ ?_ ?_ ?_ q <;> simp [stepsOf] <;> intros <;> tauto
  · refine onTree.disj ?_ ?_ ?_ ?_ <;> simp
  · rw [wotsVerifyPlaces, hpl]
    refine onTree.union ?_ ?_ ?_ ?_ <;> simp
  · rintro ⟨a, tmp⟩ ⟨e, f, ha⟩
    dsimp only
    exact Visits.last ((R.t_l _ rfl (to_32_pk hl ha)).congr eq_wotsPk) fun _ _ =>
      Returns.pure trivial

end Fips205.Model
