import Verif.Proofs.VisitHt
import Verif.Proofs.VisitFors
import Verif.Proofs.VisitMsg
import Verif.Proofs.Forge
import Verif.Spec.Work

/-! # The places visited by `src/slh.rs` -/

namespace Fips205.Model
open Fips205

theorem _root_.Fips205.EachOnce.congr {At : Place → Call → Prop} {S S' : Place → Prop} {L : List Call}
    (h : EachOnce At S L) (hS : ∀ x, S x ↔ S' x) : EachOnce At S' L := by
  obtain ⟨xs, h1, h2, h3⟩ := h
  exact ⟨xs, h1, fun x => (h2 x).trans (hS x), h3⟩

theorem Visits.eachOnce {b : Build} {α : Type} {At : Place → Call → Prop} {S : Place → Prop}
    {Q : α → Prop} {x : LogExec b α} (h : Visits At S Q x) :
    ∃ L, EachOnce At S L ∧ Makes L Q x := by
  obtain ⟨v, L, xs, h1, h2, h3⟩ := h
  exact ⟨L, ⟨xs, h3⟩, v, h1, h2⟩

/-- The value of a run, known from the run without recording. -/
theorem Makes.value {b : Build} {α : Type} {L : List Call} {Q Q' : α → Prop}
    {x : LogExec b α} (h : Makes L Q x) {y : Exec b α} (e : LogExec.erase.app x = y)
    (hy : Returns y Q') : Makes L (fun v => Q v ∧ Q' v) x := by
  obtain ⟨v, rfl, h2⟩ := h
  subst e
  obtain ⟨w, hw, hq⟩ := Exec.returns_iff.mp hy
  cases (Except.ok.inj hw : v = w)
  exact ⟨v, rfl, h2, hq⟩

/-! ## The sets of places -/

section
variable {p : Spec.Params}

theorem htTree_lt {t : Nat} (ht : t < 2 ^ (p.hp * (p.d - 1))) {j : Nat} (hj : j < p.d) :
    Spec.htTree p t j < 2 ^ (p.hp * (p.d - 1 - j)) := by
  rw [Spec.htTree, Nat.div_lt_iff_lt_mul (Nat.two_pow_pos _), ← Nat.pow_add, ← Nat.mul_add,
    Nat.sub_add_cancel (by omega)]
  exact ht

theorem keygenPlaces_iff (hd : 1 ≤ p.d) (q : Place) : xmssPlaces p (p.d - 1) 0 q ↔ keygenPlaces p q := by
  have h0 : ∀ t, t < 2 ^ (p.hp * (p.d - 1 - (p.d - 1))) ↔ t = 0 := fun t => by simp
  cases q with
  | wotsHash j t l c s =>
    simp only [xmssPlaces, leavesAndNodes, onTree, keygenPlaces, Place.Exists, Place.InLayer]
    constructor
    · rintro ⟨rfl, rfl, h1, h2, h3⟩
      exact ⟨⟨by omega, (h0 _).mpr rfl, h1, h2, h3⟩, rfl⟩
    · rintro ⟨⟨_, h, h1, h2, h3⟩, rfl⟩
      exact ⟨rfl, (h0 _).mp h, h1, h2, h3⟩
  | wotsPk j t l =>
    simp only [xmssPlaces, leavesAndNodes, onTree, keygenPlaces, Place.Exists, Place.InLayer]
    constructor
    · rintro ⟨rfl, rfl, h1⟩
      exact ⟨⟨by omega, (h0 _).mpr rfl, h1⟩, rfl⟩
    · rintro ⟨⟨_, h, h1⟩, rfl⟩
      exact ⟨rfl, (h0 _).mp h, h1⟩
  | wotsPrf j t l c =>
    simp only [xmssPlaces, leavesAndNodes, onTree, keygenPlaces, Place.Exists, Place.InLayer]
    constructor
    · rintro ⟨rfl, rfl, h1, h2⟩
      exact ⟨⟨by omega, (h0 _).mpr rfl, h1, h2⟩, rfl⟩
    · rintro ⟨⟨_, h, h1, h2⟩, rfl⟩
      exact ⟨rfl, (h0 _).mp h, h1, h2⟩
  | tree j t k i =>
    simp only [xmssPlaces, leavesAndNodes, onTree, keygenPlaces, Place.Exists, Place.InLayer]
    constructor
    · rintro ⟨rfl, rfl, h1, h2⟩
      exact ⟨⟨by omega, (h0 _).mpr rfl, h1, h2⟩, rfl⟩
    · rintro ⟨⟨_, h, h1, h2⟩, rfl⟩
      exact ⟨rfl, (h0 _).mp h, h1, h2⟩
  | _ => simp [xmssPlaces, leavesAndNodes, onTree, keygenPlaces, Place.InLayer]

variable {c : Spec.Attempt}

/-- Places of the trees, one by one. -/
theorem verifyPlaces_iff (ht : c.t < 2 ^ (c.p.hp * (c.p.d - 1))) (hl : c.l < 2 ^ c.p.hp) (q : Place) :
    (forsVerifyPlaces c.p c.t c.l c.md q ∨ htVerifyPlaces c.p c.t c.l c.vMsg q) ↔
      verifyPlaces c q := by
  have hll : ∀ j, c.leaf j < 2 ^ c.p.hp := fun j => Spec.htLeaf_lt _ hl _
  cases q with
  | wotsHash j t l i s =>
    simp only [forsVerifyPlaces, onFors, false_or, htVerifyPlaces, xmssVerifyPlaces, onTree, stepsOf,
      verifyPlaces, Place.Exists, Place.Climbed]
    constructor
    · rintro ⟨_, hj, rfl, rfl, rfl, h1, h2, h3⟩
      exact ⟨⟨hj, htTree_lt ht hj, hll _, h1, h3⟩, rfl, rfl, h2⟩
    · rintro ⟨⟨hj, _, _, h1, h3⟩, rfl, rfl, h2⟩
      exact ⟨_, hj, rfl, rfl, rfl, h1, h2, h3⟩
  | wotsPk j t l =>
    simp only [forsVerifyPlaces, onFors, false_or, htVerifyPlaces, xmssVerifyPlaces, onTree, stepsOf,
      verifyPlaces, Place.Exists, Place.Climbed]
    constructor
    · rintro ⟨_, hj, rfl, rfl, rfl⟩
      exact ⟨⟨hj, htTree_lt ht hj, hll _⟩, rfl, rfl⟩
    · rintro ⟨⟨hj, _, _⟩, rfl, rfl⟩
      exact ⟨_, hj, rfl, rfl, rfl⟩
  | wotsPrf j t l i =>
    simp [forsVerifyPlaces, onFors, htVerifyPlaces, xmssVerifyPlaces, onTree, verifyPlaces, Place.Climbed]
  | tree j t k i =>
    simp only [forsVerifyPlaces, onFors, false_or, htVerifyPlaces, xmssVerifyPlaces, onTree, stepsOf,
      verifyPlaces, Place.Exists, Place.Climbed]
    constructor
    · rintro ⟨_, hj, rfl, rfl, h1, h2, rfl⟩
      refine ⟨⟨hj, htTree_lt ht hj, h1, h2, ?_⟩, rfl, rfl⟩
      rw [Nat.div_lt_iff_lt_mul (Nat.two_pow_pos _), ← Nat.pow_add, Nat.sub_add_cancel h2]
      exact hll _
    · rintro ⟨⟨hj, _, h1, h2, _⟩, rfl, rfl⟩
      exact ⟨_, hj, rfl, rfl, h1, h2, rfl⟩
  | forsTree t l k x =>
    simp only [forsVerifyPlaces, onFors, htVerifyPlaces, xmssVerifyPlaces, onTree, and_false, exists_false,
      or_false, verifyPlaces, Place.Exists, Place.Climbed]
    constructor
    · rintro ⟨rfl, rfl, hk, i, hi, rfl⟩
      refine ⟨⟨ht, hl, hk, ?_⟩, rfl, rfl, i, hi, rfl⟩
      rw [← Nat.div_lt_iff_lt_mul (Nat.two_pow_pos _), forsLeaf_div hk]
      exact hi
    · rintro ⟨⟨_, _, hk, _⟩, rfl, rfl, i, hi, rfl⟩
      exact ⟨rfl, rfl, hk, i, hi, rfl⟩
  | forsRoots t l =>
    simp only [forsVerifyPlaces, onFors, htVerifyPlaces, xmssVerifyPlaces, onTree, and_false, exists_false,
      or_false, verifyPlaces, Place.Exists, Place.Climbed]
    constructor
    · rintro ⟨rfl, rfl, _⟩
      exact ⟨⟨ht, hl⟩, rfl, rfl⟩
    · rintro ⟨_, rfl, rfl⟩
      exact ⟨rfl, rfl, trivial⟩
  | forsPrf t l i =>
    simp [forsVerifyPlaces, onFors, htVerifyPlaces, xmssVerifyPlaces, onTree, verifyPlaces, Place.Climbed]

theorem signPlaces_iff (hd : 1 ≤ c.p.d) (ht : c.t < 2 ^ (c.p.hp * (c.p.d - 1)))
    (hl : c.l < 2 ^ c.p.hp) (q : Place) :
    (forsPlaces c.p c.t c.l q ∨ htSignPlaces c.p c.t c.l (c.hMsg (c.p.d - 1)) q) ↔ signPlaces c q := by
  have hll : ∀ j, c.leaf j < 2 ^ c.p.hp := fun j => Spec.htLeaf_lt _ hl _
  cases q with
  | wotsHash j t l i s =>
    simp only [forsPlaces, onFors, false_or, htSignPlaces, xmssPlaces, leavesAndNodes, xmssVerifyPlaces,
      onTree, stepsOf, signPlaces, Place.Exists, Place.OnPath, Place.InLayer, Place.Climbed]
    constructor
    · rintro ⟨⟨_, hj, rfl, rfl, h1, h2, h3⟩, hn⟩
      refine ⟨⟨hj, htTree_lt ht hj, h1, h2, h3⟩, rfl, ?_⟩
      rintro ⟨rfl, _, rfl, h4⟩
      exact hn ⟨rfl, rfl, rfl, h2, h4, h3⟩
    · rintro ⟨⟨hj, _, h1, h2, h3⟩, rfl, hn⟩
      refine ⟨⟨_, hj, rfl, rfl, h1, h2, h3⟩, ?_⟩
      rintro ⟨rfl, _, rfl, _, h4, _⟩
      exact hn ⟨rfl, rfl, rfl, h4⟩
  | wotsPk j t l =>
    simp only [forsPlaces, onFors, false_or, htSignPlaces, xmssPlaces, leavesAndNodes, xmssVerifyPlaces,
      onTree, stepsOf, signPlaces, Place.Exists, Place.OnPath, Place.InLayer, Place.Climbed]
    constructor
    · rintro ⟨⟨_, hj, rfl, rfl, h1⟩, hn⟩
      refine ⟨⟨hj, htTree_lt ht hj, h1⟩, rfl, ?_⟩
      rintro ⟨rfl, _, rfl⟩
      exact hn ⟨rfl, rfl, rfl⟩
    · rintro ⟨⟨hj, _, h1⟩, rfl, hn⟩
      refine ⟨⟨_, hj, rfl, rfl, h1⟩, ?_⟩
      rintro ⟨rfl, _, rfl⟩
      exact hn ⟨rfl, rfl, rfl⟩
  | wotsPrf j t l i =>
    simp only [forsPlaces, onFors, false_or, htSignPlaces, xmssPlaces, leavesAndNodes, xmssVerifyPlaces,
      onTree, stepsOf, signPlaces, Place.Exists, Place.OnPath, Place.InLayer, Place.Climbed, and_false,
      not_false_eq_true, and_true]
    constructor
    · rintro ⟨_, hj, rfl, rfl, h1, h2⟩
      exact ⟨⟨hj, htTree_lt ht hj, h1, h2⟩, rfl⟩
    · rintro ⟨⟨hj, _, h1, h2⟩, rfl⟩
      exact ⟨_, hj, rfl, rfl, h1, h2⟩
  | tree j t k i =>
    simp only [forsPlaces, onFors, false_or, htSignPlaces, xmssPlaces, leavesAndNodes, xmssVerifyPlaces,
      onTree, stepsOf, signPlaces, Place.Exists, Place.OnPath, Place.InLayer, Place.Climbed]
    constructor
    · rintro ⟨⟨_, hj, rfl, rfl, h1, h2, h3⟩, hn⟩
      refine ⟨⟨hj, htTree_lt ht hj, h1, h2, h3⟩, rfl, ?_⟩
      rintro ⟨rfl, _, rfl⟩
      exact hn ⟨rfl, rfl, h1, h2, rfl⟩
    · rintro ⟨⟨hj, _, h1, h2, h3⟩, rfl, hn⟩
      refine ⟨⟨_, hj, rfl, rfl, h1, h2, h3⟩, ?_⟩
      rintro ⟨rfl, _, _, _, rfl⟩
      exact hn ⟨rfl, rfl, rfl⟩
  | forsTree t l k x =>
    simp only [forsPlaces, onFors, htSignPlaces, xmssPlaces, leavesAndNodes, onTree, and_false, exists_false,
      false_and, or_false, signPlaces, Place.Exists, Place.OnPath, Place.InLayer, not_false_eq_true, and_true]
    constructor
    · rintro ⟨rfl, rfl, h⟩
      exact ⟨⟨ht, hl, h⟩, rfl, rfl⟩
    · rintro ⟨⟨_, _, h⟩, rfl, rfl⟩
      exact ⟨rfl, rfl, h⟩
  | forsRoots t l =>
    simp only [forsPlaces, onFors, htSignPlaces, xmssPlaces, leavesAndNodes, onTree, and_false, exists_false,
      false_and, or_false, signPlaces, Place.Exists, Place.OnPath, Place.InLayer, not_false_eq_true, and_true]
    constructor
    · rintro ⟨rfl, rfl⟩
      exact ⟨⟨ht, hl⟩, rfl, rfl⟩
    · rintro ⟨_, rfl, rfl⟩
      exact ⟨rfl, rfl⟩
  | forsPrf t l i =>
    simp only [forsPlaces, onFors, htSignPlaces, xmssPlaces, leavesAndNodes, onTree, and_false, exists_false,
      false_and, or_false, signPlaces, Place.Exists, Place.OnPath, Place.InLayer, not_false_eq_true, and_true]
    constructor
    · rintro ⟨rfl, rfl, h⟩
      exact ⟨⟨ht, hl, h⟩, rfl, rfl⟩
    · rintro ⟨⟨_, _, h⟩, rfl, rfl⟩
      exact ⟨rfl, rfl, h⟩

end

variable {b : Build} {K LEN M N A D H HP : Nat} {p : Spec.Params} {hs : Hashers (LogExec b) K LEN M N}
  {At : Place → Call → Prop} {hf : Spec.HashFns}
  {pm : List UInt8 → List UInt8 → List UInt8 → List Call}
  {hm : List UInt8 → List UInt8 → List UInt8 → List UInt8 → List Call}

theorem slh_keygen_internal_visits (hp : Matches p K LEN M N A D H HP)
    (R' : HashersRefine (LogExec.erase.hashers hs) hf) (sk_seed sk_prf pk_seed : Vector UInt8 N)
    (R : HashersAt At pk_seed.toList hs) :
    Visits At (keygenPlaces p) (fun v => ∃ root : Vector UInt8 N,
        root.toList = Spec.pkRoot p hf sk_seed.toList pk_seed.toList ∧
        v = (⟨sk_seed, sk_prf, pk_seed, root⟩, ⟨pk_seed, root⟩))
      (slh_keygen_internal D HP hs sk_seed sk_prf pk_seed) := by
  refine Visits.mono (Visits.value (Q := fun _ => True) ?_ (LogExec.erase.map_slh_keygen_internal hs D HP
    sk_seed sk_prf pk_seed) (slh_keygen_internal_returns hp R' sk_seed sk_prf pk_seed)) fun _ h => h.2
  unfold slh_keygen_internal
  have hHP := hp.HP_le
  have hD := hp.D_le
  have hD2 := hp.D_ge
  have hpd := hp.d
  refine Visits.u32TryFromUnwrap (by omega) fun d32 hd => ?_
  refine Visits.u32TryFromUnwrap (by omega) fun hp32 hh => ?_
  refine Visits.subU32 (by rw [hd]; simp; omega) ?_
  have hd1 : (d32 - 1).toNat = D - 1 := by
    rw [UInt32.toNat_sub_of_le _ _ (by rw [UInt32.le_iff_toNat_le, hd]; simp; omega), hd]; rfl
  have h2 : 2 ^ HP ≤ 2 ^ 31 := Nat.pow_le_pow_right (by decide) (by omega)
  have ha : (Adrs.default.set_layer_address (d32 - 1)).bytes32 = Spec.adrs6 (p.d - 1) 0 0 0 0 0 := by
    rw [Adrs.to_32_set_layer_address, Adrs.to_32_default, hd1, hpd]
    rfl
  refine Visits.last ((xmss_node_visits hp R _ ha HP 0 hp32 hh (by simp; omega)).congr fun q => ?_)
    fun _ _ => Returns.pure trivial
  rw [← keygenPlaces_iff (by omega)]
  refine onTree.congr ?_ ?_ ?_ ?_ q <;>
    simp [hp.hp, Nat.div_eq_zero_iff_lt, Nat.two_pow_pos]

/-- The fields of the attempt a signature makes only depend on its randomizer. -/
theorem attempt_signInternal {mlen : Nat} (V : Spec.Valid hf p.n mlen) (m sk_seed sk_prf pk_seed pk_root opt : List UInt8) :
    Spec.slice (Spec.signInternal p hf m sk_seed sk_prf pk_seed pk_root opt) 0 p.n =
      hf.PRFmsg sk_prf opt m := by
  rw [Spec.signInternal, Spec.signWithR]
  rw [List.append_assoc]
  have := Spec.slice_zero_append (hf.PRFmsg sk_prf opt m)
  rw [V.PRFmsg] at this
  exact this _

theorem slh_sign_internal_makes (hp : Matches p K LEN M N A D H HP) (W : p.WF) {mlen : Nat} (V : Spec.Valid hf p.n mlen)
    (R' : HashersRefine (LogExec.erase.hashers hs) hf) (RM : HashersMsg pm hm hs)
    {msg : List (List UInt8)} (hmsg : msg.length ≤ 5) (sk : SlhPrivateKey N)
    (R : HashersAt At sk.pk_seed.toList hs) (opt_rand : Vector UInt8 N) {SIG : List UInt8}
    (hSIG : Spec.signInternal p hf msg.flatten sk.sk_seed.toList sk.sk_prf.toList sk.pk_seed.toList
      sk.pk_root.toList opt_rand.toList = SIG) :
    ∃ L, EachOnce At (signPlaces (Spec.attempt p hf msg.flatten SIG sk.sk_seed.toList sk.pk_seed.toList
        sk.pk_root.toList)) L ∧
      Makes (pm sk.sk_prf.toList opt_rand.toList msg.flatten ++
          (hm (Spec.slice SIG 0 p.n) sk.pk_seed.toList sk.pk_root.toList msg.flatten ++ L))
        (fun r => ∃ sig, r = .ok sig ∧ sig.bytes = SIG)
        (slh_sign_internal A D H HP hs msg sk opt_rand) := by
  have hR : Spec.slice SIG 0 p.n = hf.PRFmsg sk.sk_prf.toList opt_rand.toList msg.flatten := by
    rw [← hSIG, attempt_signInternal V]
  have hval := slh_sign_internal_returns hp R' hmsg sk opt_rand
  rw [hSIG] at hval
  suffices h : ∃ L, EachOnce At (signPlaces (Spec.attempt p hf msg.flatten SIG sk.sk_seed.toList
      sk.pk_seed.toList sk.pk_root.toList)) L ∧
      Makes (pm sk.sk_prf.toList opt_rand.toList msg.flatten ++
          (hm (Spec.slice SIG 0 p.n) sk.pk_seed.toList sk.pk_root.toList msg.flatten ++ L))
        (fun _ => True) (slh_sign_internal A D H HP hs msg sk opt_rand) by
    obtain ⟨L, h1, h2⟩ := h
    obtain ⟨v, h3, _, h4⟩ := h2.value (LogExec.erase.map_slh_sign_internal hs A D H HP msg sk opt_rand) hval
    exact ⟨L, h1, v, h3, h4⟩
  unfold slh_sign_internal
  have hDl := hp.D_le
  have hN := hp.N_le
  have hHeq := hp.H_eq
  have hDHP : D * HP ≤ 255 * 31 := Nat.mul_le_mul hp.D_le hp.HP_le
  have hHP := hp.hp
  rw [u32TryFromUnwrap_ok (by omega), pure_bind, u32TryFromUnwrap_ok (by omega), pure_bind]
  have hd : (UInt32.ofNat D).toNat = D := by rw [UInt32.toNat_ofNat', Nat.mod_eq_of_lt (by omega)]
  have hh : (UInt32.ofNat H).toNat = H := by rw [UInt32.toNat_ofNat', Nat.mod_eq_of_lt (by omega)]
  obtain ⟨r, e1, _, hr⟩ := (RM.prf_msg sk.sk_prf.toList opt_rand.toList msg (by simp; omega) hmsg).value rfl
    (R'.prf_msg _ _ _ (by simp; omega) hmsg)
  obtain ⟨digest, e2, _, hdig⟩ := (RM.h_msg r.toList sk.pk_seed.toList sk.pk_root.toList msg hmsg).value rfl
    (R'.h_msg _ _ _ _ hmsg)
  rw [hr] at hdig
  obtain ⟨⟨md, itree, ileaf⟩, e3, h1, h2, h3, h4, h5⟩ := LogExec.returns_iff.mp
    (slh_split_returns (m := LogExec b) hp hd hh digest)
  simp only at h1 h2 h3 h4 h5
  have h2HP : 2 ^ HP ≤ 2 ^ 31 := Nat.pow_le_pow_right (by decide) hp.HP_le
  have hl : ileaf.toUInt32.toNat = ileaf.toNat := by
    rw [UInt64.toNat_toUInt32, Nat.mod_eq_of_lt (by omega)]
  have hadr := to_32_fors_adrs itree ileaf.toUInt32
  rw [hl] at hadr
  have hc : ∃ c : Spec.Attempt, c = Spec.attempt p hf msg.flatten SIG sk.sk_seed.toList
      sk.pk_seed.toList sk.pk_root.toList ∧ c.p = p ∧ c.hf = hf ∧ c.SKseed = sk.sk_seed.toList ∧
      c.PKseed = sk.pk_seed.toList ∧ c.md = md ∧ c.t = itree.toNat ∧ c.l = ileaf.toNat :=
    ⟨_, rfl, rfl, rfl, rfl, rfl, by rw [h1, hdig, ← hR]; rfl, by rw [h3, hdig, ← hR]; rfl,
      by rw [h4, hdig, ← hR]; rfl⟩
  obtain ⟨c, hc0, rfl, rfl, hc1, hc2, rfl, hc3, hc4⟩ := hc
  rw [← hc0]
  clear hc0
  have ht_lt : c.t < 2 ^ (c.p.hp * (c.p.d - 1)) := by
    have := Spec.digestTree_lt (p := c.p) digest.toList
    rw [W.hd, W.h_eq, ← Nat.sub_one_mul, Nat.mul_comm, ← h3] at this
    rwa [hc3]
  have hl_lt : c.l < 2 ^ c.p.hp := by rw [hc4, hHP]; exact h5
  have key : Visits At (signPlaces c) (fun _ => True) (do
      match ← fors_sign A hs c.md sk.sk_seed.toList (((Adrs.default.set_tree_address itree).set_type_and_clear
          FORS_TREE).set_key_pair_address ileaf.toUInt32) sk.pk_seed.toList with
      | .error e => (pure (.error e) : LogExec b (Except String (SlhDsaSig A D HP K LEN N)))
      | .ok fors_sig => do
        let pk_fors ← fors_pk_from_sig hs fors_sig c.md sk.pk_seed.toList
          (((Adrs.default.set_tree_address itree).set_type_and_clear
          FORS_TREE).set_key_pair_address ileaf.toUInt32)
        match ← ht_sign D HP hs pk_fors.key.toList sk.sk_seed.toList sk.pk_seed.toList itree
            ileaf.toUInt32 with
        | .error e => pure (.error e)
        | .ok ht_sig => pure (.ok { randomness := r, fors_sig, ht_sig })) := by
    generalize ((Adrs.default.set_tree_address itree).set_type_and_clear FORS_TREE).set_key_pair_address
        ileaf.toUInt32 = adrs at *
    have hadr' := hadr
    rw [Spec.forsAdrs_eq] at hadr'
    refine Visits.congr ?_ (signPlaces_iff W.d_pos ht_lt hl_lt)
    refine Visits.bind (forsSignPlaces c.p c.t c.l c.md) (fun q => forsVerifyPlaces c.p c.t c.l c.md q ∨
        htSignPlaces c.p c.t c.l (c.hMsg (c.p.d - 1)) q)
      (Visits.value (hc3 ▸ hc4 ▸ fors_sign_visits hp R h2 sk.sk_seed.toList (by omega) hadr')
        (LogExec.erase.map_fors_sign hs A c.md sk.sk_seed.toList adrs sk.pk_seed.toList)
        (fors_sign_returns hp R' h2 _ _ _)) ?_ ?_ ?_
    · rintro q h6 (h7 | ⟨⟨j, hj, h7⟩, _⟩)
      · exact fors_sign_verify_disj q h6 h7
      · cases q <;> first | exact h6 | exact h7
    · intro q
      rw [fors_sign_verify_union (md := c.md), or_assoc]
    rintro _ ⟨⟨fs, rfl⟩, fs', hfs, hfsb⟩
    cases Except.ok.inj hfs
    dsimp only
    refine Visits.bind (forsVerifyPlaces c.p c.t c.l c.md)
      (htSignPlaces c.p c.t c.l (c.hMsg (c.p.d - 1)))
      (Visits.value (hc3 ▸ hc4 ▸ fors_pk_from_sig_visits hp R fs h2 (by omega) hadr')
        (LogExec.erase.map_fors_pk_from_sig hs fs c.md sk.pk_seed.toList adrs)
        (fors_pk_from_sig_returns hp R' fs h2 _ _)) ?_ (fun _ => Iff.rfl) ?_
    · rintro q h6 ⟨⟨j, hj, h7⟩, _⟩
      cases q <;> first | exact h6 | exact h7
    rintro pkf ⟨_, hpkf⟩
    have hpk : pkf.key.toList = c.hForsPk := by
      rw [hpkf, hfsb, hadr, Spec.fors_correct W V, Spec.Attempt.hForsPk, Spec.Attempt.hForsPk]
      simp only [Spec.Attempt.fRootsAdrs, Spec.Attempt.fAdrs, Spec.Attempt.hFors, hc1, hc2, hc3, hc4]
    have hv := ht_sign_visits hp R R' (msg := pkf.key.toList) (by simp) sk.sk_seed.toList itree
      (idx_leaf := ileaf.toUInt32) (by rw [hl]; exact h5)
    rw [hl, ← hc3, ← hc4, hpk, ← hc1, ← hc2, Spec.signMsg_honest W V c rfl rfl hl_lt] at hv
    rw [hpk, ← hc1, ← hc2]
    refine Visits.last hv ?_
    rintro _ ⟨hts, rfl, _⟩
    exact Returns.pure trivial
  obtain ⟨L, hL, hk⟩ := key.eachOnce
  refine ⟨L, hL, ?_⟩
  refine Makes.bind (P := (· = r)) ⟨r, e1, rfl⟩ ?_
  rintro _ rfl
  rw [hR, ← hr]
  refine Makes.bind (P := (· = digest)) ⟨digest, e2, rfl⟩ ?_
  rintro _ rfl
  rw [e3, pure_bind]
  exact hk

theorem slh_verify_internal_makes (hp : Matches p K LEN M N A D H HP) (W : p.WF)
    (R' : HashersRefine (LogExec.erase.hashers hs) hf) (RM : HashersMsg pm hm hs)
    {msg : List (List UInt8)} (hmsg : msg.length ≤ 5) (sig : SlhDsaSig A D HP K LEN N)
    (pk : SlhPublicKey N) (R : HashersAt At pk.pk_seed.toList hs) (sk_seed : List UInt8) :
    ∃ L, EachOnce At (verifyPlaces (Spec.attempt p hf msg.flatten sig.bytes sk_seed pk.pk_seed.toList
        pk.pk_root.toList)) L ∧
      Makes (hm (Spec.slice sig.bytes 0 p.n) pk.pk_seed.toList pk.pk_root.toList msg.flatten ++ L)
        (· = Spec.verifyInternal p hf msg.flatten sig.bytes pk.pk_seed.toList pk.pk_root.toList)
        (slh_verify_internal H hs msg sig pk) := by
  have hval := slh_verify_internal_returns hp R' hmsg sig pk
  suffices h : ∃ L, EachOnce At (verifyPlaces (Spec.attempt p hf msg.flatten sig.bytes sk_seed
      pk.pk_seed.toList pk.pk_root.toList)) L ∧
      Makes (hm (Spec.slice sig.bytes 0 p.n) pk.pk_seed.toList pk.pk_root.toList msg.flatten ++ L)
        (fun _ => True) (slh_verify_internal H hs msg sig pk) by
    obtain ⟨L, h1, h2⟩ := h
    obtain ⟨v, h3, _, h4⟩ := h2.value (LogExec.erase.map_slh_verify_internal hs H msg sig pk) hval
    exact ⟨L, h1, v, h3, h4⟩
  unfold slh_verify_internal
  have hDl := hp.D_le
  have hN := hp.N_le
  have hHeq := hp.H_eq
  have hDHP : D * HP ≤ 255 * 31 := Nat.mul_le_mul hp.D_le hp.HP_le
  have hHP := hp.hp
  have hlen : sig.bytes.length = p.sigLen := by
    rw [SlhDsaSig.bytes_length, Spec.Params.sigLen, hp.k, hp.a, hp.h, hp.d, hp.len_eq, hp.n, hHeq]
    ring
  have hr1 : sig.randomness.toList.length = p.n := by simp [hp.n]
  have hr2 : (sig.randomness.toList ++ sig.fors_sig.bytes).length = (1 + p.k * (1 + p.a)) * p.n := by
    rw [List.length_append, ForsSig.bytes_length, hr1, hp.k, hp.a, hp.n]; ring
  have hsr : Spec.slice sig.bytes 0 p.n = sig.randomness.toList := by
    have := Spec.slice_zero_append sig.randomness.toList (sig.fors_sig.bytes ++ sig.ht_sig.bytes)
    rwa [hr1, ← List.append_assoc] at this
  have hsf : Spec.slice sig.bytes p.n ((1 + p.k * (1 + p.a)) * p.n) = sig.fors_sig.bytes := by
    rw [SlhDsaSig.bytes, Spec.slice_append_left _ (by rw [hr2])]
    have := Spec.slice_append_right sig.randomness.toList sig.fors_sig.bytes 0
      sig.fors_sig.bytes.length
    rw [Spec.slice_all, ← List.length_append, hr2, hr1, Nat.add_zero] at this
    exact this
  have hsh : Spec.slice sig.bytes ((1 + p.k * (1 + p.a)) * p.n)
      ((1 + p.k * (1 + p.a) + p.h + p.d * p.len) * p.n) = sig.ht_sig.bytes := by
    have := Spec.slice_append_right (sig.randomness.toList ++ sig.fors_sig.bytes)
      sig.ht_sig.bytes 0 sig.ht_sig.bytes.length
    rw [Spec.slice_all, ← List.length_append, Nat.add_zero, hr2] at this
    rw [← this]
    show Spec.slice sig.bytes _ _ = Spec.slice sig.bytes _ sig.bytes.length
    rw [hlen, Spec.Params.sigLen]
  rw [u32TryFromUnwrap_ok (by omega), pure_bind, u32TryFromUnwrap_ok (by omega), pure_bind]
  have hd : (UInt32.ofNat D).toNat = D := by rw [UInt32.toNat_ofNat', Nat.mod_eq_of_lt (by omega)]
  have hh : (UInt32.ofNat H).toNat = H := by rw [UInt32.toNat_ofNat', Nat.mod_eq_of_lt (by omega)]
  obtain ⟨digest, e2, _, hdig⟩ := (RM.h_msg sig.randomness.toList pk.pk_seed.toList pk.pk_root.toList msg
    hmsg).value rfl (R'.h_msg _ _ _ _ hmsg)
  obtain ⟨⟨md, itree, ileaf⟩, e3, h1, h2, h3, h4, h5⟩ := LogExec.returns_iff.mp
    (slh_split_returns (m := LogExec b) hp hd hh digest)
  simp only at h1 h2 h3 h4 h5
  have h2HP : 2 ^ HP ≤ 2 ^ 31 := Nat.pow_le_pow_right (by decide) hp.HP_le
  have hl : ileaf.toUInt32.toNat = ileaf.toNat := by
    rw [UInt64.toNat_toUInt32, Nat.mod_eq_of_lt (by omega)]
  have hadr := to_32_fors_adrs itree ileaf.toUInt32
  rw [hl] at hadr
  have hc : ∃ c : Spec.Attempt, c = Spec.attempt p hf msg.flatten sig.bytes sk_seed
      pk.pk_seed.toList pk.pk_root.toList ∧ c.p = p ∧ c.hf = hf ∧
      c.PKseed = pk.pk_seed.toList ∧ c.md = md ∧ c.t = itree.toNat ∧ c.l = ileaf.toNat ∧
      c.SIGfors = sig.fors_sig.bytes ∧ c.SIGht = sig.ht_sig.bytes :=
    ⟨_, rfl, rfl, rfl, rfl, by rw [h1, hdig, ← hsr]; rfl, by rw [h3, hdig, ← hsr]; rfl,
      by rw [h4, hdig, ← hsr]; rfl, hsf, hsh⟩
  obtain ⟨c, hc0, rfl, rfl, hc2, rfl, hc3, hc4, hc5, hc6⟩ := hc
  rw [← hc0]
  clear hc0
  have ht_lt : c.t < 2 ^ (c.p.hp * (c.p.d - 1)) := by
    have := Spec.digestTree_lt (p := c.p) digest.toList
    rw [W.hd, W.h_eq, ← Nat.sub_one_mul, Nat.mul_comm, ← h3] at this
    rwa [hc3]
  have hl_lt : c.l < 2 ^ c.p.hp := by rw [hc4, hHP]; exact h5
  have key : Visits At (verifyPlaces c) (fun _ => True) (do
      let pk_fors ← fors_pk_from_sig hs sig.fors_sig c.md pk.pk_seed.toList
        (((Adrs.default.set_tree_address itree).set_type_and_clear
          FORS_TREE).set_key_pair_address ileaf.toUInt32)
      ht_verify hs pk_fors.key.toList sig.ht_sig pk.pk_seed.toList itree ileaf.toUInt32 pk.pk_root) := by
    generalize ((Adrs.default.set_tree_address itree).set_type_and_clear FORS_TREE).set_key_pair_address
        ileaf.toUInt32 = adrs at *
    have hadr' := hadr
    rw [Spec.forsAdrs_eq] at hadr'
    refine Visits.congr ?_ (verifyPlaces_iff ht_lt hl_lt)
    refine Visits.bind (forsVerifyPlaces c.p c.t c.l c.md)
      (htVerifyPlaces c.p c.t c.l c.vMsg)
      (Visits.value (hc3 ▸ hc4 ▸ fors_pk_from_sig_visits hp R sig.fors_sig h2 (by omega) hadr')
        (LogExec.erase.map_fors_pk_from_sig hs sig.fors_sig c.md pk.pk_seed.toList adrs)
        (fors_pk_from_sig_returns hp R' sig.fors_sig h2 _ _)) ?_ (fun _ => Iff.rfl) ?_
    · rintro q h6 ⟨j, hj, h7⟩
      cases q <;> first | exact h6 | exact h7
    rintro pkf ⟨_, hpkf⟩
    have hv := ht_verify_visits hp R R' (msg := pkf.key.toList) (by simp) sig.ht_sig itree
      ileaf.toUInt32 pk.pk_root
    refine hv.congr fun q => ?_
    rw [hl, ← hc3, ← hc4, hpkf, hadr, ← hc5, ← hc6, ← hc2]
    simp only [htVerifyPlaces, Spec.Attempt.vMsg, Spec.Attempt.fAdrs, hc3, hc4]
  obtain ⟨L, hL, hk⟩ := key.eachOnce
  refine ⟨L, hL, ?_⟩
  rw [hsr]
  refine Makes.bind (P := (· = digest)) ⟨digest, e2, rfl⟩ ?_
  rintro _ rfl
  rw [slh_verify_split_eq, e3, pure_bind]
  dsimp only
  rw [u32TryFromU64, if_pos (by omega)]
  exact hk

end Fips205.Model
