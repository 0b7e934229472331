import Mathlib.Data.List.GetD
import Verif.Proofs.Hashers

/-! # Refinement of `src/wots.rs` -/

namespace Fips205.Model
open Fips205

/-- The const generics of the code are the parameters `p`, and these are small enough for the machine
arithmetic of the code.  (Proved for the twelve parameter sets in `Verif.Proofs.Lib`.) -/
structure Matches (p : Spec.Params) (K LEN M N A D H HP : Nat) : Prop where
  n : p.n = N
  h : p.h = H
  d : p.d = D
  hp : p.hp = HP
  a : p.a = A
  k : p.k = K
  m : p.m = M
  len : LEN = 2 * N + 3
  N_ge : 16 ≤ N
  N_le : N ≤ 32
  H_eq : H = D * HP
  D_ge : 2 ≤ D
  D_le : D ≤ 255
  HP_ge : 1 ≤ HP
  HP_le : HP ≤ 31
  top_ge : 1 ≤ H - HP
  top_le : H - HP ≤ 64
  A_ge : 1 ≤ A
  A_lt : A < 16
  K_ge : 1 ≤ K
  K_le : K ≤ 255
  M_eq : M = (K * A + 7) / 8 + (H - HP + 7) / 8 + (H + 8 * D - 1) / (8 * D)
  sig : (1 + K * (1 + A) + H + D * LEN) * N < 2 ^ 16

set_option linter.unusedSectionVars false

variable {m : Type → Type} [Rust m] [LawfulMonad m] {K LEN M N A D H HP : Nat}
  {p : Spec.Params} {hs : Hashers m K LEN M N} {hf : Spec.HashFns}


theorem absorbAll_eq {X Y : Nat} {ml : Vector (Vector UInt8 Y) X} {f : Nat → List UInt8}
    (h : ∀ k (hk : k < X), ml[k].toList = f k) : absorbAll ml = Spec.concat X f := by
  rw [absorbAll, Spec.concat, List.flatMap_def]
  congr 1
  apply List.ext_getElem
  · simp
  · intro i h1 h2
    simp at h1 h2
    simp [h i h2]

theorem slice_absorbAll {X Y : Nat} (ml : Vector (Vector UInt8 Y) X) {k : Nat} (hk : k < X) :
    Spec.slice (absorbAll ml) (k * Y) ((k + 1) * Y) = ml[k].toList := by
  rw [absorbAll_eq (f := fun k => if h : k < X then ml[k].toList else []) (fun k hk => by simp [hk]),
    Spec.slice_concat (n := Y) _ hk]
  · simp [hk]
  · intro i hi; simp [hi]

theorem absorbAll_length {X Y : Nat} (ml : Vector (Vector UInt8 Y) X) :
    (absorbAll ml).length = X * Y := by
  rw [absorbAll_eq (f := fun k => if h : k < X then ml[k].toList else []) (fun k hk => by simp [hk])]
  exact Spec.concat_length fun i hi => by simp [hi]

theorem absorbAll_inj {X Y : Nat} {a b : Vector (Vector UInt8 Y) X} (h : absorbAll a = absorbAll b) :
    a = b := by
  apply Vector.ext
  intro i hi
  have h1 := slice_absorbAll a hi
  have h2 := slice_absorbAll b hi
  rw [h] at h1
  exact Vector.toList_inj.mp (h1.symm.trans h2)

/-! ## `chain` -/

theorem chain_returns (R : HashersRefine hs hf) (x : Vector UInt8 N) {i s : UInt32}
    (h : i.toNat + s.toNat < 2 ^ 32 - 1) (pk_seed : List UInt8) (adrs : Adrs) :
    Returns (chain hs x i s pk_seed adrs)
      (fun v => v.toList = Spec.chain hf x.toList i.toNat s.toNat pk_seed adrs.bytes32) := by
  unfold chain
  have hadd : (i + s).toNat = i.toNat + s.toNat := by
    rw [UInt32.toNat_add, Nat.mod_eq_of_lt (by omega)]
  refine Returns.debugAssert ?_ ?_
  · refine Returns.addU32 (by omega) (Returns.pure ?_)
    simp only [decide_eq_true_eq, UInt32.lt_iff_toNat_lt, hadd]
    simpa using h
  refine Returns.addU32 (by omega) ?_
  refine Returns.bind (Returns.forU32 (fun j (st : Adrs × Vector UInt8 N) =>
    (∀ y, st.1.set_hash_address y = adrs.set_hash_address y) ∧
    st.2.toList = Spec.chain hf x.toList i.toNat (j - i.toNat) pk_seed adrs.bytes32)
    (by omega) ⟨fun _ => rfl, by simp [Spec.chain]⟩ ?_) ?_
  · rintro j ⟨a, t⟩ h1 h2 ⟨h3, h4⟩
    simp only at h3 h4
    dsimp only
    refine (R.f pk_seed _ _).bind fun v hv => Returns.pure ⟨?_, ?_⟩
    · intro y; exact h3 y
    · dsimp only
      rw [hv, h3, Adrs.to_32_set_hash_address, h4,
        show j.toNat + 1 - i.toNat = (j.toNat - i.toNat) + 1 by omega, Spec.chain,
        show i.toNat + (j.toNat - i.toNat) = j.toNat by omega]
  · rintro ⟨a, t⟩ ⟨-, h4⟩
    refine Returns.pure ?_
    simp only at h4
    rw [h4, hadd, show i.toNat + s.toNat - i.toNat = s.toNat by omega]

/-! ## `wots_pkgen` -/

/-- Equal up to the chain address. -/
def EqC (a b : Adrs) : Prop := ∀ y, a.set_chain_address y = b.set_chain_address y

theorem EqC.refl (a : Adrs) : EqC a a := fun _ => rfl

theorem EqC.step {a b : Adrs} (h : EqC a b) (i : UInt32) : EqC (a.set_chain_address i) b :=
  fun y => h y

theorem EqC.type {a b : Adrs} (h : EqC a b) (t : UInt32) :
    a.set_type_and_clear t = b.set_type_and_clear t := by
  have := congrArg (fun x => x.set_type_and_clear t) (h 0)
  exact this

theorem EqC.kp {a b : Adrs} (h : EqC a b) : a.get_key_pair_address = b.get_key_pair_address := by
  have := congrArg Adrs.get_key_pair_address (h 0)
  exact this

theorem to_32_pk_adrs {a b : Adrs} (h : EqC a b) :
    ((a.set_type_and_clear WOTS_PK).set_key_pair_address a.get_key_pair_address).bytes32 =
      Spec.wotsPkAdrs b.bytes32 := by
  rw [h.type, h.kp, Adrs.to_32_set_key_pair_address, Adrs.to_32_set_type_and_clear,
    Adrs.toNat_get_key_pair_address]
  rfl

theorem to_32_sk_adrs (a : Adrs) :
    ((a.set_type_and_clear WOTS_PRF).set_key_pair_address a.get_key_pair_address).bytes32 =
      Spec.wotsSkAdrs a.bytes32 := by
  rw [Adrs.to_32_set_key_pair_address, Adrs.to_32_set_type_and_clear,
    Adrs.toNat_get_key_pair_address]
  rfl

theorem set_step {X Y i : Nat} {t : Vector (Vector UInt8 Y) X} {f : Nat → List UInt8}
    {c : Vector UInt8 Y} (hi : i < X) (h : ∀ k (hk : k < X), k < i → t[k].toList = f k)
    (hc : c.toList = f i) :
    ∀ k (hk : k < X), k < i + 1 → (t.set i c)[k].toList = f k := by
  intro k hk hki
  by_cases e : k = i
  · subst e; simpa using hc
  · rw [Vector.getElem_set_ne _ _ (by omega)]
    exact h k hk (by omega)

theorem w_sub_one : (W - 1).toNat = 15 := rfl

theorem wots_pkgen_returns (hp : Matches p K LEN M N A D H HP) (R : HashersRefine hs hf)
    (sk_seed pk_seed : List UInt8) (adrs : Adrs) :
    Returns (wots_pkgen hs sk_seed pk_seed adrs)
      (fun v => v.val.toList = Spec.wotsPKgen p hf sk_seed pk_seed adrs.bytes32) := by
  unfold wots_pkgen
  have hlen := hp.len
  have hN := hp.N_le
  have hpl : p.len = LEN := by rw [hlen, Spec.Params.len, Spec.Params.len1, hp.n]; rfl
  refine Returns.u32TryFromUnwrap (by omega) fun len32 hl => ?_
  refine Returns.bind (Returns.forU32
    (fun i (st : Adrs × Adrs × Vector (Vector UInt8 N) LEN) =>
      EqC st.1 ((adrs.set_type_and_clear WOTS_PRF).set_key_pair_address adrs.get_key_pair_address) ∧
      EqC st.2.1 adrs ∧ ∀ k (hk : k < LEN), k < i → st.2.2[k].toList =
        Spec.chain hf (hf.PRF pk_seed sk_seed
          (Spec.setChainAddress (Spec.wotsSkAdrs adrs.bytes32) k)) 0 15 pk_seed
          (Spec.setChainAddress adrs.bytes32 k))
    (by simp) ⟨EqC.refl _, EqC.refl _, by simp⟩ ?_) ?_
  · rintro i ⟨ska, a, t⟩ - hi ⟨h1, h2, h3⟩
    simp only at h1 h2 h3
    dsimp only
    rw [hl] at hi
    rw [h1 i, h2 i]
    refine (R.prf _ _ _).bind fun sk hsk => ?_
    refine Returns.subU32 (by decide) ?_
    refine (chain_returns R sk (i := 0) (s := W - 1) (by decide) _ _).bind fun c hc => ?_
    refine Returns.asUsize (by omega) ?_
    refine Returns.vset hi ?_
    refine Returns.pure ⟨(EqC.refl _).step i, (EqC.refl _).step i, ?_⟩
    refine set_step hi h3 ?_
    rw [hc, hsk, Adrs.to_32_set_chain_address, Adrs.to_32_set_chain_address, to_32_sk_adrs,
      w_sub_one]
    rfl
  · rintro ⟨ska, a, t⟩ ⟨h1, h2, h3⟩
    simp only at h1 h2 h3
    dsimp only
    refine (R.t_l _ _ _).bind fun pk hpk => Returns.pure ?_
    dsimp only
    rw [hpk, to_32_pk_adrs h2, Spec.wotsPKgen, hpl, absorbAll_eq (fun k hk => h3 k hk (by omega))]
    rfl

/-! ## The digits -/

theorem wots_pk_digits_eq : @wots_pk_digits m _ = @wots_sign_digits m _ := rfl

theorem base2b_lt {X : List UInt8} {b o : Nat} : ∀ d ∈ Spec.base2b X b o, d < 2 ^ b := by
  intro d hd
  simp only [Spec.base2b, List.mem_map] at hd
  obtain ⟨i, _, rfl⟩ := hd
  exact Nat.mod_lt _ (Nat.two_pow_pos b)

theorem base2b_length {X : List UInt8} {b o : Nat} : (Spec.base2b X b o).length = o := by
  simp [Spec.base2b]

theorem wots_sign_digits_returns (hp : Matches p K LEN M N A D H HP) {msg : List UInt8}
    (hmsg : msg.length = N) {n32 : UInt32} (hn : n32.toNat = N) :
    Returns (wots_sign_digits LEN N msg n32 : m (Vector UInt32 LEN))
      (fun v => v.toList.map UInt32.toNat = Spec.wotsDigits p msg) := by
  have hlen := hp.len
  have hN := hp.N_le
  have e2n : (2 * n32).toNat = 2 * N := by
    rw [UInt32.toNat_mul, hn, Nat.mod_eq_of_lt (by simp; omega)]; simp
  unfold wots_sign_digits
  refine Returns.mulU32 (by rw [hn]; simp; omega) ?_
  refine Returns.mulUsize (by omega) ?_
  refine Returns.slice (by omega) (by simp; omega) ?_
  refine Returns.bind (base_2b_returns (by decide) (by decide) (by omega) ?_ ?_ ?_) ?_
  · rw [e2n]; simp; omega
  · simp; omega
  · rw [show LGW.toNat = 4 from rfl]; simp; omega
  intro new hnew
  rw [e2n, show LGW.toNat = 4 from rfl] at hnew
  have hnl : new.length = 2 * N := by
    have := congrArg List.length hnew
    rwa [List.length_map, base2b_length] at this
  refine Returns.writeSlice (by omega) (by omega) (by omega) fun v hv => ?_
  have hvt : v.toList.take (2 * N) = new := by
    rw [hv]; simp [← hnl]
  refine Returns.mulUsize (by omega) ?_
  rw [hvt]
  refine Returns.bind (Returns.forEach (fun i (c : UInt32) =>
    c.toNat = (((new.map UInt32.toNat).take i).map fun x => Spec.w - 1 - x).sum ∧ c.toNat ≤ i * 15)
    (by simp) ?_) ?_
  · rintro i c hi ⟨h1, h2⟩
    have hd : new[i].toNat < 16 := by
      refine base2b_lt (b := 4) _ (hnew ▸ List.mem_map_of_mem (List.getElem_mem hi))
    have e : (W - 1 - new[i]).toNat = 15 - new[i].toNat := by
      rw [UInt32.toNat_sub_of_le _ _ (by rw [UInt32.le_iff_toNat_le, w_sub_one]; omega), w_sub_one]
    have hadd : (c + (W - 1 - new[i])).toNat = c.toNat + (15 - new[i].toNat) := by
      rw [UInt32.toNat_add, e, Nat.mod_eq_of_lt (by omega)]
    refine Returns.subU32 (by decide) ?_
    refine Returns.subU32 (by rw [w_sub_one]; omega) ?_
    rw [addU32_ok (by rw [e]; omega)]
    refine Returns.pure ⟨?_, by omega⟩
    rw [hadd, h1, List.take_succ_eq_append_getElem (by simpa using hi)]
    simp [Spec.w]
  rintro c ⟨hc, hc2⟩
  rw [List.take_of_length_le (by simp)] at hc
  refine Returns.mulU32 (by decide) ?_
  refine Returns.subU32 (by decide) ?_
  refine Returns.shlU32 (by decide) ?_
  refine Returns.mulU32 (by decide) ?_
  refine Returns.addU32 (by decide) ?_
  refine Returns.divU32 (by decide) ?_
  refine Returns.bind (to_byte_returns _ (by decide)) fun cb hcb => ?_
  have hsh : (c <<< ((8 - (LEN2 * LGW &&& 7)) &&& 7)).toNat = c.toNat * 16 := by
    rw [show ((8 - (LEN2 * LGW &&& 7)) &&& 7 : UInt32) = 4 by decide, UInt32.toNat_shiftLeft]
    simp [Nat.shiftLeft_eq]
    omega
  rw [hsh] at hcb
  refine Returns.mulUsize (by omega) ?_
  refine Returns.slice (by omega) (by simp) ?_
  refine Returns.bind (base_2b_returns (by decide) (by decide) (by simp) ?_ ?_ ?_) ?_
  · simp; rw [hlen, show LEN2.toNat = 3 from rfl]; omega
  · simp; omega
  · rw [show LGW.toNat = 4 from rfl]; simp; omega
  intro new2 hnew2
  rw [show LEN2.toNat = 3 from rfl, show LGW.toNat = 4 from rfl] at hnew2
  have hnl2 : new2.length = 3 := by
    have := congrArg List.length hnew2
    rwa [List.length_map, base2b_length] at this
  refine Returns.tail ?_
  refine Returns.writeSlice (by omega) (by omega) (by omega) fun w hw => Returns.pure ?_
  rw [hw, hvt, List.drop_eq_nil_of_le (by simp), List.append_nil, List.map_append, hnew, hnew2, hcb,
    hc, hnew, Spec.wotsDigits, Spec.Params.len1, hp.n]
  rfl

/-- A digit of the digit vector. -/
theorem digit_of {v : Vector UInt32 LEN} {l : List Nat} (h : v.toList.map UInt32.toNat = l) {i : Nat}
    (hi : i < LEN) : v[i].toNat = l.getD i 0 := by
  subst h
  rw [List.getD_eq_getElem _ _ (by simpa using hi)]
  simp

theorem wotsDigits_lt {msg : List UInt8} (i : Nat) : (Spec.wotsDigits p msg).getD i 0 < 16 := by
  by_cases h : i < (Spec.wotsDigits p msg).length
  · rw [List.getD_eq_getElem _ _ h]
    generalize hx : (Spec.wotsDigits p msg)[i] = x
    have : x ∈ Spec.wotsDigits p msg := hx ▸ List.getElem_mem h
    simp only [Spec.wotsDigits, List.mem_append] at this
    rcases this with h | h
    · exact base2b_lt (b := 4) _ h
    · exact base2b_lt (b := 4) _ h
  · rw [List.getD_eq_default _ _ (by omega)]; decide

/-! ## `wots_sign` -/

theorem wots_sign_returns (hp : Matches p K LEN M N A D H HP) (R : HashersRefine hs hf)
    {msg : List UInt8} (hmsg : msg.length = N) (sk_seed pk_seed : List UInt8) (adrs : Adrs) :
    Returns (wots_sign hs msg sk_seed pk_seed adrs)
      (fun v => absorbAll v.data = Spec.wotsSign p hf msg sk_seed pk_seed adrs.bytes32) := by
  unfold wots_sign
  have hlen := hp.len
  have hN := hp.N_le
  have hpl : p.len = LEN := by rw [hlen, Spec.Params.len, Spec.Params.len1, hp.n]; rfl
  refine Returns.u32TryFromUnwrap (by omega) fun n32 hn => ?_
  refine (wots_sign_digits_returns hp hmsg hn).bind fun v hv => ?_
  refine Returns.bind (Returns.forEach
    (fun i (st : UInt32 × Adrs × Adrs × Vector (Vector UInt8 N) LEN) =>
      st.1.toNat = i ∧
      EqC st.2.1 ((adrs.set_type_and_clear WOTS_PRF).set_key_pair_address adrs.get_key_pair_address) ∧
      EqC st.2.2.1 adrs ∧ ∀ k (hk : k < LEN), k < i → st.2.2.2[k].toList =
        Spec.chain hf (hf.PRF pk_seed sk_seed
          (Spec.setChainAddress (Spec.wotsSkAdrs adrs.bytes32) k)) 0
          ((Spec.wotsDigits p msg).getD k 0) pk_seed (Spec.setChainAddress adrs.bytes32 k))
    ⟨rfl, EqC.refl _, EqC.refl _, by simp⟩ ?_) ?_
  · rintro i ⟨i32, ska, a, t⟩ hi ⟨h0, h1, h2, h3⟩
    simp only at h0 h1 h2 h3
    dsimp only
    have hi' : i < LEN := by simpa using hi
    have hd : v.toList[i].toNat = (Spec.wotsDigits p msg).getD i 0 := by
      rw [← digit_of hv hi']; simp
    have hd2 := wotsDigits_lt (p := p) (msg := msg) i
    rw [h1 i32, h2 i32]
    refine (R.prf _ _ _).bind fun sk hsk => ?_
    refine (chain_returns R sk (i := 0) (by rw [hd, show (0 : UInt32).toNat = 0 from rfl]; omega) _ _).bind fun c hc => ?_
    refine Returns.asUsize (by omega) ?_
    refine Returns.vset (by omega) ?_
    refine Returns.addU32 (by simp; omega) ?_
    refine Returns.pure ⟨?_, (EqC.refl _).step i32, (EqC.refl _).step i32, ?_⟩
    · show (i32 + 1).toNat = i + 1
      rw [UInt32.toNat_add, h0, Nat.mod_eq_of_lt (by simp; omega)]; rfl
    · simp only [h0]
      refine set_step hi' h3 ?_
      rw [hc, hsk, Adrs.to_32_set_chain_address, Adrs.to_32_set_chain_address, to_32_sk_adrs, hd, h0]
      rfl
  · rintro ⟨i32, ska, a, t⟩ ⟨h0, h1, h2, h3⟩
    simp only at h0 h1 h2 h3
    refine Returns.pure ?_
    dsimp only
    rw [Spec.wotsSign, hpl, absorbAll_eq (fun k hk => h3 k hk (by simpa using hk))]

/-! ## `wots_pk_from_sig` -/

theorem wots_pk_from_sig_returns (hp : Matches p K LEN M N A D H HP) (R : HashersRefine hs hf)
    (sig : WotsSig LEN N) {msg : List UInt8} (hmsg : msg.length = N) (pk_seed : List UInt8)
    (adrs : Adrs) :
    Returns (wots_pk_from_sig hs sig msg pk_seed adrs)
      (fun v => v.val.toList =
        Spec.wotsPkFromSig p hf (absorbAll sig.data) msg pk_seed adrs.bytes32) := by
  unfold wots_pk_from_sig
  have hlen := hp.len
  have hN := hp.N_le
  have hpl : p.len = LEN := by rw [hlen, Spec.Params.len, Spec.Params.len1, hp.n]; rfl
  refine Returns.u32TryFromUnwrap (by omega) fun n32 hn => ?_
  refine (wots_sign_digits_returns hp hmsg hn).bind fun v hv => ?_
  refine Returns.bind (Returns.forUsize
    (fun i (st : Adrs × Vector (Vector UInt8 N) LEN) =>
      EqC st.1 adrs ∧ ∀ k (hk : k < LEN), k < i → st.2[k].toList =
        Spec.chain hf (Spec.slice (absorbAll sig.data) (k * p.n) ((k + 1) * p.n))
          ((Spec.wotsDigits p msg).getD k 0) (Spec.w - 1 - (Spec.wotsDigits p msg).getD k 0) pk_seed
          (Spec.setChainAddress adrs.bytes32 k))
    (by omega) ⟨EqC.refl _, by simp⟩ ?_) ?_
  · rintro i ⟨a, t⟩ - hi ⟨h2, h3⟩
    simp only at h2 h3
    dsimp only
    have hd := digit_of hv hi
    have hd2 := wotsDigits_lt (p := p) (msg := msg) i
    have e : (W - 1 - v[i]).toNat = 15 - v[i].toNat := by
      rw [UInt32.toNat_sub_of_le _ _ (by rw [UInt32.le_iff_toNat_le, w_sub_one]; omega), w_sub_one]
    rw [h2]
    refine Returns.vget hi ?_
    refine Returns.vget hi ?_
    refine Returns.subU32 (by decide) ?_
    refine Returns.vget hi ?_
    refine Returns.subU32 (by rw [w_sub_one]; omega) ?_
    refine (chain_returns R _ (by rw [e]; omega) _ _).bind fun c hc => ?_
    refine Returns.vset hi ?_
    refine Returns.pure ⟨(EqC.refl _).step _, ?_⟩
    refine set_step hi h3 ?_
    rw [hc, Adrs.to_32_set_chain_address, hp.n, slice_absorbAll _ hi, e, hd, usizeAsU32,
      UInt32.toNat_ofNat', Nat.mod_eq_of_lt (by omega)]
    rfl
  · rintro ⟨a, t⟩ ⟨h2, h3⟩
    simp only at h2 h3
    dsimp only
    refine (R.t_l _ _ _).bind fun pk hpk => Returns.pure ?_
    dsimp only
    rw [hpk, to_32_pk_adrs h2, Spec.wotsPkFromSig, hpl, absorbAll_eq (fun k hk => h3 k hk (by omega))]

end Fips205.Model
