import Verif.Proofs.RunHash

/-! # The calls made by `src/wots.rs` -/

namespace Fips205.Spec.Run

theorem chain_log (h : Fns) (X : Bytes) (i s : Nat) (PKseed ADRS : Bytes) :
    (chain h X i s PKseed ADRS).log = (List.range' i s).flatMap fun j =>
      (h.F PKseed (setHashAddress ADRS j) (Spec.chain h.vals X i (j - i) PKseed ADRS)).log := by
  induction s with
  | zero => rfl
  | succ s ih => simp [chain, ih, List.range'_concat]

end Fips205.Spec.Run

namespace Fips205.Model
open Fips205

set_option linter.unusedSectionVars false

variable {b : Build} {K LEN M N A D H HP : Nat} {p : Spec.Params} {hs : Hashers (LogExec b) K LEN M N}
  {hr : Spec.Run.Fns}

theorem chain_does (R : HashersRun hs hr) (x : Vector UInt8 N) {i s : UInt32}
    (h : i.toNat + s.toNat < 2 ^ 32 - 1) (pk_seed : List UInt8) (adrs : Adrs) :
    Makes (Spec.Run.chain hr x.toList i.toNat s.toNat pk_seed adrs.bytes32).log
      (fun v => v.toList = Spec.chain hr.vals x.toList i.toNat s.toNat pk_seed adrs.bytes32)
      (chain hs x i s pk_seed adrs) := by
  unfold chain
  have hadd : (i + s).toNat = i.toNat + s.toNat := by
    rw [UInt32.toNat_add, Nat.mod_eq_of_lt (by omega)]
  refine Makes.debugAssert ?_ ?_
  · refine Returns.addU32 (by omega) (Returns.pure ?_)
    simp only [decide_eq_true_eq, UInt32.lt_iff_toNat_lt, hadd]
    simpa using h
  refine Makes.addU32 (by omega) ?_
  rw [Spec.Run.chain_log]
  refine Makes.last (((Makes.forU32 (fun j =>
      (hr.F pk_seed (Spec.setHashAddress adrs.bytes32 j)
        (Spec.chain hr.vals x.toList i.toNat (j - i.toNat) pk_seed adrs.bytes32)).log)
    (fun j (st : Adrs × Vector UInt8 N) =>
    (∀ y, st.1.set_hash_address y = adrs.set_hash_address y) ∧
    st.2.toList = Spec.chain hr.vals x.toList i.toNat (j - i.toNat) pk_seed adrs.bytes32)
    (by omega) ⟨fun _ => rfl, by simp [Spec.chain]⟩ ?_)).congr ?_) ?_
  · rintro j ⟨a, t⟩ h1 h2 ⟨h3, h4⟩
    simp only at h3 h4
    dsimp only
    have e := R.f pk_seed (a.set_hash_address j) t.toList
    rw [h3, Adrs.to_32_set_hash_address, h4] at e
    rw [h3, h4]
    refine e.last fun v hv => Returns.pure ⟨fun y => rfl, ?_⟩
    dsimp only
    rw [hv, show j.toNat + 1 - i.toNat = (j.toNat - i.toNat) + 1 by omega, Spec.chain,
        show i.toNat + (j.toNat - i.toNat) = j.toNat by omega]
    rfl
  · rw [hadd, Nat.add_sub_cancel_left]
  · rintro ⟨a, t⟩ ⟨-, h4⟩
    refine Returns.pure ?_
    simp only at h4
    rw [h4, hadd, show i.toNat + s.toNat - i.toNat = s.toNat by omega]

theorem wots_pkgen_does (hp : Matches p K LEN M N A D H HP) (R : HashersRun hs hr)
    (sk_seed pk_seed : List UInt8) (adrs : Adrs) :
    Makes (Spec.Run.wotsPKgen p hr sk_seed pk_seed adrs.bytes32).log
      (fun v => v.val.toList = Spec.wotsPKgen p hr.vals sk_seed pk_seed adrs.bytes32)
      (wots_pkgen hs sk_seed pk_seed adrs) := by
  unfold wots_pkgen
  have hlen := hp.len
  have hN := hp.N_le
  have hpl : p.len = LEN := by rw [hlen, Spec.Params.len, Spec.Params.len1, hp.n]; rfl
  refine Makes.u32TryFromUnwrap (by omega) fun len32 hl => ?_
  unfold Spec.Run.wotsPKgen
  rw [Spec.Run.log_bind]
  refine Makes.bind (((Makes.forU32
    (fun i => (do
      let sk ← hr.PRF pk_seed sk_seed (Spec.setChainAddress (Spec.wotsSkAdrs adrs.bytes32) i)
      Spec.Run.chain hr sk 0 (Spec.w - 1) pk_seed (Spec.setChainAddress adrs.bytes32 i)).log)
    (fun i (st : Adrs × Adrs × Vector (Vector UInt8 N) LEN) =>
      EqC st.1 ((adrs.set_type_and_clear WOTS_PRF).set_key_pair_address adrs.get_key_pair_address) ∧
      EqC st.2.1 adrs ∧ ∀ k (hk : k < LEN), k < i → st.2.2[k].toList =
        Spec.chain hr.vals (hr.vals.PRF pk_seed sk_seed
          (Spec.setChainAddress (Spec.wotsSkAdrs adrs.bytes32) k)) 0 15 pk_seed
          (Spec.setChainAddress adrs.bytes32 k))
    (by simp) ⟨EqC.refl _, EqC.refl _, by simp⟩ ?_)).congr ?_) ?_
  · rintro i ⟨ska, a, t⟩ - hi ⟨h1, h2, h3⟩
    simp only at h1 h2 h3
    dsimp only
    rw [hl] at hi
    rw [h1 i, h2 i, Spec.Run.log_bind]
    have e := R.prf pk_seed sk_seed (((adrs.set_type_and_clear WOTS_PRF).set_key_pair_address
      adrs.get_key_pair_address).set_chain_address i)
    rw [Adrs.to_32_set_chain_address, to_32_sk_adrs] at e
    refine e.bind fun sk hsk => ?_
    refine Makes.subU32 (by decide) ?_
    rw [← hsk]
    have e := chain_does R sk (i := 0) (s := W - 1) (by decide) pk_seed (adrs.set_chain_address i)
    rw [Adrs.to_32_set_chain_address, w_sub_one] at e
    refine e.last fun c hc => ?_
    refine Returns.asUsize (by omega) ?_
    refine Returns.vset hi ?_
    refine Returns.pure ⟨(EqC.refl _).step i, (EqC.refl _).step i, ?_⟩
    refine set_step hi h3 ?_
    rw [hc, hsk]
    rfl
  · rw [Spec.Run.concat_log, hpl, hl, List.range_eq_range']
    rfl
  · rintro ⟨ska, a, t⟩ ⟨h1, h2, h3⟩
    simp only at h1 h2 h3
    dsimp only
    have e := R.t_l pk_seed ((a.set_type_and_clear WOTS_PK).set_key_pair_address a.get_key_pair_address) t
    rw [to_32_pk_adrs h2, absorbAll_eq (fun k hk => h3 k hk (by omega))] at e
    refine (e.last fun pk hpk => Returns.pure ?_).congr ?_
    · dsimp only
      rw [hpk, Spec.wotsPKgen, hpl]
      rfl
    · rw [Spec.Run.concat_val, hpl]
      simp [Spec.w, Spec.Run.Fns.vals]

theorem wots_sign_does (hp : Matches p K LEN M N A D H HP) (R : HashersRun hs hr)
    {msg : List UInt8} (hmsg : msg.length = N) (sk_seed pk_seed : List UInt8) (adrs : Adrs) :
    Makes (Spec.Run.wotsSign p hr msg sk_seed pk_seed adrs.bytes32).log
      (fun v => absorbAll v.data = Spec.wotsSign p hr.vals msg sk_seed pk_seed adrs.bytes32)
      (wots_sign hs msg sk_seed pk_seed adrs) := by
  unfold wots_sign
  have hlen := hp.len
  have hN := hp.N_le
  have hpl : p.len = LEN := by rw [hlen, Spec.Params.len, Spec.Params.len1, hp.n]; rfl
  refine Makes.u32TryFromUnwrap (by omega) fun n32 hn => ?_
  refine Makes.ret (wots_sign_digits_returns hp hmsg hn) fun v hv => ?_
  unfold Spec.Run.wotsSign
  rw [Spec.Run.concat_log]
  refine Makes.last (((Makes.forEach
    (fun i => (do
      let sk ← hr.PRF pk_seed sk_seed (Spec.setChainAddress (Spec.wotsSkAdrs adrs.bytes32) i)
      Spec.Run.chain hr sk 0 ((Spec.wotsDigits p msg).getD i 0) pk_seed
        (Spec.setChainAddress adrs.bytes32 i)).log)
    (fun i (st : UInt32 × Adrs × Adrs × Vector (Vector UInt8 N) LEN) =>
      st.1.toNat = i ∧
      EqC st.2.1 ((adrs.set_type_and_clear WOTS_PRF).set_key_pair_address adrs.get_key_pair_address) ∧
      EqC st.2.2.1 adrs ∧ ∀ k (hk : k < LEN), k < i → st.2.2.2[k].toList =
        Spec.chain hr.vals (hr.vals.PRF pk_seed sk_seed
          (Spec.setChainAddress (Spec.wotsSkAdrs adrs.bytes32) k)) 0
          ((Spec.wotsDigits p msg).getD k 0) pk_seed (Spec.setChainAddress adrs.bytes32 k))
    ⟨rfl, EqC.refl _, EqC.refl _, by simp⟩ ?_)).congr ?_) ?_
  · rintro i ⟨i32, ska, a, t⟩ hi ⟨h0, h1, h2, h3⟩
    simp only at h0 h1 h2 h3
    dsimp only
    have hi' : i < LEN := by simpa using hi
    have hd : v.toList[i].toNat = (Spec.wotsDigits p msg).getD i 0 := by
      rw [← digit_of hv hi']; simp
    have hd2 := wotsDigits_lt (p := p) (msg := msg) i
    rw [h1 i32, h2 i32, Spec.Run.log_bind]
    have e := R.prf pk_seed sk_seed (((adrs.set_type_and_clear WOTS_PRF).set_key_pair_address
      adrs.get_key_pair_address).set_chain_address i32)
    rw [Adrs.to_32_set_chain_address, to_32_sk_adrs, h0] at e
    refine e.bind fun sk hsk => ?_
    rw [← hsk]
    have e := chain_does R sk (i := 0) (s := v.toList[i])
      (by rw [hd, show (0 : UInt32).toNat = 0 from rfl]; omega) pk_seed (adrs.set_chain_address i32)
    rw [Adrs.to_32_set_chain_address, hd, h0] at e
    refine e.last fun c hc => ?_
    refine Returns.asUsize (by omega) ?_
    refine Returns.vset (by omega) ?_
    refine Returns.addU32 (by simp; omega) ?_
    refine Returns.pure ⟨?_, (EqC.refl _).step i32, (EqC.refl _).step i32, ?_⟩
    · show (i32 + 1).toNat = i + 1
      rw [UInt32.toNat_add, h0, Nat.mod_eq_of_lt (by simp; omega)]; rfl
    · simp only [h0]
      refine set_step hi' h3 ?_
      rw [hc, hsk]
      rfl
  · simp [hpl]
  · rintro ⟨i32, ska, a, t⟩ ⟨h0, h1, h2, h3⟩
    simp only at h0 h1 h2 h3
    refine Returns.pure ?_
    dsimp only
    rw [Spec.wotsSign, hpl, absorbAll_eq (fun k hk => h3 k hk (by simpa using hk))]

theorem wots_pk_from_sig_does (hp : Matches p K LEN M N A D H HP) (R : HashersRun hs hr)
    (sig : WotsSig LEN N) {msg : List UInt8} (hmsg : msg.length = N) (pk_seed : List UInt8)
    (adrs : Adrs) :
    Makes (Spec.Run.wotsPkFromSig p hr (absorbAll sig.data) msg pk_seed adrs.bytes32).log
      (fun v => v.val.toList =
        Spec.wotsPkFromSig p hr.vals (absorbAll sig.data) msg pk_seed adrs.bytes32)
      (wots_pk_from_sig hs sig msg pk_seed adrs) := by
  unfold wots_pk_from_sig
  have hlen := hp.len
  have hN := hp.N_le
  have hpl : p.len = LEN := by rw [hlen, Spec.Params.len, Spec.Params.len1, hp.n]; rfl
  refine Makes.u32TryFromUnwrap (by omega) fun n32 hn => ?_
  refine Makes.ret (wots_sign_digits_returns hp hmsg hn) fun v hv => ?_
  unfold Spec.Run.wotsPkFromSig
  rw [Spec.Run.log_bind]
  refine Makes.bind (((Makes.forUsize
    (fun k => (Spec.Run.chain hr (Spec.slice (absorbAll sig.data) (k * p.n) ((k + 1) * p.n))
          ((Spec.wotsDigits p msg).getD k 0) (Spec.w - 1 - (Spec.wotsDigits p msg).getD k 0) pk_seed
          (Spec.setChainAddress adrs.bytes32 k)).log)
    (fun i (st : Adrs × Vector (Vector UInt8 N) LEN) =>
      EqC st.1 adrs ∧ ∀ k (hk : k < LEN), k < i → st.2[k].toList =
        Spec.chain hr.vals (Spec.slice (absorbAll sig.data) (k * p.n) ((k + 1) * p.n))
          ((Spec.wotsDigits p msg).getD k 0) (Spec.w - 1 - (Spec.wotsDigits p msg).getD k 0) pk_seed
          (Spec.setChainAddress adrs.bytes32 k))
    (by omega) ⟨EqC.refl _, by simp⟩ ?_)).congr ?_) ?_
  · rintro i ⟨a, t⟩ - hi ⟨h2, h3⟩
    simp only at h2 h3
    dsimp only
    have hd := digit_of hv hi
    have hd2 := wotsDigits_lt (p := p) (msg := msg) i
    have e : (W - 1 - v[i]).toNat = 15 - v[i].toNat := by
      rw [UInt32.toNat_sub_of_le _ _ (by rw [UInt32.le_iff_toNat_le, w_sub_one]; omega), w_sub_one]
    rw [h2]
    refine Makes.vget hi ?_
    refine Makes.vget hi ?_
    refine Makes.subU32 (by decide) ?_
    refine Makes.vget hi ?_
    refine Makes.subU32 (by rw [w_sub_one]; omega) ?_
    have e' := chain_does R sig.data[i] (i := v[i]) (s := W - 1 - v[i]) (by rw [e]; omega) pk_seed
      (adrs.set_chain_address (usizeAsU32 i))
    rw [Adrs.to_32_set_chain_address, ← slice_absorbAll _ hi, e, hd, usizeAsU32,
      UInt32.toNat_ofNat', Nat.mod_eq_of_lt (by omega)] at e'
    simp only [hp.n] at h3
    rw [hp.n]
    refine e'.last fun c hc => ?_
    refine Returns.vset hi ?_
    refine Returns.pure ⟨(EqC.refl _).step _, ?_⟩
    refine set_step hi h3 ?_
    rw [hc]
    rfl
  · rw [Spec.Run.concat_log, hpl, List.range_eq_range']
    rfl
  · rintro ⟨a, t⟩ ⟨h2, h3⟩
    simp only at h2 h3
    dsimp only
    have e := R.t_l pk_seed ((a.set_type_and_clear WOTS_PK).set_key_pair_address a.get_key_pair_address) t
    rw [to_32_pk_adrs h2, absorbAll_eq (fun k hk => h3 k hk (by omega))] at e
    refine (e.last fun pk hpk => Returns.pure ?_).congr ?_
    · dsimp only
      rw [hpk, Spec.wotsPkFromSig, hpl]
      rfl
    · rw [Spec.Run.concat_val, hpl]
      simp

end Fips205.Model
