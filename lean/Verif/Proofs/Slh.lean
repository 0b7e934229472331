import Verif.Proofs.Fors
import Verif.Model.Slh

/-! # Refinement of `src/slh.rs` -/

namespace Fips205.Model
open Fips205

set_option linter.unusedSectionVars false

/-- The bytes of a signature. -/
def SlhDsaSig.bytes {A D HP K LEN N : Nat} (s : SlhDsaSig A D HP K LEN N) : List UInt8 :=
  s.randomness.toList ++ s.fors_sig.bytes ++ s.ht_sig.bytes

theorem SlhDsaSig.bytes_length {A D HP K LEN N : Nat} (s : SlhDsaSig A D HP K LEN N) :
    s.bytes.length = N + K * ((A + 1) * N) + D * ((HP + LEN) * N) := by
  rw [bytes, List.length_append, List.length_append, ForsSig.bytes_length, HtSig.bytes_length,
    Vector.length_toList]

variable {m : Type → Type} [Rust m] [LawfulMonad m] {K LEN M N A D H HP : Nat}
  {p : Spec.Params} {hs : Hashers m K LEN M N} {hf : Spec.HashFns}

theorem slh_keygen_internal_returns (hp : Matches p K LEN M N A D H HP) (R : HashersRefine hs hf)
    (sk_seed sk_prf pk_seed : Vector UInt8 N) :
    Returns (slh_keygen_internal D HP hs sk_seed sk_prf pk_seed)
      (fun v => ∃ root : Vector UInt8 N,
        root.toList = Spec.pkRoot p hf sk_seed.toList pk_seed.toList ∧
        v = (⟨sk_seed, sk_prf, pk_seed, root⟩, ⟨pk_seed, root⟩)) := by
  unfold slh_keygen_internal
  have hHP := hp.HP_le
  have hD := hp.D_le
  have hD2 := hp.D_ge
  refine Returns.u32TryFromUnwrap (by omega) fun d32 hd => ?_
  refine Returns.u32TryFromUnwrap (by omega) fun hp32 hh => ?_
  refine Returns.subU32 (by rw [hd]; simp; omega) ?_
  have hd1 : (d32 - 1).toNat = D - 1 := by
    rw [UInt32.toNat_sub_of_le _ _ (by rw [UInt32.le_iff_toNat_le, hd]; simp; omega), hd]; rfl
  have h2 : 2 ^ HP ≤ 2 ^ 31 := Nat.pow_le_pow_right (by decide) (by omega)
  refine (xmss_node_returns hp R _ _ _ HP 0 hp32 hh (by simp; omega)).bind fun root hroot =>
    Returns.pure ⟨root, ?_, rfl⟩
  rw [hroot, Adrs.to_32_set_layer_address, Adrs.to_32_default, hd1, Spec.pkRoot, hp.hp, hp.d]
  rfl

theorem mask_shr {t : UInt32} {j : Nat} (ht : t.toNat = 64 - j) (h1 : 1 ≤ j) (h2 : j ≤ 64)
    (v : UInt64) : (v &&& (0xffffffffffffffff >>> t.toUInt64)).toNat = v.toNat % 2 ^ j := by
  rw [UInt64.toNat_and, UInt64.toNat_shiftRight, UInt32.toNat_toUInt64,
    Nat.mod_eq_of_lt (by omega : _ < 64), Nat.shiftRight_eq_div_pow, ht]
  have : (0xffffffffffffffff : UInt64).toNat / 2 ^ (64 - j) = 2 ^ j - 1 := by
    rw [show (0xffffffffffffffff : UInt64).toNat = 2 ^ 64 - 1 from rfl]
    have e : (2 : Nat) ^ 64 = 2 ^ (64 - j) * 2 ^ j := by
      rw [← Nat.pow_add, show 64 - j + j = 64 by omega]
    rw [e, Nat.div_eq_iff (Nat.two_pow_pos _)]
    have h3 : 1 ≤ 2 ^ (64 - j) := Nat.one_le_two_pow
    have h4 : 1 ≤ 2 ^ j := Nat.one_le_two_pow
    have h5 : 2 ^ (64 - j) ≤ 2 ^ (64 - j) * 2 ^ j := Nat.le_mul_of_pos_right _ (by omega)
    rw [Nat.sub_mul, Nat.mul_comm (2 ^ j), Nat.one_mul]
    omega
  rw [this, Nat.and_two_pow_sub_one_eq_mod]

theorem slh_split_returns (hp : Matches p K LEN M N A D H HP) {d32 h32 : UInt32}
    (hd : d32.toNat = D) (hh : h32.toNat = H) (digest : Vector UInt8 M) :
    Returns (slh_sign_split A D H K d32 h32 digest : m _)
      (fun v => v.1 = Spec.digestMd p digest.toList ∧ v.1.length = (K * A + 7) / 8 ∧
        v.2.1.toNat = Spec.digestTree p digest.toList ∧
        v.2.2.toNat = Spec.digestLeaf p digest.toList ∧ v.2.2.toNat < 2 ^ HP) := by
  unfold slh_sign_split
  have hA := hp.A_lt
  have hKA : K * A ≤ 255 * 15 := Nat.mul_le_mul hp.K_le (by omega)
  have hDHP : D * HP ≤ 255 * 31 := Nat.mul_le_mul hp.D_le hp.HP_le
  have hD2 := hp.D_ge
  have hDl := hp.D_le
  have hHP := hp.HP_le
  have hHP1 := hp.HP_ge
  have htop := hp.top_ge
  have htop2 := hp.top_le
  have hHeq := hp.H_eq
  have hHD : H / D = HP := by rw [hHeq, Nat.mul_div_cancel_left _ (by omega)]
  have hM := hp.M_eq
  have hleaf : (H + 8 * D - 1) / (8 * D) = (HP + 7) / 8 := by
    rw [hHeq, Nat.div_eq_iff (by omega)]
    have h8 : HP + 7 = 8 * ((HP + 7) / 8) + (HP + 7) % 8 := by omega
    have : (HP + 7) % 8 < 8 := Nat.mod_lt _ (by decide)
    generalize (HP + 7) / 8 = q at *
    have e1 : D * HP + 7 * D = D * (HP + 7) := by ring
    have e2 : q * (8 * D) = D * (8 * q) := by ring
    rw [e2]
    have h1 : D * (8 * q) ≤ D * (HP + 7) := Nat.mul_le_mul_left _ (by omega)
    have h2 : D * HP ≤ D * (8 * q) := Nat.mul_le_mul_left _ (by omega)
    omega
  refine Returns.mulUsize (by omega) ?_
  refine Returns.addUsize (by omega) ?_
  refine Returns.divUsize (by omega) ?_
  refine Returns.slice (by omega) (by simp; omega) ?_
  refine Returns.divUsize (by omega) ?_
  rw [hHD]
  refine Returns.subUsize (by omega) (by omega) ?_
  refine Returns.addUsize (by omega) ?_
  refine Returns.divUsize (by omega) ?_
  refine Returns.addUsize (by omega) ?_
  refine Returns.slice (by omega) (by simp; omega) ?_
  refine Returns.mulUsize (by omega) ?_
  refine Returns.addUsize (by omega) ?_
  refine Returns.subUsize (by omega) (by omega) ?_
  refine Returns.mulUsize (by omega) ?_
  refine Returns.divUsize (by omega) ?_
  refine Returns.addUsize (by omega) ?_
  refine Returns.slice (by omega) (by simp; omega) ?_
  have hd0 : d32 ≠ 0 := by rintro rfl; simp at hd; omega
  have e1 : (h32 / d32).toNat = HP := by rw [UInt32.toNat_div, hd, hh, hHD]
  have e2 : (h32 - h32 / d32).toNat = H - HP := by
    rw [UInt32.toNat_sub_of_le _ _ (by rw [UInt32.le_iff_toNat_le]; omega), e1, hh]
  have e3 : (h32 - h32 / d32 + 7).toNat = H - HP + 7 := by
    rw [UInt32.toNat_add, e2, Nat.mod_eq_of_lt (by simp; omega)]; rfl
  have e4 : ((h32 - h32 / d32 + 7) / 8).toNat = (H - HP + 7) / 8 := by
    rw [UInt32.toNat_div, e3]; rfl
  refine Returns.divU32 hd0 ?_
  refine Returns.subU32 (by omega) ?_
  refine Returns.addU32 (by rw [e2]; simp; omega) ?_
  refine Returns.divU32 (by decide) ?_
  refine (to_int_returns (by rw [e4]; simp; omega) (by omega)).bind fun v hv => ?_
  refine Returns.divU32 hd0 ?_
  refine Returns.subU32 (by omega) ?_
  refine Returns.subU32 (by rw [e2]; simp; omega) ?_
  have e5 : (64 - (h32 - h32 / d32)).toNat = 64 - (H - HP) := by
    rw [UInt32.toNat_sub_of_le _ _ (by rw [UInt32.le_iff_toNat_le, e2]; simp; omega), e2]; rfl
  refine Returns.shrU64 (by omega) ?_
  have e6 : (8 * d32).toNat = 8 * D := by
    rw [UInt32.toNat_mul, hd, Nat.mod_eq_of_lt (by simp; omega)]; rfl
  have e7 : (h32 + 8 * d32).toNat = H + 8 * D := by
    rw [UInt32.toNat_add, e6, hh, Nat.mod_eq_of_lt (by omega)]
  have e8 : (h32 + 8 * d32 - 1).toNat = H + 8 * D - 1 := by
    rw [UInt32.toNat_sub_of_le _ _ (by rw [UInt32.le_iff_toNat_le, e7]; simp; omega), e7]; rfl
  have e9 : ((h32 + 8 * d32 - 1) / (8 * d32)).toNat = (HP + 7) / 8 := by
    rw [UInt32.toNat_div, e8, e6, hleaf]
  refine Returns.mulU32 (by rw [hd]; simp; omega) ?_
  refine Returns.addU32 (by rw [e6]; omega) ?_
  refine Returns.subU32 (by rw [e7]; simp; omega) ?_
  refine Returns.mulU32 (by rw [hd]; simp; omega) ?_
  refine Returns.divU32 (by intro h; rw [h] at e6; simp at e6; omega) ?_
  refine (to_int_returns (by rw [e9]; simp; omega) (by omega)).bind fun w hw => ?_
  refine Returns.divU32 hd0 ?_
  refine Returns.subU32 (by rw [e1]; simp; omega) ?_
  have e10 : (64 - h32 / d32).toNat = 64 - HP := by
    rw [UInt32.toNat_sub_of_le _ _ (by rw [UInt32.le_iff_toNat_le, e1]; simp; omega), e1]; rfl
  refine Returns.shrU64 (by omega) (Returns.pure ⟨?_, ?_, ?_, ?_, ?_⟩)
  · rw [Spec.digestMd, hp.k, hp.a]; rfl
  · simp; omega
  · dsimp only
    rw [mask_shr e5 (by omega) (by omega), hv, Spec.digestTree, hp.k, hp.a, hp.h, hp.d, hHD]
    rfl
  · dsimp only
    rw [mask_shr e10 (by omega) (by omega), hw, Spec.digestLeaf, hp.k, hp.a, hp.h, hp.d, hHD]
    rfl
  · dsimp only
    rw [mask_shr e10 (by omega) (by omega)]
    exact Nat.mod_lt _ (Nat.two_pow_pos _)

theorem slh_verify_split_eq : @slh_verify_split m _ = @slh_sign_split m _ := rfl

theorem to_32_fors_adrs (t : UInt64) (l : UInt32) :
    (((Adrs.default.set_tree_address t).set_type_and_clear FORS_TREE).set_key_pair_address
      l).bytes32 = Spec.forsAdrs t.toNat l.toNat := by
  rw [Adrs.to_32_set_key_pair_address, Adrs.to_32_set_type_and_clear,
    Adrs.to_32_set_tree_address Adrs.f1Zero_default, Adrs.to_32_default]
  rfl

theorem slh_sign_internal_returns (hp : Matches p K LEN M N A D H HP) (R : HashersRefine hs hf)
    {msg : List (List UInt8)} (hmsg : msg.length ≤ 5) (sk : SlhPrivateKey N)
    (opt_rand : Vector UInt8 N) :
    Returns (slh_sign_internal A D H HP hs msg sk opt_rand)
      (fun r => ∃ sig, r = .ok sig ∧ sig.bytes = Spec.signInternal p hf msg.flatten sk.sk_seed.toList
        sk.sk_prf.toList sk.pk_seed.toList sk.pk_root.toList opt_rand.toList) := by
  unfold slh_sign_internal
  have hDl := hp.D_le
  have hN := hp.N_le
  have hHeq := hp.H_eq
  have hDHP : D * HP ≤ 255 * 31 := Nat.mul_le_mul hp.D_le hp.HP_le
  refine Returns.u32TryFromUnwrap (by omega) fun d32 hd => ?_
  refine Returns.u32TryFromUnwrap (by omega) fun h32 hh => ?_
  refine (R.prf_msg _ _ _ (by simp; omega) hmsg).bind fun r hr => ?_
  refine (R.h_msg _ _ _ _ hmsg).bind fun digest hdig => ?_
  refine (slh_split_returns hp hd hh digest).bind ?_
  rintro ⟨md, itree, ileaf⟩ ⟨h1, h2, h3, h4, h5⟩
  simp only at h1 h2 h3 h4 h5
  dsimp only
  have h2HP : 2 ^ HP ≤ 2 ^ 31 := Nat.pow_le_pow_right (by decide) hp.HP_le
  have hl : ileaf.toUInt32.toNat = ileaf.toNat := by
    rw [UInt64.toNat_toUInt32, Nat.mod_eq_of_lt (by omega)]
  have hadr := to_32_fors_adrs itree ileaf.toUInt32
  generalize ((Adrs.default.set_tree_address itree).set_type_and_clear FORS_TREE).set_key_pair_address
      ileaf.toUInt32 = adrs at *
  refine (fors_sign_returns hp R h2 _ _ _).bind ?_
  rintro _ ⟨fs, rfl, hfs⟩
  refine Returns.leak ?_
  dsimp only
  refine (fors_pk_from_sig_returns hp R fs h2 _ _).bind fun pkf hpkf => ?_
  refine (ht_sign_returns hp R (by simp) _ _ _ (by rw [hl]; exact h5)).bind ?_
  rintro _ ⟨hts, rfl, hhts⟩
  refine Returns.leak (Returns.pure ⟨_, rfl, ?_⟩)
  rw [SlhDsaSig.bytes, Spec.signInternal, Spec.signWithR]
  dsimp only
  rw [hhts, hpkf, hfs, hadr, hr, hl, h3, h4, h1, hdig, hr]

theorem slh_verify_internal_returns (hp : Matches p K LEN M N A D H HP) (R : HashersRefine hs hf)
    {msg : List (List UInt8)} (hmsg : msg.length ≤ 5) (sig : SlhDsaSig A D HP K LEN N)
    (pk : SlhPublicKey N) :
    Returns (slh_verify_internal H hs msg sig pk)
      (· = Spec.verifyInternal p hf msg.flatten sig.bytes pk.pk_seed.toList pk.pk_root.toList) := by
  unfold slh_verify_internal
  have hDl := hp.D_le
  have hN := hp.N_le
  have hHeq := hp.H_eq
  have hDHP : D * HP ≤ 255 * 31 := Nat.mul_le_mul hp.D_le hp.HP_le
  have hlen : sig.bytes.length = p.sigLen := by
    rw [SlhDsaSig.bytes_length, Spec.Params.sigLen, hp.k, hp.a, hp.h, hp.d, hp.len_eq, hp.n, hHeq]
    ring
  have hr1 : sig.randomness.toList.length = p.n := by simp [hp.n]
  have hr2 : (sig.randomness.toList ++ sig.fors_sig.bytes).length = (1 + p.k * (1 + p.a)) * p.n := by
    rw [List.length_append, ForsSig.bytes_length, hr1, hp.k, hp.a, hp.n]; ring
  have hsr : Spec.slice sig.bytes 0 p.n = sig.randomness.toList := by
    have := Spec.slice_zero_append sig.randomness.toList (sig.fors_sig.bytes ++ sig.ht_sig.bytes)
    rwa [hr1, ← List.append_assoc] at this
  have hsf : Spec.slice sig.bytes p.n ((1 + p.k * (1 + p.a)) * p.n) = sig.fors_sig.bytes := by
    rw [SlhDsaSig.bytes, Spec.slice_append_left _ (by rw [hr2])]
    have := Spec.slice_append_right sig.randomness.toList sig.fors_sig.bytes 0
      sig.fors_sig.bytes.length
    rw [Spec.slice_all, ← List.length_append, hr2, hr1, Nat.add_zero] at this
    exact this
  have hsh : Spec.slice sig.bytes ((1 + p.k * (1 + p.a)) * p.n)
      ((1 + p.k * (1 + p.a) + p.h + p.d * p.len) * p.n) = sig.ht_sig.bytes := by
    have := Spec.slice_append_right (sig.randomness.toList ++ sig.fors_sig.bytes)
      sig.ht_sig.bytes 0 sig.ht_sig.bytes.length
    rw [Spec.slice_all, ← List.length_append, Nat.add_zero, hr2] at this
    rw [← this]
    show Spec.slice sig.bytes _ _ = Spec.slice sig.bytes _ sig.bytes.length
    rw [hlen, Spec.Params.sigLen]
  refine Returns.u32TryFromUnwrap (by omega) fun d32 hd => ?_
  refine Returns.u32TryFromUnwrap (by omega) fun h32 hh => ?_
  refine (R.h_msg _ _ _ _ hmsg).bind fun digest hdig => ?_
  rw [slh_verify_split_eq]
  refine (slh_split_returns hp hd hh digest).bind ?_
  rintro ⟨md, itree, ileaf⟩ ⟨h1, h2, h3, h4, h5⟩
  simp only at h1 h2 h3 h4 h5
  dsimp only
  have h2HP : 2 ^ HP ≤ 2 ^ 31 := Nat.pow_le_pow_right (by decide) hp.HP_le
  have hl : ileaf.toUInt32.toNat = ileaf.toNat := by
    rw [UInt64.toNat_toUInt32, Nat.mod_eq_of_lt (by omega)]
  rw [u32TryFromU64, if_pos (by omega)]
  refine Returns.leak ?_
  dsimp only
  have hadr := to_32_fors_adrs itree ileaf.toUInt32
  generalize ((Adrs.default.set_tree_address itree).set_type_and_clear FORS_TREE).set_key_pair_address
      ileaf.toUInt32 = adrs at *
  refine (fors_pk_from_sig_returns hp R _ h2 _ _).bind fun pkf hpkf => ?_
  refine (ht_verify_returns hp R (by simp) _ _ _ _ _).mono fun b hb => ?_
  rw [hb, hpkf, Spec.verifyInternal, if_neg (by rw [hlen]; simp)]
  dsimp only
  rw [hsr, hsf, hsh, ← hdig, ← h1, ← h3, ← h4, hadr, hl]

end Fips205.Model
