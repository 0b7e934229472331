import Verif.Proofs.RunFors
import Verif.Proofs.RunHash
import Verif.Proofs.VisitApi

/-! # The calls made by `src/slh.rs` -/

namespace Fips205.Model
open Fips205

set_option linter.unusedSectionVars false

variable {b : Build} {K LEN M N A D H HP : Nat} {p : Spec.Params} {hs : Hashers (LogExec b) K LEN M N}
  {hr : Spec.Run.Fns}

theorem slh_keygen_internal_does (hp : Matches p K LEN M N A D H HP) (R : HashersRun hs hr)
    (sk_seed sk_prf pk_seed : Vector UInt8 N) :
    Makes (Spec.Run.pkRoot p hr sk_seed.toList pk_seed.toList).log
      (fun v => ∃ root : Vector UInt8 N,
        root.toList = Spec.pkRoot p hr.vals sk_seed.toList pk_seed.toList ∧
        v = (⟨sk_seed, sk_prf, pk_seed, root⟩, ⟨pk_seed, root⟩))
      (slh_keygen_internal D HP hs sk_seed sk_prf pk_seed) := by
  unfold slh_keygen_internal
  have hHP := hp.HP_le
  have hD := hp.D_le
  have hD2 := hp.D_ge
  refine Makes.u32TryFromUnwrap (by omega) fun d32 hd => ?_
  refine Makes.u32TryFromUnwrap (by omega) fun hp32 hh => ?_
  refine Makes.subU32 (by rw [hd]; simp; omega) ?_
  have hd1 : (d32 - 1).toNat = D - 1 := by
    rw [UInt32.toNat_sub_of_le _ _ (by rw [UInt32.le_iff_toNat_le, hd]; simp; omega), hd]; rfl
  have h2 : 2 ^ HP ≤ 2 ^ 31 := Nat.pow_le_pow_right (by decide) (by omega)
  have e := xmss_node_does hp R sk_seed.toList pk_seed.toList (Adrs.default.set_layer_address (d32 - 1))
    HP 0 hp32 hh (by simp; omega)
  rw [Adrs.to_32_set_layer_address, Adrs.to_32_default, hd1] at e
  rw [Spec.Run.pkRoot, Spec.pkRoot, hp.hp, hp.d]
  exact e.last fun root hroot => Returns.pure ⟨root, hroot, rfl⟩

theorem slh_sign_internal_does (hp : Matches p K LEN M N A D H HP) (R : HashersRun hs hr)
    {msg : List (List UInt8)} (hmsg : msg.length ≤ 5) (sk : SlhPrivateKey N)
    (opt_rand : Vector UInt8 N) :
    Makes (Spec.Run.signInternal p hr msg.flatten sk.sk_seed.toList
        sk.sk_prf.toList sk.pk_seed.toList sk.pk_root.toList opt_rand.toList).log
      (fun r => ∃ sig, r = .ok sig ∧ sig.bytes = Spec.signInternal p hr.vals msg.flatten sk.sk_seed.toList
        sk.sk_prf.toList sk.pk_seed.toList sk.pk_root.toList opt_rand.toList)
      (slh_sign_internal A D H HP hs msg sk opt_rand) := by
  unfold slh_sign_internal
  have hDl := hp.D_le
  have hN := hp.N_le
  have hHeq := hp.H_eq
  have hDHP : D * HP ≤ 255 * 31 := Nat.mul_le_mul hp.D_le hp.HP_le
  rw [Spec.Run.signInternal]
  simp only [Spec.Run.log_bind, Spec.Run.log_pure, List.append_nil, Spec.Run.forsSign_val,
    Spec.Run.forsPkFromSig_val]
  refine Makes.u32TryFromUnwrap (by omega) fun d32 hd => ?_
  refine Makes.u32TryFromUnwrap (by omega) fun h32 hh => ?_
  refine (R.prf_msg _ _ _ (by simp; omega) hmsg).bind fun r hr' => ?_
  rw [← hr']
  refine (R.h_msg _ _ _ _ hmsg).bind fun digest hdig => ?_
  rw [← hdig]
  refine Makes.ret (slh_split_returns hp hd hh digest) ?_
  rintro ⟨md, itree, ileaf⟩ ⟨h1, h2, h3, h4, h5⟩
  simp only at h1 h2 h3 h4 h5
  dsimp only
  have h2HP : 2 ^ HP ≤ 2 ^ 31 := Nat.pow_le_pow_right (by decide) hp.HP_le
  have hl : ileaf.toUInt32.toNat = ileaf.toNat := by
    rw [UInt64.toNat_toUInt32, Nat.mod_eq_of_lt (by omega)]
  have hadr := to_32_fors_adrs itree ileaf.toUInt32
  generalize ((Adrs.default.set_tree_address itree).set_type_and_clear FORS_TREE).set_key_pair_address
      ileaf.toUInt32 = adrs at *
  rw [← h1, ← h3, ← h4, ← hl, ← hadr]
  refine (fors_sign_does hp R h2 _ _ _).bind ?_
  rintro _ ⟨fs, rfl, hfs⟩
  refine Makes.leak ?_
  dsimp only
  rw [← hfs]
  refine (fors_pk_from_sig_does hp R fs h2 _ _).bind fun pkf hpkf => ?_
  rw [← hpkf]
  refine (ht_sign_does hp R (by simp) _ _ _ (by rw [hl]; exact h5)).last ?_
  rintro _ ⟨hts, rfl, hhts⟩
  refine Returns.leak (Returns.pure ⟨_, rfl, ?_⟩)
  have hr2 : r.toList = hr.vals.PRFmsg sk.sk_prf.toList opt_rand.toList msg.flatten := hr'
  have hd2 : digest.toList = hr.vals.Hmsg r.toList sk.pk_seed.toList sk.pk_root.toList msg.flatten := hdig
  rw [SlhDsaSig.bytes, Spec.signInternal, Spec.signWithR]
  dsimp only
  rw [hhts, hpkf, hfs, hadr, hl, h3, h4, h1, hd2, hr2]

theorem slh_verify_internal_does (hp : Matches p K LEN M N A D H HP) (R : HashersRun hs hr)
    {msg : List (List UInt8)} (hmsg : msg.length ≤ 5) (sig : SlhDsaSig A D HP K LEN N)
    (pk : SlhPublicKey N) :
    Makes (Spec.Run.verifyInternal p hr msg.flatten sig.bytes pk.pk_seed.toList pk.pk_root.toList).log
      (· = Spec.verifyInternal p hr.vals msg.flatten sig.bytes pk.pk_seed.toList pk.pk_root.toList)
      (slh_verify_internal H hs msg sig pk) := by
  unfold slh_verify_internal
  have hDl := hp.D_le
  have hN := hp.N_le
  have hHeq := hp.H_eq
  have hDHP : D * HP ≤ 255 * 31 := Nat.mul_le_mul hp.D_le hp.HP_le
  have hlen : sig.bytes.length = p.sigLen := by
    rw [SlhDsaSig.bytes_length, Spec.Params.sigLen, hp.k, hp.a, hp.h, hp.d, hp.len_eq, hp.n, hHeq]
    ring
  have hr1 : sig.randomness.toList.length = p.n := by simp [hp.n]
  have hr2 : (sig.randomness.toList ++ sig.fors_sig.bytes).length = (1 + p.k * (1 + p.a)) * p.n := by
    rw [List.length_append, ForsSig.bytes_length, hr1, hp.k, hp.a, hp.n]; ring
  have hsr : Spec.slice sig.bytes 0 p.n = sig.randomness.toList := by
    have := Spec.slice_zero_append sig.randomness.toList (sig.fors_sig.bytes ++ sig.ht_sig.bytes)
    rwa [hr1, ← List.append_assoc] at this
  have hsf : Spec.slice sig.bytes p.n ((1 + p.k * (1 + p.a)) * p.n) = sig.fors_sig.bytes := by
    rw [SlhDsaSig.bytes, Spec.slice_append_left _ (by rw [hr2])]
    have := Spec.slice_append_right sig.randomness.toList sig.fors_sig.bytes 0
      sig.fors_sig.bytes.length
    rw [Spec.slice_all, ← List.length_append, hr2, hr1, Nat.add_zero] at this
    exact this
  have hsh : Spec.slice sig.bytes ((1 + p.k * (1 + p.a)) * p.n)
      ((1 + p.k * (1 + p.a) + p.h + p.d * p.len) * p.n) = sig.ht_sig.bytes := by
    have := Spec.slice_append_right (sig.randomness.toList ++ sig.fors_sig.bytes)
      sig.ht_sig.bytes 0 sig.ht_sig.bytes.length
    rw [Spec.slice_all, ← List.length_append, Nat.add_zero, hr2] at this
    rw [← this]
    show Spec.slice sig.bytes _ _ = Spec.slice sig.bytes _ sig.bytes.length
    rw [hlen, Spec.Params.sigLen]
  rw [Spec.Run.verifyInternal, if_neg (by rw [hlen]; simp)]
  dsimp only
  rw [hsr, hsf, hsh]
  simp only [Spec.Run.log_bind, Spec.Run.forsPkFromSig_val]
  refine Makes.u32TryFromUnwrap (by omega) fun d32 hd => ?_
  refine Makes.u32TryFromUnwrap (by omega) fun h32 hh => ?_
  refine (R.h_msg _ _ _ _ hmsg).bind fun digest hdig => ?_
  rw [← hdig]
  rw [slh_verify_split_eq]
  refine Makes.ret (slh_split_returns hp hd hh digest) ?_
  rintro ⟨md, itree, ileaf⟩ ⟨h1, h2, h3, h4, h5⟩
  simp only at h1 h2 h3 h4 h5
  dsimp only
  have h2HP : 2 ^ HP ≤ 2 ^ 31 := Nat.pow_le_pow_right (by decide) hp.HP_le
  have hl : ileaf.toUInt32.toNat = ileaf.toNat := by
    rw [UInt64.toNat_toUInt32, Nat.mod_eq_of_lt (by omega)]
  rw [u32TryFromU64, if_pos (by omega)]
  refine Makes.leak ?_
  dsimp only
  have hadr := to_32_fors_adrs itree ileaf.toUInt32
  generalize ((Adrs.default.set_tree_address itree).set_type_and_clear FORS_TREE).set_key_pair_address
      ileaf.toUInt32 = adrs at *
  rw [← h1, ← h3, ← h4, ← hl, ← hadr]
  refine (fors_pk_from_sig_does hp R _ h2 _ _).bind fun pkf hpkf => ?_
  rw [← hpkf]
  have hd2 : digest.toList = hr.vals.Hmsg sig.randomness.toList pk.pk_seed.toList pk.pk_root.toList
    msg.flatten := hdig
  refine (ht_verify_does hp R (by simp) _ _ _ _ _).mono fun b hb => ?_
  rw [hb, hpkf, Spec.verifyInternal, if_neg (by rw [hlen]; simp)]
  dsimp only
  rw [hsr, hsf, hsh, ← hd2, ← h1, ← h3, ← h4, hadr, hl]

end Fips205.Model
