import Verif.Model.Lib

/-!
# Features and items

Cargo selects features (`Cargo.toml:31-47`), and `cfg` attributes in the source leave out items whose features are not
selected.  This file lists the items of `src/` (functions, methods, types, constants), the attribute of each of them, and
the items that each of them names.  `tools/items.py` reads these tables from the text of the source and compares them with
this file.

Simplified: names of other crates are left out, except `rand_core::OsRng`, which is there only with a feature of that
crate; constants of the modules of the parameter sets (`N`, `SIG_LEN`, ...), which stand in the same module as their uses,
are left out; tests (`cfg(test)`) are left out.
-/

namespace Fips205.Model.Cargo
open Fips205.Model

/-- The features of the crate, `Cargo.toml:35-47`. -/
inductive Feature where
  | defaultRng
  | set (ps : ParamSet)
  deriving DecidableEq

/-- The features that are selected, of those in `Cargo.toml:35-47`. -/
abbrev Selection := Feature → Bool

/-- `default = [...]`, `Cargo.toml:32-34`: all of them. -/
def standard : Selection := fun _ => true

/-- The items outside the macro of `src/lib.rs`: those of `src/fors.rs:1-263`, `src/hashers.rs:1-375`,
`src/helpers.rs:1-268`, `src/hypertree.rs:1-161`, `src/slh.rs:1-355`, `src/traits.rs:1-569`, `src/types.rs:1-132`,
`src/wots.rs:1-251`, `src/xmss.rs:1-203` and `src/lib.rs:55-72`. -/
inductive Shared where
  | Ph | SlhDsaSig | SlhPublicKey | SlhPrivateKey | ForsSig | ForsPk | Auth | HtSig | WotsSig | WotsPk | XmssSig
  | XmssSig_get_wots_sig | XmssSig_get_xmss_auth | WOTS_HASH | WOTS_PK | TREE | FORS_TREE | FORS_ROOTS | WOTS_PRF
  | FORS_PRF | Adrs | to_int | to_byte | base_2b | SlhDsaSig_serialize | SlhDsaSig_deserialize
  | Adrs_set_layer_address | Adrs_get_key_pair_address | Adrs_set_key_pair_address | Adrs_set_chain_address
  | Adrs_set_type_and_clear | Adrs_set_tree_address | Adrs_set_hash_address | Adrs_set_tree_height
  | Adrs_get_tree_index | Adrs_set_tree_index | Adrs_to_32_bytes | Adrs_to_22_bytes | Hashers | shake_shake256
  | shake_h_msg | shake_prf | shake_prf_msg | shake_f | shake_h | shake_t_l | sha2_cat_1_sha2_256 | sha2_cat_1_h_msg
  | sha2_cat_1_prf | sha2_cat_1_hmac_sha_256 | sha2_cat_1_prf_msg | sha2_cat_1_f | sha2_cat_1_h | sha2_cat_1_t_l
  | sha2_cat_3_5_sha2_256 | sha2_cat_3_5_sha2_512 | sha2_cat_3_5_h_msg | sha2_cat_3_5_prf | sha2_cat_3_5_hmac_sha_512
  | sha2_cat_3_5_prf_msg | sha2_cat_3_5_f | sha2_cat_3_5_h | sha2_cat_3_5_t_l | hash_message | chain | wots_pkgen
  | wots_sign | wots_pk_from_sig | xmss_node | xmss_sign | xmss_pk_from_sig | ht_sign | ht_verify | fors_sk_gen
  | fors_node | fors_sign | fors_pk_from_sig | slh_keygen_with_rng | slh_keygen_internal | slh_sign_with_rng
  | slh_sign_internal | slh_verify | slh_verify_internal | KeyGen | KeyGen_try_keygen | KeyGen_try_keygen_with_rng
  | KeyGen_keygen_with_seeds | DummyRng | Signer | Signer_try_sign | Signer_try_hash_sign | Signer_try_sign_with_rng
  | Signer_try_hash_sign_with_rng | Signer_get_public_key | Signer__test_only_raw_sign | Verifier | Verifier_verify
  | Verifier_hash_verify | Verifier__test_only_raw_verify | SerDes | SerDes_into_bytes | SerDes_try_from_bytes | LGW
  | W | LEN2
  deriving DecidableEq

/-- The items that the macro `functionality` (`src/lib.rs:76-445`) puts into each module, and `HASHERS`. -/
inductive Api where
  | PrivateKey | PublicKey | KG | try_keygen | try_keygen_with_rng | KeyGen_for_KG_try_keygen_with_rng
  | Signer_for_PrivateKey_try_sign_with_rng | Signer_for_PrivateKey_try_hash_sign_with_rng
  | Signer_for_PrivateKey_get_public_key | Signer_for_PrivateKey__test_only_raw_sign | Verifier_for_PublicKey_verify
  | Verifier_for_PublicKey_hash_verify | Verifier_for_PublicKey__test_only_raw_verify
  | SerDes_for_PublicKey_into_bytes | SerDes_for_PublicKey_try_from_bytes | SerDes_for_PrivateKey_into_bytes
  | SerDes_for_PrivateKey_try_from_bytes | HASHERS
  deriving DecidableEq

/-- The features of the attribute `cfg(any(..))` before the item or its module; none if there is no attribute.
`src/hashers.rs:18-26`, `98`, `204-212`, `src/helpers.rs:229-257`, `src/traits.rs:6`, `56`, `220`, `268`. -/
def Shared.cfg : Shared → List Feature
  -- `src/helpers.rs:237` `src/hashers.rs:32` `src/hashers.rs:40` `src/hashers.rs:52` `src/hashers.rs:59`
  -- `src/hashers.rs:68` `src/hashers.rs:75` `src/hashers.rs:83`
  | .Adrs_to_32_bytes | .shake_shake256 | .shake_h_msg | .shake_prf | .shake_prf_msg | .shake_f | .shake_h
  | .shake_t_l =>
    [.set .slh_dsa_shake_128f, .set .slh_dsa_shake_128s, .set .slh_dsa_shake_192f, .set .slh_dsa_shake_192s,
    .set .slh_dsa_shake_256f, .set .slh_dsa_shake_256s]
  -- `src/helpers.rs:257`
  | .Adrs_to_22_bytes =>
    [.set .slh_dsa_sha2_128f, .set .slh_dsa_sha2_128s, .set .slh_dsa_sha2_192f, .set .slh_dsa_sha2_192s,
    .set .slh_dsa_sha2_256f, .set .slh_dsa_sha2_256s]
  -- `src/hashers.rs:105` `src/hashers.rs:113` `src/hashers.rs:136` `src/hashers.rs:144` `src/hashers.rs:163`
  -- `src/hashers.rs:171` `src/hashers.rs:179` `src/hashers.rs:187`
  | .sha2_cat_1_sha2_256 | .sha2_cat_1_h_msg | .sha2_cat_1_prf | .sha2_cat_1_hmac_sha_256 | .sha2_cat_1_prf_msg
  | .sha2_cat_1_f | .sha2_cat_1_h | .sha2_cat_1_t_l =>
    [.set .slh_dsa_sha2_128f, .set .slh_dsa_sha2_128s]
  -- `src/hashers.rs:216` `src/hashers.rs:224` `src/hashers.rs:232` `src/hashers.rs:255` `src/hashers.rs:263`
  -- `src/hashers.rs:282` `src/hashers.rs:290` `src/hashers.rs:298` `src/hashers.rs:306`
  | .sha2_cat_3_5_sha2_256 | .sha2_cat_3_5_sha2_512 | .sha2_cat_3_5_h_msg | .sha2_cat_3_5_prf
  | .sha2_cat_3_5_hmac_sha_512 | .sha2_cat_3_5_prf_msg | .sha2_cat_3_5_f | .sha2_cat_3_5_h | .sha2_cat_3_5_t_l =>
    [.set .slh_dsa_sha2_192f, .set .slh_dsa_sha2_192s, .set .slh_dsa_sha2_256f, .set .slh_dsa_sha2_256s]
  -- `src/traits.rs:57` `src/traits.rs:221` `src/traits.rs:269`
  | .KeyGen_try_keygen | .Signer_try_sign | .Signer_try_hash_sign =>
    [.defaultRng]
  | _ => []

/-- The same for the items of the macro. `src/lib.rs:143`. -/
def Api.cfg : Api → List Feature
  -- `src/lib.rs:144`
  | .try_keygen => [.defaultRng]
  | _ => []

/-- The shared items that an item names: in the lines of its definition, which `tools/items.py` reads in the files cited
at `Shared`, such as `src/wots.rs:16-50`. -/
def Shared.uses : Shared → List Shared
  -- `src/types.rs:19`
  | .SlhDsaSig =>
    [.ForsSig, .HtSig]
  -- `src/types.rs:53`
  | .ForsSig =>
    [.Auth]
  -- `src/types.rs:73`
  | .HtSig =>
    [.XmssSig]
  -- `src/types.rs:91`
  | .XmssSig =>
    [.WotsSig]
  -- `src/types.rs:98`
  | .XmssSig_get_wots_sig =>
    [.WotsSig, .XmssSig]
  -- `src/types.rs:100`
  | .XmssSig_get_xmss_auth =>
    [.XmssSig]
  -- `src/helpers.rs:35`
  | .to_byte =>
    [.LGW, .LEN2]
  -- `src/helpers.rs:119`
  | .SlhDsaSig_serialize =>
    [.SlhDsaSig]
  -- `src/helpers.rs:152`
  | .SlhDsaSig_deserialize =>
    [.SlhDsaSig, .ForsSig, .Auth, .HtSig, .WotsSig, .XmssSig]
  -- `src/helpers.rs:200`
  | .Adrs_set_layer_address =>
    [.Adrs]
  -- `src/helpers.rs:202`
  | .Adrs_get_key_pair_address =>
    [.Adrs]
  -- `src/helpers.rs:204`
  | .Adrs_set_key_pair_address =>
    [.Adrs]
  -- `src/helpers.rs:206`
  | .Adrs_set_chain_address =>
    [.Adrs]
  -- `src/helpers.rs:208`
  | .Adrs_set_type_and_clear =>
    [.Adrs]
  -- `src/helpers.rs:215`
  | .Adrs_set_tree_address =>
    [.Adrs]
  -- `src/helpers.rs:221`
  | .Adrs_set_hash_address =>
    [.Adrs]
  -- `src/helpers.rs:223`
  | .Adrs_set_tree_height =>
    [.Adrs]
  -- `src/helpers.rs:225`
  | .Adrs_get_tree_index =>
    [.Adrs]
  -- `src/helpers.rs:227`
  | .Adrs_set_tree_index =>
    [.Adrs]
  -- `src/helpers.rs:237`
  | .Adrs_to_32_bytes =>
    [.Adrs]
  -- `src/helpers.rs:257`
  | .Adrs_to_22_bytes =>
    [.Adrs]
  -- `src/hashers.rs:7`
  | .Hashers =>
    [.Adrs]
  -- `src/hashers.rs:40`
  | .shake_h_msg =>
    [.shake_shake256]
  -- `src/hashers.rs:52`
  | .shake_prf =>
    [.Adrs, .Adrs_to_32_bytes, .shake_shake256]
  -- `src/hashers.rs:59`
  | .shake_prf_msg =>
    [.shake_shake256]
  -- `src/hashers.rs:68`
  | .shake_f =>
    [.Adrs, .Adrs_to_32_bytes, .shake_shake256]
  -- `src/hashers.rs:75`
  | .shake_h =>
    [.Adrs, .Adrs_to_32_bytes, .shake_shake256]
  -- `src/hashers.rs:83`
  | .shake_t_l =>
    [.Adrs, .Adrs_to_32_bytes]
  -- `src/hashers.rs:113`
  | .sha2_cat_1_h_msg =>
    [.sha2_cat_1_sha2_256]
  -- `src/hashers.rs:136`
  | .sha2_cat_1_prf =>
    [.Adrs, .Adrs_to_22_bytes, .sha2_cat_1_sha2_256]
  -- `src/hashers.rs:163`
  | .sha2_cat_1_prf_msg =>
    [.sha2_cat_1_hmac_sha_256]
  -- `src/hashers.rs:171`
  | .sha2_cat_1_f =>
    [.Adrs, .Adrs_to_22_bytes, .sha2_cat_1_sha2_256]
  -- `src/hashers.rs:179`
  | .sha2_cat_1_h =>
    [.Adrs, .Adrs_to_22_bytes, .sha2_cat_1_sha2_256]
  -- `src/hashers.rs:187`
  | .sha2_cat_1_t_l =>
    [.Adrs, .Adrs_to_22_bytes]
  -- `src/hashers.rs:232`
  | .sha2_cat_3_5_h_msg =>
    [.sha2_cat_3_5_sha2_512]
  -- `src/hashers.rs:255`
  | .sha2_cat_3_5_prf =>
    [.Adrs, .Adrs_to_22_bytes, .sha2_cat_3_5_sha2_256]
  -- `src/hashers.rs:282`
  | .sha2_cat_3_5_prf_msg =>
    [.sha2_cat_3_5_hmac_sha_512]
  -- `src/hashers.rs:290`
  | .sha2_cat_3_5_f =>
    [.Adrs, .Adrs_to_22_bytes, .sha2_cat_3_5_sha2_256]
  -- `src/hashers.rs:298`
  | .sha2_cat_3_5_h =>
    [.Adrs, .Adrs_to_22_bytes, .sha2_cat_3_5_sha2_512]
  -- `src/hashers.rs:306`
  | .sha2_cat_3_5_t_l =>
    [.Adrs, .Adrs_to_22_bytes]
  -- `src/hashers.rs:322`
  | .hash_message =>
    [.Ph]
  -- `src/wots.rs:16`
  | .chain =>
    [.Adrs, .Adrs_set_hash_address, .Hashers]
  -- `src/wots.rs:55`
  | .wots_pkgen =>
    [.WotsPk, .WOTS_PK, .WOTS_PRF, .Adrs, .Adrs_get_key_pair_address, .Adrs_set_key_pair_address,
    .Adrs_set_chain_address, .Adrs_set_type_and_clear, .Hashers, .chain, .W]
  -- `src/wots.rs:112`
  | .wots_sign =>
    [.WotsSig, .WOTS_PRF, .Adrs, .to_byte, .base_2b, .Adrs_get_key_pair_address, .Adrs_set_key_pair_address,
    .Adrs_set_chain_address, .Adrs_set_type_and_clear, .Hashers, .chain, .LGW, .W, .LEN2]
  -- `src/wots.rs:183`
  | .wots_pk_from_sig =>
    [.WotsSig, .WotsPk, .WOTS_PK, .Adrs, .to_byte, .base_2b, .Adrs_get_key_pair_address, .Adrs_set_key_pair_address,
    .Adrs_set_chain_address, .Adrs_set_type_and_clear, .Hashers, .chain, .LGW, .W, .LEN2]
  -- `src/xmss.rs:13`
  | .xmss_node =>
    [.WOTS_HASH, .TREE, .Adrs, .Adrs_set_key_pair_address, .Adrs_set_type_and_clear, .Adrs_set_tree_height,
    .Adrs_set_tree_index, .Hashers, .wots_pkgen]
  -- `src/xmss.rs:78`
  | .xmss_sign =>
    [.WotsSig, .XmssSig, .WOTS_HASH, .Adrs, .Adrs_set_key_pair_address, .Adrs_set_type_and_clear, .Hashers,
    .wots_sign, .xmss_node]
  -- `src/xmss.rs:132`
  | .xmss_pk_from_sig =>
    [.XmssSig, .XmssSig_get_wots_sig, .XmssSig_get_xmss_auth, .WOTS_HASH, .TREE, .Adrs, .Adrs_set_key_pair_address,
    .Adrs_set_type_and_clear, .Adrs_set_tree_height, .Adrs_get_tree_index, .Adrs_set_tree_index, .Hashers,
    .wots_pk_from_sig]
  -- `src/hypertree.rs:13`
  | .ht_sign =>
    [.HtSig, .WotsSig, .XmssSig, .Adrs, .Adrs_set_layer_address, .Adrs_set_tree_address, .Hashers, .xmss_sign,
    .xmss_pk_from_sig]
  -- `src/hypertree.rs:100`
  | .ht_verify =>
    [.HtSig, .Adrs, .Adrs_set_layer_address, .Adrs_set_tree_address, .Hashers, .xmss_pk_from_sig]
  -- `src/fors.rs:12`
  | .fors_sk_gen =>
    [.FORS_PRF, .Adrs, .Adrs_get_key_pair_address, .Adrs_set_key_pair_address, .Adrs_set_type_and_clear,
    .Adrs_set_tree_index, .Hashers]
  -- `src/fors.rs:39`
  | .fors_node =>
    [.Adrs, .Adrs_set_tree_height, .Adrs_set_tree_index, .Hashers, .fors_sk_gen]
  -- `src/fors.rs:102`
  | .fors_sign =>
    [.ForsSig, .Auth, .Adrs, .base_2b, .Hashers, .fors_sk_gen, .fors_node]
  -- `src/fors.rs:172`
  | .fors_pk_from_sig =>
    [.ForsSig, .ForsPk, .FORS_ROOTS, .Adrs, .base_2b, .Adrs_get_key_pair_address, .Adrs_set_key_pair_address,
    .Adrs_set_type_and_clear, .Adrs_set_tree_height, .Adrs_get_tree_index, .Adrs_set_tree_index, .Hashers]
  -- `src/slh.rs:14`
  | .slh_keygen_with_rng =>
    [.SlhPublicKey, .SlhPrivateKey, .Hashers, .slh_keygen_internal]
  -- `src/slh.rs:51`
  | .slh_keygen_internal =>
    [.SlhPublicKey, .SlhPrivateKey, .Adrs, .Adrs_set_layer_address, .Hashers, .xmss_node]
  -- `src/slh.rs:90`
  | .slh_sign_with_rng =>
    [.SlhDsaSig, .SlhPrivateKey, .Hashers, .slh_sign_internal]
  -- `src/slh.rs:139`
  | .slh_sign_internal =>
    [.SlhDsaSig, .SlhPrivateKey, .ForsSig, .Auth, .HtSig, .WotsSig, .XmssSig, .FORS_TREE, .Adrs, .to_int,
    .Adrs_set_key_pair_address, .Adrs_set_type_and_clear, .Adrs_set_tree_address, .Hashers, .ht_sign, .fors_sign,
    .fors_pk_from_sig]
  -- `src/slh.rs:241`
  | .slh_verify =>
    [.SlhDsaSig, .SlhPublicKey, .Hashers, .slh_verify_internal]
  -- `src/slh.rs:276`
  | .slh_verify_internal =>
    [.SlhDsaSig, .SlhPublicKey, .FORS_TREE, .Adrs, .to_int, .Adrs_set_key_pair_address, .Adrs_set_type_and_clear,
    .Adrs_set_tree_address, .Hashers, .ht_verify, .fors_pk_from_sig]
  -- `src/traits.rs:57`
  | .KeyGen_try_keygen =>
    [.KeyGen, .KeyGen_try_keygen_with_rng]
  -- `src/traits.rs:101`
  | .KeyGen_try_keygen_with_rng =>
    [.KeyGen]
  -- `src/traits.rs:147`
  | .KeyGen_keygen_with_seeds =>
    [.KeyGen, .KeyGen_try_keygen_with_rng, .DummyRng]
  -- `src/traits.rs:221`
  | .Signer_try_sign =>
    [.Signer, .Signer_try_sign_with_rng]
  -- `src/traits.rs:269`
  | .Signer_try_hash_sign =>
    [.Ph, .Signer, .Signer_try_hash_sign_with_rng]
  -- `src/traits.rs:316`
  | .Signer_try_sign_with_rng =>
    [.Signer]
  -- `src/traits.rs:364`
  | .Signer_try_hash_sign_with_rng =>
    [.Ph, .Signer]
  -- `src/traits.rs:391`
  | .Signer_get_public_key =>
    [.Signer]
  -- `src/traits.rs:398`
  | .Signer__test_only_raw_sign =>
    [.Signer]
  -- `src/traits.rs:448`
  | .Verifier_verify =>
    [.Verifier]
  -- `src/traits.rs:489`
  | .Verifier_hash_verify =>
    [.Ph, .Verifier]
  -- `src/traits.rs:497`
  | .Verifier__test_only_raw_verify =>
    [.Verifier]
  -- `src/traits.rs:535`
  | .SerDes_into_bytes =>
    [.SerDes]
  -- `src/traits.rs:566`
  | .SerDes_try_from_bytes =>
    [.SerDes]
  | _ => []

/-- The items that name `rand_core::OsRng`. `src/traits.rs:7`, `58`, `224`, `272`. -/
def Shared.osRng : Shared → Bool
  -- `src/traits.rs:57`
  | .KeyGen_try_keygen => true
  -- `src/traits.rs:221`
  | .Signer_try_sign => true
  -- `src/traits.rs:269`
  | .Signer_try_hash_sign => true
  | _ => false

/-- The shared items that an item of the macro names. `src/lib.rs:76-445`. -/
def Api.uses : Api → List Shared
  -- `src/lib.rs:90`
  | .PrivateKey =>
    [.SlhPrivateKey]
  -- `src/lib.rs:95`
  | .PublicKey =>
    [.SlhPublicKey]
  -- `src/lib.rs:144`
  | .try_keygen =>
    [.KeyGen_try_keygen]
  -- `src/lib.rs:186`
  | .try_keygen_with_rng =>
    [.KeyGen_try_keygen_with_rng]
  -- `src/lib.rs:198`
  | .KeyGen_for_KG_try_keygen_with_rng =>
    [.slh_keygen_with_rng, .KeyGen, .KeyGen_try_keygen_with_rng]
  -- `src/lib.rs:212`
  | .Signer_for_PrivateKey_try_sign_with_rng =>
    [.SlhDsaSig_serialize, .slh_sign_with_rng, .Signer, .Signer_try_sign_with_rng]
  -- `src/lib.rs:226`
  | .Signer_for_PrivateKey_try_hash_sign_with_rng =>
    [.Ph, .SlhDsaSig_serialize, .hash_message, .slh_sign_with_rng, .Signer, .Signer_try_hash_sign_with_rng]
  -- `src/lib.rs:249`
  | .Signer_for_PrivateKey_get_public_key =>
    [.SlhPublicKey, .Signer, .Signer_get_public_key]
  -- `src/lib.rs:254`
  | .Signer_for_PrivateKey__test_only_raw_sign =>
    [.SlhDsaSig_serialize, .slh_sign_internal, .Signer, .Signer__test_only_raw_sign]
  -- `src/lib.rs:281`
  | .Verifier_for_PublicKey_verify =>
    [.SlhDsaSig, .SlhDsaSig_deserialize, .slh_verify, .Verifier, .Verifier_verify]
  -- `src/lib.rs:294`
  | .Verifier_for_PublicKey_hash_verify =>
    [.Ph, .SlhDsaSig, .SlhDsaSig_deserialize, .hash_message, .slh_verify, .Verifier, .Verifier_hash_verify]
  -- `src/lib.rs:317`
  | .Verifier_for_PublicKey__test_only_raw_verify =>
    [.SlhDsaSig, .SlhDsaSig_deserialize, .slh_verify_internal, .Verifier, .Verifier__test_only_raw_verify]
  -- `src/lib.rs:338`
  | .SerDes_for_PublicKey_into_bytes =>
    [.SerDes, .SerDes_into_bytes]
  -- `src/lib.rs:346`
  | .SerDes_for_PublicKey_try_from_bytes =>
    [.SlhPublicKey, .SerDes, .SerDes_try_from_bytes]
  -- `src/lib.rs:359`
  | .SerDes_for_PrivateKey_into_bytes =>
    [.SerDes, .SerDes_into_bytes]
  -- `src/lib.rs:369`
  | .SerDes_for_PrivateKey_try_from_bytes =>
    [.SlhPrivateKey, .slh_keygen_internal, .SerDes, .SerDes_try_from_bytes]
  -- `src/lib.rs:472-473`
  | .HASHERS => [.Hashers]
  | .KG => []

/-- The items of the same module that an item of the macro names. `src/lib.rs:76-445`. -/
def Api.inner : Api → List Api
  | .try_keygen => [.PrivateKey, .PublicKey, .KG]
  | .try_keygen_with_rng => [.PrivateKey, .PublicKey, .KG]
  | .KeyGen_for_KG_try_keygen_with_rng => [.PrivateKey, .PublicKey, .KG, .HASHERS]
  | .Signer_for_PrivateKey_try_sign_with_rng => [.PrivateKey, .HASHERS]
  | .Signer_for_PrivateKey_try_hash_sign_with_rng => [.PrivateKey, .HASHERS]
  | .Signer_for_PrivateKey_get_public_key => [.PrivateKey, .PublicKey]
  | .Signer_for_PrivateKey__test_only_raw_sign => [.PrivateKey, .HASHERS]
  | .Verifier_for_PublicKey_verify => [.PublicKey, .HASHERS]
  | .Verifier_for_PublicKey_hash_verify => [.PublicKey, .HASHERS]
  | .Verifier_for_PublicKey__test_only_raw_verify => [.PublicKey, .HASHERS]
  | .SerDes_for_PublicKey_into_bytes => [.PublicKey]
  | .SerDes_for_PublicKey_try_from_bytes => [.PublicKey]
  | .SerDes_for_PrivateKey_into_bytes => [.PrivateKey]
  | .SerDes_for_PrivateKey_try_from_bytes => [.PrivateKey, .HASHERS]
  | _ => []

/-- The functions that `HASHERS` of a module names: the `use` line of the module. `src/lib.rs:450`, `500`, ...,
`1000`. -/
def hashers : ParamSet → List Shared
  -- `src/lib.rs:450`
  | .slh_dsa_sha2_128s =>
    [.sha2_cat_1_f, .sha2_cat_1_h, .sha2_cat_1_h_msg, .sha2_cat_1_prf, .sha2_cat_1_prf_msg, .sha2_cat_1_t_l]
  -- `src/lib.rs:500`
  | .slh_dsa_shake_128s =>
    [.shake_f, .shake_h, .shake_h_msg, .shake_prf, .shake_prf_msg, .shake_t_l]
  -- `src/lib.rs:550`
  | .slh_dsa_sha2_128f =>
    [.sha2_cat_1_f, .sha2_cat_1_h, .sha2_cat_1_h_msg, .sha2_cat_1_prf, .sha2_cat_1_prf_msg, .sha2_cat_1_t_l]
  -- `src/lib.rs:600`
  | .slh_dsa_shake_128f =>
    [.shake_f, .shake_h, .shake_h_msg, .shake_prf, .shake_prf_msg, .shake_t_l]
  -- `src/lib.rs:650`
  | .slh_dsa_sha2_192s =>
    [.sha2_cat_3_5_f, .sha2_cat_3_5_h, .sha2_cat_3_5_h_msg, .sha2_cat_3_5_prf, .sha2_cat_3_5_prf_msg, .sha2_cat_3_5_t_l]
  -- `src/lib.rs:700`
  | .slh_dsa_shake_192s =>
    [.shake_f, .shake_h, .shake_h_msg, .shake_prf, .shake_prf_msg, .shake_t_l]
  -- `src/lib.rs:750`
  | .slh_dsa_sha2_192f =>
    [.sha2_cat_3_5_f, .sha2_cat_3_5_h, .sha2_cat_3_5_h_msg, .sha2_cat_3_5_prf, .sha2_cat_3_5_prf_msg, .sha2_cat_3_5_t_l]
  -- `src/lib.rs:800`
  | .slh_dsa_shake_192f =>
    [.shake_f, .shake_h, .shake_h_msg, .shake_prf, .shake_prf_msg, .shake_t_l]
  -- `src/lib.rs:850`
  | .slh_dsa_sha2_256s =>
    [.sha2_cat_3_5_f, .sha2_cat_3_5_h, .sha2_cat_3_5_h_msg, .sha2_cat_3_5_prf, .sha2_cat_3_5_prf_msg, .sha2_cat_3_5_t_l]
  -- `src/lib.rs:900`
  | .slh_dsa_shake_256s =>
    [.shake_f, .shake_h, .shake_h_msg, .shake_prf, .shake_prf_msg, .shake_t_l]
  -- `src/lib.rs:950`
  | .slh_dsa_sha2_256f =>
    [.sha2_cat_3_5_f, .sha2_cat_3_5_h, .sha2_cat_3_5_h_msg, .sha2_cat_3_5_prf, .sha2_cat_3_5_prf_msg, .sha2_cat_3_5_t_l]
  -- `src/lib.rs:1000`
  | .slh_dsa_shake_256f =>
    [.shake_f, .shake_h, .shake_h_msg, .shake_prf, .shake_prf_msg, .shake_t_l]

/-- An item of the crate after the modules of the parameter sets are expanded, or the type `OsRng` of `rand_core`.
`src/lib.rs:448-1026`, `src/traits.rs:7`. -/
inductive Item where
  | shared (s : Shared)
  | api (ps : ParamSet) (a : Api)
  | osRng
  deriving DecidableEq

/-- `cfg(any(..))`. `src/hashers.rs:18`, `98`, `204`. -/
def any (F : Selection) : List Feature → Bool
  | [] => true
  | c => c.any F

/-- The item is compiled.  `OsRng` is there with the feature `getrandom` of `rand_core`, which `default-rng` selects
(`Cargo.toml:35`); a module is there with the feature of its name (`src/lib.rs:448`, `498`, ...). -/
def present (F : Selection) : Item → Bool
  | .shared s => any F s.cfg
  | .api ps a => F (.set ps) && any F a.cfg
  | .osRng => F .defaultRng

/-- The items that an item names. `src/lib.rs:76-1026`. -/
def uses : Item → List Item
  | .shared s => s.uses.map .shared ++ if s.osRng then [.osRng] else []
  | .api ps a => a.uses.map .shared ++ a.inner.map (.api ps) ++ if a = .HASHERS then (hashers ps).map .shared else []
  | .osRng => []

/-- Items that a user of the crate can name or that implement a public trait: not subject to the lint for dead code.
`src/lib.rs:56-57`, `90-384`; `src/traits.rs`. -/
def isPublic : Item → Bool
  | .shared s => match s with
    | .Ph | .KeyGen | .KeyGen_try_keygen | .KeyGen_try_keygen_with_rng | .KeyGen_keygen_with_seeds | .Signer
    | .Signer_try_sign | .Signer_try_hash_sign | .Signer_try_sign_with_rng | .Signer_try_hash_sign_with_rng
    | .Signer_get_public_key | .Signer__test_only_raw_sign | .Verifier | .Verifier_verify | .Verifier_hash_verify
    | .Verifier__test_only_raw_verify | .SerDes | .SerDes_into_bytes | .SerDes_try_from_bytes => true
    | _ => false
  | .api _ a => a ≠ .HASHERS
  | .osRng => true

end Fips205.Model.Cargo
