import Verif.Model.Items
import Verif.Proofs.Lib
import Mathlib.Logic.Relation

/-!
# Selecting features (C84)

A user of the crate selects features: any of the twelve parameter sets, and the random number generator of the operating
system.  Whatever they select, no part of the code that is compiled names a part that is left out; so every selection has
all the functions of the parameter sets in it, complete, and nothing else of the API changes.  The crate forbids dead code
(`src/lib.rs:2-4`): no selection has any, except one without any parameter set.
-/

namespace Fips205.Props
open Fips205 Fips205.Model Fips205.Model.Cargo

/-- The item `j` is needed for the item `i`, directly or through others. -/
def Needs (i j : Item) : Prop := Relation.ReflTransGen (fun a b => b ∈ uses a) i j

theorem any_of_subset {F : Selection} {c d : List Feature} (h : d = [] ∨ (c ≠ [] ∧ ∀ x ∈ c, x ∈ d)) (hc : any F c = true) :
    any F d = true := by
  rcases h with rfl | ⟨h0, h⟩
  · rfl
  · match c, d with
    | [], _ => exact absurd rfl h0
    | _ :: _, [] => rfl
    | _ :: _, _ :: _ =>
      obtain ⟨x, hx, hF⟩ := List.any_eq_true.1 hc
      exact List.any_eq_true.2 ⟨x, h x hx, hF⟩

theorem shared_uses (s : Shared) : ∀ j ∈ s.uses, j.cfg = [] ∨ (s.cfg ≠ [] ∧ ∀ x ∈ s.cfg, x ∈ j.cfg) := by
  cases s <;> decide

theorem shared_osRng (s : Shared) (h : s.osRng = true) : s.cfg = [.defaultRng] := by
  cases s <;> first | rfl | exact absurd h (by decide)

theorem api_uses (a : Api) : ∀ j ∈ a.uses, j.cfg = [] ∨ (a.cfg ≠ [] ∧ ∀ x ∈ a.cfg, x ∈ j.cfg) := by
  cases a <;> decide

theorem api_inner (a : Api) : ∀ j ∈ a.inner, j.cfg = [] := by
  cases a <;> decide

theorem hashers_cfg (ps : ParamSet) : ∀ j ∈ hashers ps, Feature.set ps ∈ j.cfg := by
  cases ps <;> decide

/-- **C84** Whatever features are selected, an item that is compiled names only items that are compiled. -/
theorem C84_resolves (F : Selection) (i j : Item) (hi : present F i = true) (hj : j ∈ uses i) : present F j = true := by
  match i with
  | .shared s =>
    rcases List.mem_append.1 hj with hj | hj
    · obtain ⟨x, hx, rfl⟩ := List.mem_map.1 hj
      exact any_of_subset (shared_uses s x hx) hi
    · split at hj
      · next h =>
        obtain rfl := List.mem_singleton.1 hj
        have hi : any F s.cfg = true := hi
        rw [shared_osRng s h] at hi
        simpa [any, present] using hi
      · exact absurd hj List.not_mem_nil
  | .api ps a =>
    obtain ⟨hp, ha⟩ := Bool.and_eq_true_iff.1 hi
    rcases List.mem_append.1 hj with hj | hj
    · rcases List.mem_append.1 hj with hj | hj
      · obtain ⟨x, hx, rfl⟩ := List.mem_map.1 hj
        exact any_of_subset (api_uses a x hx) ha
      · obtain ⟨x, hx, rfl⟩ := List.mem_map.1 hj
        exact Bool.and_eq_true_iff.2 ⟨hp, by rw [api_inner a x hx]; rfl⟩
    · split at hj
      · obtain ⟨x, hx, rfl⟩ := List.mem_map.1 hj
        have h := hashers_cfg ps x hx
        change any F x.cfg = true
        match hc : x.cfg with
        | [] => rfl
        | c :: cs =>
          rw [hc] at h
          exact List.any_eq_true.2 ⟨_, h, hp⟩
      · exact absurd hj List.not_mem_nil
  | .osRng => exact absurd hj List.not_mem_nil

/-- **C84** So everything that a function of a selected parameter set needs is compiled, whatever else is selected. -/
theorem C84_complete (F : Selection) (i j : Item) (hi : present F i = true) (h : Needs i j) : present F j = true := by
  induction h with
  | refl => exact hi
  | tail _ hj ih => exact C84_resolves F _ _ ih hj

/-- **C84** The selection has exactly the functions of the parameter sets in it.  The functions that use the random number
generator of the operating system (`try_keygen` of the modules, and the methods `try_keygen`, `try_sign`,
`try_hash_sign` of the traits) are there exactly with the feature `default-rng`. -/
theorem C84_offers (F : Selection) (ps : ParamSet) (a : Api) :
    (present F (.api ps a) = true ↔ F (.set ps) = true ∧ (a = .try_keygen → F .defaultRng = true)) ∧
    (present F (.shared .KeyGen_try_keygen) = true ↔ F .defaultRng = true) ∧
    (present F (.shared .Signer_try_sign) = true ↔ F .defaultRng = true) ∧
    (present F (.shared .Signer_try_hash_sign) = true ↔ F .defaultRng = true) ∧
    ∀ s, isPublic (.shared s) = true → s ≠ .KeyGen_try_keygen → s ≠ .Signer_try_sign → s ≠ .Signer_try_hash_sign →
      present F (.shared s) = true := by
  refine ⟨?_, by simp [present, Shared.cfg, any], by simp [present, Shared.cfg, any],
    by simp [present, Shared.cfg, any], fun s hp h1 h2 h3 => ?_⟩
  · rw [present, Bool.and_eq_true_iff]
    refine and_congr_right fun _ => ?_
    cases a <;> simp [Api.cfg, any]
  · cases s <;> first | rfl | exact absurd rfl h1 | exact absurd rfl h2 | exact absurd rfl h3 | exact absurd hp (by decide)

/-- **C84** A parameter set uses the six functions of its own hash module: `shake` for the SHAKE sets, `sha2_cat_1` for the
SHA2 sets with `n = 16`, `sha2_cat_3_5` for the others. -/
theorem C84_hashers (ps : ParamSet) : hashers ps =
    match ps.family, ps.sp.n with
    | .shake, _ => [.shake_f, .shake_h, .shake_h_msg, .shake_prf, .shake_prf_msg, .shake_t_l]
    | .sha2, 16 => [.sha2_cat_1_f, .sha2_cat_1_h, .sha2_cat_1_h_msg, .sha2_cat_1_prf, .sha2_cat_1_prf_msg, .sha2_cat_1_t_l]
    | .sha2, _ => [.sha2_cat_3_5_f, .sha2_cat_3_5_h, .sha2_cat_3_5_h_msg, .sha2_cat_3_5_prf, .sha2_cat_3_5_prf_msg,
        .sha2_cat_3_5_t_l] := by
  cases ps <;> rfl

/-! ## Dead code -/

/-- Every element of the second list is one of `roots` or is named by an element before it. -/
def linked (roots : List Shared) : List Shared → List Shared → Bool
  | _, [] => true
  | seen, x :: xs => (decide (x ∈ roots) || seen.any fun y => decide (x ∈ y.uses)) && linked roots (x :: seen) xs

theorem linked_needs {roots : List Shared} {Q : Item → Prop}
    (hQ : ∀ i s, Q i → .shared s ∈ uses i → Q (.shared s)) (hr : ∀ s ∈ roots, Q (.shared s)) :
    ∀ xs seen, (∀ s ∈ seen, Q (.shared s)) → linked roots seen xs = true → ∀ s ∈ xs, Q (.shared s)
  | [], _, _, _ => fun _ h => absurd h List.not_mem_nil
  | x :: xs, seen, hs, h => by
    rw [linked, Bool.and_eq_true_iff, Bool.or_eq_true_iff] at h
    have hx : Q (.shared x) := by
      rcases h.1 with h | h
      · exact hr x (of_decide_eq_true h)
      · obtain ⟨y, hy, hu⟩ := List.any_eq_true.1 h
        exact hQ (.shared y) x (hs y hy) (List.mem_append_left _ (List.mem_map_of_mem (of_decide_eq_true hu)))
    intro s hm
    rcases List.mem_cons.1 hm with rfl | hm
    · exact hx
    · exact linked_needs hQ hr xs (x :: seen) (fun s h => (List.mem_cons.1 h).elim (fun e => e ▸ hx) (hs s)) h.2 s hm

/-- The items of a module that are compiled with every selection that has the module. -/
def always : List Api :=
  [.PrivateKey, .PublicKey, .KeyGen_for_KG_try_keygen_with_rng, .Signer_for_PrivateKey_try_sign_with_rng,
    .Signer_for_PrivateKey_try_hash_sign_with_rng, .Verifier_for_PublicKey_verify, .Verifier_for_PublicKey_hash_verify]

/-- The shared items that are not public and are compiled with every selection, in the order in which they are named. -/
def order : List Shared :=
  [.SlhPrivateKey, .SlhPublicKey, .slh_keygen_with_rng, .SlhDsaSig_serialize, .slh_sign_with_rng, .hash_message,
    .slh_sign_internal, .SlhDsaSig, .SlhDsaSig_deserialize, .slh_verify, .slh_verify_internal, .slh_keygen_internal, .Hashers,
    .ForsSig, .Auth, .HtSig, .WotsSig, .XmssSig, .FORS_TREE, .Adrs, .to_int, .Adrs_set_key_pair_address,
    .Adrs_set_type_and_clear, .Adrs_set_tree_address, .ht_sign, .fors_sign, .fors_pk_from_sig, .ht_verify,
    .Adrs_set_layer_address, .xmss_node, .xmss_sign, .xmss_pk_from_sig, .base_2b, .fors_sk_gen, .fors_node, .ForsPk,
    .FORS_ROOTS, .Adrs_get_key_pair_address, .Adrs_set_tree_height, .Adrs_get_tree_index, .Adrs_set_tree_index, .WOTS_HASH,
    .TREE, .wots_pkgen, .wots_sign, .XmssSig_get_wots_sig, .XmssSig_get_xmss_auth, .wots_pk_from_sig, .FORS_PRF, .WotsPk,
    .WOTS_PK, .WOTS_PRF, .Adrs_set_chain_address, .chain, .W, .to_byte, .LGW, .LEN2, .Adrs_set_hash_address]

/-- The functions of the hash modules and what they use. -/
def hashOrder (ps : ParamSet) : List Shared :=
  match ps.params.fam with
  | .shake =>
    [.shake_h_msg, .shake_prf, .shake_prf_msg, .shake_f, .shake_h, .shake_t_l, .shake_shake256, .Adrs_to_32_bytes]
  | .sha2_cat_1 =>
    [.sha2_cat_1_h_msg, .sha2_cat_1_prf, .sha2_cat_1_prf_msg, .sha2_cat_1_f, .sha2_cat_1_h, .sha2_cat_1_t_l,
      .sha2_cat_1_sha2_256, .Adrs_to_22_bytes, .sha2_cat_1_hmac_sha_256]
  | .sha2_cat_3_5 =>
    [.sha2_cat_3_5_h_msg, .sha2_cat_3_5_prf, .sha2_cat_3_5_prf_msg, .sha2_cat_3_5_f, .sha2_cat_3_5_h, .sha2_cat_3_5_t_l,
      .sha2_cat_3_5_sha2_512, .Adrs_to_22_bytes, .sha2_cat_3_5_sha2_256, .sha2_cat_3_5_hmac_sha_512]

/-- The item is used: a public item that is compiled needs it. -/
def Live (F : Selection) (i : Item) : Prop := ∃ r, present F r = true ∧ isPublic r = true ∧ Needs r i

theorem live_uses {F : Selection} {i j : Item} (hi : Live F i) (h : j ∈ uses i) : Live F j := by
  obtain ⟨r, h1, h2, h3⟩ := hi
  exact ⟨r, h1, h2, h3.tail h⟩

theorem api_present {F : Selection} {ps : ParamSet} (h : F (.set ps) = true) {a : Api} (ha : a ≠ .try_keygen) :
    present F (.api ps a) = true :=
  (C84_offers F ps a).1.2 ⟨h, fun e => absurd e ha⟩

theorem api_live {F : Selection} {ps : ParamSet} (h : F (.set ps) = true) {a : Api} (ha : a ≠ .try_keygen) :
    Live F (.api ps a) := by
  by_cases e : a = .HASHERS
  · subst e
    refine live_uses (i := .api ps .Verifier_for_PublicKey_verify)
      ⟨_, api_present h (by decide), rfl, .refl⟩ ?_
    exact List.mem_append_left _ (List.mem_append_right _ (List.mem_map_of_mem (by decide)))
  · exact ⟨_, api_present h ha, by simpa [isPublic] using e, .refl⟩

theorem order_live {F : Selection} {ps : ParamSet} (h : F (.set ps) = true) : ∀ s ∈ order, Live F (.shared s) :=
  linked_needs (roots := (always.flatMap Api.uses)) (Q := Live F) (fun _ _ hi hj => live_uses hi hj)
    (fun s hs => by
      obtain ⟨a, ha, hs⟩ := List.mem_flatMap.1 hs
      refine live_uses (api_live h (a := a) ?_) (List.mem_append_left _ (List.mem_append_left _ (List.mem_map_of_mem hs)))
      rintro rfl
      exact absurd ha (by decide)) order [] (fun _ h => absurd h List.not_mem_nil) (by decide)

theorem hash_live {F : Selection} {ps : ParamSet} (h : F (.set ps) = true) : ∀ s ∈ hashOrder ps, Live F (.shared s) :=
  linked_needs (roots := hashers ps) (Q := Live F) (fun _ _ hi hj => live_uses hi hj)
    (fun s hs => live_uses (api_live h (a := .HASHERS) (by decide))
      (List.mem_append_right _ (by rw [if_pos rfl]; exact List.mem_map_of_mem hs)))
    (hashOrder ps) [] (fun _ h => absurd h List.not_mem_nil) (by cases ps <;> decide)

/-- The shared items: public ones, the ones that are there with every selection, one that a public method of a trait
uses, and those of the hash modules. -/
theorem shared_cases (s : Shared) : isPublic (.shared s) = true ∨ s = .DummyRng ∨ (s.cfg = [] ∧ s ∈ order) ∨
    (s.cfg ≠ [] ∧ ∀ x ∈ s.cfg, ∃ ps, x = .set ps ∧ s ∈ hashOrder ps) := by
  cases s <;> first
    | exact .inl (by decide)
    | exact .inr (.inl rfl)
    | exact .inr (.inr (.inl (by decide)))
    | exact .inr (.inr (.inr ⟨by decide, fun x hx => by
        simp only [Shared.cfg, List.mem_cons, List.not_mem_nil, or_false] at hx
        rcases hx with rfl | rfl | rfl | rfl | rfl | rfl <;> exact ⟨_, rfl, by decide⟩⟩))
    | exact .inr (.inr (.inr ⟨by decide, fun x hx => by
        simp only [Shared.cfg, List.mem_cons, List.not_mem_nil, or_false] at hx
        rcases hx with rfl | rfl | rfl | rfl <;> exact ⟨_, rfl, by decide⟩⟩))
    | exact .inr (.inr (.inr ⟨by decide, fun x hx => by
        simp only [Shared.cfg, List.mem_cons, List.not_mem_nil, or_false] at hx
        rcases hx with rfl | rfl <;> exact ⟨_, rfl, by decide⟩⟩))

/-- **C84** There is no dead code: every item that is compiled is public or needed by a public one, if a parameter set is
selected.  Only a selection without any parameter set has dead code. -/
theorem C84_no_dead_code (F : Selection) : (∀ i, present F i = true → Live F i) ↔ ∃ ps, F (.set ps) = true := by
  constructor
  · intro h
    by_contra hn
    push Not at hn
    obtain ⟨r, h1, h2, h3⟩ := h (.shared .chain) rfl
    -- without a module the public items are those of the traits, which do not need `chain`
    have key : ∀ j, Needs r j → (isPublic j = true ∧ ∀ ps a, j ≠ .api ps a) ∨ j = .shared .DummyRng := by
      intro j hj
      induction hj with
      | refl =>
        refine .inl ⟨h2, ?_⟩
        rintro ps a rfl
        have := (Bool.and_eq_true_iff.1 h1).1
        exact absurd this (by simpa using hn ps)
      | tail _ hj ih =>
        next b c _ =>
        rcases ih with ⟨hb, hapi⟩ | rfl
        · match b with
          | .shared s =>
            rcases List.mem_append.1 hj with hj | hj
            · obtain ⟨x, hx, rfl⟩ := List.mem_map.1 hj
              have : ∀ s : Shared, isPublic (.shared s) = true → ∀ x ∈ s.uses, isPublic (.shared x) = true ∨ x = .DummyRng := by
                intro s
                cases s <;> decide
              rcases this s hb x hx with h | rfl
              · exact .inl ⟨h, fun _ _ => Item.noConfusion⟩
              · exact .inr rfl
            · split at hj
              · obtain rfl := List.mem_singleton.1 hj
                exact .inl ⟨rfl, fun _ _ => Item.noConfusion⟩
              · exact absurd hj List.not_mem_nil
          | .api ps a => exact absurd rfl (hapi ps a)
          | .osRng => exact absurd hj List.not_mem_nil
        · exact absurd hj List.not_mem_nil
    rcases key _ h3 with ⟨h, -⟩ | h
    · exact absurd h (by decide)
    · exact absurd h (by decide)
  · rintro ⟨ps, hps⟩ i hi
    match i with
    | .shared s =>
      rcases shared_cases s with h | rfl | ⟨-, h⟩ | ⟨h0, h⟩
      · exact ⟨_, hi, h, .refl⟩
      · exact live_uses (i := .shared .KeyGen_keygen_with_seeds) ⟨_, rfl, rfl, .refl⟩ (by decide)
      · exact order_live hps s h
      · have hi : any F s.cfg = true := hi
        match hc : s.cfg with
        | [] => exact absurd hc h0
        | c :: cs =>
          rw [hc] at hi
          obtain ⟨x, hx, hF⟩ := List.any_eq_true.1 hi
          obtain ⟨ps', rfl, hm⟩ := h x (hc ▸ hx)
          exact hash_live hF s hm
    | .api ps' a =>
      have hi' := Bool.and_eq_true_iff.1 hi
      by_cases e : a = .try_keygen
      · exact ⟨_, hi, by subst e; rfl, .refl⟩
      · exact api_live hi'.1 e
    | .osRng => exact ⟨_, hi, rfl, .refl⟩

/-! ## Examples -/

/-- Only SHAKE-128s, without the generator of the operating system. -/
def onlyOne : Selection
  | .set .slh_dsa_shake_128s => true
  | _ => false

/-- Signing is there, with all it needs, and no SHA2 code; and there is no dead code. -/
example : present onlyOne (.api .slh_dsa_shake_128s .Signer_for_PrivateKey_try_sign_with_rng) = true ∧
    present onlyOne (.shared .sha2_cat_1_prf) = false ∧ present onlyOne .osRng = false ∧
    ∀ i, present onlyOne i = true → Live onlyOne i :=
  ⟨rfl, rfl, rfl, (C84_no_dead_code _).2 ⟨.slh_dsa_shake_128s, rfl⟩⟩

/-- `chain` is needed for signing. -/
example : Needs (.api .slh_dsa_shake_128s .Signer_for_PrivateKey_try_sign_with_rng) (.shared .chain) :=
  let r : Item → Item → Prop := fun a b => b ∈ uses a
  have h1 : r (.api .slh_dsa_shake_128s .Signer_for_PrivateKey_try_sign_with_rng) (.shared .slh_sign_with_rng) := by decide
  have h2 : r (.shared .slh_sign_with_rng) (.shared .slh_sign_internal) := by decide
  have h3 : r (.shared .slh_sign_internal) (.shared .ht_sign) := by decide
  have h4 : r (.shared .ht_sign) (.shared .xmss_sign) := by decide
  have h5 : r (.shared .xmss_sign) (.shared .wots_sign) := by decide
  have h6 : r (.shared .wots_sign) (.shared .chain) := by decide
  (((((Relation.ReflTransGen.single h1).tail h2).tail h3).tail h4).tail h5).tail h6

/-- With no parameter set at all there is dead code. -/
example : ¬ ∀ i, present (fun _ => false) i = true → Live (fun _ => false) i :=
  fun h => by
    obtain ⟨ps, h⟩ := (C84_no_dead_code _).1 h
    exact absurd h (by decide)

end Fips205.Props
