import Verif.Model.Ffi
import Mathlib.Tactic.CongrExclamation

/-!
# The model does not look into its monad

A map between two monads that keeps `pure`, `bind`, panics, leakage and the build configuration takes
every function of the model, run in the first monad, to the same function run in the second.  (Of the
leakage, the calls of hash functions are left to the external hash functions.)
-/

namespace Fips205.Model

/-- Is the observation a call of a hash function? -/
def Leak.isHash : Leak → Bool
  | .hash .. => true
  | .branch _ | .trip _ | .index _ | .range .. | .cmp .. => false

/-- A map of monads that keeps the effects of the modelled code. -/
structure RustHom (m m' : Type → Type) [Rust m] [Rust m'] where
  app : {α : Type} → m α → m' α
  map_pure : ∀ {α : Type} (v : α), app (pure v : m α) = pure v
  map_bind : ∀ {α β : Type} (x : m α) (f : α → m β), app (x >>= f) = app x >>= fun v => app (f v)
  map_panic : ∀ {α : Type} (p : Panic), app (panic p : m α) = panic p
  map_leak : ∀ l : Leak, l.isHash = false → app (leak l : m Unit) = leak l
  map_build : Rust.build m = Rust.build m'

namespace RustHom

variable {m m' : Type → Type} [Rust m] [Rust m'] (φ : RustHom m m') {α β σ ε : Type}

attribute [simp] map_pure map_bind map_panic

@[simp] theorem map_branch (c : Bool) : φ.app (leak (.branch c) : m Unit) = leak (.branch c) :=
  φ.map_leak _ rfl
@[simp] theorem map_trip (n : Nat) : φ.app (leak (.trip n) : m Unit) = leak (.trip n) :=
  φ.map_leak _ rfl
@[simp] theorem map_index (n : Nat) : φ.app (leak (.index n) : m Unit) = leak (.index n) :=
  φ.map_leak _ rfl
@[simp] theorem map_range (x y : Nat) : φ.app (leak (.range x y) : m Unit) = leak (.range x y) :=
  φ.map_leak _ rfl
@[simp] theorem map_cmp (x y : List UInt8) : φ.app (leak (.cmp x y) : m Unit) = leak (.cmp x y) :=
  φ.map_leak _ rfl

theorem map_ite (c : Prop) [Decidable c] (x y : m α) :
    φ.app (if c then x else y) = if c then φ.app x else φ.app y := by split <;> rfl

theorem map_dite (c : Prop) [Decidable c] (x : c → m α) (y : ¬ c → m α) :
    φ.app (if h : c then x h else y h) = if h : c then φ.app (x h) else φ.app (y h) := by split <;> rfl

attribute [simp] map_ite map_dite

@[simp] theorem map_ovf (c : Bool) (v : α) : φ.app (ovf c v) = ovf c v := by
  simp [ovf, φ.map_build]

@[simp] theorem map_addU32 (x y : UInt32) : φ.app (addU32 x y) = addU32 x y := by simp [addU32]
@[simp] theorem map_subU32 (x y : UInt32) : φ.app (subU32 x y) = subU32 x y := by simp [subU32]
@[simp] theorem map_mulU32 (x y : UInt32) : φ.app (mulU32 x y) = mulU32 x y := by simp [mulU32]
@[simp] theorem map_divU32 (x y : UInt32) : φ.app (divU32 x y) = divU32 x y := by simp [divU32]
@[simp] theorem map_shlU32 (x y : UInt32) : φ.app (shlU32 x y) = shlU32 x y := by simp [shlU32]
@[simp] theorem map_shrU32 (x y : UInt32) : φ.app (shrU32 x y) = shrU32 x y := by simp [shrU32]
@[simp] theorem map_addU64 (x y : UInt64) : φ.app (addU64 x y) = addU64 x y := by simp [addU64]
@[simp] theorem map_subU64 (x y : UInt64) : φ.app (subU64 x y) = subU64 x y := by simp [subU64]
@[simp] theorem map_shlU64 (x : UInt64) (y : UInt32) : φ.app (shlU64 x y) = shlU64 x y := by
  simp [shlU64]
@[simp] theorem map_shrU64 (x : UInt64) (y : UInt32) : φ.app (shrU64 x y) = shrU64 x y := by
  simp [shrU64]
@[simp] theorem map_addUsize (x y : Nat) : φ.app (addUsize x y) = addUsize x y := by
  simp [addUsize, φ.map_build]
@[simp] theorem map_subUsize (x y : Nat) : φ.app (subUsize x y) = subUsize x y := by
  simp [subUsize, φ.map_build]
@[simp] theorem map_mulUsize (x y : Nat) : φ.app (mulUsize x y) = mulUsize x y := by
  simp [mulUsize, φ.map_build]
@[simp] theorem map_divUsize (x y : Nat) : φ.app (divUsize x y) = divUsize x y := by simp [divUsize]
@[simp] theorem map_asUsize (x : UInt32) : φ.app (asUsize x) = asUsize x := by
  simp [asUsize, φ.map_build]
@[simp] theorem map_u32TryFromUnwrap (x : Nat) : φ.app (u32TryFromUnwrap x) = u32TryFromUnwrap x := by
  simp [u32TryFromUnwrap]
@[simp] theorem map_debugAssert (c : m Bool) : φ.app (debugAssert c) = debugAssert (φ.app c) := by
  simp [debugAssert, φ.map_build]
@[simp] theorem map_vget {n : Nat} (v : Vector α n) (i : Nat) : φ.app (vget v i) = vget v i := by
  simp [vget]
@[simp] theorem map_vset {n : Nat} (v : Vector α n) (i : Nat) (x : α) :
    φ.app (vset v i x) = vset v i x := by simp [vset]
@[simp] theorem map_lget (v : List α) (i : Nat) : φ.app (lget v i) = lget v i := by simp [lget]
@[simp] theorem map_slice (v : List α) (lo hi : Nat) : φ.app (slice v lo hi) = slice v lo hi := by
  simp [slice]
@[simp] theorem map_copyFromSlice (n : Nat) (v : List α) :
    φ.app (copyFromSlice n v) = copyFromSlice n v := by simp [copyFromSlice]
@[simp] theorem map_writeSlice {n : Nat} (v : Vector α n) (lo hi : Nat) (s : List α) :
    φ.app (writeSlice v lo hi s) = writeSlice v lo hi s := by simp [writeSlice]

@[simp] theorem map_loopFrom (body : Nat → σ → m σ) (c i : Nat) (s : σ) :
    φ.app (loopFrom body c i s) = loopFrom (fun i s => φ.app (body i s)) c i s := by
  induction c generalizing i s with
  | zero => simp [loopFrom]
  | succ c ih => simp [loopFrom, ih]

@[simp] theorem map_forUsize (lo hi : Nat) (s : σ) (body : Nat → σ → m σ) :
    φ.app (forUsize lo hi s body) = forUsize lo hi s (fun i s => φ.app (body i s)) := by
  simp [forUsize]

@[simp] theorem map_forU32 (lo hi : UInt32) (s : σ) (body : UInt32 → σ → m σ) :
    φ.app (forU32 lo hi s body) = forU32 lo hi s (fun i s => φ.app (body i s)) := by
  simp [forU32]

@[simp] theorem map_forEach (xs : List ε) (s : σ) (body : ε → σ → m σ) :
    φ.app (forEach xs s body) = forEach xs s (fun i s => φ.app (body i s)) := by
  have : ∀ (xs : List ε) s, φ.app (xs.foldlM (fun s x => body x s) s) =
      xs.foldlM (fun s x => φ.app (body x s)) s := by
    intro xs
    induction xs with
    | nil => simp
    | cons x xs ih => simp [ih]
  simp [forEach, this]

@[simp] theorem map_loopFromE (body : Nat → σ → m (Except ε σ)) (c i : Nat) (s : σ) :
    φ.app (loopFromE body c i s) = loopFromE (fun i s => φ.app (body i s)) c i s := by
  induction c generalizing i s with
  | zero => simp [loopFromE]
  | succ c ih =>
    simp only [loopFromE, map_bind]
    congr 1
    funext r
    cases r <;> simp [ih]

@[simp] theorem map_forU32E (lo hi : UInt32) (s : σ) (body : UInt32 → σ → m (Except ε σ)) :
    φ.app (forU32E lo hi s body) = forU32E lo hi s (fun i s => φ.app (body i s)) := by
  simp [forU32E]

@[simp] theorem map_whileFuel (cond : σ → Bool) (body : σ → m σ) (fuel : Nat) (s : σ) :
    φ.app (whileFuel cond body fuel s) = whileFuel cond (fun s => φ.app (body s)) fuel s := by
  induction fuel generalizing s with
  | zero => simp [whileFuel]
  | succ f ih => simp [whileFuel, ih]

/-! ## `src/helpers.rs` -/

@[simp] theorem map_to_int (x : List UInt8) (n : UInt32) : φ.app (to_int x n) = to_int x n := by
  simp [to_int]

@[simp] theorem map_to_byte (x n : UInt32) : φ.app (to_byte x n) = to_byte x n := by
  simp [to_byte]

@[simp] theorem map_base_2b_digit (x : List UInt8) (b : UInt32) (st : Base2bState) :
    φ.app (base_2b_digit x b st) = base_2b_digit x b st := by simp [base_2b_digit]

@[simp] theorem map_base_2b_loop (x : List UInt8) (b : UInt32) (l : List UInt32) (st : Base2bState) :
    φ.app (base_2b_loop x b l st) = base_2b_loop x b l st := by
  induction l generalizing st with
  | nil => simp [base_2b_loop]
  | cons a l ih => simp [base_2b_loop, ih]

@[simp] theorem map_base_2b (x : List UInt8) (b o : UInt32) (l : List UInt32) :
    φ.app (base_2b x b o l) = base_2b x b o l := by simp [base_2b]

@[simp] theorem map_sigLenExpr (A D HP K LEN N : Nat) :
    φ.app (sigLenExpr A D HP K LEN N) = sigLenExpr A D HP K LEN N := by simp [sigLenExpr]

@[simp] theorem map_putChunk {L N : Nat} (v : Vector UInt8 N) (s : Vector UInt8 L × Nat) :
    φ.app (putChunk v s) = putChunk v s := by simp [putChunk]

@[simp] theorem map_getChunk (N : Nat) (v : List UInt8) (s : Nat) :
    φ.app (getChunk N v s) = getChunk N v s := by simp [getChunk]

@[simp] theorem map_serialize {A D HP K LEN N : Nat} (L : Nat) (s : SlhDsaSig A D HP K LEN N) :
    φ.app (s.serialize L) = s.serialize L := by simp [SlhDsaSig.serialize]

@[simp] theorem map_deserialize (A D HP K LEN N : Nat) (s : List UInt8) :
    φ.app (SlhDsaSig.deserialize A D HP K LEN N s) = SlhDsaSig.deserialize A D HP K LEN N s := by
  simp [SlhDsaSig.deserialize]

@[simp] theorem map_putWord (sl : Vector UInt8 4) (s : Vector UInt8 32 × Nat) :
    φ.app (Adrs.putWord sl s) = Adrs.putWord sl s := by simp [Adrs.putWord]

@[simp] theorem map_to_32_bytes (a : Adrs) : φ.app a.to_32_bytes = a.to_32_bytes := by
  simp [Adrs.to_32_bytes]

@[simp] theorem map_to_22_bytes (a : Adrs) : φ.app a.to_22_bytes = a.to_22_bytes := by
  simp [Adrs.to_22_bytes]

/-! ## `src/hashers.rs` -/

variable {K LEN M N : Nat}

/-- The image of a set of hash functions. -/
def hashers (hs : Hashers m K LEN M N) : Hashers m' K LEN M N where
  h_msg a b c d := φ.app (hs.h_msg a b c d)
  prf a b c := φ.app (hs.prf a b c)
  prf_msg a b c := φ.app (hs.prf_msg a b c)
  f a b c := φ.app (hs.f a b c)
  h a b c d := φ.app (hs.h a b c d)
  t_l a b c := φ.app (hs.t_l a b c)
  t_len a b c := φ.app (hs.t_len a b c)

/-- The image of the external hash functions. -/
def crypto (C : Crypto m) : Crypto m' where
  sha256 x := φ.app (C.sha256 x)
  sha512 x := φ.app (C.sha512 x)
  shake128 x n := φ.app (C.shake128 x n)
  shake256 x n := φ.app (C.shake256 x n)

/-- The image of a random number generator. -/
def rng {σ : Type} (r : Rng m σ) : Rng m' σ where
  tryFill s _ v := φ.app (r.tryFill s v)

variable (C : Crypto m)

theorem map_HASHERS (p : Params) : φ.hashers (HASHERS p C) = HASHERS p (φ.crypto C) := by
  unfold HASHERS
  split
  · simp only [hashers, Hashers.mk.injEq]
    refine ⟨?_, ?_, ?_, ?_, ?_, ?_, ?_⟩ <;> (funext a b c; try funext d) <;>
      simp [shake.h_msg, shake.prf, shake.prf_msg, shake.f, shake.h, shake.t_l, shake.shake256, crypto]
  · simp only [hashers, Hashers.mk.injEq]
    refine ⟨?_, ?_, ?_, ?_, ?_, ?_, ?_⟩ <;> (funext a b c; try funext d) <;>
      simp [sha2_cat_1.h_msg, sha2_cat_1.prf, sha2_cat_1.prf_msg, sha2_cat_1.f, sha2_cat_1.h,
        sha2_cat_1.t_l, sha2_cat_1.hmac_sha_256, sha2_cat_1.sha2_256, crypto]
  · simp only [hashers, Hashers.mk.injEq]
    refine ⟨?_, ?_, ?_, ?_, ?_, ?_, ?_⟩ <;> (funext a b c; try funext d) <;>
      simp [sha2_cat_3_5.h_msg, sha2_cat_3_5.prf, sha2_cat_3_5.prf_msg, sha2_cat_3_5.f, sha2_cat_3_5.h,
        sha2_cat_3_5.t_l, sha2_cat_3_5.hmac_sha_512, sha2_cat_3_5.sha2_256, sha2_cat_3_5.sha2_512, crypto]

@[simp] theorem map_hash_message (msg : List UInt8) (ph : Ph) (phm : Vector UInt8 64) :
    φ.app (hash_message C msg ph phm) = hash_message (φ.crypto C) msg ph phm := by
  cases ph <;> simp [hash_message, crypto]

/-! ## `src/wots.rs`, `src/xmss.rs`, `src/hypertree.rs`, `src/fors.rs` -/

variable (hs : Hashers m K LEN M N)

@[simp] theorem map_chain (x : Vector UInt8 N) (i s : UInt32) (pk : List UInt8) (a : Adrs) :
    φ.app (chain hs x i s pk a) = chain (φ.hashers hs) x i s pk a := by
  simp [chain, hashers]

@[simp] theorem map_wots_pkgen (sk pk : List UInt8) (a : Adrs) :
    φ.app (wots_pkgen hs sk pk a) = wots_pkgen (φ.hashers hs) sk pk a := by
  simp [wots_pkgen]; simp [hashers]

@[simp] theorem map_wots_sign_digits (LEN N : Nat) (msg : List UInt8) (n : UInt32) :
    φ.app (wots_sign_digits LEN N msg n) = wots_sign_digits LEN N msg n := by
  simp [wots_sign_digits]

@[simp] theorem map_wots_pk_digits (LEN N : Nat) (msg : List UInt8) (n : UInt32) :
    φ.app (wots_pk_digits LEN N msg n) = wots_pk_digits LEN N msg n := by
  simp [wots_pk_digits]

@[simp] theorem map_wots_sign (msg sk pk : List UInt8) (a : Adrs) :
    φ.app (wots_sign hs msg sk pk a) = wots_sign (φ.hashers hs) msg sk pk a := by
  simp [wots_sign]; simp [hashers]

@[simp] theorem map_wots_pk_from_sig (s : WotsSig LEN N) (msg pk : List UInt8) (a : Adrs) :
    φ.app (wots_pk_from_sig hs s msg pk a) = wots_pk_from_sig (φ.hashers hs) s msg pk a := by
  simp [wots_pk_from_sig]; simp [hashers]

@[simp] theorem map_xmss_node (sk : List UInt8) (i z : UInt32) (pk : List UInt8) (a : Adrs) :
    φ.app (xmss_node hs sk i z pk a) = xmss_node (φ.hashers hs) sk i z pk a := by
  induction hn : z.toNat generalizing i z with
  | zero =>
    have hz : z = 0 := UInt32.toNat_inj.mp (by simpa using hn)
    rw [xmss_node.eq_def, xmss_node.eq_def (φ.hashers hs)]
    simp [hz]
  | succ n ih =>
    have hz : z ≠ 0 := by rintro rfl; simp at hn
    have hle : (1 : UInt32) ≤ z := by rw [UInt32.le_iff_toNat_le]; simp; omega
    have hn' : (z - 1).toNat = n := by rw [UInt32.toNat_sub_of_le _ _ hle]; simp; omega
    rw [xmss_node.eq_def, xmss_node.eq_def (φ.hashers hs)]
    simp only [map_bind, map_branch, hz, dite_false, map_mulU32, map_addU32, ih _ _ hn']
    rfl

@[simp] theorem map_xmss_sign (HP : Nat) (msg sk : List UInt8) (i : UInt32) (pk : List UInt8) (a : Adrs) :
    φ.app (xmss_sign HP hs msg sk i pk a) = xmss_sign HP (φ.hashers hs) msg sk i pk a := by
  simp [xmss_sign]

@[simp] theorem map_xmss_pk_from_sig {HP : Nat} (i : UInt32) (s : XmssSig HP LEN N) (msg pk : List UInt8)
    (a : Adrs) :
    φ.app (xmss_pk_from_sig hs i s msg pk a) = xmss_pk_from_sig (φ.hashers hs) i s msg pk a := by
  simp [xmss_pk_from_sig]; simp [hashers]

@[simp] theorem map_ht_sign (D HP : Nat) (msg sk pk : List UInt8) (t : UInt64) (l : UInt32) :
    φ.app (ht_sign D HP hs msg sk pk t l) = ht_sign D HP (φ.hashers hs) msg sk pk t l := by
  simp only [ht_sign, map_bind, map_u32TryFromUnwrap, map_xmss_sign, map_vset, map_xmss_pk_from_sig,
    map_forU32E, map_shlU64, map_subU64, map_branch]
  congr! with d hp s1 s2 root j st x1 x2 _ r
  · cases u32TryFromU64 (st.idx_tree &&& x2) <;> simp
  · cases r <;> simp

@[simp] theorem map_ht_verify {D HP : Nat} (msg : List UInt8) (s : HtSig D HP LEN N) (pk : List UInt8)
    (t : UInt64) (l : UInt32) (root : Vector UInt8 N) :
    φ.app (ht_verify hs msg s pk t l root) = ht_verify (φ.hashers hs) msg s pk t l root := by
  simp only [ht_verify, map_bind, map_u32TryFromUnwrap, map_vget, map_xmss_pk_from_sig,
    map_forU32E, map_shlU64, map_subU64, map_branch]
  congr! with d hp s1 root j st x1 x2 _ r
  · cases u32TryFromU64 (st.idx_tree &&& x2) <;> simp
  · cases r <;> simp

@[simp] theorem map_fors_sk_gen (sk pk : List UInt8) (a : Adrs) (i : UInt32) :
    φ.app (fors_sk_gen hs sk pk a i) = fors_sk_gen (φ.hashers hs) sk pk a i := rfl

@[simp] theorem map_fors_node (sk : List UInt8) (i z : UInt32) (pk : List UInt8) (a : Adrs) :
    φ.app (fors_node hs sk i z pk a) = fors_node (φ.hashers hs) sk i z pk a := by
  induction hn : z.toNat generalizing i z with
  | zero =>
    have hz : z = 0 := UInt32.toNat_inj.mp (by simpa using hn)
    rw [fors_node.eq_def, fors_node.eq_def (φ.hashers hs)]
    simp [hz]; simp [hashers]
  | succ n ih =>
    have hz : z ≠ 0 := by rintro rfl; simp at hn
    have hle : (1 : UInt32) ≤ z := by rw [UInt32.le_iff_toNat_le]; simp; omega
    have hn' : (z - 1).toNat = n := by rw [UInt32.toNat_sub_of_le _ _ hle]; simp; omega
    rw [fors_node.eq_def, fors_node.eq_def (φ.hashers hs)]
    simp only [map_bind, map_branch, hz, dite_false, map_mulU32]
    congr! 4
    rw [← ih _ _ hn']
    congr! with r _
    cases r with
    | error e => simp
    | ok v =>
      simp only [map_bind, map_mulU32, map_addU32, map_branch]
      congr! 4
      rw [← ih _ _ hn']
      congr! with r _
      cases r with
      | error e => simp
      | ok v => simp; simp [hashers]

@[simp] theorem map_fors_sign (A : Nat) (md sk : List UInt8) (a : Adrs) (pk : List UInt8) :
    φ.app (fors_sign A hs md sk a pk) = fors_sign A (φ.hashers hs) md sk a pk := by
  simp [fors_sign]
  congr!
  split <;> simp

@[simp] theorem map_fors_pk_from_sig {A : Nat} (s : ForsSig A K N) (md pk : List UInt8) (a : Adrs) :
    φ.app (fors_pk_from_sig hs s md pk a) = fors_pk_from_sig (φ.hashers hs) s md pk a := by
  simp [fors_pk_from_sig]; simp [hashers]

/-! ## `src/slh.rs` -/

@[simp] theorem map_slh_keygen_internal (D HP : Nat) (x y z : Vector UInt8 N) :
    φ.app (slh_keygen_internal D HP hs x y z) = slh_keygen_internal D HP (φ.hashers hs) x y z := by
  simp [slh_keygen_internal]

@[simp] theorem map_slh_sign_split {M : Nat} (A D H K : Nat) (d h : UInt32) (dg : Vector UInt8 M) :
    φ.app (slh_sign_split A D H K d h dg) = slh_sign_split A D H K d h dg := by
  simp [slh_sign_split]

@[simp] theorem map_slh_verify_split {M : Nat} (A D H K : Nat) (d h : UInt32) (dg : Vector UInt8 M) :
    φ.app (slh_verify_split A D H K d h dg) = slh_verify_split A D H K d h dg := by
  simp [slh_verify_split]

@[simp] theorem map_slh_keygen_with_rng (D HP : Nat) (r : Rng m σ) (s : σ) :
    φ.app (slh_keygen_with_rng D HP r s hs) = slh_keygen_with_rng D HP (φ.rng r) s (φ.hashers hs) := by
  simp only [slh_keygen_with_rng, map_bind, map_branch]
  congr! with ⟨s, r⟩ _
  rcases r with e | v
  · simp
  simp only [map_bind, map_branch]
  congr! with ⟨s, r⟩ _
  rcases r with e | v
  · simp
  simp only [map_bind, map_branch]
  congr! with ⟨s, r⟩ _
  rcases r with e | v <;> simp

@[simp] theorem map_slh_sign_internal (A D H HP : Nat) (msg : List (List UInt8)) (sk : SlhPrivateKey N)
    (o : Vector UInt8 N) :
    φ.app (slh_sign_internal A D H HP hs msg sk o) =
      slh_sign_internal A D H HP (φ.hashers hs) msg sk o := by
  simp only [slh_sign_internal, map_bind, map_u32TryFromUnwrap, map_slh_sign_split, map_fors_sign,
    map_branch]
  congr! with _ _ _ _ _ r _
  rcases r with e | v
  · simp
  simp only [map_bind, map_fors_pk_from_sig, map_ht_sign, map_branch]
  congr! with _ r _
  rcases r with e | v <;> simp

@[simp] theorem map_slh_sign_with_rng (A D H HP : Nat) (r : Rng m σ) (s : σ) (msg : List (List UInt8))
    (sk : SlhPrivateKey N) (hedged : Bool) :
    φ.app (slh_sign_with_rng A D H HP r s hs msg sk hedged) =
      slh_sign_with_rng A D H HP (φ.rng r) s (φ.hashers hs) msg sk hedged := by
  simp only [slh_sign_with_rng, map_bind, map_branch, map_ite, map_slh_sign_internal, map_pure]
  congr! with _ _ ⟨s, r⟩
  rcases r with e | v <;> simp

@[simp] theorem map_slh_verify_internal {A D HP : Nat} (H : Nat) (msg : List (List UInt8))
    (s : SlhDsaSig A D HP K LEN N) (pk : SlhPublicKey N) :
    φ.app (slh_verify_internal H hs msg s pk) = slh_verify_internal H (φ.hashers hs) msg s pk := by
  simp only [slh_verify_internal, map_bind, map_u32TryFromUnwrap, map_slh_verify_split, map_branch]
  congr! with _ _ _ r _
  cases u32TryFromU64 r.2.2 <;> simp

@[simp] theorem map_slh_verify {A D HP : Nat} (H : Nat) (msg : List (List UInt8))
    (s : SlhDsaSig A D HP K LEN N) (pk : SlhPublicKey N) :
    φ.app (slh_verify H hs msg s pk) = slh_verify H (φ.hashers hs) msg s pk :=
  φ.map_slh_verify_internal hs H msg s pk

/-! ## `src/lib.rs` and `src/traits.rs` -/

attribute [simp] map_HASHERS

variable (p : Params)

@[simp] theorem map_try_keygen_with_rng (r : Rng m σ) (s : σ) :
    φ.app (try_keygen_with_rng p C r s) = try_keygen_with_rng p (φ.crypto C) (φ.rng r) s := by
  simp only [try_keygen_with_rng, map_bind, map_slh_keygen_with_rng, map_HASHERS, map_branch]
  congr! with ⟨s, r⟩ _
  rcases r with e | ⟨a, b⟩ <;> simp

@[simp] theorem map_mapSerialize (r : Except String (SlhDsaSig p.A p.D p.HP p.K p.LEN p.N)) :
    φ.app (mapSerialize p r) = mapSerialize p r := by
  rcases r with e | v <;> simp [mapSerialize]

variable {p}

@[simp] theorem map_try_sign_with_rng (sk : PrivateKey p) (r : Rng m σ) (s : σ) (msg ctx : List UInt8)
    (hedged : Bool) :
    φ.app (sk.try_sign_with_rng C r s msg ctx hedged) =
      sk.try_sign_with_rng (φ.crypto C) (φ.rng r) s msg ctx hedged := by
  simp [PrivateKey.try_sign_with_rng]

@[simp] theorem map_try_hash_sign_with_rng (sk : PrivateKey p) (r : Rng m σ) (s : σ)
    (msg ctx : List UInt8) (ph : Ph) (hedged : Bool) :
    φ.app (sk.try_hash_sign_with_rng C r s msg ctx ph hedged) =
      sk.try_hash_sign_with_rng (φ.crypto C) (φ.rng r) s msg ctx ph hedged := by
  simp [PrivateKey.try_hash_sign_with_rng]

@[simp] theorem map_raw_sign (sk : PrivateKey p) (r : Rng m σ) (s : σ) (msg : List UInt8) (hedged : Bool) :
    φ.app (sk._test_only_raw_sign C r s msg hedged) =
      sk._test_only_raw_sign (φ.crypto C) (φ.rng r) s msg hedged := by
  simp only [PrivateKey._test_only_raw_sign, map_bind, map_branch, map_ite,
    map_slh_sign_internal, map_pure, map_mapSerialize, map_HASHERS]
  congr! with _ _ ⟨s, r⟩
  rcases r with e | v <;> simp

@[simp] theorem map_verify (pk : PublicKey p) (msg : List UInt8) (sig : Vector UInt8 p.SIG_LEN)
    (ctx : List UInt8) : φ.app (pk.verify C msg sig ctx) = pk.verify (φ.crypto C) msg sig ctx := by
  simp [PublicKey.verify]

@[simp] theorem map_hash_verify (pk : PublicKey p) (msg : List UInt8) (sig : Vector UInt8 p.SIG_LEN)
    (ctx : List UInt8) (ph : Ph) :
    φ.app (pk.hash_verify C msg sig ctx ph) = pk.hash_verify (φ.crypto C) msg sig ctx ph := by
  simp [PublicKey.hash_verify]

@[simp] theorem map_raw_verify (pk : PublicKey p) (msg : List UInt8) (sig : Vector UInt8 p.SIG_LEN) :
    φ.app (pk._test_only_raw_verify C msg sig) = pk._test_only_raw_verify (φ.crypto C) msg sig := by
  simp [PublicKey._test_only_raw_verify]

@[simp] theorem map_pk_into_bytes (pk : PublicKey p) : φ.app pk.into_bytes = pk.into_bytes := by
  simp [PublicKey.into_bytes]

@[simp] theorem map_pk_try_from_bytes (v : Vector UInt8 p.PK_LEN) :
    φ.app (PublicKey.try_from_bytes v) = PublicKey.try_from_bytes v := by
  simp [PublicKey.try_from_bytes]

@[simp] theorem map_sk_into_bytes (sk : PrivateKey p) : φ.app sk.into_bytes = sk.into_bytes := by
  simp [PrivateKey.into_bytes]

@[simp] theorem map_sk_try_from_bytes (v : Vector UInt8 p.SK_LEN) :
    φ.app (PrivateKey.try_from_bytes C v) = PrivateKey.try_from_bytes (φ.crypto C) v := by
  simp [PrivateKey.try_from_bytes]

@[simp] theorem map_dummyRng (n : Nat) : φ.rng (dummyRng n) = dummyRng n := by
  simp [rng, dummyRng]

@[simp] theorem map_keygen_with_seeds {n : Nat} (x y z : Vector UInt8 n) :
    φ.app (keygen_with_seeds p C x y z) = keygen_with_seeds p (φ.crypto C) x y z := by
  simp only [keygen_with_seeds, map_bind, map_try_keygen_with_rng, map_dummyRng, map_branch]
  congr! with ⟨s, r⟩ _
  rcases r with e | v <;> simp

/-! ## `ffi/src/lib.rs` -/

@[simp] theorem map_usizeFromCInt (len : Int) : φ.app (usizeFromCInt len) = usizeFromCInt len := by
  simp [usizeFromCInt, φ.map_build]

theorem map_c_keygen (os : Rng m σ) (s : σ) (pko : Option (Vector UInt8 slh_dsa_sha2_128f.PK_LEN))
    (sko : Option (Vector UInt8 slh_dsa_sha2_128f.SK_LEN)) :
    φ.app (slh_dsa_sha2_128f_keygen C os s pko sko) =
      slh_dsa_sha2_128f_keygen (φ.crypto C) (φ.rng os) s pko sko := by
  unfold slh_dsa_sha2_128f_keygen
  simp only [map_bind, map_branch]
  congr! with _
  cases pko <;> cases sko <;> try exact φ.map_pure _
  simp only [try_keygen, map_bind, map_try_keygen_with_rng, map_branch]
  congr! with ⟨s, r⟩ _
  rcases r with e | ⟨pk, sk⟩ <;> simp

theorem map_c_sign (os : Rng m σ) (s : σ) (buf : Ptr) (len : Int)
    (sk : Option (Vector UInt8 slh_dsa_sha2_128f.SK_LEN))
    (out : Option (Vector UInt8 slh_dsa_sha2_128f.SIG_LEN)) :
    φ.app (slh_dsa_sha2_128f_sign C os s buf len sk out) =
      slh_dsa_sha2_128f_sign (φ.crypto C) (φ.rng os) s buf len sk out := by
  unfold slh_dsa_sha2_128f_sign
  simp only [map_bind, map_branch]
  congr! with _
  cases sk <;> cases out <;> try exact φ.map_pure _
  simp only [map_bind, map_branch]
  congr! with _
  cases buf <;> try exact φ.map_pure _
  simp only [map_bind, map_usizeFromCInt]
  congr! with n
  split
  · exact φ.map_pure _
  · simp only [map_bind, map_sk_try_from_bytes, map_branch]
    congr! with r _
    rcases r with e | sk
    · exact φ.map_pure _
    · simp only [PrivateKey.try_sign, map_bind, map_try_sign_with_rng, map_branch]
      congr! with ⟨s, r⟩ _
      rcases r with e | sig <;> simp

theorem map_c_verify (buf : Ptr) (len : Int) (pk : Option (Vector UInt8 slh_dsa_sha2_128f.PK_LEN))
    (sig : Option (Vector UInt8 slh_dsa_sha2_128f.SIG_LEN)) :
    φ.app (slh_dsa_sha2_128f_verify C buf len pk sig) =
      slh_dsa_sha2_128f_verify (φ.crypto C) buf len pk sig := by
  unfold slh_dsa_sha2_128f_verify
  simp only [map_bind, map_branch]
  congr! with _
  cases pk <;> cases sig <;> try exact φ.map_pure _
  simp only [map_bind, map_usizeFromCInt]
  congr! with n
  split
  · exact φ.map_pure _
  · simp only [map_bind, map_pk_try_from_bytes, map_branch]
    congr! with r _
    rcases r with e | pk
    · exact φ.map_pure _
    · simp only [map_bind, map_verify, map_branch]
      congr! with r _
      cases r <;> simp

end RustHom

end Fips205.Model
