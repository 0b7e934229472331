import Verif.Spec.Run

/-! # The runs of `Verif.Spec.Run` compute the values of `Verif.Spec.Fips205` -/

namespace Fips205.Spec.Run

variable {α β : Type}

@[simp] theorem log_pure (v : α) : (pure v : Run α).log = [] := rfl
@[simp] theorem val_pure (v : α) : (pure v : Run α).val = v := rfl
@[simp] theorem log_bind (x : Run α) (f : α → Run β) : (x >>= f).log = x.log ++ (f x.val).log := rfl
@[simp] theorem val_bind (x : Run α) (f : α → Run β) : (x >>= f).val = (f x.val).val := rfl

theorem val_ite {c : Prop} [Decidable c] (x y : Run α) :
    (if c then x else y).val = if c then x.val else y.val := by split <;> rfl

theorem log_ite {c : Prop} [Decidable c] (x y : Run α) :
    (if c then x else y).log = if c then x.log else y.log := by split <;> rfl

@[simp] theorem concat_val (n : Nat) (f : Nat → Run Bytes) :
    (concat n f).val = Spec.concat n fun i => (f i).val := by
  induction n with
  | zero => rfl
  | succ n ih => simp [concat, ih, Spec.concat, List.range_succ]

theorem concat_log (n : Nat) (f : Nat → Run Bytes) :
    (concat n f).log = (List.range n).flatMap fun i => (f i).log := by
  induction n with
  | zero => rfl
  | succ n ih => simp [concat, ih, List.range_succ]

/-- The values of the functions. -/
def Fns.vals (h : Fns) : HashFns where
  PRFmsg a b c := (h.PRFmsg a b c).val
  Hmsg a b c d := (h.Hmsg a b c d).val
  PRF a b c := (h.PRF a b c).val
  F a b c := (h.F a b c).val
  H a b c := (h.H a b c).val
  T a b c := (h.T a b c).val

@[simp] theorem truncated_val (n : Nat) (x : Run Bytes) : (truncated n x).val = trunc n x.val := rfl
@[simp] theorem truncated_log (n : Nat) (x : Run Bytes) : (truncated n x).log = x.log := by
  simp [truncated]

theorem mgf1_val (hash : Bytes → Run Bytes) (hLen : Nat) (seed : Bytes) (len : Nat) :
    (mgf1 hash hLen seed len).val = Spec.mgf1 (fun X => (hash X).val) hLen seed len := by
  simp [mgf1, Spec.mgf1]

theorem hmac_val (hash : Bytes → Run Bytes) (B : Nat) (K text : Bytes) :
    (hmac hash B K text).val = Spec.hmac (fun X => (hash X).val) B K text := by
  simp only [hmac, Spec.hmac, val_bind, val_ite, val_pure]
  split <;> rfl

theorem hashFns_vals (P : Prims) (fam : Family) (r : Row) : (hashFns P fam r).vals = Spec.hashFns P fam r := by
  cases fam with
  | shake => rfl
  | sha2 =>
    simp only [hashFns, Spec.hashFns]
    split
    · simp only [Fns.vals, sha2Cat1Fns, Spec.sha2Cat1Fns, val_bind, mgf1_val, hmac_val, truncated_val]
      rfl
    · simp only [Fns.vals, sha2Cat35Fns, Spec.sha2Cat35Fns, val_bind, mgf1_val, hmac_val, truncated_val]
      rfl

section
variable (p : Params) (h : Fns)

@[simp] theorem chain_val (X : Bytes) (i s : Nat) (PKseed ADRS : Bytes) :
    (chain h X i s PKseed ADRS).val = Spec.chain h.vals X i s PKseed ADRS := by
  induction s with
  | zero => rfl
  | succ s ih => simp [chain, Spec.chain, ih, Fns.vals]

@[simp] theorem wotsPKgen_val (SKseed PKseed ADRS : Bytes) :
    (wotsPKgen p h SKseed PKseed ADRS).val = Spec.wotsPKgen p h.vals SKseed PKseed ADRS := by
  simp [wotsPKgen, Spec.wotsPKgen, Fns.vals]

@[simp] theorem wotsSign_val (M SKseed PKseed ADRS : Bytes) :
    (wotsSign p h M SKseed PKseed ADRS).val = Spec.wotsSign p h.vals M SKseed PKseed ADRS := by
  simp [wotsSign, Spec.wotsSign, Fns.vals]

@[simp] theorem wotsPkFromSig_val (sig M PKseed ADRS : Bytes) :
    (wotsPkFromSig p h sig M PKseed ADRS).val = Spec.wotsPkFromSig p h.vals sig M PKseed ADRS := by
  simp [wotsPkFromSig, Spec.wotsPkFromSig, Fns.vals]

@[simp] theorem xmssNode_val (SKseed : Bytes) (z : Nat) (PKseed ADRS : Bytes) : ∀ i,
    (xmssNode p h SKseed i z PKseed ADRS).val = Spec.xmssNode p h.vals SKseed i z PKseed ADRS := by
  induction z with
  | zero => intro i; simp [xmssNode, Spec.xmssNode]
  | succ z ih => intro i; simp [xmssNode, Spec.xmssNode, ih, Fns.vals]

@[simp] theorem xmssSign_val (M SKseed : Bytes) (idx : Nat) (PKseed ADRS : Bytes) :
    (xmssSign p h M SKseed idx PKseed ADRS).val = Spec.xmssSign p h.vals M SKseed idx PKseed ADRS := by
  simp [xmssSign, Spec.xmssSign]

@[simp] theorem climb_val (PKseed : Bytes) (idx : Nat) (AUTH : Nat → Bytes) (levels : Nat)
    (ADRS node : Bytes) :
    (climb h PKseed idx AUTH levels ADRS node).val = Spec.climb h.vals PKseed idx AUTH levels ADRS node := by
  induction levels with
  | zero => rfl
  | succ k ih =>
    rw [Spec.climb, List.range_succ, List.foldl_append, ← Spec.climb]
    simp only [climb, val_bind, ih, List.foldl_cons, List.foldl_nil, val_ite, val_pure]
    rfl

@[simp] theorem xmssPkFromSig_val (idx : Nat) (SIG M PKseed ADRS : Bytes) :
    (xmssPkFromSig p h idx SIG M PKseed ADRS).val = Spec.xmssPkFromSig p h.vals idx SIG M PKseed ADRS := by
  simp [xmssPkFromSig, Spec.xmssPkFromSig]

@[simp] theorem htSignFrom_val (SKseed PKseed : Bytes) (left : Nat) : ∀ (j : Nat) (M : Bytes)
    (idxTree idxLeaf : Nat), (htSignFrom p h SKseed PKseed left j M idxTree idxLeaf).val =
      Spec.htSignFrom p h.vals SKseed PKseed left j M idxTree idxLeaf := by
  induction left with
  | zero => intros; rfl
  | succ left ih =>
    intro j M t l
    simp only [htSignFrom, Spec.htSignFrom, val_bind, val_ite, val_pure, xmssSign_val,
      xmssPkFromSig_val, ih]
    split
    · next e => subst e; simp [Spec.htSignFrom]
    · rfl

@[simp] theorem htSign_val (M SKseed PKseed : Bytes) (idxTree idxLeaf : Nat) :
    (htSign p h M SKseed PKseed idxTree idxLeaf).val = Spec.htSign p h.vals M SKseed PKseed idxTree idxLeaf :=
  htSignFrom_val ..

@[simp] theorem htRootFrom_val (PKseed : Bytes) (left : Nat) : ∀ (j : Nat) (M SIG : Bytes)
    (idxTree idxLeaf : Nat), (htRootFrom p h PKseed left j M SIG idxTree idxLeaf).val =
      Spec.htRootFrom p h.vals PKseed left j M SIG idxTree idxLeaf := by
  induction left with
  | zero => intros; rfl
  | succ left ih => intros; simp [htRootFrom, Spec.htRootFrom, ih]

@[simp] theorem htVerify_val (M SIG PKseed : Bytes) (idxTree idxLeaf : Nat) (PKroot : Bytes) :
    (htVerify p h M SIG PKseed idxTree idxLeaf PKroot).val =
      Spec.htVerify p h.vals M SIG PKseed idxTree idxLeaf PKroot := by
  simp [htVerify, Spec.htVerify]

@[simp] theorem forsSKgen_val (SKseed PKseed ADRS : Bytes) (idx : Nat) :
    (forsSKgen h SKseed PKseed ADRS idx).val = Spec.forsSKgen h.vals SKseed PKseed ADRS idx := rfl

@[simp] theorem forsNode_val (SKseed : Bytes) (z : Nat) (PKseed ADRS : Bytes) : ∀ i,
    (forsNode h SKseed i z PKseed ADRS).val = Spec.forsNode h.vals SKseed i z PKseed ADRS := by
  induction z with
  | zero => intro i; rfl
  | succ z ih => intro i; simp [forsNode, Spec.forsNode, ih, Fns.vals]

@[simp] theorem forsSign_val (md SKseed PKseed ADRS : Bytes) :
    (forsSign p h md SKseed PKseed ADRS).val = Spec.forsSign p h.vals md SKseed PKseed ADRS := by
  simp [forsSign, Spec.forsSign]

@[simp] theorem forsPkFromSig_val (SIG md PKseed ADRS : Bytes) :
    (forsPkFromSig p h SIG md PKseed ADRS).val = Spec.forsPkFromSig p h.vals SIG md PKseed ADRS := by
  simp [forsPkFromSig, Spec.forsPkFromSig, Fns.vals]

@[simp] theorem pkRoot_val (SKseed PKseed : Bytes) :
    (pkRoot p h SKseed PKseed).val = Spec.pkRoot p h.vals SKseed PKseed := by
  simp [pkRoot, Spec.pkRoot]

@[simp] theorem signInternal_val (M SKseed SKprf PKseed PKroot optRand : Bytes) :
    (signInternal p h M SKseed SKprf PKseed PKroot optRand).val =
      Spec.signInternal p h.vals M SKseed SKprf PKseed PKroot optRand := by
  simp [signInternal, Spec.signInternal, Spec.signWithR, Fns.vals]

@[simp] theorem verifyInternal_val (M SIG PKseed PKroot : Bytes) :
    (verifyInternal p h M SIG PKseed PKroot).val = Spec.verifyInternal p h.vals M SIG PKseed PKroot := by
  simp [verifyInternal, Spec.verifyInternal, val_ite, Fns.vals]

theorem sign_val (M ctx SKseed SKprf PKseed PKroot optRand : Bytes) :
    (sign p h M ctx SKseed SKprf PKseed PKroot optRand).val =
      Spec.sign p h.vals M ctx SKseed SKprf PKseed PKroot optRand := by
  simp [sign, Spec.sign, val_ite]

theorem hashSign_val (P : Prims) (ph : PreHash) (M ctx SKseed SKprf PKseed PKroot optRand : Bytes) :
    (hashSign p h P ph M ctx SKseed SKprf PKseed PKroot optRand).val =
      Spec.hashSign p h.vals (oid ph) (Spec.preHash P M ph) ctx SKseed SKprf PKseed PKroot optRand := by
  simp [hashSign, Spec.hashSign, val_ite, preHash]

theorem verify_val (M SIG ctx PKseed PKroot : Bytes) :
    (verify p h M SIG ctx PKseed PKroot).val = Spec.verify p h.vals M SIG ctx PKseed PKroot := by
  simp [verify, Spec.verify, val_ite]

theorem hashVerify_val (P : Prims) (ph : PreHash) (M SIG ctx PKseed PKroot : Bytes) :
    (hashVerify p h P ph M SIG ctx PKseed PKroot).val =
      Spec.hashVerify p h.vals (oid ph) (Spec.preHash P M ph) SIG ctx PKseed PKroot := by
  simp [hashVerify, Spec.hashVerify, val_ite, preHash]

end
end Fips205.Spec.Run
