import Verif.Props.Programs

/-!
# The timing experiment of the repository (C56)

`dudect/src/main.rs` compares the time of key generation and signing for two classes of RNG output.  Here is
what an observer of control flow sees of one measurement, for all outputs.
-/

namespace Fips205.Props
open Fips205 Fips205.Model

variable {P P' : Spec.Prims} {b : Build} {σ : Type}

/-- The parameter set of the experiment. -/
abbrev dudectSet : ParamSet := .slh_dsa_sha2_128s

/-- What the experiment signs, formatted. -/
abbrev dudectMsg : List UInt8 := Spec.pureMsg [0] [0, 1, 2, 3, 4, 5, 6, 7]

/-- The run returns `v` and an observer counts `n` hashes. -/
def CountsTo {α : Type} (n : Nat) (v : α) (x : TraceExec b α) : Prop := hashCalls x.trace = n ∧ x.result = .ok v

theorem CountsTo.pure {α : Type} (v : α) : CountsTo 0 v (Pure.pure v : TraceExec b α) := ⟨rfl, rfl⟩

theorem CountsTo.bind {α β : Type} {x : TraceExec b α} {f : α → TraceExec b β} {n n' : Nat} {v : α} {w : β}
    (h : CountsTo n v x) (h' : CountsTo n' w (f v)) : CountsTo (n + n') w (x >>= f) := by
  obtain ⟨t, r⟩ := x
  obtain ⟨h1, h2⟩ := h
  obtain rfl : r = .ok v := h2
  refine ⟨?_, h'.2⟩
  show hashCalls (t ++ (f v).1) = _
  rw [hashCalls_append]
  exact congrArg₂ _ h1 h'.1

theorem CountsTo.free {α β : Type} {x : TraceExec b α} {f : α → TraceExec b β} {n : Nat} {v : α} {w : β}
    (h : CountsTo 0 v x) (h' : CountsTo n w (f v)) : CountsTo n w (x >>= f) := by
  have := h.bind h'
  rwa [Nat.zero_add] at this

theorem dudect_quiet : QuietRng (dudectRng : Rng (TraceExec b) _) := by
  intro z n v
  have : (copyFromSlice n z.toList : TraceExec b _).trace = [] := by
    unfold copyFromSlice
    split <;> rfl
  by_cases h : z.toList.length = n
  · have : (copyFromSlice n z.toList : TraceExec b _) = Pure.pure ⟨z.toList.toArray, by simpa using h⟩ := by
      rw [copyFromSlice, dif_pos h]
    rw [dudectRng]
    simp only [this]
    rfl
  · have : (copyFromSlice n z.toList : TraceExec b _) = panic .copyLen := by
      rw [copyFromSlice, dif_neg h]
    rw [dudectRng]
    simp only [this]
    rfl

theorem dudect_fill {m : Type → Type} [Rust m] [LawfulMonad m] (z v : Vector UInt8 16) :
    (dudectRng.tryFill z v : m _) = Pure.pure (z, .ok z) := by
  have h : z.toList.length = 16 := by simp
  rw [dudectRng]
  simp only [copyFromSlice, dif_pos h, pure_bind]
  rfl

theorem dudect_erase : TraceExec.erase.rng (dudectRng : Rng (TraceExec b) _) = dudectRng := by
  rw [RustHom.rng, dudectRng, dudectRng, Rng.mk.injEq]
  funext z n v
  by_cases h : z.toList.length = n
  · simp only [copyFromSlice, dif_pos h]
    rfl
  · simp only [copyFromSlice, dif_neg h]
    rfl

/-- The key pair of one measurement. -/
def dudectKeys (P : Spec.Prims) (z : Vector UInt8 16) :
    PublicKey dudectSet.params × PrivateKey dudectSet.params := keyPair dudectSet P z z z

theorem dudect_keygen (z : Vector UInt8 16) :
    (try_keygen_with_rng dudectSet.params (crypto P) dudectRng z : Exec b _) =
      pure (z, .ok (dudectKeys P z)) := by
  have h : ∀ v, ((dudectRng : Rng (Exec b) _).tryFill (n := dudectSet.params.N) z v) = pure (z, .ok z) :=
    fun v => dudect_fill z v
  rw [exec_try_keygen_with_rng]
  simp only [h, pure_bind]
  rfl

theorem dudect_sign (z : Vector UInt8 16) :
    ((dudectKeys P z).2.try_sign_with_rng (crypto P) dudectRng z [0, 1, 2, 3, 4, 5, 6, 7] [0] true : Exec b _) =
      pure (z, .ok (sigVec dudectSet P dudectMsg (dudectKeys P z).2.key z)) := by
  have h : ∀ v, ((dudectRng : Rng (Exec b) _).tryFill (n := dudectSet.params.N) z v) = pure (z, .ok z) :=
    fun v => dudect_fill z v
  rw [exec_try_sign_with_rng, if_neg (by simp), if_pos rfl]
  simp only [h, pure_bind, signOutcome]

theorem dudect_round_exec (z : Vector UInt8 16) :
    (dudect_round (crypto P) z : Exec b _) = pure (z, (dudectKeys P z).1,
      .ok (sigVec dudectSet P dudectMsg (dudectKeys P z).2.key z)) :=
  exec_step (dudect_keygen z) (exec_step rfl (exec_step (dudect_sign z) rfl))

theorem dudect_round_counts (z : Vector UInt8 16) :
    CountsTo (treeWork dudectSet dudectSet.sp.hp + signCount dudectSet (topDigits P (dudectKeys P z).2 dudectMsg
      (sigVec dudectSet P dudectMsg (dudectKeys P z).2.key z)))
      (z, (dudectKeys P z).1, .ok (sigVec dudectSet P dudectMsg (dudectKeys P z).2.key z))
      (dudect_round (crypto P) z : TraceExec b _) := by
  have h1 : (try_keygen_with_rng dudectSet.params (crypto P) (dudectRng : Rng (TraceExec b) _) z).result =
      .ok (z, .ok ((dudectKeys P z).1, (dudectKeys P z).2)) :=
    (TraceExec.erase.map_try_keygen_with_rng (p := dudectSet.params) (crypto P) dudectRng z).trans
      (dudect_erase ▸ dudect_keygen z)
  have h2 : ((dudectKeys P z).2.try_sign_with_rng (crypto P) (dudectRng : Rng (TraceExec b) _) z
      [0, 1, 2, 3, 4, 5, 6, 7] [0] true).result =
      .ok (z, .ok (sigVec dudectSet P dudectMsg (dudectKeys P z).2.key z)) :=
    (TraceExec.erase.map_try_sign_with_rng (crypto P) (dudectKeys P z).2 dudectRng z [0, 1, 2, 3, 4, 5, 6, 7]
      [0] true).trans (dudect_erase ▸ dudect_sign z)
  refine CountsTo.bind ⟨C55_try_keygen_with_rng dudect_quiet z z _ _ h1, h1⟩ (CountsTo.free (CountsTo.pure _) ?_)
  rw [← Nat.add_zero (signCount _ _)]
  exact CountsTo.bind ⟨C55_try_sign_with_rng dudect_quiet z z _ _ _ _ _ h2, h2⟩ (CountsTo.pure _)

/-- **C56** One measurement, for any 16 bytes: in every build it ends without a panic, both rounds make the key
pair of Algorithm 18 and the signature of Algorithm 19 with all seeds and the randomness equal to these bytes,
and an observer counts the hashes of two full trees and twice those of a signature with the digits the
signature shows. -/
theorem C56_measurement (z : Vector UInt8 16) :
    ∃ (pk : PublicKey dudectSet.params) (sk : PrivateKey dudectSet.params)
      (sig : Vector UInt8 dudectSet.params.SIG_LEN),
      let root := Spec.pkRoot dudectSet.sp (dudectSet.hf P) z.toList z.toList
      Generated P pk sk ∧ SignedBy P sk sig dudectMsg ∧
      pk.key.pk_seed.toList = z.toList ∧ pk.key.pk_root.toList = root ∧
      sig.toList = Spec.signInternal dudectSet.sp (dudectSet.hf P) dudectMsg z.toList z.toList z.toList root
        z.toList ∧
      ∀ b, (dudect_closure (crypto P) z : Exec b _) = pure [(pk, .ok sig), (pk, .ok sig)] ∧
        (dudect_closure (crypto P) z : TraceExec b _).result = .ok [(pk, .ok sig), (pk, .ok sig)] ∧
        hashCalls (dudect_closure (crypto P) z : TraceExec b _).trace =
          2 * (treeWork dudectSet dudectSet.sp.hp + signCount dudectSet (topDigits P sk dudectMsg sig)) := by
  refine ⟨(dudectKeys P z).1, (dudectKeys P z).2, sigVec dudectSet P dudectMsg (dudectKeys P z).2.key z,
    .rng _ _ _ (dudect_keygen (b := demoBuild) z), .pure demoBuild _ _ _ _ _ _ (dudect_sign z), rfl,
    rootVec_toList (ps := dudectSet) z z, ?_, fun b => ⟨?_, ?_⟩⟩
  · refine (sigVec_toList (ps := dudectSet) _ _ _).trans ?_
    exact congrArg (fun r => Spec.signInternal dudectSet.sp (dudectSet.hf P) dudectMsg z.toList z.toList z.toList r
      z.toList) (rootVec_toList (ps := dudectSet) z z)
  · exact exec_step (exec_step rfl (exec_step (exec_step (dudect_round_exec z) rfl)
      (exec_step (exec_step (dudect_round_exec z) rfl) rfl))) rfl
  · have h : CountsTo _ _ (dudect_closure (crypto P) z : TraceExec b _) :=
      CountsTo.bind (CountsTo.free (v := ()) ⟨rfl, rfl⟩ (CountsTo.bind
        (CountsTo.bind (dudect_round_counts z) (CountsTo.pure _))
        (CountsTo.bind (CountsTo.bind (dudect_round_counts z) (CountsTo.pure _)) (CountsTo.pure _))))
        (CountsTo.pure _)
    refine ⟨h.2, h.1.trans ?_⟩
    omega

/-- **C56** Key generation looks the same for all bytes, so for both classes. -/
theorem C56_keygen_trace (z z' : Vector UInt8 16) :
    (try_keygen_with_rng dudectSet.params (crypto P) (dudectRng : Rng (TraceExec b) _) z).trace =
      (try_keygen_with_rng dudectSet.params (crypto P') (dudectRng : Rng (TraceExec b) _) z').trace := by
  refine C29_try_keygen_with_rng (fun _ _ => True) _ _ ?_ _ _ trivial
  intro z z' _ n v w
  exact Rel.copyFromSlice (by simp) fun _ _ => Rel.pure ⟨trivial, rfl⟩

/-- **C56** Two measurements, for any bytes, differ by at most 1050 hashes of more than four million. -/
theorem C56_spread (z z' : Vector UInt8 16) :
    hashCalls (dudect_closure (crypto P) z : TraceExec b _).trace ≤
      hashCalls (dudect_closure (crypto P') z' : TraceExec b _).trace + 1050 ∧
    4000000 < hashCalls (dudect_closure (crypto P) z : TraceExec b _).trace := by
  obtain ⟨pk, sk, sig, -, -, -, -, -, h⟩ := C56_measurement (P := P) z
  obtain ⟨pk', sk', sig', -, -, -, -, -, h'⟩ := C56_measurement (P := P') z'
  rw [(h b).2.2, (h' b).2.2]
  have hs : ∀ d : Nat → Nat, ((List.range dudectSet.sp.len).map fun i => 15 - d i).sum ≤ 15 * 35 := by
    intro d
    have : ∀ n, ((List.range n).map fun i => 15 - d i).sum ≤ 15 * n := by
      intro n
      induction n with
      | zero => simp
      | succ n ih =>
        rw [List.range_succ, List.map_append, List.sum_append]
        simp only [List.map_cons, List.map_nil, List.sum_cons, List.sum_nil]
        omega
    exact this 35
  have hc : ∀ d : Nat → Nat, signCount dudectSet d + (((List.range dudectSet.sp.len).map fun i => 15 - d i).sum) =
      2186214 := by
    intro d
    have h0 : signCount dudectSet (fun _ => 15) = 2186214 := by decide
    have h1 : ((List.range dudectSet.sp.len).map fun i => 15 - 15).sum = 0 := by decide
    have h2 : 1000 + dudectSet.sp.hp ≤ dudectSet.sp.d * treeWork dudectSet dudectSet.sp.hp := by decide
    have := hs d
    simp only [signCount, climbWork, h1] at h0 ⊢
    omega
  have h1 := hs (topDigits P sk dudectMsg sig)
  have h2 := hs (topDigits P' sk' dudectMsg sig')
  have h3 := hc (topDigits P sk dudectMsg sig)
  have h4 := hc (topDigits P' sk' dudectMsg sig')
  omega

/-- Hash functions whose values depend on nothing but the first byte of the input. -/
def firstBytePrims : Spec.Prims where
  sha256 x := Vector.replicate 32 (if x.head? = some 0xAA then 0 else 0xFF)
  sha512 _ := Vector.replicate 64 0
  shake128 _ n := Vector.replicate n 0
  shake256 _ n := Vector.replicate n 0

theorem firstByte_H (z : Vector UInt8 16) (A M : List UInt8) :
    (dudectSet.hf firstBytePrims).H z.toList A M = List.replicate 16 (if z[0] = 0xAA then 0 else 0xFF) := by
  show Spec.trunc 16 (firstBytePrims.sha256 (z.toList ++ _ ++ _ ++ _)).toList = _
  have : z.toList = z[0] :: z.toList.tail := by
    obtain ⟨⟨l⟩, h⟩ := z
    cases l with
    | nil => cases h
    | cons x l => rfl
  rw [this]
  simp [firstBytePrims, Spec.trunc]

theorem firstByte_topDigits (z : Vector UInt8 16) (sk : PrivateKey dudectSet.params)
    (hs : sk.key.pk_seed.toList = z.toList) (M : List UInt8) (sig : Vector UInt8 dudectSet.params.SIG_LEN) :
    topDigits firstBytePrims sk M sig = fun i =>
      (Spec.wotsDigits dudectSet.sp (List.replicate 16 (if z[0] = 0xAA then 0 else 0xFF))).getD i 0 := by
  funext i
  show (Spec.wotsDigits dudectSet.sp ((dudectSet.hf firstBytePrims).H sk.key.pk_seed.toList _ _)).getD i 0 = _
  rw [hs, firstByte_H]

/-- **C56** The numbers of the two classes can differ although the code does what it should: the bytes are also
published as `PK.seed`, so the signatures differ, and with them the digits at the top. -/
theorem C56_classes_differ :
    hashCalls (dudect_closure (crypto firstBytePrims) dudectLeft : TraceExec b _).trace + 930 =
      hashCalls (dudect_closure (crypto firstBytePrims) dudectRight : TraceExec b _).trace := by
  obtain ⟨pk, sk, sig, hg, -, hs, -, -, h⟩ := C56_measurement (P := firstBytePrims) dudectLeft
  obtain ⟨pk', sk', sig', hg', -, hs', -, -, h'⟩ := C56_measurement (P := firstBytePrims) dudectRight
  obtain ⟨-, rfl⟩ := hg.consistent
  obtain ⟨-, rfl⟩ := hg'.consistent
  rw [(h b).2.2, (h' b).2.2, firstByte_topDigits dudectLeft sk hs, firstByte_topDigits dudectRight sk' hs']
  decide

end Fips205.Props
