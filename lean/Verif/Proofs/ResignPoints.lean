import Verif.Proofs.OwnCases
import Verif.Proofs.Feed

/-!
# The points of a hedged signature that depend on the message

They are the pre-hash of the message, those of `PRF_msg` and those of `H_msg`.  Each shows what was unknown before: the
message, the random bytes, or a value at a point before it.
-/

namespace Fips205.Props
open Fips205 Fips205.Model Fips205.Oracle

variable {ps : ParamSet} {B w : Nat}

/-- What is signed: the keys, the random bytes, the way to sign, the context and the message. -/
structure Job (ps : ParamSet) where
  k : List UInt8
  seed : List UInt8
  root : List UInt8
  v : Fin (256 ^ ps.sp.n)
  ph : Option Ph
  ctx : List UInt8
  msg : List UInt8

/-- The lengths are right. -/
structure Job.Ok (J : Job ps) (B : Nat) : Prop where
  k : J.k.length = ps.sp.n
  seed : J.seed.length = ps.sp.n
  root : J.root.length = ps.sp.n
  ctx : J.ctx.length ≤ 255
  msg : 492 + J.msg.length ≤ B

/-- Value number `j`. -/
def nth (us : List (Fin (256 ^ w))) (j : Nat) : Fin (256 ^ w) := us[j]?.getD ⟨0, Nat.pow_pos (by decide)⟩

/-- Its first `h` bytes. -/
def hd (h : Nat) (us : List (Fin (256 ^ w))) (j : Nat) : List UInt8 := Spec.toByte (headOf h (nth us j)) h

theorem nth_take {us : List (Fin (256 ^ w))} {i j : Nat} (h : i < j) : nth (us.take j) i = nth us i := by
  rw [nth, nth, List.getElem?_take, if_pos h]

theorem hd_take {h : Nat} {us : List (Fin (256 ^ w))} {i j : Nat} (hi : i < j) : hd h (us.take j) i = hd h us i := by
  rw [hd, hd, nth_take hi]

theorem hd_length (h : Nat) (us : List (Fin (256 ^ w))) (j : Nat) : (hd h us j).length = h := Spec.toByte_length _ _

theorem hd_split {n h : Nat} (hn : n ≤ h) (hh : h ≤ w) (us : List (Fin (256 ^ w))) (j : Nat) :
    ∃ r, hd h us j = Spec.toByte (headOf n (nth us j)) n ++ r ∧ n + r.length = h := by
  refine ⟨_, toByte_split hn hh _, ?_⟩
  rw [List.length_drop, List.length_take, Spec.toByte_length]
  omega

namespace Job
variable (J : Job ps)

/-- The formatted message. -/
def str (us : List (Fin (256 ^ w))) : List UInt8 :=
  match J.ph with
  | none => Spec.pureMsg J.ctx J.msg
  | some ph => Spec.prehashMsg J.ctx (Spec.oid ph.spec) (hd (phLen ph) us 0)

/-- The point for the message; if there is no pre-hash, it is for the proof only. -/
def first : Call := ⟨(J.ph.map Ph.spec).getD .shake256, J.msg⟩

/-- The points, with SHAKE. -/
def pointShake (us : List (Fin (256 ^ w))) : Nat → Call
  | 0 => J.first
  | 1 => ⟨.shake256, J.k ++ Spec.toByte J.v ps.sp.n ++ J.str us⟩
  | _ + 2 => ⟨.shake256, hd ps.sp.n us 1 ++ J.seed ++ J.root ++ J.str us⟩

/-- The points, with SHA-2. -/
def pointSha2 (us : List (Fin (256 ^ w))) : Nat → Call
  | 0 => J.first
  | 1 => ⟨msgAlg ps, hmacPad (blen ps) J.k 0x36 ++ Spec.toByte J.v ps.sp.n ++ J.str us⟩
  | 2 => ⟨msgAlg ps, hmacPad (blen ps) J.k 0x5c ++ hd (hlen ps) us 1⟩
  | 3 => ⟨msgAlg ps, hd ps.sp.n us 2 ++ J.seed ++ J.root ++ J.str us⟩
  | j + 4 => ⟨msgAlg ps, hd ps.sp.n us 2 ++ J.seed ++ hd (hlen ps) us 3 ++ Spec.toByte j 4⟩

/-- The points; number `j` depends on the values before it. -/
def point (us : List (Fin (256 ^ w))) (j : Nat) : Call :=
  match ps.family with
  | .shake => J.pointShake us j
  | .sha2 => J.pointSha2 us j

end Job

/-- How many there are. -/
def steps (ps : ParamSet) : Nat := match ps.family with
  | .shake => 3
  | .sha2 => 4 + blocks ps

/-- The number of the value that the randomizer is taken from. -/
def coinNo (ps : ParamSet) : Nat := match ps.family with
  | .shake => 1
  | .sha2 => 2

theorem steps_le (ps : ParamSet) : steps ps ≤ 6 := by cases ps <;> decide

/-- The randomizer. -/
def randOf (ps : ParamSet) (us : List (Fin (256 ^ w))) : List UInt8 := hd ps.sp.n us (coinNo ps)

/-- The digest. -/
def resDig (ps : ParamSet) (us : List (Fin (256 ^ w))) : List UInt8 := match ps.family with
  | .shake => hd ps.sp.m us 2
  | .sha2 => (Spec.concat (blocks ps) fun j => hd (hlen ps) us (j + 4)).take ps.sp.m

namespace Job
variable {J : Job ps}

theorem str_take (us : List (Fin (256 ^ w))) {j : Nat} (h : 0 < j) : J.str (us.take j) = J.str us := by
  unfold str
  split
  · rfl
  · rw [hd_take h]

theorem point_take (us : List (Fin (256 ^ w))) (j : Nat) : J.point (us.take j) j = J.point us j := by
  unfold point
  split
  · match j with
    | 0 => rfl
    | 1 => rw [pointShake, pointShake, str_take _ (by omega)]
    | j + 2 => rw [pointShake, pointShake, str_take _ (by omega), hd_take (by omega)]
  · match j with
    | 0 => rfl
    | 1 => rw [pointSha2, pointSha2, str_take _ (by omega)]
    | 2 => rw [pointSha2, pointSha2, hd_take (by omega)]
    | 3 => rw [pointSha2, pointSha2, str_take _ (by omega), hd_take (by omega)]
    | j + 4 => rw [pointSha2, pointSha2, hd_take (by omega), hd_take (by omega)]

/-- A point does not depend on the values after it. -/
theorem point_congr {us us' : List (Fin (256 ^ w))} {j : Nat} (h : us.take j = us'.take j) : J.point us j = J.point us' j := by
  rw [← point_take us, h, point_take]

theorem str_len {J : Job ps} {B : Nat} (o : J.Ok B) (us : List (Fin (256 ^ w))) : 160 + (J.str us).length ≤ B := by
  have h1 := o.ctx
  have h2 := o.msg
  have h3 : ∀ ph : Ph, (Spec.oid ph.spec).length = 11 := fun ph => by cases ph <;> rfl
  unfold str
  split
  · simp only [Spec.pureMsg, List.length_append, Spec.toByte_length]
    omega
  · rename_i ph _
    have := phLen_le ph
    simp only [Spec.prehashMsg, List.length_append, Spec.toByte_length, hd_length, h3]
    omega

theorem point_len {J : Job ps} {B : Nat} (o : J.Ok B) (us : List (Fin (256 ^ w))) (j : Nat) :
    (J.point us j).input.length ≤ B := by
  have h1 := str_len o us
  have h2 := n_le_32 ps
  have h3 := hlen_le ps
  have h4 := fun c => hmacPad_length (ps := ps) o.k c
  have h5 := blen_le ps
  have h6 := o.k
  have h7 := o.seed
  have h8 := o.root
  have h9 := o.msg
  unfold point
  split
  · match j with
    | 0 => simp only [pointShake, first]; omega
    | 1 => simp only [pointShake, List.length_append, Spec.toByte_length]; omega
    | j + 2 => simp only [pointShake, List.length_append, hd_length]; omega
  · match j with
    | 0 => simp only [pointSha2, first]; omega
    | 1 => simp only [pointSha2, List.length_append, Spec.toByte_length, h4]; omega
    | 2 => simp only [pointSha2, List.length_append, hd_length, h4]; omega
    | 3 => simp only [pointSha2, List.length_append, hd_length]; omega
    | j + 4 => simp only [pointSha2, List.length_append, hd_length, Spec.toByte_length]; omega

/-- The points as points of the random function. -/
def q (J : Job ps) (B : Nat) (us : List (Fin (256 ^ w))) (j : Nat) : Query B := .of B (J.point us j)

theorem q_val {J : Job ps} {B : Nat} (o : J.Ok B) (us : List (Fin (256 ^ w))) (j : Nat) : (J.q B us j).1 = J.point us j :=
  of_val (point_len o us j)

end Job

/-! ## What they show -/

/-- The messages that a point shows: all of it, or what follows a context after three times `n` bytes. -/
def shown (n : Nat) (y : Query B) : List (List UInt8) :=
  [y.1.input, y.1.input.drop (3 * n + 2 + (y.1.input[3 * n + 1]?.getD 0).toNat)]

/-- Nothing unknown was in the points before it was made: `D` are the points of the player and of the rest of the signer,
of which `K` were before the signature. -/
structure Unguessed (J : Job ps) (us : List (Fin (256 ^ w))) (K D : List (Query B)) : Prop where
  sub : ∀ y ∈ K, y ∈ D
  msg : ∀ y ∈ D, J.msg ∉ shown ps.sp.n y
  coin : ∀ y ∈ D, startAt ps.sp.n (coinAt ps) y ≠ J.v
  coin0 : startAt ps.sp.n (coinAt ps) (J.q B us 0) ≠ J.v
  pre : ∀ y ∈ D, endAt ps.sp.n 32 y ≠ headOf ps.sp.n (nth us 0) ∧ endAt ps.sp.n 64 y ≠ headOf ps.sp.n (nth us 0)
  rand : ∀ y ∈ K, startAt ps.sp.n 0 y ≠ headOf ps.sp.n (nth us (coinNo ps))
  randq : ∀ j ≤ coinNo ps, startAt ps.sp.n 0 (J.q B us j) ≠ headOf ps.sp.n (nth us (coinNo ps))
  inner : ps.family = .sha2 → ∀ y ∈ D, endAt ps.sp.n (hlen ps) y ≠ headOf ps.sp.n (nth us 1)
  innerq : ps.family = .sha2 → ∀ j < 2, endAt ps.sp.n (hlen ps) (J.q B us j) ≠ headOf ps.sp.n (nth us 1)
  seed : ps.family = .sha2 → ∀ y ∈ D, startAt ps.sp.n (2 * ps.sp.n) y ≠ headOf ps.sp.n (nth us 3)
  seedq : ps.family = .sha2 → ∀ j < 4, startAt ps.sp.n (2 * ps.sp.n) (J.q B us j) ≠ headOf ps.sp.n (nth us 3)

section
variable {J : Job ps} {us : List (Fin (256 ^ w))} (hw : 64 ≤ w) (o : J.Ok B)

/-- A formatted message begins with its kind and the length of the context, and ends with the message or its hash. -/
theorem shown_pure {n : Nat} {y : Query B} {a ctx msg : List UInt8} (ha : a.length = 3 * n) (hc : ctx.length ≤ 255)
    (h : y.1.input = a ++ Spec.pureMsg ctx msg) : msg ∈ shown n y := by
  have e1 : Spec.toByte 0 1 = [0] := rfl
  have e2 : Spec.toByte ctx.length 1 = [UInt8.ofNat ctx.length] := by simp [Spec.toByte]
  have e : y.1.input = a ++ (0 :: UInt8.ofNat ctx.length :: (ctx ++ msg)) := by
    rw [h, Spec.pureMsg, e1, e2]
    simp only [List.cons_append, List.nil_append]
  refine List.mem_cons_of_mem _ (List.mem_singleton.mpr ?_)
  rw [e]
  have e3 : (a ++ (0 :: UInt8.ofNat ctx.length :: (ctx ++ msg)))[3 * n + 1]? = some (UInt8.ofNat ctx.length) := by
    rw [List.getElem?_append_right (by omega), ha, show 3 * n + 1 - 3 * n = 1 by omega]
    rfl
  rw [e3, Option.getD_some, UInt8.toNat_ofNat', Nat.mod_eq_of_lt (by omega), Nat.add_assoc, ← List.drop_drop,
    List.drop_left' ha, ← List.drop_drop]
  exact List.drop_left.symm

theorem shown_all (n : Nat) (y : Query B) : y.1.input ∈ shown n y := List.mem_cons_self

include o in
theorem mark_coin : startAt ps.sp.n (coinAt ps) (J.q B us 1) = J.v := by
  have h := J.q_val o us 1
  rw [coinAt]
  unfold Job.point at h
  split
  · rename_i hps
    simp only [hps] at h
    have := startAt_eq J.v (a := J.k) (c := J.str us) (y := J.q B us 1) (by rw [h]; rfl)
    rwa [o.k] at this
  · rename_i hps
    simp only [hps] at h
    rw [← hmacPad_length (ps := ps) o.k 0x36]
    exact startAt_eq J.v (c := J.str us) (by rw [h]; rfl)

include o in
theorem mark_rand : startAt ps.sp.n 0 (J.q B us (coinNo ps + 1)) = headOf ps.sp.n (nth us (coinNo ps)) := by
  have h := J.q_val o us (coinNo ps + 1)
  unfold Job.point at h
  rw [coinNo] at h ⊢
  split at h
  · rename_i hps
    simp only [hps] at h ⊢
    exact startAt_eq _ (a := []) (c := J.seed ++ J.root ++ J.str us) (by rw [h]; simp only [Job.pointShake, List.append_assoc]; rfl)
  · rename_i hps
    simp only [hps] at h ⊢
    exact startAt_eq _ (a := []) (c := J.seed ++ J.root ++ J.str us) (by rw [h]; simp only [Job.pointSha2, List.append_assoc]; rfl)

include hw o in
theorem mark_inner (hps : ps.family = .sha2) :
    endAt ps.sp.n (hlen ps) (J.q B us 2) = headOf ps.sp.n (nth us 1) := by
  have h := J.q_val o us 2
  unfold Job.point at h
  simp only [hps] at h
  obtain ⟨r, e1, e2⟩ := hd_split (n_le_hlen ps) ((hlen_le ps).trans hw) us 1
  exact endAt_eq _ (a := hmacPad (blen ps) J.k 0x5c) (c := r) (by rw [h, Job.pointSha2, e1, List.append_assoc]) e2

include hw o in
theorem mark_seed (hps : ps.family = .sha2) (j : Nat) :
    startAt ps.sp.n (2 * ps.sp.n) (J.q B us (j + 4)) = headOf ps.sp.n (nth us 3) := by
  have h := J.q_val o us (j + 4)
  unfold Job.point at h
  simp only [hps] at h
  obtain ⟨r, e1, e2⟩ := hd_split (n_le_hlen ps) ((hlen_le ps).trans hw) us 3
  have := startAt_eq (headOf ps.sp.n (nth us 3)) (y := J.q B us (j + 4)) (a := hd ps.sp.n us 2 ++ J.seed)
    (c := r ++ Spec.toByte j 4) (by rw [h, Job.pointSha2, e1]; simp only [List.append_assoc])
  rwa [List.length_append, hd_length, o.seed, ← Nat.two_mul] at this

/-- The call that begins the digest. -/
def msgCall (ps : ParamSet) (X : List UInt8) : Call := ⟨match ps.family with | .shake => .shake256 | .sha2 => msgAlg ps, X⟩

theorem point_msg : J.point us (coinNo ps + 1) = msgCall ps (randOf ps us ++ J.seed ++ J.root ++ J.str us) := by
  unfold Job.point msgCall randOf coinNo
  split <;> rename_i hps <;> simp only [hps] <;> rfl

include hw in
/-- The message, or its pre-hash, is shown by a point that ends with the formatted message. -/
theorem Unguessed.not_str {K D : List (Query B)} (G : Unguessed J us K D) {y : Query B} (hy : y ∈ D) {a : List UInt8}
    (ha : a.length = 3 * ps.sp.n) (hc : J.ctx.length ≤ 255) : y.1.input ≠ a ++ J.str us := by
  intro h
  unfold Job.str at h
  split at h
  · exact G.msg y hy (shown_pure ha hc h)
  · rename_i ph _
    obtain ⟨r, e1, e2⟩ := hd_split ((n_le_32 ps).trans (by cases ph <;> decide : 32 ≤ phLen ph)) ((phLen_le ph).trans hw) us 0
    have := endAt_eq (headOf ps.sp.n (nth us 0)) (y := y) (a := a ++ (Spec.toByte 1 1 ++ Spec.toByte J.ctx.length 1 ++ J.ctx ++
      Spec.oid ph.spec)) (c := r) (e := phLen ph) (by rw [h, e1, Spec.prehashMsg]; simp only [List.append_assoc]) e2
    obtain ⟨h1, h2⟩ := G.pre y hy
    cases ph
    · exact h1 this
    · exact h2 this
    · exact h1 this
    · exact h2 this

include hw o in
/-- The points are new. -/
theorem Unguessed.fresh {K D : List (Query B)} (G : Unguessed J us K D) (j : Nat) : J.q B us j ∉ D := by
  intro hD
  have h0 : J.q B us 0 ∉ D := fun h => by
    refine G.msg _ h ?_
    have e := J.q_val o us 0
    have e : (J.q B us 0).1.input = J.msg := by
      rw [e]
      unfold Job.point
      split <;> rfl
    have := shown_all ps.sp.n (J.q B us 0)
    rwa [e] at this
  have h1 : J.q B us 1 ∉ D := fun h => G.coin _ h (mark_coin o)
  have h2 : J.q B us (coinNo ps + 1) ∉ D := fun h => by
    refine G.not_str hw h (a := randOf ps us ++ J.seed ++ J.root) ?_ o.ctx ?_
    · simp only [List.length_append, randOf, hd_length, o.seed, o.root]; omega
    · rw [J.q_val o, point_msg, msgCall]
  cases hps : ps.family with
  | shake =>
    simp only [coinNo, hps] at h2
    match j with
    | 0 => exact h0 hD
    | 1 => exact h1 hD
    | j + 2 =>
      refine h2 ?_
      have e : J.q B us (j + 2) = J.q B us (1 + 1) := by
        unfold Job.q Job.point
        simp only [hps]
        rfl
      rwa [e] at hD
  | sha2 =>
    simp only [coinNo, hps] at h2
    match j with
    | 0 => exact h0 hD
    | 1 => exact h1 hD
    | 2 => exact G.inner hps _ hD (mark_inner hw o hps)
    | 3 => exact h2 hD
    | j + 4 => exact G.seed hps _ hD (mark_seed hw o hps j)

include hw o in
/-- They are different. -/
theorem Unguessed.distinct {K D : List (Query B)} (G : Unguessed J us K D) {i j : Nat} (hij : i < j) (hj : j < steps ps) :
    J.q B us i ≠ J.q B us j := by
  intro e
  have h1 : j = 1 → False := fun h => by
    subst h
    obtain rfl : i = 0 := by omega
    exact G.coin0 (e ▸ mark_coin o)
  have h2 : j = coinNo ps + 1 → False := fun h => by
    subst h
    exact G.randq i (by omega) (e ▸ mark_rand o)
  cases hps : ps.family with
  | shake =>
    simp only [coinNo, steps, hps] at h2 hj
    have : j ≠ 1 := h1
    have : j ≠ 1 + 1 := h2
    omega
  | sha2 =>
    simp only [coinNo, hps] at h2
    match j with
    | 0 => omega
    | 1 => exact h1 rfl
    | 2 => exact G.innerq hps i hij (e ▸ mark_inner hw o hps)
    | 3 => exact h2 rfl
    | j + 4 =>
      by_cases hi : i < 4
      · exact G.seedq hps i hi (e ▸ mark_seed hw o hps j)
      · obtain ⟨i, rfl⟩ : ∃ i', i = i' + 4 := ⟨i - 4, by omega⟩
        have e := congrArg Subtype.val e
        rw [J.q_val o, J.q_val o] at e
        unfold Job.point at e
        simp only [hps] at e
        have e := List.append_cancel_left (Call.mk.inj e).2
        have h6 := steps_le ps
        have := congrArg Spec.toInt e
        rw [Spec.toInt_toByte, Spec.toInt_toByte, Nat.mod_eq_of_lt (by omega), Nat.mod_eq_of_lt (by omega)] at this
        omega

end

end Fips205.Props
