import Verif.Proofs.Thread
import Verif.Props.Histories

/-! # Calls made at the same time: C74

Any number of calls of the API, in any number of threads, share one random number generator (the one of
the operating system for `try_keygen`, `try_sign` and `try_hash_sign`, `src/traits.rs:57-59`, `221-225`,
`269-273`). A scheduler starts calls and lets waiting calls have their next draw, in any order. -/

namespace Fips205.Props
open Fips205 Fips205.Model

variable {P : Spec.Prims} {σ : Type} {ps : ParamSet} {b : Build}

/-! ## The system -/

/-- What a call contributes. -/
inductive Item (ps : ParamSet)
  /-- it returned an error, or there was no such key -/
  | nothing
  | key (sk : PrivateKey ps.params)
  | pair (pk : PublicKey ps.params) (sk : PrivateKey ps.params)
  | made (e : Made ps)

/-- What key generation contributes. -/
def Item.ofKeygen : Except String (PublicKey ps.params × PrivateKey ps.params) → Item ps
  | .error _ => .nothing
  | .ok (pk, sk) => .pair pk sk

/-- What decoding contributes. -/
def Item.ofDecode : Except String (PrivateKey ps.params) → Item ps
  | .error _ => .nothing
  | .ok sk => .key sk

/-- What signing contributes. -/
def Item.ofSign (i : Nat) (msg ctx : List UInt8) (ph : Option Ph) :
    Except String (Vector UInt8 ps.params.SIG_LEN) → Item ps
  | .error _ => .nothing
  | .ok sig => .made ⟨i, msg, ctx, ph, sig⟩

/-- The call `op` of the API by a caller that can see the keys `ks`. -/
def invoke {m : Type → Type} [Rust m] (P : Spec.Prims) (rng : Rng m σ) (s : σ)
    (ks : List (PrivateKey ps.params)) : Op ps → m (σ × Item ps)
  | .keygen => do
    let r ← try_keygen_with_rng ps.params (crypto P) rng s
    pure (r.1, .ofKeygen r.2)
  | .keygenSeeds x y z => do
    let r ← keygen_with_seeds ps.params (crypto P) x y z
    pure (s, .pair r.1 r.2)
  | .decode v => do
    let r ← PrivateKey.try_from_bytes (crypto P) v
    pure (s, .ofDecode r)
  | .reencode i =>
    match ks[i]? with
    | none => pure (s, .nothing)
    | some sk => do
      let v ← sk.into_bytes
      let r ← PrivateKey.try_from_bytes (crypto P) v
      pure (s, .ofDecode r)
  | .clone i =>
    match ks[i]? with
    | none => pure (s, .nothing)
    | some sk => pure (s, .key sk)
  | .sign i msg ctx hedged =>
    match ks[i]? with
    | none => pure (s, .nothing)
    | some sk => do
      let r ← sk.try_sign_with_rng (crypto P) rng s msg ctx hedged
      pure (r.1, .ofSign i msg ctx none r.2)
  | .hashSign i msg ctx ph hedged =>
    match ks[i]? with
    | none => pure (s, .nothing)
    | some sk => do
      let r ← sk.try_hash_sign_with_rng (crypto P) rng s msg ctx ph hedged
      pure (r.1, .ofSign i msg ctx (some ph) r.2)

/-- The world after a call has returned. -/
def World.commit (w : World ps) : Item ps → World ps
  | .nothing => w
  | .key sk => w.add sk
  | .pair pk sk => { w.add sk with pairs := w.pairs ++ [(pk, sk)] }
  | .made e => { w with made := w.made ++ [e] }

/-- A call that was started: the keys its caller could see, what was called, and how far it has got. -/
structure Running (b : Build) (ps : ParamSet) where
  keys : List (PrivateKey ps.params)
  op : Op ps
  thread : Thread b (Unit × Item ps)

/-- The state of a concurrent program: the generator, what all threads can see, the calls in the order
in which they were started, and, for the statements only, which call got which answer. -/
structure Sys (b : Build) (ps : ParamSet) (σ : Type) where
  rng : σ
  world : World ps
  calls : List (Running b ps)
  log : List (Nat × Answer)

/-- The results of a call become visible when it ends. -/
def settle (w : World ps) : Thread b (Unit × Item ps) → World ps
  | .done (.ok r) => w.commit r.2
  | _ => w

/-- What a scheduler can do. -/
inductive Action (ps : ParamSet)
  /-- some thread starts a call; it runs up to its first draw -/
  | start (op : Op ps)
  /-- the `j`-th call gets its draw; it runs up to the next one, or to its end -/
  | advance (j : Nat)

/-- One step of the system; the shared generator is `g`. -/
def Sys.act (P : Spec.Prims) (g : PureRng σ) (S : Sys b ps σ) : Action ps → Sys b ps σ
  | .start op =>
    let t := invoke P Thread.rng () S.world.privs op
    { S with
      world := settle S.world t
      calls := S.calls ++ [⟨S.world.privs, op, t⟩] }
  | .advance j =>
    match S.calls[j]? with
    | some ⟨ks, op, .draw buf k⟩ =>
      let d := g.fill S.rng buf
      { rng := d.1
        world := settle S.world (k d.2)
        calls := S.calls.set j ⟨ks, op, k d.2⟩
        log := S.log ++ [(j, ⟨_, d.2⟩)] }
    | _ => S

/-- A whole execution, from nothing. -/
def execution (P : Spec.Prims) (b : Build) (g : PureRng σ) (s : σ) (acts : List (Action ps)) :
    Sys b ps σ :=
  acts.foldl (Sys.act P g) ⟨s, ⟨[], [], []⟩, [], []⟩

/-- What was called, in this order. -/
def started : List (Action ps) → List (Op ps)
  | [] => []
  | .start op :: acts => op :: started acts
  | .advance _ :: acts => started acts

/-- How often the `j`-th call was allowed to draw. -/
def advances (j : Nat) : List (Action ps) → Nat
  | [] => 0
  | .start _ :: acts => advances j acts
  | .advance i :: acts => (if i = j then 1 else 0) + advances j acts

/-- The answers the `j`-th call got. -/
def tape (j : Nat) (log : List (Nat × Answer)) : List Answer :=
  (log.filter fun e => e.1 = j).map Prod.snd

/-- The generator goes from `s` to `s'` when asked, one request after the other, and gives the
answers. -/
inductive Served (g : PureRng σ) : σ → List Answer → σ → Prop
  | nil (s : σ) : Served g s [] s
  | snoc {s s' : σ} {as : List Answer} {n : Nat} (buf : Vector UInt8 n) (h : Served g s as s') :
      Served g s (as ++ [⟨n, (g.fill s' buf).2⟩]) (g.fill s' buf).1

/-- How many draws a call can make. -/
def Op.draws : Op ps → Nat
  | .keygen => 3
  | .sign _ _ _ hedged => if hedged then 1 else 0
  | .hashSign _ _ _ _ hedged => if hedged then 1 else 0
  | _ => 0

/-! ## Proofs -/

theorem step_invoke {b : Build} (rng : Rng (Exec b) σ) (s : σ) (w : World ps) (op : Op ps) :
    step P rng s w op = (invoke P rng s w.privs op >>= fun r => pure (r.1, w.commit r.2)) := by
  cases op with
  | keygen =>
    simp only [step, invoke, bind_assoc, pure_bind]
    congr 1
    funext ⟨s, r⟩
    cases r <;> rfl
  | keygenSeeds x y z =>
    simp only [step, invoke, bind_assoc, pure_bind]
    rfl
  | decode v =>
    simp only [step, invoke, bind_assoc, pure_bind]
    congr 1
    funext r
    cases r <;> rfl
  | reencode i =>
    simp only [step, invoke]
    cases w.privs[i]? with
    | none => rfl
    | some sk =>
      simp only [bind_assoc, pure_bind]
      congr 1
      funext v
      congr 1
      funext r
      cases r <;> rfl
  | clone i =>
    simp only [step, invoke]
    cases w.privs[i]? <;> rfl
  | sign i msg ctx hedged =>
    simp only [step, invoke]
    cases w.privs[i]? with
    | none => rfl
    | some sk =>
      simp only [bind_assoc, pure_bind]
      congr 1
      funext ⟨s, r⟩
      cases r <;> rfl
  | hashSign i msg ctx ph hedged =>
    simp only [step, invoke]
    cases w.privs[i]? with
    | none => rfl
    | some sk =>
      simp only [bind_assoc, pure_bind]
      congr 1
      funext ⟨s, r⟩
      cases r <;> rfl

theorem fits_invoke (ks : List (PrivateKey ps.params)) (op : Op ps) :
    Fits op.draws (invoke P (Thread.rng (b := b)) () ks op) fun t => invoke P dealer t ks op := by
  have hd : ∀ v : Vector UInt8 ps.params.SK_LEN,
      (PrivateKey.try_from_bytes (crypto P) v : Thread b _) =
        Thread.lift.app (PrivateKey.try_from_bytes (crypto P) v) := by
    intro v
    rw [RustHom.map_sk_try_from_bytes, Thread.lift_crypto]
  cases op with
  | keygen => exact fits_keygen.map Item.ofKeygen
  | keygenSeeds x y z =>
    have h := Thread.lift.map_keygen_with_seeds (p := ps.params) (crypto P : Crypto (Exec b)) x y z
    rw [Thread.lift_crypto] at h
    simp only [invoke, ← h]
    exact Fits.of_exec _ fun r : _ × _ => Item.pair r.1 r.2
  | decode v =>
    simp only [invoke, hd]
    exact Fits.of_exec _ Item.ofDecode
  | reencode i =>
    simp only [invoke]
    cases ks[i]? with
    | none => exact .ret _
    | some sk =>
      have h := Thread.lift.map_sk_into_bytes (m := Exec b) sk
      simp only [← h, hd, ← bind_assoc, ← RustHom.map_bind]
      exact Fits.of_exec _ Item.ofDecode
  | clone i =>
    simp only [invoke]
    cases ks[i]? <;> exact .ret _
  | sign i msg ctx hedged =>
    simp only [invoke]
    cases ks[i]? with
    | none => exact .ret _
    | some sk => exact (fits_sign sk msg ctx hedged).map (Item.ofSign i msg ctx none)
  | hashSign i msg ctx ph hedged =>
    simp only [invoke]
    cases ks[i]? with
    | none => exact .ret _
    | some sk => exact (fits_hash_sign sk msg ctx ph hedged).map (Item.ofSign i msg ctx (some ph))

theorem fits_ended {α : Type} {n : Nat} {r : Except Panic (Unit × α)}
    {f : List Answer → Exec b (List Answer × α)} (h : Fits n (.done r) f) (t : List Answer) :
    f t = (show Exec b (Unit × α) from r) >>= fun v => pure (t, v.2) := by
  cases h with
  | done h => exact h t

theorem commit_good {w : World ps} (h : w.Good P) {ks : List (PrivateKey ps.params)}
    (hk : ks <+: w.privs) {op : Op ps} {t t' : List Answer} {it : Item ps}
    (hi : (invoke P dealer t ks op : Exec b _) = pure (t', it)) : (w.commit it).Good P := by
  have h0 : (⟨ks, [], []⟩ : World ps).Good P :=
    ⟨fun sk hs => h.privs sk (hk.subset hs), by simp, by simp⟩
  have h1 := step_good h0 op (b := b) (rng := dealer) (s := t) (s' := t')
    (w' := (⟨ks, [], []⟩ : World ps).commit it) (by rw [step_invoke, hi, pure_bind])
  cases it with
  | nothing => exact h
  | key sk => exact h.add (h1.1.privs sk (by simp [World.commit, World.add]))
  | pair pk sk =>
    have := h1.1.pairs (pk, sk) (by simp [World.commit])
    exact h.addPair this.1 this.2
  | made e =>
    obtain ⟨sk, h2, h3⟩ := h1.1.made e (by simp [World.commit])
    refine h.addMade ⟨sk, ?_, h3⟩
    obtain ⟨l, hl⟩ := hk
    have h2 : ks[e.signer]? = some sk := h2
    rw [← hl, List.getElem?_append_left (List.getElem?_eq_some_iff.mp h2).1, h2]

/-- All that was there is still there. -/
def World.Before (w w' : World ps) : Prop :=
  w.privs <+: w'.privs ∧ w.pairs <+: w'.pairs ∧ w.made <+: w'.made

theorem World.Before.refl (w : World ps) : w.Before w :=
  ⟨List.prefix_rfl, List.prefix_rfl, List.prefix_rfl⟩

theorem World.Before.trans {w w' w'' : World ps} (h : w.Before w') (h' : w'.Before w'') :
    w.Before w'' := ⟨h.1.trans h'.1, h.2.1.trans h'.2.1, h.2.2.trans h'.2.2⟩

theorem before_commit (w : World ps) (it : Item ps) : w.Before (w.commit it) := by
  cases it with
  | nothing => exact .refl w
  | key sk => exact ⟨List.prefix_append _ _, List.prefix_rfl, List.prefix_rfl⟩
  | pair pk sk => exact ⟨List.prefix_append _ _, List.prefix_append _ _, List.prefix_rfl⟩
  | made e => exact ⟨List.prefix_rfl, List.prefix_rfl, List.prefix_append _ _⟩

theorem before_settle (w : World ps) (t : Thread b (Unit × Item ps)) : w.Before (settle w t) := by
  unfold settle
  split
  · exact before_commit _ _
  · exact .refl w

theorem settle_good {w : World ps} (h : w.Good P) {ks : List (PrivateKey ps.params)}
    (hk : ks <+: w.privs) {op : Op ps} {n : Nat} {t : Thread b (Unit × Item ps)} {a : List Answer}
    (hf : Fits n t fun rest => invoke P dealer (a ++ rest) ks op) : (settle w t).Good P := by
  unfold settle
  split
  · rename_i r
    exact commit_good h hk (fits_ended hf [])
  · exact h

/-- The world has what the call contributed. -/
def Item.In (w : World ps) : Item ps → Prop
  | .nothing => True
  | .key sk => sk ∈ w.privs
  | .pair pk sk => sk ∈ w.privs ∧ (pk, sk) ∈ w.pairs
  | .made e => e ∈ w.made

theorem Item.In.mono {w w' : World ps} (h : w.Before w') {it : Item ps} (hi : it.In w) : it.In w' := by
  cases it with
  | nothing => trivial
  | key sk => exact h.1.subset hi
  | pair pk sk => exact ⟨h.1.subset hi.1, h.2.1.subset hi.2⟩
  | made e => exact h.2.2.subset hi

theorem in_commit (w : World ps) (it : Item ps) : it.In (w.commit it) := by
  cases it <;> simp [Item.In, World.commit, World.add]

/-- What holds of a call, given the answers `a` that it got. -/
structure Running.Ok (P : Spec.Prims) (w : World ps) (a : List Answer) (c : Running b ps) : Prop where
  keys : c.keys <+: w.privs
  fits : ∃ n, n + a.length ≤ c.op.draws ∧
    Fits n c.thread fun rest => invoke P dealer (a ++ rest) c.keys c.op
  effect : ∀ r, c.thread = .done (.ok r) → r.2.In w

theorem Running.Ok.mono {w w' : World ps} (h : w.Before w') {a : List Answer} {c : Running b ps}
    (hc : c.Ok P w a) : c.Ok P w' a :=
  ⟨hc.keys.trans h.1, hc.fits, fun r hr => (hc.effect r hr).mono h⟩

/-- What holds in every execution. -/
structure Sys.Inv (P : Spec.Prims) (g : PureRng σ) (s : σ) (S : Sys b ps σ) : Prop where
  good : S.world.Good P
  log : ∀ e ∈ S.log, e.1 < S.calls.length
  served : Served g s (S.log.map Prod.snd) S.rng
  call : ∀ (j : Nat) (c : Running b ps), S.calls[j]? = some c → c.Ok P S.world (tape j S.log)

theorem tape_fresh {j : Nat} {log : List (Nat × Answer)} (h : ∀ e ∈ log, e.1 < j) :
    tape j log = [] := by
  rw [tape, List.map_eq_nil_iff, List.filter_eq_nil_iff]
  intro e he
  have := h e he
  simp only [decide_eq_true_eq]
  omega

theorem tape_append (j : Nat) (log : List (Nat × Answer)) (i : Nat) (a : Answer) :
    tape j (log ++ [(i, a)]) = tape j log ++ if i = j then [a] else [] := by
  rw [tape, tape, List.filter_append, List.map_append]
  congr 1
  by_cases h : i = j <;> simp [h]

theorem act_inv {g : PureRng σ} {s : σ} {S : Sys b ps σ} (h : S.Inv P g s) (x : Action ps) :
    (S.act P g x).Inv P g s := by
  cases x with
  | start op =>
    have hf := fits_invoke (P := P) (b := b) S.world.privs op
    refine ⟨settle_good h.good List.prefix_rfl (a := []) hf, ?_, h.served, ?_⟩
    · intro e he
      have := h.log e he
      simp only [Sys.act, List.length_append, List.length_singleton]
      omega
    · intro j c hc
      simp only [Sys.act] at hc ⊢
      by_cases hj : j < S.calls.length
      · rw [List.getElem?_append_left hj] at hc
        exact (h.call j c hc).mono (before_settle _ _)
      · have hj' : j = S.calls.length := by
          have := (List.getElem?_eq_some_iff.mp hc).1
          simp only [List.length_append, List.length_singleton] at this
          omega
        subst hj'
        rw [List.getElem?_append_right (Nat.le_refl _), Nat.sub_self, List.getElem?_cons_zero,
          Option.some.injEq] at hc
        subst hc
        rw [tape_fresh h.log]
        refine ⟨(before_settle _ _).1, ⟨op.draws, by simp, hf⟩, ?_⟩
        intro r hr
        simp only at hr
        rw [hr]
        exact in_commit _ _
  | advance j =>
    simp only [Sys.act]
    split
    · rename_i ks op l buf k hj
      have hc := h.call j _ hj
      obtain ⟨n, hn, hf⟩ := hc.fits
      simp only at hn hf
      have hlt := (List.getElem?_eq_some_iff.mp hj).1
      cases hf with
      | @draw n _ _ _ _ hf =>
        have hf := hf (g.fill S.rng buf).2
        have hf' : Fits n (k (g.fill S.rng buf).2) fun rest =>
            invoke P dealer ((tape j S.log ++ [⟨l, (g.fill S.rng buf).2⟩]) ++ rest) ks op := by
          simpa only [List.append_assoc, List.singleton_append] using hf
        refine ⟨settle_good h.good hc.keys hf', ?_, ?_, ?_⟩
        · intro e he
          simp only [List.mem_append, List.mem_singleton] at he
          rw [List.length_set]
          rcases he with he | rfl
          · exact h.log e he
          · exact hlt
        · rw [List.map_append]
          exact h.served.snoc buf
        · intro i c hi
          rw [tape_append]
          by_cases hij : j = i
          · subst hij
            rw [List.getElem?_set_self hlt, Option.some.injEq] at hi
            subst hi
            rw [if_pos rfl]
            refine ⟨hc.keys.trans (before_settle _ _).1, ⟨n, ?_, hf'⟩, ?_⟩
            · rw [List.length_append, List.length_singleton]
              simp only
              omega
            · intro r hr
              simp only at hr
              rw [hr]
              exact in_commit _ _
          · rw [List.getElem?_set_ne hij] at hi
            rw [if_neg hij, List.append_nil]
            exact (h.call i c hi).mono (before_settle _ _)
    · exact h

theorem execution_inv (g : PureRng σ) (s : σ) (acts : List (Action ps)) :
    (execution P b g s acts).Inv P g s := by
  have : ∀ S : Sys b ps σ, S.Inv P g s → (acts.foldl (Sys.act P g) S).Inv P g s := by
    induction acts with
    | nil => intro S h; exact h
    | cons x acts ih => intro S h; exact ih _ (act_inv h x)
  exact this _ ⟨⟨by simp, by simp, by simp⟩, by simp, .nil s, by simp⟩

theorem before_act (g : PureRng σ) (S : Sys b ps σ) (x : Action ps) :
    S.world.Before (S.act P g x).world := by
  cases x with
  | start op => exact before_settle _ _
  | advance j =>
    simp only [Sys.act]
    split
    · exact before_settle _ _
    · exact .refl _

theorem execution_append (g : PureRng σ) (s : σ) (acts acts' : List (Action ps)) :
    execution P b g s (acts ++ acts') = acts'.foldl (Sys.act P g) (execution P b g s acts) := by
  rw [execution, List.foldl_append]
  rfl

theorem ops_act (g : PureRng σ) (S : Sys b ps σ) (x : Action ps) :
    (S.act P g x).calls.map (·.op) = S.calls.map (·.op) ++ started [x] := by
  cases x with
  | start op => simp [Sys.act, started]
  | advance j =>
    simp only [Sys.act, started, List.append_nil]
    split
    · rename_i ks op l buf k hj
      refine List.ext_getElem? fun i => ?_
      rw [List.getElem?_map, List.getElem?_map]
      by_cases hij : j = i
      · subst hij
        rw [List.getElem?_set_self (List.getElem?_eq_some_iff.mp hj).1, hj]
        rfl
      · rw [List.getElem?_set_ne hij]
    · rfl

theorem started_append (acts acts' : List (Action ps)) :
    started (acts ++ acts') = started acts ++ started acts' := by
  induction acts with
  | nil => rfl
  | cons x acts ih => cases x <;> simp [started, ih]

theorem ops_execution (g : PureRng σ) (s : σ) (acts : List (Action ps)) :
    (execution P b g s acts).calls.map (·.op) = started acts := by
  have : ∀ S : Sys b ps σ,
      (acts.foldl (Sys.act P g) S).calls.map (·.op) = S.calls.map (·.op) ++ started acts := by
    induction acts with
    | nil => intro S; simp [started]
    | cons x acts ih =>
      intro S
      rw [List.foldl_cons, ih, ops_act, List.append_assoc, ← started_append, List.singleton_append]
  exact this _

theorem finishes {g : PureRng σ} {j : Nat} (acts : List (Action ps)) {S : Sys b ps σ} {n : Nat}
    {f : List Answer → Exec b (List Answer × Item ps)} {c : Running b ps} (hc : S.calls[j]? = some c)
    (hf : Fits n c.thread f) (hn : n ≤ advances j acts) :
    ∃ r, (acts.foldl (Sys.act P g) S).calls[j]? = some ⟨c.keys, c.op, .done r⟩ := by
  induction acts generalizing S n f c with
  | nil =>
    have : n = 0 := by simpa [advances] using hn
    subst this
    obtain ⟨ks, op, t⟩ := c
    cases hf with
    | done => exact ⟨_, hc⟩
  | cons x acts ih =>
    rw [List.foldl_cons]
    cases x with
    | start op =>
      refine ih ?_ hf hn
      rw [Sys.act, List.getElem?_append_left (List.getElem?_eq_some_iff.mp hc).1, hc]
    | advance i =>
      by_cases hij : i = j
      · subst hij
        obtain ⟨ks, op, t⟩ := c
        cases hf with
        | @done n r f h =>
          refine ih (n := 0) (f := f) (c := ⟨ks, op, .done r⟩) ?_ (.done h) (Nat.zero_le _)
          rw [Sys.act, hc]
          exact hc
        | @draw n l buf k f h =>
          refine ih (n := n) (c := ⟨ks, op, k (g.fill S.rng buf).2⟩) ?_ (h (g.fill S.rng buf).2) ?_
          · rw [Sys.act, hc]
            exact List.getElem?_set_self (List.getElem?_eq_some_iff.mp hc).1
          · simp only [advances, if_true] at hn
            omega
      · refine ih (n := n) (f := f) (c := c) ?_ hf ?_
        · rw [Sys.act]
          split
          · rw [List.getElem?_set_ne hij, hc]
          · exact hc
        · simpa [advances, hij] using hn

theorem invoke_no_panic (t : List Answer) (ks : List (PrivateKey ps.params)) (op : Op ps)
    (hop : ∀ n (x y z : Vector UInt8 n), op = .keygenSeeds x y z → n = ps.params.N) :
    ∃ r, (invoke P dealer t ks op : Exec b _) = pure r := by
  have hd : (dealer : Rng (Exec b) _) = PureRng.lift ⟨fun t {n} _ => deal n t⟩ := rfl
  obtain ⟨r, hr⟩ := C32_no_panic (P := P) b ⟨fun t {n} _ => deal n t⟩ [op]
    (by simpa using hop) t (⟨ks, [], []⟩ : World ps)
  obtain ⟨r1, h1, _⟩ := Exec.bind_eq_pure hr
  rw [step_invoke] at h1
  obtain ⟨r2, h2, _⟩ := Exec.bind_eq_pure h1
  exact ⟨r2, hd ▸ h2⟩

/-! ## The theorems -/

/-- **C74** However the calls of any number of threads are interleaved, every private key in circulation
signs verifiably for the public key it reports, every pair key generation returned belongs together, and
every signature made is accepted by the public key of the key that made it. -/
theorem C74_sound (b : Build) (g : PureRng σ) (s : σ) (acts : List (Action ps)) :
    (∀ sk ∈ (execution P b g s acts).world.privs, SignsFor P sk sk.get_public_key) ∧
    (∀ pr ∈ (execution P b g s acts).world.pairs, pr.2.get_public_key = pr.1 ∧ SignsFor P pr.2 pr.1) ∧
    (∀ e ∈ (execution P b g s acts).world.made,
      ∃ sk, (execution P b g s acts).world.privs[e.signer]? = some sk ∧
        e.AcceptedBy P sk.get_public_key) := by
  have h := (execution_inv (P := P) (b := b) g s acts).good
  refine ⟨fun sk hs => (h.privs sk hs).signsFor, fun pr hp => ?_, h.made⟩
  obtain ⟨h1, h2⟩ := h.pairs pr hp
  exact ⟨h2, h2 ▸ h1.signsFor⟩

/-- **C74** Whatever other calls do, no key, pair or signature is ever changed or removed. -/
theorem C74_keys_never_change (b : Build) (g : PureRng σ) (s : σ) (acts acts' : List (Action ps)) :
    (execution P b g s acts).world.privs <+: (execution P b g s (acts ++ acts')).world.privs ∧
    (execution P b g s acts).world.pairs <+: (execution P b g s (acts ++ acts')).world.pairs ∧
    (execution P b g s acts).world.made <+: (execution P b g s (acts ++ acts')).world.made := by
  rw [execution_append]
  have : ∀ S : Sys b ps σ, S.world.Before (acts'.foldl (Sys.act P g) S).world := by
    induction acts' with
    | nil => intro S; exact .refl _
    | cons x acts ih => intro S; exact (before_act g S x).trans (ih _)
  exact this _

/-- **C74** A call that has ended did exactly what it would have done alone, with a generator that deals
the answers it got: it returned the same (or panicked alike), and used up all of them. The calls are those
that were started. -/
theorem C74_as_if_alone (b : Build) (g : PureRng σ) (s : σ) (acts : List (Action ps)) :
    (execution P b g s acts).calls.map (·.op) = started acts ∧
    ∀ (j : Nat) (c : Running b ps) (r : Except Panic (Unit × Item ps)),
      (execution P b g s acts).calls[j]? = some c → c.thread = .done r →
        (invoke P dealer (tape j (execution P b g s acts).log) c.keys c.op : Exec b _) =
          (match r with
            | .ok (_, it) => pure ([], it)
            | .error p => panic p) := by
  refine ⟨ops_execution g s acts, fun j c r hc hr => ?_⟩
  obtain ⟨n, _, hf⟩ := ((execution_inv (P := P) (b := b) g s acts).call j c hc).fits
  rw [hr] at hf
  have := fits_ended hf []
  rw [List.append_nil] at this
  rw [this]
  cases r <;> rfl

/-- **C74** What the generator gives, it gives to one call: the answers of all calls, put together in the
order in which they were given, are what the generator gives to somebody who asks alone; and no call draws
more often than its function says. -/
theorem C74_draws (b : Build) (g : PureRng σ) (s : σ) (acts : List (Action ps)) :
    Served g s ((execution P b g s acts).log.map Prod.snd) (execution P b g s acts).rng ∧
    (∀ e ∈ (execution P b g s acts).log, e.1 < (started acts).length) ∧
    ∀ (j : Nat) (c : Running b ps), (execution P b g s acts).calls[j]? = some c →
      (tape j (execution P b g s acts).log).length ≤ c.op.draws := by
  have h := execution_inv (P := P) (b := b) g s acts
  refine ⟨h.served, ?_, ?_⟩
  · have := ops_execution (P := P) (b := b) g s acts
    rw [← this, List.length_map]
    exact h.log
  · intro j c hc
    obtain ⟨n, hn, _⟩ := (h.call j c hc).fits
    omega

/-- **C74** A call ends, with no panic, as soon as it has had its draws: at most three for key generation,
one for a hedged signature, none otherwise; nothing that other calls do can delay or disturb it. It works
on the keys that were there when it started, and what it returns is there afterwards. -/
theorem C74_finishes (b : Build) (g : PureRng σ) (s : σ) (acts acts' : List (Action ps)) (op : Op ps)
    (hop : ∀ n (x y z : Vector UInt8 n), op = .keygenSeeds x y z → n = ps.params.N)
    (hd : op.draws ≤ advances (started acts).length acts') :
    ∃ it, (execution P b g s (acts ++ .start op :: acts')).calls[(started acts).length]? =
        some ⟨(execution P b g s acts).world.privs, op, .done (.ok ((), it))⟩ ∧
      it.In (execution P b g s (acts ++ .start op :: acts')).world := by
  have hl : (execution P b g s acts).calls.length = (started acts).length := by
    rw [← ops_execution (P := P) (b := b) g s acts, List.length_map]
  have h1 : ((execution P b g s acts).act P g (.start op)).calls[(started acts).length]? =
      some ⟨(execution P b g s acts).world.privs, op,
        invoke P Thread.rng () (execution P b g s acts).world.privs op⟩ := by
    rw [Sys.act, ← hl, List.getElem?_append_right (Nat.le_refl _), Nat.sub_self,
      List.getElem?_cons_zero]
  obtain ⟨r, hr⟩ := finishes (P := P) (g := g) acts' h1 (fits_invoke _ op) hd
  have he : execution P b g s (acts ++ .start op :: acts') =
      acts'.foldl (Sys.act P g) ((execution P b g s acts).act P g (.start op)) := by
    rw [execution_append, List.foldl_cons]
  rw [← he] at hr
  have ha := (C74_as_if_alone (P := P) b g s (acts ++ .start op :: acts')).2 _ _ r hr rfl
  obtain ⟨v, hv⟩ := invoke_no_panic (P := P) (b := b)
    (tape (started acts).length (execution P b g s (acts ++ .start op :: acts')).log)
    (execution P b g s acts).world.privs op hop
  have ha' := hv.symm.trans ha
  cases r with
  | error p => exact nomatch ha'
  | ok r =>
    refine ⟨r.2, hr, ?_⟩
    exact ((execution_inv (P := P) (b := b) g s _).call _ _ hr).effect _ rfl

/-- Two key generations whose draws alternate, a hedged signature with the first key before the second
generation has ended, and a deterministic one that needs no draw. -/
def demoActs : List (Action ps) :=
  [.start .keygen, .start .keygen, .advance 0, .advance 1, .advance 0, .advance 1, .advance 0,
    .start (.sign 0 [104, 105] [9] true), .advance 2, .start (.hashSign 0 [7] [] .SHA256 false), .advance 1]

theorem invoke_keygen (ks : List (PrivateKey ps.params)) :
    (invoke P Thread.rng () ks .keygen : Thread b (Unit × Item ps)) =
      .draw (zeroBytes ps.params.N) fun
        | .error _ => .done (.ok ((), .nothing))
        | .ok x => .draw (zeroBytes ps.params.N) fun
          | .error _ => .done (.ok ((), .nothing))
          | .ok y => .draw (zeroBytes ps.params.N) fun
            | .error _ => .done (.ok ((), .nothing))
            | .ok z => .done (.ok ((), .pair (keyPair ps P x y z).1 (keyPair ps P x y z).2)) := by
  rw [invoke, thread_try_keygen_with_rng]
  refine congrArg (Thread.draw _) (funext fun a => ?_)
  cases a with
  | error => rfl
  | ok x =>
    refine congrArg (Thread.draw _) (funext fun a => ?_)
    cases a with
    | error => rfl
    | ok y =>
      refine congrArg (Thread.draw _) (funext fun a => ?_)
      cases a <;> rfl

theorem invoke_sign {ks : List (PrivateKey ps.params)} {i : Nat} {sk : PrivateKey ps.params}
    (h : ks[i]? = some sk) {msg ctx : List UInt8} (hc : ctx.length ≤ 255) :
    (invoke P Thread.rng () ks (.sign i msg ctx true) : Thread b (Unit × Item ps)) =
      .draw sk.key.pk_seed fun a =>
        .done (.ok ((), .ofSign i msg ctx none (signOutcome ps P (Spec.pureMsg ctx msg) sk.key a))) := by
  simp only [invoke, h, thread_try_sign_with_rng, if_neg (Nat.not_lt.mpr hc), if_true]
  rfl

theorem invoke_hash_sign {ks : List (PrivateKey ps.params)} {i : Nat} {sk : PrivateKey ps.params}
    (h : ks[i]? = some sk) {msg ctx : List UInt8} {ph : Ph} (hc : ctx.length ≤ 255) :
    (invoke P Thread.rng () ks (.hashSign i msg ctx ph false) : Thread b (Unit × Item ps)) =
      .done (.ok ((), .ofSign i msg ctx (some ph)
        (.ok (sigVec ps P (phMsg P ctx msg ph) sk.key sk.key.pk_seed)))) := by
  simp only [invoke, h, thread_try_hash_sign_with_rng, if_neg (Nat.not_lt.mpr hc)]
  rfl

example (ps : ParamSet) :
    (execution demoPrims demoBuild demoRng 0 (demoActs (ps := ps))).world.privs.length = 2 ∧
    (execution demoPrims demoBuild demoRng 0 (demoActs (ps := ps))).world.made.length = 2 := by
  simp [execution, demoActs, Sys.act, invoke_keygen, settle, demoRng, World.commit, World.add, invoke_sign,
    invoke_hash_sign, Item.ofSign, signOutcome]

end Fips205.Props
