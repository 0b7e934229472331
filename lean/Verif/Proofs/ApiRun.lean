import Verif.Props.ApiGame
import Verif.Props.Counts
import Verif.Props.Encoding
import Verif.Proofs.Full
import Verif.Proofs.Collide

/-!
# The game with the functions of the API: preparations

Its outcome, the calls of the hash functions made during the game, and the forger against formatted messages that it
gives.
-/

namespace Fips205.Props
open Fips205 Fips205.Model

variable {ps : ParamSet} {L B w : Nat} {b : Build}

/-! ## The outcome -/

/-- The string signed. -/
def SigRequest.str (P : Spec.Prims) (x : SigRequest L) : List UInt8 :=
  match x.ph with
  | none => Spec.pureMsg x.ctx x.msg
  | some ph => phMsg P x.ctx x.msg ph

/-- The additional randomness: none if not hedged. -/
def coins {N : Nat} (hedged : Bool) (rnd : Except Unit (Vector UInt8 N)) : Except Unit (Option (Vector UInt8 N)) :=
  if hedged then rnd.map some else .ok none

/-- The answer to a request to sign. -/
def SigRequest.answer (P : Spec.Prims) (sk : PrivateKey ps.params) (x : SigRequest L) (hedged : Bool)
    (rnd : Except Unit (Vector UInt8 ps.params.N)) : Except String (Vector UInt8 ps.params.SIG_LEN) :=
  if 255 < x.ctx.length then .error "ctx must be less than 256 bytes"
  else match coins hedged rnd with
    | .error _ => .error "Alg17: rng failed"
    | .ok o => .ok (sigVec ps P (x.str P) sk.key (o.getD sk.key.pk_seed))

theorem exec_request_sign (P : Spec.Prims) (sk : PrivateKey ps.params) (x : SigRequest L) (hedged : Bool)
    (rnd : Except Unit (Vector UInt8 ps.params.N)) :
    (x.sign (crypto P) sk hedged rnd : Exec b _) = pure ((), x.answer P sk hedged rnd) := by
  obtain ⟨ph, ctx, msg, hs⟩ := x
  cases ph with
  | none =>
    simp only [SigRequest.sign, SigRequest.answer, SigRequest.str, exec_try_sign_with_rng, coins, fixedRng]
    split
    · rfl
    · cases hedged
      · rfl
      · cases rnd with
        | error e => rfl
        | ok v => simp [Except.map, signOutcome, toVec_toList_self]
  | some ph =>
    simp only [SigRequest.sign, SigRequest.answer, SigRequest.str, exec_try_hash_sign_with_rng, coins, fixedRng]
    split
    · rfl
    · cases hedged
      · rfl
      · cases rnd with
        | error e => rfl
        | ok v => simp [Except.map, signOutcome, toVec_toList_self]

/-- The verdict about a signature. -/
def SigRequest.check (P : Spec.Prims) (pk : PublicKey ps.params) (x : SigRequest L)
    (sig : Vector UInt8 ps.params.SIG_LEN) : Bool :=
  if 255 < x.ctx.length then false
  else Spec.verifyInternal ps.sp (ps.hf P) (x.str P) sig.toList pk.key.pk_seed.toList pk.key.pk_root.toList

theorem exec_request_verify (P : Spec.Prims) (pk : PublicKey ps.params) (x : SigRequest L)
    (sig : Vector UInt8 ps.params.SIG_LEN) : (x.verify (crypto P) pk sig : Exec b _) = pure (x.check P pk sig) := by
  obtain ⟨ph, ctx, msg, hs⟩ := x
  cases ph with
  | none => simp only [SigRequest.verify, exec_verify, SigRequest.check, SigRequest.str, Spec.verify]
  | some ph => simp only [SigRequest.verify, exec_hash_verify, SigRequest.check, SigRequest.str, Spec.hashVerify, phMsg]

/-- The signatures handed out, after an answer. -/
def handed (x : SigRequest L) (r : Except String (Vector UInt8 ps.params.SIG_LEN))
    (asked : List (SigRequest L × Vector UInt8 ps.params.SIG_LEN)) :
    List (SigRequest L × Vector UInt8 ps.params.SIG_LEN) :=
  match r with
  | .ok sig => (x, sig) :: asked
  | .error _ => asked

/-- The outcome of the game with a key. -/
def ApiForger.outcome (P : Spec.Prims) (O : Query B → Fin (256 ^ w)) (pk : PublicKey ps.params)
    (sk : PrivateKey ps.params) : {q Q : Nat} → ApiForger ps L B w q Q →
    List (SigRequest L × Vector UInt8 ps.params.SIG_LEN) → ApiOutcome ps L
  | _, _, .forge x sig, asked => { x, sig, accepted := x.check P pk sig, asked }
  | _, _, .sign x hedged rnd next, asked =>
    (next (x.answer P sk hedged rnd)).outcome P O pk sk (handed x (x.answer P sk hedged rnd) asked)
  | _, _, .call y next, asked => (next (O y)).outcome P O pk sk asked

theorem api_attack_eq (P : Spec.Prims) (O : Query B → Fin (256 ^ w)) (pk : PublicKey ps.params)
    (sk : PrivateKey ps.params) {q Q : Nat} (A : ApiForger ps L B w q Q) :
    ∀ asked, A.attack (crypto P) (fun y => pure (O y)) pk sk asked = (pure (A.outcome P O pk sk asked) : Exec b _) := by
  induction A with
  | forge x sig =>
    intro asked
    rw [ApiForger.attack, exec_request_verify, pure_bind, ApiForger.outcome]
  | sign x hedged rnd next ih =>
    intro asked
    rw [ApiForger.attack, exec_request_sign, pure_bind, ApiForger.outcome]
    exact ih _ _
  | call y next ih =>
    intro asked
    rw [ApiForger.attack, pure_bind, ApiForger.outcome]
    exact ih _ asked

/-- The outcome of the game. -/
def apiOutcome {q Q : Nat} (P0 : Spec.Prims) (O : Query B → Fin (256 ^ w)) (pk_seed : Vector UInt8 ps.params.N)
    (A : PublicKey ps.params → ApiForger ps L B w q Q) (s k : D ps) : ApiOutcome ps L :=
  let x := widePair P0 pk_seed s k O
  (A x.1).outcome (withHash P0 O) O x.1 x.2 []

theorem romApiGame_eq {q Q : Nat} (P0 : Spec.Prims) (O : Query B → Fin (256 ^ w)) (pk_seed : Vector UInt8 ps.params.N)
    (A : PublicKey ps.params → ApiForger ps L B w q Q) (s k : D ps) :
    romApiGame b P0 O pk_seed A s k = pure (apiOutcome P0 O pk_seed A s k) := by
  rw [romApiGame, apiGame, exec_keygen_with_seeds, pure_bind]
  exact api_attack_eq _ _ _ _ _ _

/-! ## Any monad -/

section
variable {m m' : Type → Type} [Rust m] [Rust m'] (φ : RustHom m m') (C : Crypto m)

theorem map_fixedRng {N : Nat} (rnd : Except Unit (Vector UInt8 N)) : φ.rng (fixedRng rnd) = fixedRng rnd := by
  simp [RustHom.rng, fixedRng]

theorem map_request_sign (x : SigRequest L) (sk : PrivateKey ps.params) (hedged : Bool)
    (rnd : Except Unit (Vector UInt8 ps.params.N)) :
    φ.app (x.sign C sk hedged rnd) = x.sign (φ.crypto C) sk hedged rnd := by
  obtain ⟨ph, ctx, msg, hs⟩ := x
  cases ph with
  | none => simp only [SigRequest.sign, RustHom.map_try_sign_with_rng, map_fixedRng]
  | some ph => simp only [SigRequest.sign, RustHom.map_try_hash_sign_with_rng, map_fixedRng]

theorem map_request_verify (x : SigRequest L) (pk : PublicKey ps.params) (sig : Vector UInt8 ps.params.SIG_LEN) :
    φ.app (x.verify C pk sig) = x.verify (φ.crypto C) pk sig := by
  obtain ⟨ph, ctx, msg, hs⟩ := x
  cases ph with
  | none => simp only [SigRequest.verify, RustHom.map_verify]
  | some ph => simp only [SigRequest.verify, RustHom.map_hash_verify]

theorem map_api_attack (ask : Query B → m (Fin (256 ^ w))) (pk : PublicKey ps.params) (sk : PrivateKey ps.params)
    {q Q : Nat} (A : ApiForger ps L B w q Q) : ∀ asked,
    φ.app (A.attack C ask pk sk asked) = A.attack (φ.crypto C) (fun y => φ.app (ask y)) pk sk asked := by
  induction A with
  | forge x sig =>
    intro asked
    simp only [ApiForger.attack, RustHom.map_bind, map_request_verify, RustHom.map_pure]
  | sign x hedged rnd next ih =>
    intro asked
    simp only [ApiForger.attack, RustHom.map_bind, map_request_sign, ih]
  | call y next ih =>
    intro asked
    simp only [ApiForger.attack, RustHom.map_bind, ih]

theorem map_apiGame {q Q : Nat} (ask : Query B → m (Fin (256 ^ w))) (pk_seed : Vector UInt8 ps.params.N)
    (A : PublicKey ps.params → ApiForger ps L B w q Q) (s k : Fin (256 ^ ps.sp.n)) :
    φ.app (apiGame C ask pk_seed A s k) = apiGame (φ.crypto C) (fun y => φ.app (ask y)) pk_seed A s k := by
  simp only [apiGame, RustHom.map_bind, RustHom.map_keygen_with_seeds, map_api_attack]

end

/-! ## The calls made during the game -/

/-- The forger's calls, recorded. -/
def logAsk (O : Query B → Fin (256 ^ w)) (y : Query B) : LogExec b (Fin (256 ^ w)) :=
  LogExec.call y.1.alg y.1.input (O y)

/-- The most hashes that signing takes. -/
def signMost (ps : ParamSet) : Nat :=
  prfMsgWork ps + hMsgWork ps + (ps.sp.k * forsTreeWork ps.sp.a + 1) + ps.sp.d * treeWork ps ps.sp.hp

theorem signCount_le (digit : Nat → Nat) : signCount ps digit ≤ signMost ps :=
  Nat.add_le_add_left (Nat.sub_le _ _) _

theorem verifyCount_le (digit : Nat → Nat → Nat) : verifyCount ps digit ≤ verifyWork ps := by
  have h : ∀ f : Nat → Nat, ∀ c n : Nat, (∀ j, f j ≤ c) → ((List.range n).map f).sum ≤ n * c := by
    intro f c n hf
    induction n with
    | zero => simp
    | succ n ih =>
      rw [List.range_succ, List.map_append, List.sum_append, Nat.add_mul]
      have := hf n
      simp only [List.map_cons, List.map_nil, List.sum_cons, List.sum_nil]
      omega
  refine Nat.add_le_add_left (h _ _ _ fun j => ?_) _
  refine Nat.add_le_add_right (Nat.add_le_add_right ?_ _) _
  exact (h _ 15 _ fun i => Nat.sub_le _ _).trans (le_of_eq (Nat.mul_comm _ _))

theorem log_bind {α β : Type} {x : LogExec b α} {f : α → LogExec b β} {l l' : List Call} {v : α} {r : Except Panic β}
    (h : x = (l, .ok v)) (h' : f v = (l', r)) : x >>= f = (l ++ l', r) := by
  rw [LogExec.bind_ok h, h']

theorem log_sign (P : Spec.Prims) (sk : PrivateKey ps.params) (x : SigRequest L) (hedged : Bool)
    (rnd : Except Unit (Vector UInt8 ps.params.N)) :
    ∃ l : List Call, (x.sign (recording P) sk hedged rnd : LogExec b _) = (l, .ok ((), x.answer P sk hedged rnd)) ∧
      l.length ≤ signMost ps + 1 ∧
      ∀ sig, x.answer P sk hedged rnd = .ok sig → ∀ ph, x.ph = some ph → ⟨ph.spec, x.msg⟩ ∈ l := by
  have he : (x.sign (recording P) sk hedged rnd : LogExec b _).result = .ok ((), x.answer P sk hedged rnd) :=
    (map_request_sign LogExec.erase (recording P) x sk hedged rnd).trans (exec_request_sign P sk x hedged rnd)
  refine ⟨_, Prod.ext rfl he, ?_⟩
  have hq : UnloggedRng (fixedRng rnd : Rng (LogExec b) Unit) := fun _ _ _ => rfl
  generalize hr : x.answer P sk hedged rnd = r at he
  obtain ⟨ph, ctx, msg, hs⟩ := x
  cases ph with
  | none =>
    simp only [SigRequest.sign] at he ⊢
    refine ⟨?_, fun _ _ ph h => nomatch h⟩
    obtain ⟨h1, h2⟩ := C47_try_sign_with_rng (P := P) hq () sk msg ctx hedged
    cases r with
    | error e =>
      have := h2 (fun s' sig h => by rw [he] at h; cases h)
      refine le_trans (le_of_eq (congrArg List.length this)) (Nat.zero_le _)
    | ok sig =>
      exact (le_of_eq (C54_try_sign_with_rng hq () () sk msg ctx hedged sig he)).trans
        ((signCount_le _).trans (Nat.le_succ _))
  | some ph =>
    simp only [SigRequest.sign] at he ⊢
    obtain ⟨h1, h2⟩ := C47_try_hash_sign_with_rng (P := P) hq () sk msg ctx ph hedged
    cases r with
    | error e =>
      have := h2 (fun s' sig h => by rw [he] at h; cases h)
      refine ⟨le_trans (le_of_eq (congrArg List.length this)) ?_, fun sig h => nomatch h⟩
      split
      · exact Nat.le_add_left _ _
      · exact Nat.zero_le _
    | ok sig =>
      refine ⟨(le_of_eq (C54_try_hash_sign_with_rng hq () () sk msg ctx ph hedged sig he)).trans
        (Nat.succ_le_succ (signCount_le _)), fun _ _ ph' hph => ?_⟩
      cases hph
      obtain ⟨opt, l, -, -, hl⟩ := h1 () sig he
      exact (congrArg (fun l : List Call => (⟨ph.spec, msg⟩ : Call) ∈ l) hl).mpr List.mem_cons_self

theorem log_verify (P : Spec.Prims) (pk : PublicKey ps.params) (x : SigRequest L)
    (sig : Vector UInt8 ps.params.SIG_LEN) :
    ∃ l : List Call, (x.verify (recording P) pk sig : LogExec b _) = (l, .ok (x.check P pk sig)) ∧
      l.length ≤ verifyWork ps + 1 ∧ (x.ctx.length ≤ 255 → ∀ ph, x.ph = some ph → ⟨ph.spec, x.msg⟩ ∈ l) := by
  have he : (x.verify (recording P) pk sig : LogExec b _).result = .ok (x.check P pk sig) :=
    (map_request_verify LogExec.erase (recording P) x pk sig).trans (exec_request_verify P pk x sig)
  refine ⟨_, Prod.ext rfl he, ?_⟩
  clear he
  obtain ⟨ph, ctx, msg, hs⟩ := x
  cases ph with
  | none =>
    simp only [SigRequest.verify]
    refine ⟨(le_of_eq (C54_verify (b := b) (P := P) pk msg ctx sig)).trans ?_, fun _ ph h => nomatch h⟩
    split
    · exact (verifyCount_le _).trans (Nat.le_succ _)
    · exact Nat.zero_le _
  | some ph =>
    simp only [SigRequest.verify]
    refine ⟨(le_of_eq (C54_hash_verify (b := b) (P := P) pk msg ctx ph sig)).trans ?_, fun hc ph' h => ?_⟩
    · split
      · exact Nat.succ_le_succ (verifyCount_le _)
      · exact Nat.zero_le _
    · cases h
      have h := C47_hash_verify (b := b) (P := P) pk msg ctx ph sig
      simp only [hc, if_true] at h
      obtain ⟨l, -, hl⟩ := h
      exact (congrArg (fun l : List Call => (⟨ph.spec, msg⟩ : Call) ∈ l) hl).mpr List.mem_cons_self

/-- Contexts are not too long, and pre-hashed messages were hashed. -/
def Known (l : List Call) (asked : List (SigRequest L × Vector UInt8 ps.params.SIG_LEN)) : Prop :=
  ∀ e ∈ asked, e.1.ctx.length ≤ 255 ∧ ∀ ph, e.1.ph = some ph → ⟨ph.spec, e.1.msg⟩ ∈ l

theorem Known.handed {l l' : List Call} {asked : List (SigRequest L × Vector UInt8 ps.params.SIG_LEN)} (h : Known l asked)
    {P : Spec.Prims} {sk : PrivateKey ps.params} {x : SigRequest L} {hedged : Bool}
    {rnd : Except Unit (Vector UInt8 ps.params.N)}
    (hl : ∀ sig, x.answer P sk hedged rnd = .ok sig → ∀ ph, x.ph = some ph → ⟨ph.spec, x.msg⟩ ∈ l') :
    Known (l ++ l') (handed x (x.answer P sk hedged rnd) asked) := by
  have h' : Known (l ++ l') asked := fun e he => ⟨(h e he).1, fun ph hph => List.mem_append_left _ ((h e he).2 ph hph)⟩
  cases hr : x.answer P sk hedged rnd with
  | error e => exact h'
  | ok sig =>
    intro e he
    rcases List.mem_cons.mp he with rfl | he
    · refine ⟨?_, fun ph hph => List.mem_append_right _ (hl sig hr ph hph)⟩
      by_contra hc
      rw [SigRequest.answer, if_pos (show 255 < x.ctx.length from by simpa using hc)] at hr
      cases hr
    · exact h' e he

/-- The calls of the game with a key. -/
theorem log_attack (P : Spec.Prims) (O : Query B → Fin (256 ^ w)) (pk : PublicKey ps.params)
    (sk : PrivateKey ps.params) {q Q : Nat} (A : ApiForger ps L B w q Q) : ∀ asked,
    ∃ l : List Call, (A.attack (recording P) (logAsk O) pk sk asked : LogExec b _) = (l, .ok (A.outcome P O pk sk asked)) ∧
      l.length ≤ q * (signMost ps + 1) + Q + (verifyWork ps + 1) ∧
      ∀ l0, Known l0 asked → Known (l0 ++ l) (A.outcome P O pk sk asked).asked ∧
        ((A.outcome P O pk sk asked).x.ctx.length ≤ 255 → ∀ ph, (A.outcome P O pk sk asked).x.ph = some ph →
          ⟨ph.spec, (A.outcome P O pk sk asked).x.msg⟩ ∈ l0 ++ l) := by
  induction A with
  | forge x sig =>
    intro asked
    obtain ⟨l, h1, h2, h3⟩ := log_verify (b := b) P pk x sig
    refine ⟨l, ?_, h2.trans (Nat.le_add_left _ _), fun l0 h0 => ⟨?_, ?_⟩⟩
    · rw [ApiForger.attack, ApiForger.outcome]
      refine (log_bind (l' := []) h1 rfl).trans (Prod.ext (List.append_nil _) rfl)
    · exact fun e he => ⟨(h0 e he).1, fun ph hph => List.mem_append_left _ ((h0 e he).2 ph hph)⟩
    · exact fun hc ph hph => List.mem_append_right _ (h3 hc ph hph)
  | @sign q Q x hedged rnd next ih =>
    intro asked
    obtain ⟨l, h1, h2, h3⟩ := log_sign (b := b) P sk x hedged rnd
    obtain ⟨l', h1', h2', h3'⟩ := ih (x.answer P sk hedged rnd) (handed x (x.answer P sk hedged rnd) asked)
    refine ⟨l ++ l', ?_, ?_, fun l0 h0 => ?_⟩
    · rw [ApiForger.attack, ApiForger.outcome]
      exact log_bind h1 h1'
    · rw [List.length_append, Nat.add_mul]
      omega
    · have := h3' (l0 ++ l) (h0.handed h3)
      rw [List.append_assoc] at this
      exact this
  | @call q Q y next ih =>
    intro asked
    obtain ⟨l, h1, h2, h3⟩ := ih (O y) asked
    refine ⟨y.1 :: l, ?_, ?_, fun l0 h0 => ?_⟩
    · rw [ApiForger.attack, ApiForger.outcome]
      exact log_bind (l := [y.1]) rfl h1
    · rw [List.length_cons]
      omega
    · have := h3 (l0 ++ [y.1]) (fun e he => ⟨(h0 e he).1, fun ph hph => List.mem_append_left _ ((h0 e he).2 ph hph)⟩)
      rw [List.append_assoc] at this
      exact this

/-- The calls made during the game, at most. -/
def gameCalls (ps : ParamSet) (q Q : Nat) : Nat :=
  treeWork ps ps.sp.hp + q * (signMost ps + 1) + Q + (verifyWork ps + 1)

theorem log_apiGame {q Q : Nat} (P0 : Spec.Prims) (O : Query B → Fin (256 ^ w)) (pk_seed : Vector UInt8 ps.params.N)
    (A : PublicKey ps.params → ApiForger ps L B w q Q) (s k : D ps) :
    ∃ l : List Call, (apiGame (recording (withHash P0 O)) (logAsk O) pk_seed A s k : LogExec b _) =
        (l, .ok (apiOutcome P0 O pk_seed A s k)) ∧
      l.length ≤ gameCalls ps q Q ∧ Known l (apiOutcome P0 O pk_seed A s k).asked ∧
      ((apiOutcome P0 O pk_seed A s k).x.ctx.length ≤ 255 → ∀ ph, (apiOutcome P0 O pk_seed A s k).x.ph = some ph →
          ⟨ph.spec, (apiOutcome P0 O pk_seed A s k).x.msg⟩ ∈ l) := by
  have hlen := C54_keygen_with_seeds (ps := ps) (P := withHash P0 O) (b := b) (toVec ps.params.N (Spec.toByte s ps.sp.n))
    (toVec ps.params.N (Spec.toByte k ps.sp.n)) pk_seed
  rw [LogExec.log] at hlen
  obtain ⟨lk, hk, hlk⟩ : ∃ lk, (keygen_with_seeds ps.params (recording (withHash P0 O))
      (toVec ps.params.N (Spec.toByte s ps.sp.n)) (toVec ps.params.N (Spec.toByte k ps.sp.n)) pk_seed : LogExec b _) =
        (lk, .ok (widePair P0 pk_seed s k O)) ∧ lk.length = treeWork ps ps.sp.hp :=
    ⟨_, Prod.ext rfl ((C47_same_seeded _ _ _).trans (exec_keygen_with_seeds _ _ _)), hlen⟩
  obtain ⟨l, h1, h2, h3⟩ := log_attack (b := b) (withHash P0 O) O (widePair P0 pk_seed s k O).1
    (widePair P0 pk_seed s k O).2 (A (widePair P0 pk_seed s k O).1) []
  have h3 := h3 lk (fun e he => nomatch he)
  refine ⟨lk ++ l, ?_, ?_, h3⟩
  · rw [apiGame]
    exact log_bind hk h1
  · rw [List.length_append, hlk, gameCalls]
    omega

end Fips205.Props
