import Verif.Proofs.Sha2Star

/-!
# The game with the code as it is, for the SHA2 parameter sets
-/

namespace Fips205.Props
open Fips205 Fips205.Model

variable {ps : ParamSet} {S : Finset (List UInt8)} {B w : Nat}

/-- The blocks of MGF1. -/
abbrev Blk (ps : ParamSet) (w : Nat) : Type := Fin (blocks ps) → Fin (256 ^ w)

/-- The number of the digest of the blocks. -/
abbrev digOf (X : Blk ps w) : Fin (256 ^ ps.sp.m) := dig ps.sp.m (hlen ps) X

/-- The input of `H_msg` that a call is for. -/
noncomputable def mpAt (S : Finset (List UInt8)) (pk : PublicKey ps.params) (y : Query B) : Option (MsgPt ps S) := by
  classical
  exact if h : ∃ j : MsgPt ps S, ptM B pk.key.pk_seed.toList pk.key.pk_root.toList j = some y then some h.choose else none

theorem mpAt_some {pk : PublicKey ps.params} {y : Query B} {j : MsgPt ps S} (h : mpAt S pk y = some j) :
    ptM B pk.key.pk_seed.toList pk.key.pk_root.toList j = some y := by
  rw [mpAt] at h
  split at h
  · rename_i he
    rw [← Option.some.inj h]
    exact he.choose_spec
  · cases h

theorem mpAt_none {pk : PublicKey ps.params} {y : Query B} (h : mpAt S pk y = none) (j : MsgPt ps S) :
    ptM B pk.key.pk_seed.toList pk.key.pk_root.toList j ≠ some y := by
  rw [mpAt] at h
  split at h
  · cases h
  · rename_i he
    exact fun e => he ⟨j, e⟩

section
variable (hn : ps.sp.n ≤ w) (hh : hlen ps ≤ w) (O : Query B → D ps) (τO : Query B → Fin (256 ^ (w - ps.sp.n)))
  (Y : D ps × S → Yv ps) (τY : D ps × S → Fin (256 ^ (w - hlen ps))) (V : D ps × Yv ps → Blk ps w)
  (f : D ps × S → Yv ps) (τf : D ps × S → Fin (256 ^ (w - hlen ps)))
  (g : Yv ps → D ps) (τg : Yv ps → Fin (256 ^ (w - ps.sp.n)))

/-- The values drawn separately. -/
def pieces : Pt ps S → Fin (256 ^ w)
  | .inl (.inl i) => glue hh (Y i, τY i)
  | .inl (.inr j) => V j.1 j.2
  | .inr (.inl i) => glue hh (f i, τf i)
  | .inr (.inr z) => glue hn (g z, τg z)

/-! ## The player -/

section
variable (P : Spec.Prims) (pk : PublicKey ps.params) (sk : PrivateKey ps.params) (G : Randomizer ps S)

/-- The forger, as a player who evaluates the two functions that `H_msg` consists of. -/
noncomputable def FullForger.player : {q Q : Nat} → FullForger ps S B w q Q →
    List (Vector UInt8 ps.params.SIG_LEN × List UInt8) → (N : Nat) → Q + 2 * q + 2 ≤ N →
    Oracle.Player (D ps) S (Yv ps) (Blk ps w) N
  | _, _, .forge _ _, _, 0, h => absurd h (by omega)
  | _, _, .forge _ _, _, 1, h => absurd h (by omega)
  | _, _, .forge sig mp, asked, _ + 2, _ =>
    .look (number ps.sp.n (sig.toList.take ps.sp.n), mp.msg) fun y =>
      .peek (number ps.sp.n (sig.toList.take ps.sp.n), y) fun X => .done
        ({ sig, msg := mp.1.flatten, asked
           accepted := Spec.verifyInternal ps.sp (ParamSet.hfRandom ps P fun _ : D ps × S => digOf X) mp.1.flatten
            sig.toList pk.key.pk_seed.toList pk.key.pk_root.toList } : Outcome ps).Forged
  | _, _, .sign _ _ _, _, 0, h => absurd h (by omega)
  | _, _, .sign _ _ _, _, 1, h => absurd h (by omega)
  | _, _, .sign rnd mp next, asked, N + 2, h =>
    .look (G (number ps.sp.n (rnd.getD pk.key.pk_seed).toList, mp.msg), mp.msg) fun y =>
      .peek (G (number ps.sp.n (rnd.getD pk.key.pk_seed).toList, mp.msg), y) fun X =>
        (next (.ok (ownSig P sk (fun _ : D ps × S => digOf X)
            (G (number ps.sp.n (rnd.getD pk.key.pk_seed).toList, mp.msg)) mp.1.flatten))).player
          ((ownSig P sk (fun _ : D ps × S => digOf X) (G (number ps.sp.n (rnd.getD pk.key.pk_seed).toList, mp.msg))
            mp.1.flatten, mp.1.flatten) :: asked) N (by omega)
  | _, _, .call _ _, _, 0, h => absurd h (by omega)
  | _, _, .call y next, asked, N + 1, h =>
    match mpAt S pk y with
    | some (.inl i) => .look i fun v => (next (glue hh (v, τY i))).player asked N (by omega)
    | some (.inr j) => .peek j.1 fun X => (next (X j.2)).player asked N (by omega)
    | none => .skip ((next (glue hn (O y, τO y))).player asked N (by omega))

/-- The values of `SK.prf` that would make a difference. -/
noncomputable def FullForger.keys2 : {q Q : Nat} → FullForger ps S B w q Q → List (D ps)
  | _, _, .forge _ _ => []
  | _, _, .sign rnd mp next =>
    let r := G (number ps.sp.n (rnd.getD pk.key.pk_seed).toList, mp.msg)
    (next (.ok (ownSig P sk (fun _ : D ps × S => digOf (V (r, Y (r, mp.msg)))) r mp.1.flatten))).keys2
  | _, _, .call y next =>
    number ps.sp.n ((y.1.input.take ps.sp.n).map (· ^^^ 0x36)) ::
      number ps.sp.n ((y.1.input.take ps.sp.n).map (· ^^^ 0x5c)) ::
      (next (match mpAt S pk y with
        | some (.inl i) => glue hh (Y i, τY i)
        | some (.inr j) => V j.1 j.2
        | none => glue hn (O y, τO y))).keys2

theorem keys2_length {q Q : Nat} (A : FullForger ps S B w q Q) :
    (A.keys2 hn hh O τO Y τY V P pk sk G).length ≤ 2 * Q := by
  induction A with
  | forge sig mp => simp [FullForger.keys2]
  | sign rnd mp next ih => exact ih _
  | call y next ih =>
    have := ih (match mpAt S pk y with
        | some (.inl i) => glue hh (Y i, τY i)
        | some (.inr j) => V j.1 j.2
        | none => glue hn (O y, τO y))
    simp only [FullForger.keys2, List.length_cons]
    omega

end

/-! ## The forger in the game of `Verif.Proofs.Opt` -/

section
variable {τ : Type} (e : Fin (256 ^ ps.sp.m) × τ ≃ Blk ps w) (τX : D ps × S → τ)

/-- The forger: calls for blocks of MGF1 are evaluations of `H_msg`, if they follow the hash of a message that was made
before. -/
noncomputable def FullForger.wrap (pk : PublicKey ps.params) : {q Q : Nat} → FullForger ps S B w q Q →
    List (D ps × S) → (T Q' : Nat) → Q ≤ T → Q ≤ Q' → OptForger ps S B q T Q'
  | _, _, .forge sig mp, _, _, _, _, _ => .forge sig mp
  | _, _, .sign rnd mp next, K, T, Q', h, h' =>
    .sign (number ps.sp.n (rnd.getD pk.key.pk_seed).toList) mp fun
      | .ok sig => (next (.ok sig)).wrap pk ((number ps.sp.n (sig.toList.take ps.sp.n), mp.msg) :: K) T Q' h h'
      | .error m => (next (.error m)).wrap pk K T Q' h h'
  | _, _, .call _ _, _, 0, _, h, _ => absurd h (Nat.not_succ_le_zero _)
  | _, _, .call _ _, _, _ + 1, 0, _, h' => absurd h' (Nat.not_succ_le_zero _)
  | _, _, .call y next, K, T + 1, Q' + 1, h, h' =>
    match mpAt S pk y with
    | some (.inl i) => (next (glue hh (Y i, τY i))).wrap pk (i :: K) (T + 1) (Q' + 1) (Nat.le_of_succ_le h)
        (Nat.le_of_succ_le h')
    | some (.inr j) =>
      match Oracle.find Y K j.1 with
      | some x => .hash (toVec _ (Spec.toByte x.1 ps.sp.n)) ⟨[x.2.val], by simp, by simp⟩ fun d =>
        (next (e (number ps.sp.m d.toList, τX x) j.2)).wrap pk K T (Q' + 1) (Nat.le_of_succ_le_succ h)
          (Nat.le_of_succ_le h')
      | none => (next (V j.1 j.2)).wrap pk K (T + 1) (Q' + 1) (Nat.le_of_succ_le h) (Nat.le_of_succ_le h')
    | none => .call y fun d =>
      (next (glue hn (d, τO y))).wrap pk K (T + 1) Q' (Nat.le_of_succ_le h) (Nat.le_of_succ_le_succ h')

end

end

/-! ## The player and this forger -/

theorem ownSig_r (P : Spec.Prims) (sk : PrivateKey ps.params) (H : MsgHash ps S) (r : D ps) (M : S) :
    number ps.sp.n ((ownSig P sk H r M).toList.take ps.sp.n) = r := by
  have h := (game_sign (P := P) (b := ⟨false, false, 64, by decide⟩) sk H r ⟨[M.val], by simp, by simp⟩).2
  simp only [List.flatten_cons, List.flatten_nil, List.append_nil] at h
  rw [h, Spec.signWithR, List.append_assoc, List.take_append_of_le_length (by rw [Spec.toByte_length]),
    List.take_of_length_le (by rw [Spec.toByte_length]), number_toByte]

theorem verify_congr (P : Spec.Prims) (H : MsgHash ps S) (sig : Vector UInt8 ps.params.SIG_LEN) (M : S)
    (PKseed root : List UInt8) :
    Spec.verifyInternal ps.sp (ParamSet.hfRandom ps P H) M sig.toList PKseed root =
      Spec.verifyInternal ps.sp (ParamSet.hfRandom ps P fun _ : D ps × S =>
        H (number ps.sp.n (sig.toList.take ps.sp.n), M)) M sig.toList PKseed root := by
  have E : Spec.SameTrees (ParamSet.hfRandom ps P H) (ParamSet.hfRandom ps P fun _ : D ps × S =>
      H (number ps.sp.n (sig.toList.take ps.sp.n), M)) := ⟨rfl, rfl, rfl, rfl⟩
  refine E.verifyInternal ?_
  have hs : Spec.slice sig.toList 0 ps.sp.n = sig.toList.take ps.sp.n := by
    rw [Spec.slice, List.drop_zero, Nat.sub_zero]
  rw [hs]
  change digestBy H (sig.toList.take ps.sp.n) M = digestBy (S := S) (fun _ => H (number ps.sp.n
    (sig.toList.take ps.sp.n), M)) (sig.toList.take ps.sp.n) M
  rw [digestBy_mem, digestBy_mem]

section
variable (hn : ps.sp.n ≤ w) (hh : hlen ps ≤ w) (O : Query B → D ps) (τO : Query B → Fin (256 ^ (w - ps.sp.n)))
  (Y : D ps × S → Yv ps) (τY : D ps × S → Fin (256 ^ (w - hlen ps))) (V : D ps × Yv ps → Blk ps w)
  (P : Spec.Prims) (pk : PublicKey ps.params) (sk : PrivateKey ps.params) (G : Randomizer ps S)
  {τ : Type} (e : Fin (256 ^ ps.sp.m) × τ ≃ Blk ps w)
  (he : ∀ d t, digest ps.sp.m (hlen ps) (e (d, t)) = Spec.toByte d ps.sp.m)
  (H : MsgHash ps S) (τX : D ps × S → τ)

include he in
theorem digOf_split (d : Fin (256 ^ ps.sp.m)) (t : τ) : digOf (e (d, t)) = d := by
  rw [digOf, dig, he, number_toByte]

include he in
theorem toByte_digOf (X : Blk ps w) : Spec.toByte (digOf X) ps.sp.m = digest ps.sp.m (hlen ps) X := by
  obtain ⟨x, rfl⟩ := e.surjective X
  rw [digOf_split e he x.1 x.2, he]

include he in
/-- What the player reaches is what the forger reaches. -/
theorem player_ideal {q Q : Nat} (A : FullForger ps S B w q Q) :
    ∀ (asked : List (Vector UInt8 ps.params.SIG_LEN × List UInt8)) (N : Nat) (hN : Q + 2 * q + 2 ≤ N)
      (K : List (D ps × S)) (T Q' : Nat) (hT : Q ≤ T) (hQ : Q ≤ Q'),
    (A.player hn hh O τO τY P pk sk G asked N hN).ideal Y V (fun x => e (H x, τX x)) K ↔
      ((A.wrap hn hh τO Y τY V e τX pk K T Q' hT hQ).outcome P pk sk O H G asked).Forged := by
  have hd := digOf_split e he
  induction A with
  | forge sig mp =>
    intro asked N hN K T Q' hT hQ
    match N, hN with
    | N + 2, hN =>
      simp only [FullForger.player, FullForger.wrap, OptForger.outcome, Oracle.Player.ideal]
      rw [Oracle.find_head (f := Y) (K := K) (number ps.sp.n (sig.toList.take ps.sp.n), mp.msg)]
      simp only [Option.elim, hd]
      have hv := verify_congr P H sig mp.msg pk.key.pk_seed.toList pk.key.pk_root.toList
      have hv : Spec.verifyInternal ps.sp (ParamSet.hfRandom ps P H) mp.1.flatten sig.toList pk.key.pk_seed.toList
        pk.key.pk_root.toList = _ := hv
      rw [hv]
      exact Iff.rfl
  | sign rnd mp next ih =>
    intro asked N hN K T Q' hT hQ
    match N, hN with
    | N + 2, hN =>
      simp only [FullForger.player, FullForger.wrap, OptForger.outcome, Oracle.Player.ideal]
      rw [Oracle.find_head (f := Y) (K := K) (G (number ps.sp.n (rnd.getD pk.key.pk_seed).toList, mp.msg), mp.msg)]
      simp only [Option.elim, hd]
      have hs := ownSig_congr (P := P) sk H (G (number ps.sp.n (rnd.getD pk.key.pk_seed).toList, mp.msg)) mp.msg
      have hs : ownSig P sk H (G (number ps.sp.n (rnd.getD pk.key.pk_seed).toList, mp.msg)) mp.1.flatten = _ := hs
      have hr := ownSig_r P sk H (G (number ps.sp.n (rnd.getD pk.key.pk_seed).toList, mp.msg)) mp.msg
      have hr : number ps.sp.n ((ownSig P sk H (G (number ps.sp.n (rnd.getD pk.key.pk_seed).toList, mp.msg))
        mp.1.flatten).toList.take ps.sp.n) = _ := hr
      rw [hr, hs]
      exact ih _ _ N _ _ T Q' hT hQ
  | call y next ih =>
    intro asked N hN K T Q' hT hQ
    match N, hN, T, hT, Q', hQ with
    | N + 1, hN, T + 1, hT, Q' + 1, hQ =>
      simp only [FullForger.player, FullForger.wrap]
      cases hj : mpAt S pk y with
      | none =>
        simp only [Oracle.Player.ideal, OptForger.outcome]
        exact ih _ asked N _ K (T + 1) Q' _ _
      | some j =>
        cases j with
        | inl i =>
          simp only [Oracle.Player.ideal]
          exact ih _ asked N _ (i :: K) (T + 1) (Q' + 1) _ _
        | inr j =>
          simp only [Oracle.Player.ideal]
          cases hf : Oracle.find Y K j.1 with
          | none => exact ih _ asked N _ K (T + 1) (Q' + 1) _ _
          | some x =>
            simp only [Option.elim, OptForger.outcome]
            have hx : number ps.sp.m (toVec ps.params.M (digestBy H (toVec ps.params.N (Spec.toByte x.1 ps.sp.n)).toList
                [x.2.val].flatten)).toList = H x := by
              rw [digestBy_vec, toVec_toList ((Spec.toByte_length _ _).trans (N_eq ps)), List.flatten_singleton,
                digestBy_mem, number_toByte, number_toByte]
            rw [hx]
            exact ih _ asked N _ K T (Q' + 1) _ _

end

/-! ## The player and the game -/

section
variable (hps : ps.family = .sha2) (hw : 64 ≤ w) (hn : ps.sp.n ≤ w) (hh : hlen ps ≤ w) (P0 : Spec.Prims)
  (pk_seed : Vector UInt8 ps.params.N)
  (hS : ∀ M ∈ S, 160 + M.length ≤ B) (hB : 192 ≤ B)
  (hseed : ∀ c ∈ [0, 0x36, 0x5c], pk_seed.toList ≠ List.replicate ps.sp.n c) (s k : D ps)
  (O : Query B → D ps) (τO : Query B → Fin (256 ^ (w - ps.sp.n)))
  (Y : D ps × S → Yv ps) (τY : D ps × S → Fin (256 ^ (w - hlen ps))) (V : D ps × Yv ps → Blk ps w)
  (f : D ps × S → Yv ps) (τf : D ps × S → Fin (256 ^ (w - hlen ps)))
  (g : Yv ps → D ps) (τg : Yv ps → Fin (256 ^ (w - ps.sp.n)))

/-- The function of the game. -/
noncomputable abbrev starOf2 : Query B → Fin (256 ^ w) :=
  star2 P0 pk_seed.toList s k (fun y => glue hn (O y, τO y)) (pieces hn hh Y τY V f τf g τg)

include hps hS hB hseed in
theorem star2_agree (H : MsgHash ps S) :
    Agree ps.sp pk_seed.toList (ps.hf (withHash P0 (starOf2 hn hh P0 pk_seed s k O τO Y τY V f τf g τg)))
      (ParamSet.hfRandom ps (withHash P0 O) H) := by
  refine agree_of hn _ fun x hx z => ?_
  unfold starOf2
  rw [star2_place hps hS hB hseed ⟨x, hx, z, rfl⟩, headOf_glue]

include hps hS hB hseed in
theorem star2_pk (sk_prf : Vector UInt8 ps.params.N) :
    (widePair P0 pk_seed s k (starOf2 hn hh P0 pk_seed s k O τO Y τY V f τf g τg)).1 =
      (pairOf P0 sk_prf pk_seed s O).1 := by
  have z : Nonempty (Fin (256 ^ ps.sp.m)) := ⟨⟨0, Nat.pow_pos (by decide)⟩⟩
  have h1 := (star2_agree hps hn hh P0 pk_seed hS hB hseed s k O τO Y τY V f τf g τg
    fun _ => Classical.arbitrary _).pkRoot (SKseed := Spec.toByte s ps.sp.n) ps.wf
  rw [(hfRandom_same _).pkRoot] at h1
  rw [widePair_pk, pairOf_root, rootBy, h1]

variable {τ : Type} (e : Fin (256 ^ ps.sp.m) × τ ≃ Blk ps w)
  (he : ∀ d t, digest ps.sp.m (hlen ps) (e (d, t)) = Spec.toByte d ps.sp.m)

include hps hw hS hB hseed he in
/-- `H_msg` in two steps. -/
theorem star2_hmsg (sk_prf : Vector UInt8 ps.params.N) {R : List UInt8} (hR : R.length = ps.sp.n) (M : S)
    (hc : ¬ Clash (pairOf P0 sk_prf pk_seed s O).1.key.pk_root.toList (Y (number ps.sp.n R, M))) :
    (ps.hf (withHash P0 (starOf2 hn hh P0 pk_seed s k O τO Y τY V f τf g τg))).Hmsg R pk_seed.toList
      (pairOf P0 sk_prf pk_seed s O).1.key.pk_root.toList M =
    digestBy (S := S) (fun _ => digOf (V (number ps.sp.n R, Y (number ps.sp.n R, M)))) R M := by
  have hroot := pk_root_eq hn P0 pk_seed s O τO sk_prf
  rw [hroot] at hc ⊢
  have hat := fun (j : Pt ps S) (y : Query B) h => star2_at (P0 := P0) (s := s) (k := k)
    (O := fun y => glue hn (O y, τO y)) (H := pieces hn hh Y τY V f τf g τg) hS hB hseed (j := j) (y := y) h
  rw [sha2_Hmsg hps, digestBy_mem, toByte_digOf e he]
  have h1 : shaOf ps (withHash P0 (starOf2 hn hh P0 pk_seed s k O τO Y τY V f τf g τg))
      (R ++ pk_seed.toList ++ rootBy P0 pk_seed.toList s (fun y => glue hn (O y, τO y)) ++ M.val) =
      Spec.toByte (Y (number ps.sp.n R, M)) (hlen ps) := by
    have e1 : R ++ pk_seed.toList ++ rootBy P0 pk_seed.toList s (fun y => glue hn (O y, τO y)) ++ M.val =
        msgPtIn (ps := ps) (S := S) pk_seed.toList (rootBy P0 pk_seed.toList s fun y => glue hn (O y, τO y))
          (.inl (number ps.sp.n R, M)) := by
      rw [msgPtIn, toByte_number hR, List.append_assoc, List.append_assoc]
    rw [wide_sha hw, e1]
    unfold starOf2
    rw [hat (.inl (.inl (number ps.sp.n R, M))) _ rfl, pieces, headOf_glue]
  rw [h1, Spec.mgf1, Spec.trunc, digest, Spec.concat]
  refine congrArg (List.take _) ?_
  change List.flatMap _ (List.range (blocks ps)) = _
  refine List.flatMap_congr fun c hcr => ?_
  have hcb := List.mem_range.mp hcr
  rw [dif_pos hcb]
  have e2 : R ++ pk_seed.toList ++ Spec.toByte (Y (number ps.sp.n R, M)) (hlen ps) ++ Spec.toByte c 4 =
      msgPtIn (ps := ps) (S := S) pk_seed.toList (rootBy P0 pk_seed.toList s fun y => glue hn (O y, τO y))
        (.inr ((number ps.sp.n R, Y (number ps.sp.n R, M)), ⟨c, hcb⟩)) := by
    rw [msgPtIn, toByte_number hR, List.append_assoc, List.append_assoc]
  rw [wide_sha hw, e2]
  unfold starOf2
  rw [hat (.inl (.inr ((number ps.sp.n R, Y (number ps.sp.n R, M)), ⟨c, hcb⟩))) _ (ptM_inr hc), pieces]

theorem pad_eq (k : D ps) (c : UInt8) :
    (Spec.toByte k ps.sp.n ++ List.replicate (blen ps - ps.sp.n) 0).map (· ^^^ c) = padOf k c := by
  rw [List.map_append, List.map_replicate, UInt8.zero_xor, padOf]

include hps hw hS hB hseed in
/-- `PRF_msg` in two steps. -/
theorem star2_prf (o : Vector UInt8 ps.params.N) (M : S) :
    (ps.hf (withHash P0 (starOf2 hn hh P0 pk_seed s k O τO Y τY V f τf g τg))).PRFmsg (Spec.toByte k ps.sp.n) o.toList M =
      Spec.toByte (g (f (number ps.sp.n o.toList, M))) ps.sp.n := by
  have hat := fun (j : Pt ps S) (y : Query B) h => star2_at (P0 := P0) (s := s) (k := k)
    (O := fun y => glue hn (O y, τO y)) (H := pieces hn hh Y τY V f τf g τg) hS hB hseed (j := j) (y := y) h
  have hb := n_le_blen ps
  rw [sha2_PRFmsg hps, Spec.hmac, if_pos (by rw [Spec.toByte_length]; omega), Spec.toByte_length, pad_eq, pad_eq]
  have e1 : padOf k 0x36 ++ (o.toList ++ M.val) = prfPtIn (ps := ps) (S := S) k (.inl (number ps.sp.n o.toList, M)) := by
    rw [prfPtIn, toByte_number (seed_length o)]
  have h1 : shaOf ps (withHash P0 (starOf2 hn hh P0 pk_seed s k O τO Y τY V f τf g τg)) (padOf k 0x36 ++ (o.toList ++ M.val)) =
      Spec.toByte (f (number ps.sp.n o.toList, M)) (hlen ps) := by
    rw [wide_sha hw, e1]
    unfold starOf2
    rw [hat (.inr (.inl (number ps.sp.n o.toList, M))) _ rfl, pieces, headOf_glue]
  have e2 : padOf k 0x5c ++ Spec.toByte (f (number ps.sp.n o.toList, M)) (hlen ps) =
      prfPtIn (ps := ps) (S := S) k (.inr (f (number ps.sp.n o.toList, M))) := rfl
  rw [h1, wide_sha hw, e2]
  unfold starOf2
  rw [hat (.inr (.inr (f (number ps.sp.n o.toList, M)))) _ rfl, pieces, Spec.trunc, toByte_headOf hh, List.take_take,
    Nat.min_eq_left (n_le_hlen ps), ← toByte_headOf hn, headOf_glue]

include hps hw hS hB hseed he in
/-- The signatures of the game. -/
theorem star2_sig (sk_prf : Vector UInt8 ps.params.N) (o : Vector UInt8 ps.params.N) (M : S) {r : D ps}
    (hr : g (f (number ps.sp.n o.toList, M)) = r)
    (hc : ¬ Clash (pairOf P0 sk_prf pk_seed s O).1.key.pk_root.toList (Y (r, M))) :
    sigVec ps (withHash P0 (starOf2 hn hh P0 pk_seed s k O τO Y τY V f τf g τg)) M
      (widePair P0 pk_seed s k (starOf2 hn hh P0 pk_seed s k O τO Y τY V f τf g τg)).2.key o =
    ownSig (S := S) (withHash P0 O) (pairOf P0 sk_prf pk_seed s O).2 (fun _ => digOf (V (r, Y (r, M)))) r M := by
  have hpk := star2_pk hps hn hh P0 pk_seed hS hB hseed s k O τO Y τY V f τf g τg sk_prf
  have hA := star2_agree hps hn hh P0 pk_seed hS hB hseed s k O τO Y τY V f τf g τg fun _ => digOf (V (r, Y (r, M)))
  have hroot : (widePair P0 pk_seed s k (starOf2 hn hh P0 pk_seed s k O τO Y τY V f τf g τg)).2.key.pk_root =
      (pairOf P0 sk_prf pk_seed s O).1.key.pk_root := congrArg (fun x => x.key.pk_root) hpk
  have hR := star2_prf hps hw hn hh P0 pk_seed hS hB hseed s k O τO Y τY V f τf g τg o M
  have hkv : (widePair P0 pk_seed s k (starOf2 hn hh P0 pk_seed s k O τO Y τY V f τf g τg)).2.key.sk_prf.toList =
      Spec.toByte k ps.sp.n := toVec_toList ((Spec.toByte_length _ _).trans (N_eq ps))
  rw [sigVec, Spec.signInternal, hroot, hkv, hR, hr, ownSig]
  refine congrArg (toVec _) ?_
  refine hA.signWithR ps.wf (ps.valid _) (hfRandom_valid _) ?_
  have h := star2_hmsg hps hw hn hh P0 pk_seed hS hB hseed s k O τO Y τY V f τf g τg e he sk_prf
    (R := Spec.toByte r ps.sp.n) (Spec.toByte_length _ _) M (by rw [number_toByte]; exact hc)
  rw [number_toByte] at h
  exact h

include hps hw hS hB hseed he in
/-- Verification in the game. -/
theorem star2_verify (sk_prf : Vector UInt8 ps.params.N) (sig : Vector UInt8 ps.params.SIG_LEN) (M : S)
    (hc : ¬ Clash (pairOf P0 sk_prf pk_seed s O).1.key.pk_root.toList (Y (number ps.sp.n (sig.toList.take ps.sp.n), M))) :
    Spec.verifyInternal ps.sp (ps.hf (withHash P0 (starOf2 hn hh P0 pk_seed s k O τO Y τY V f τf g τg))) M sig.toList
      pk_seed.toList (pairOf P0 sk_prf pk_seed s O).1.key.pk_root.toList =
    Spec.verifyInternal ps.sp (ParamSet.hfRandom ps (withHash P0 O) fun _ : D ps × S =>
        digOf (V (number ps.sp.n (sig.toList.take ps.sp.n), Y (number ps.sp.n (sig.toList.take ps.sp.n), M))))
      M sig.toList pk_seed.toList (pairOf P0 sk_prf pk_seed s O).1.key.pk_root.toList := by
  have hA := star2_agree hps hn hh P0 pk_seed hS hB hseed s k O τO Y τY V f τf g τg fun _ =>
    digOf (V (number ps.sp.n (sig.toList.take ps.sp.n), Y (number ps.sp.n (sig.toList.take ps.sp.n), M)))
  refine hA.verifyInternal ps.wf (ps.valid _) (hfRandom_valid _) (n_le ps) ?_
  have hs : Spec.slice sig.toList 0 ps.sp.n = sig.toList.take ps.sp.n := by
    rw [Spec.slice, List.drop_zero, Nat.sub_zero]
  rw [hs]
  refine star2_hmsg hps hw hn hh P0 pk_seed hS hB hseed s k O τO Y τY V f τf g τg e he sk_prf ?_ M hc
  rw [List.length_take, Vector.length_toList]
  have : ps.sp.n ≤ ps.params.SIG_LEN := by cases ps <;> decide
  omega

include hps hw hS hB hseed he in
/-- What the forger reaches, the player reaches. -/
theorem star2_outcome (sk_prf : Vector UInt8 ps.params.N) {q Q : Nat} (A : FullForger ps S B w q Q) :
    ∀ (N : Nat) (hN : Q + 2 * q + 2 ≤ N) (asked : List (Vector UInt8 ps.params.SIG_LEN × List UInt8)),
    k ∉ A.keys2 hn hh O τO Y τY V (withHash P0 O) (pairOf P0 sk_prf pk_seed s O).1 (pairOf P0 sk_prf pk_seed s O).2
      (fun i => g (f i)) →
    (A.outcome (withHash P0 (starOf2 hn hh P0 pk_seed s k O τO Y τY V f τf g τg))
      (starOf2 hn hh P0 pk_seed s k O τO Y τY V f τf g τg) (pairOf P0 sk_prf pk_seed s O).1
      (widePair P0 pk_seed s k (starOf2 hn hh P0 pk_seed s k O τO Y τY V f τf g τg)).2 asked).Forged →
    (A.player hn hh O τO τY (withHash P0 O) (pairOf P0 sk_prf pk_seed s O).1 (pairOf P0 sk_prf pk_seed s O).2
      (fun i => g (f i)) asked N hN).real (Clash (pairOf P0 sk_prf pk_seed s O).1.key.pk_root.toList) Y V := by
  induction A with
  | forge sig mp =>
    intro N hN asked _ hf
    match N, hN with
    | N + 2, hN =>
      simp only [FullForger.player, Oracle.Player.real]
      refine or_iff_not_imp_left.mpr fun hc => ?_
      have hv := star2_verify hps hw hn hh P0 pk_seed hS hB hseed s k O τO Y τY V f τf g τg e he sk_prf sig mp.msg hc
      rw [FullForger.outcome] at hf
      have hv : Spec.verifyInternal ps.sp (ps.hf (withHash P0 (starOf2 hn hh P0 pk_seed s k O τO Y τY V f τf g τg)))
        mp.1.flatten sig.toList (pairOf P0 sk_prf pk_seed s O).1.key.pk_seed.toList
        (pairOf P0 sk_prf pk_seed s O).1.key.pk_root.toList = _ := hv
      rw [hv] at hf
      exact hf
  | sign rnd mp next ih =>
    intro N hN asked hk hf
    match N, hN with
    | N + 2, hN =>
      simp only [FullForger.player, Oracle.Player.real]
      refine or_iff_not_imp_left.mpr fun hc => ?_
      have hs := star2_sig hps hw hn hh P0 pk_seed hS hB hseed s k O τO Y τY V f τf g τg e he sk_prf (rnd.getD pk_seed)
        mp.msg rfl hc
      have hs : sigVec ps (withHash P0 (starOf2 hn hh P0 pk_seed s k O τO Y τY V f τf g τg)) mp.1.flatten
        (widePair P0 pk_seed s k (starOf2 hn hh P0 pk_seed s k O τO Y τY V f τf g τg)).2.key (rnd.getD
          (widePair P0 pk_seed s k (starOf2 hn hh P0 pk_seed s k O τO Y τY V f τf g τg)).2.key.pk_seed) = _ := hs
      rw [FullForger.outcome, hs] at hf
      exact ih _ N _ _ hk hf
  | call y next ih =>
    intro N hN asked hk hf
    match N, hN with
    | N + 1, hN =>
      simp only [FullForger.keys2, List.mem_cons, not_or] at hk
      obtain ⟨hk1, hk2, hk⟩ := hk
      have hroot := pk_root_eq hn P0 pk_seed s O τO sk_prf
      have hat := fun (j : Pt ps S) (y : Query B) h => star2_at (P0 := P0) (s := s) (k := k)
        (O := fun y => glue hn (O y, τO y)) (H := pieces hn hh Y τY V f τf g τg) hS hB hseed (j := j) (y := y) h
      simp only [FullForger.player]
      rw [FullForger.outcome] at hf
      cases hj : mpAt S (pairOf P0 sk_prf pk_seed s O).1 y with
      | none =>
        rw [hj] at hk
        have hyj := mpAt_none hj
        rw [hroot] at hyj
        have hv : starOf2 hn hh P0 pk_seed s k O τO Y τY V f τf g τg y = glue hn (O y, τO y) :=
          star2_else hS hB (fun e => hk1 (by rw [e, number_toByte])) (fun e => hk2 (by rw [e, number_toByte])) hyj
        rw [hv] at hf
        exact ih _ N _ asked hk hf
      | some j =>
        rw [hj] at hk
        have hyj := mpAt_some hj
        rw [hroot] at hyj
        cases j with
        | inl i =>
          have hv : starOf2 hn hh P0 pk_seed s k O τO Y τY V f τf g τg y = glue hh (Y i, τY i) := hat (.inl (.inl i)) y hyj
          rw [hv] at hf
          exact .inr (ih _ N _ asked hk hf)
        | inr j =>
          have hv : starOf2 hn hh P0 pk_seed s k O τO Y τY V f τf g τg y = V j.1 j.2 := hat (.inl (.inr j)) y hyj
          rw [hv] at hf
          exact ih _ N _ asked hk hf

end

end Fips205.Props
