import Verif.Props.World
import Verif.Props.SilentLiar
import Verif.Props.MixedLiar

/-!
# C123: whole-system histories with lying servers

As in `Props/World`, but the update is carried out with `prepare_for_update` and `post_update`, the user records the
epoch, and in every update some of the servers lie and some are silent. The accumulator and the epoch are the published ones (the user gets
them from the authority, not from the answers). The server may also make `quick_delete` calls, as long as every `delete`
hits a member added since the last `quick_delete` (or nobody): `Careful`, see C120.
-/

set_option linter.unusedSectionVars false
set_option linter.unusedVariables false
set_option linter.unusedSimpArgs false
namespace Allo
open Spec User

/-- The authority's server, the users, and the calls to the server so far (only recorded; nothing reads them but the
conditions on what may be called next). -/
structure LWorld (F G1 G2 : Type) where
  srv : Server F G1 G2
  users : Nat → Option (User F G1 G2)
  calls : List (Server.Op F)

section
variable {F G1 G2 GT : Type} [Field F] [DecidableEq F] [AddCommGroup G1] [Module F G1]
  [DecidableEq G1] [AddCommGroup G2] [Module F G2] [AddCommGroup GT] [Module F GT] [DecidableEq GT]

/-- What a user does with an accepted result: store the witness, the published accumulator and the epoch. -/
def User.adopt (u : User F G1 G2) (wit : Witness F G1) (W V : G1) (e : Nat) : User F G1 G2 :=
  { u with witness := some { wit with witness := W }, accumulator := V, epoch := e }

/-- One call, or one update. The label is the user that is made or enrolled in the step, if any. `guarded` says whether
updates of the last kind are considered. -/
inductive LWorld.Step (E : Pairing F G1 G2 GT) (H : Oracle F) (enc : Enc G1 G2 GT) (params : AccParams G1 G2)
    (seed : Nat → Nat) (guarded : Prop) : Option Nat → LWorld F G1 G2 → LWorld F G1 G2 → Prop
  /-- `add`, `quick_delete`, or `delete` (of a member added since the last `quick_delete`, or of nobody) -/
  | server (w op s' r) (hop : Careful [] [] (w.calls ++ [op])) (h : w.srv.step op = .ok (s', r)) :
      Step E H enc params seed guarded none w ⟨s', w.users, w.calls ++ [op]⟩
  /-- `User::new` -/
  | join (w i y u) (h : User.new w.srv y = .ok u) :
      Step E H enc params seed guarded (some i) w ⟨w.srv, setAt w.users i (some u), w.calls⟩
  /-- `create_witness`; if there were `quick_delete` calls, a credential is kept only if `check_witness` accepts it for
  the published accumulator -/
  | enrol (w i u u' key k) (hu : w.users i = some u)
      (h : u.createWitness H enc params w.srv key k = .ok u')
      (hfresh : (∀ op ∈ w.calls, op.isQuick = false) ∨
        ∀ V, w.srv.getAccumulator = .ok V → u'.checkWitness E params V = .ok ()) :
      Step E H enc params seed guarded (some i) w ⟨w.srv, setAt w.users i (some u'), w.calls⟩
  /-- an update by a user that is behind, with `n` servers and threshold `t ≥ 2`. The servers in `Q` (not the first) are
  silent, more than `t` answer (`r` lists them), those in `L` anything of the right lengths, at most one of them (number
  `p`) among the first `t + 1` that answer; `post_update` returned `Ok(W)`. -/
  | update (w i u wit n t rand upd honest ans Q r L p W V) (hu : w.users i = some u) (hw : u.witness = some wit)
      (ht : 2 ≤ t) (hc : ∀ i : Nat, 0 < i → i ≤ n → (i : F) ≠ 0) (hb : u.epoch < w.srv.getEpoch)
      (hp : u.prepareForUpdate seed w.srv.getEpoch n t rand = .ok (.ok upd))
      (hhon : HonestAnswers w.srv n upd honest) (hQ : 0 ∉ Q)
      (hr : r = (List.range n).filter (fun i => decide (i ∉ Q))) (hrl : t < r.length) (hdiff : DiffersOn L honest ans)
      (hL : ∀ i ≤ t, i ≠ p → ∀ l, r[i]? = some l → l ∉ L)
      (hok : postUpdate wit.witness t upd.yShares upd.yValues (silence Q ans) = .ok (.ok W))
      (hV : w.srv.getAccumulator = .ok V) :
      Step E H enc params seed guarded none w ⟨w.srv, setAt w.users i (some (u.adopt wit W V w.srv.getEpoch)), w.calls⟩
  /-- an update by a user that, whatever was sent to it and however it found `W`, keeps the result only if
  `check_witness` accepts it for the published accumulator -/
  | guarded (w i u wit W V) (hg : guarded) (hu : w.users i = some u) (hw : u.witness = some wit)
      (hV : w.srv.getAccumulator = .ok V)
      (hok : (u.adopt wit W V w.srv.getEpoch).checkWitness E params V = .ok ()) :
      Step E H enc params seed guarded none w ⟨w.srv, setAt w.users i (some (u.adopt wit W V w.srv.getEpoch)), w.calls⟩

/-- Any number of steps in which only users satisfying `may` are made or enrolled. -/
inductive LWorld.Steps (E : Pairing F G1 G2 GT) (H : Oracle F) (enc : Enc G1 G2 GT) (params : AccParams G1 G2)
    (seed : Nat → Nat) (guarded : Prop) (may : Nat → Prop) (w : LWorld F G1 G2) : LWorld F G1 G2 → Prop
  | refl : Steps E H enc params seed guarded may w w
  | tail (a w₁ w₂) (h : Steps E H enc params seed guarded may w w₁)
      (hs : LWorld.Step E H enc params seed guarded a w₁ w₂) (ha : ∀ i, a = some i → may i) :
      Steps E H enc params seed guarded may w w₂

/-- The start: a new server and no users. -/
def LWorld.init (params : AccParams G1 G2) (α sM v : F) : LWorld F G1 G2 :=
  ⟨Server.new params α sM v, fun _ => none, []⟩

/-- The invariant. -/
structure LWorld.Inv (E : Pairing F G1 G2 GT) (params : AccParams G1 G2) (α sM v : F) (w : LWorld F G1 G2) :
    Prop where
  hist : Careful [] [] w.calls ∧ (Server.new params α sM v).run w.calls = .ok w.srv
  user : ∀ i u, w.users i = some u →
    u.publicKeys = w.srv.publicKeys ∧ 1 ≤ u.epoch ∧ u.epoch ≤ w.srv.accumulators.length ∧
    w.srv.accumulators[u.epoch - 1]? = some u.accumulator ∧
    (u.witness ≠ none → u.checkWitness E params u.accumulator = .ok ())

theorem LWorld.inv_step (E : Pairing F G1 G2 GT) (H : Oracle F) (enc : Enc G1 G2 GT)
    (params : AccParams G1 G2) (hP : params.p2 ≠ 0) (hK : params.k2 ≠ 0) (seed : Nat → Nat)
    (hseed : ∀ d, 1 ≤ d → 1 ≤ seed d) (guarded : Prop) (α sM v : F) (w w' : LWorld F G1 G2)
    (a : Option Nat) (hI : LWorld.Inv E params α sM v w) (hst : LWorld.Step E H enc params seed guarded a w w') :
    LWorld.Inv E params α sM v w' := by
  obtain ⟨hq, hrun⟩ := hI.hist
  have hsafe := C120_careful α _ hq
  have hW := invA_safe_run w.calls (invM_new params α sM v) (invA_new' params α sM v) hsafe hrun
  have hkeys := keys_run hrun
  have hlast := hW.last
  have hlen := hW.length
  have hget := hW.get w.srv.deletions.length le_rfl
  rw [List.take_length] at hget
  have hacc : w.srv.getAccumulator = .ok (accAfter α (v • params.p1) w.srv.deletions) := by
    rw [Server.getAccumulator, hlast]; rfl
  have hcur : ∀ V, w.srv.getAccumulator = .ok V → w.srv.accumulators[w.srv.getEpoch - 1]? = some V := by
    intro V hV
    rw [hacc] at hV
    rw [← Except.ok.inj hV, Server.getEpoch, hlen]
    exact hget
  have hstay : ∀ i (x : User F G1 G2), (x.publicKeys = w.srv.publicKeys ∧ 1 ≤ x.epoch ∧
      x.epoch ≤ w.srv.accumulators.length ∧ w.srv.accumulators[x.epoch - 1]? = some x.accumulator ∧
      (x.witness ≠ none → x.checkWitness E params x.accumulator = .ok ())) →
      LWorld.Inv E params α sM v ⟨w.srv, setAt w.users i (some x), w.calls⟩ := by
    intro i x hx
    refine ⟨hI.hist, ?_⟩
    intro j u hu
    rcases setAt_cases hu with ⟨rfl, hq⟩ | ⟨hj, hq⟩
    · obtain rfl := Option.some.inj hq; exact hx
    · exact hI.user j u hq
  cases hst with
  | server _ op s' r hop h =>
    have hrun1 : w.srv.run [op] = .ok s' := by simp [Server.run, h, bind, Except.bind, pure, Except.pure]
    have hext := run_extends [op] w.srv s' hrun1
    refine ⟨⟨hop, Server.run_append.2 ⟨_, hrun, hrun1⟩⟩, ?_⟩
    · intro i u hu
      obtain ⟨a1, a2, a3, a4, a5⟩ := hI.user i u hu
      obtain ⟨suf, hsuf⟩ := hext.1
      refine ⟨a1.trans hext.2.2.symm, a2, le_trans a3 hext.1.length_le, ?_, a5⟩
      show s'.accumulators[u.epoch - 1]? = _
      rw [← hsuf, List.getElem?_append_left (by omega)]
      exact a4
  | join _ i y u h =>
    apply hstay
    rw [User.new, hacc] at h
    simp only [bind, Except.bind, pure, Except.pure, Except.ok.injEq] at h
    subst h
    refine ⟨rfl, ?_, le_rfl, hcur _ hacc, fun h => absurd rfl h⟩
    show 1 ≤ w.srv.accumulators.length
    omega
  | enrol _ i u u' key k hu h hfresh =>
    apply hstay
    obtain ⟨a1, a2, a3, a4, a5⟩ := hI.user i u hu
    by_cases hy : u.id ∈ w.srv.ids
    · by_cases hs : u.id + w.srv.signSecretKey = 0
      · exfalso
        unfold User.createWitness at h
        generalize hch : H (((Transcript.new "user_signature_proof").append "user_pub_key"
          (enc.g1 (key • params.k1))).append "commitment" (enc.g1 (k • params.k1))) "challenge" = c at h
        have hcom : (k - c * key) • params.k1 + c • key • params.k1 = k • params.k1 := by module
        have := ((C21_witness H enc params w.srv u.id c (k - c * key) (key • params.k1)).2.2 hy
          (by rw [hcom]; exact hch)).2 hs
        simp only [hch, this, bind, Except.bind] at h
        cases h
      · obtain ⟨C, R, h1, h2, h3⟩ := C55_complete H enc params w.srv _ hacc u hy hs key k
        rw [h3] at h
        have h := Except.ok.inj h
        subst h
        refine ⟨a1, ?_, le_rfl, hcur _ hacc, ?_⟩
        · show 1 ≤ w.srv.accumulators.length
          omega
        · intro _
          rcases hfresh with hnq | hchk
          · rw [(C23_check_witness E params hP hK α sM _ (by exact a1.trans hkeys.1) _).1]
            refine ⟨_, rfl, (invW_run params α sM v w.calls hnq w.srv hrun).wits _ (mapGet_mem h1), ?_⟩
            rw [← hkeys.2.2]; exact h2
          · exact hchk _ hacc
    · rw [C22_nonmember H enc params w.srv u hy key k] at h
      obtain rfl := Except.ok.inj h
      exact ⟨a1, a2, a3, a4, a5⟩
  | update _ i u wit n t rand upd honest ans Q r L p W V hu hw ht hc hb hp hhon hQ hr hrl hdiff hL hok hV =>
    apply hstay
    obtain ⟨a1, a2, a3, a4, a5⟩ := hI.user i u hu
    have hk : u.publicKeys = ⟨α • params.p2, sM • params.k2⟩ := a1.trans hkeys.1
    have hv := a5 (by rw [hw]; simp)
    rw [(C23_check_witness E params hP hK α sM u hk _).1] at hv
    obtain ⟨wit', hw', hv1, hv2⟩ := hv
    rw [hw] at hw'
    obtain rfl := Option.some.inj hw'
    obtain ⟨V', b1, b2, b3⟩ := C120_liar_and_silent params α sM v w.calls hsafe w.srv hrun seed hseed u n t ht hc a2 hb rand upd hp
      wit.witness Q hQ r hr hrl honest ans hhon L hdiff p hL _ a4 hv1 W hok
    rw [hV] at b1
    obtain rfl := Except.ok.inj b1
    refine ⟨a1, ?_, le_rfl, hcur _ hV, fun _ => ?_⟩
    · show 1 ≤ w.srv.accumulators.length
      omega
    · rw [(C23_check_witness E params hP hK α sM _ (by exact hk) _).1]
      exact ⟨_, rfl, b2, hv2⟩
  | guarded _ i u wit W V hg hu hw hV hok =>
    apply hstay
    obtain ⟨a1, a2, a3, a4, a5⟩ := hI.user i u hu
    refine ⟨a1, ?_, le_rfl, hcur _ hV, fun _ => hok⟩
    show 1 ≤ w.srv.accumulators.length
    omega

theorem LWorld.inv_steps (E : Pairing F G1 G2 GT) (H : Oracle F) (enc : Enc G1 G2 GT)
    (params : AccParams G1 G2) (hP : params.p2 ≠ 0) (hK : params.k2 ≠ 0) (seed : Nat → Nat)
    (hseed : ∀ d, 1 ≤ d → 1 ≤ seed d) (guarded : Prop) (may : Nat → Prop) (α sM v : F) (w w' : LWorld F G1 G2)
    (hI : LWorld.Inv E params α sM v w) (h : LWorld.Steps E H enc params seed guarded may w w') :
    LWorld.Inv E params α sM v w' := by
  induction h with
  | refl => exact hI
  | tail a w₁ w₂ _ hs _ ih => exact LWorld.inv_step E H enc params hP hK seed hseed guarded α sM v _ _ a ih hs

theorem LWorld.inv_init (E : Pairing F G1 G2 GT) (params : AccParams G1 G2) (α sM v : F) :
    LWorld.Inv E params α sM v (LWorld.init params α sM v) :=
  ⟨⟨trivial, rfl⟩, fun i u h => by simp [LWorld.init] at h⟩

/-- **C123** (safety). Whatever the liars answer, at every moment every user with a witness has one that passes
`check_witness` for the accumulator it recorded, which is the one published in the epoch it recorded; so its
membership proofs are accepted for that accumulator. -/
theorem C123_always_valid (E : Pairing F G1 G2 GT) (H : Oracle F) (enc : Enc G1 G2 GT)
    (params : AccParams G1 G2) (hP : params.p2 ≠ 0) (hK : params.k2 ≠ 0) (seed : Nat → Nat)
    (hseed : ∀ d, 1 ≤ d → 1 ≤ seed d) (guarded : Prop) (may : Nat → Prop) (α sM v : F) (w : LWorld F G1 G2)
    (h : LWorld.Steps E H enc params seed guarded may (LWorld.init params α sM v) w) (i : Nat) (u : User F G1 G2)
    (hu : w.users i = some u) (hw : u.witness ≠ none) (eph : Bytes) (rand : ProofRand F) :
    u.checkWitness E params u.accumulator = .ok () ∧
    w.srv.accumulators[u.epoch - 1]? = some u.accumulator ∧
    ∃ p, u.makeMembershipProof E H enc params u.publicKeys eph rand = some p ∧
      checkProof E H enc p params w.srv.getPublicKeys u.accumulator eph = true := by
  obtain ⟨a1, a2, a3, a4, a5⟩ := (LWorld.inv_steps E H enc params hP hK seed hseed guarded may α sM v _ w
    (LWorld.inv_init E params α sM v) h).user i u hu
  refine ⟨a5 hw, a4, ?_⟩
  obtain ⟨p, h1, h2⟩ := (C42_user E H enc u params eph rand).1 (a5 hw)
  exact ⟨p, h1, by rw [Server.getPublicKeys, ← a1]; exact h2⟩

/-- **C123** (revocation). Once a user has been deleted (after the epoch it recorded), the liars cannot help it:
in every continuation without guarded updates in which it is not enrolled again, none of its updates is accepted, and
its state never changes. -/
theorem C123_revoked_stuck (E : Pairing F G1 G2 GT) (H : Oracle F) (enc : Enc G1 G2 GT)
    (params : AccParams G1 G2) (hP : params.p2 ≠ 0) (hK : params.k2 ≠ 0) (seed : Nat → Nat)
    (hseed : ∀ d, 1 ≤ d → 1 ≤ seed d) (guarded : Prop) (may : Nat → Prop) (α sM v : F) (w w' : LWorld F G1 G2)
    (h : LWorld.Steps E H enc params seed guarded may (LWorld.init params α sM v) w) (i : Nat) (u : User F G1 G2)
    (hu : w.users i = some u) (hdel : u.id ∈ w.srv.deletions.drop (u.epoch - 1))
    (h' : LWorld.Steps E H enc params seed False (· ≠ i) w w') : w'.users i = some u := by
  have hI := LWorld.inv_steps E H enc params hP hK seed hseed guarded may α sM v _ w
    (LWorld.inv_init E params α sM v) h
  suffices hs : LWorld.Inv E params α sM v w' ∧ w'.users i = some u ∧ u.id ∈ w'.srv.deletions.drop (u.epoch - 1) from
    hs.2.1
  induction h' with
  | refl => exact ⟨hI, hu, hdel⟩
  | tail a w₁ w₂ _ hs ha ih =>
    obtain ⟨i1, i2, i3⟩ := ih
    refine ⟨LWorld.inv_step E H enc params hP hK seed hseed False α sM v _ _ a i1 hs, ?_⟩
    cases hs with
    | server _ op s' r hop hst =>
      refine ⟨i2, ?_⟩
      have hrun1 : w₁.srv.run [op] = .ok s' := by simp [Server.run, hst, bind, Except.bind, pure, Except.pure]
      obtain ⟨suf, hsuf⟩ := (run_extends [op] w₁.srv s' hrun1).2.1
      show u.id ∈ s'.deletions.drop (u.epoch - 1)
      rw [← hsuf, List.drop_append]
      exact List.mem_append_left _ i3
    | join _ j y x hx =>
      refine ⟨?_, i3⟩
      show setAt w₁.users j _ i = _
      rw [setAt_ne (fun e => ha j rfl e.symm)]; exact i2
    | enrol _ j x x' key k hx hcw hfr =>
      refine ⟨?_, i3⟩
      show setAt w₁.users j _ i = _
      rw [setAt_ne (fun e => ha j rfl e.symm)]; exact i2
    | update _ j x wit n t rand upd honest ans Q r L p W V hx hw ht hc hb hp hhon hQ hr hrl hdiff hL hok hV =>
      refine ⟨?_, i3⟩
      by_cases hij : i = j
      · exfalso
        subst hij
        rw [i2] at hx
        obtain rfl := Option.some.inj hx
        obtain ⟨a1, a2, a3, a4, a5⟩ := i1.user i u i2
        obtain ⟨hq, hrun⟩ := i1.hist
        have hk : u.publicKeys = ⟨α • params.p2, sM • params.k2⟩ := a1.trans (keys_run hrun).1
        have hv := a5 (by rw [hw]; simp)
        rw [(C23_check_witness E params hP hK α sM u hk _).1] at hv
        obtain ⟨wit', hw', hv1, hv2⟩ := hv
        rw [hw] at hw'
        obtain rfl := Option.some.inj hw'
        obtain ⟨V', b1, b2, b3⟩ := C120_liar_and_silent params α sM v w₁.calls (C120_careful α _ hq) w₁.srv hrun seed hseed u n t ht hc a2 hb rand
          upd hp wit.witness Q hQ r hr hrl honest ans hhon L hdiff p hL _ a4 hv1 W hok
        exact b3 i3
      · show setAt w₁.users j _ i = _
        rw [setAt_ne hij]; exact i2
    | guarded _ j x wit W V hg => exact hg.elim

/-- **C123** (progress). In every reachable world a user with a witness that is behind and not deleted can be brought up
to date in one step, whichever servers are silent (not the first, more than `t` answer) and however those after the first
`t + 1` that answer lie: `post_update` accepts and the user records the current epoch and accumulator. -/
theorem C123_progress (E : Pairing F G1 G2 GT) (H : Oracle F) (enc : Enc G1 G2 GT)
    (params : AccParams G1 G2) (hP : params.p2 ≠ 0) (hK : params.k2 ≠ 0) (seed : Nat → Nat)
    (hseed : ∀ d, 1 ≤ d → 1 ≤ seed d) (guarded : Prop) (may : Nat → Prop) (α sM v : F) (w : LWorld F G1 G2)
    (h : LWorld.Steps E H enc params seed guarded may (LWorld.init params α sM v) w) (i : Nat) (u : User F G1 G2)
    (wit : Witness F G1) (hu : w.users i = some u) (hw : u.witness = some wit) (hb : u.epoch < w.srv.getEpoch)
    (hid : u.id ∉ w.srv.deletions.drop (u.epoch - 1)) (n t : Nat) (ht : 2 ≤ t)
    (hc : ∀ i : Nat, 0 < i → i ≤ n → (i : F) ≠ 0) (rand : Nat → Nat → F) (Q : Finset Nat) (hQ : 0 ∉ Q) (r : List Nat)
    (hr : r = (List.range n).filter (fun i => decide (i ∉ Q))) (hrl : t < r.length) :
    ∃ upd honest, u.prepareForUpdate seed w.srv.getEpoch n t rand = .ok (.ok upd) ∧ HonestAnswers w.srv n upd honest ∧
      ∀ (L : Finset Nat) (ans : List (List F × List G1)), DiffersOn L honest ans → (∀ i ≤ t, ∀ l, r[i]? = some l → l ∉ L) →
        ∃ W V, postUpdate wit.witness t upd.yShares upd.yValues (silence Q ans) = .ok (.ok W) ∧ w.srv.getAccumulator = .ok V ∧
          LWorld.Step E H enc params seed guarded none w
            ⟨w.srv, setAt w.users i (some (u.adopt wit W V w.srv.getEpoch)), w.calls⟩ ∧
          (u.adopt wit W V w.srv.getEpoch).checkWitness E params V = .ok () := by
  have hI := LWorld.inv_steps E H enc params hP hK seed hseed guarded may α sM v _ w
    (LWorld.inv_init E params α sM v) h
  obtain ⟨a1, a2, a3, a4, a5⟩ := hI.user i u hu
  obtain ⟨hq, hrun⟩ := hI.hist
  have hA := invA_safe_run w.calls (invM_new params α sM v) (invA_new' params α sM v) (C120_careful α _ hq) hrun
  have hlen := hA.length
  have hn : t < n := by
    refine lt_of_lt_of_le hrl ?_
    rw [hr]; exact le_trans (List.length_filter_le _ _) (by simp)
  obtain ⟨k, upd, -, -, hp, -⟩ := prepareForUpdate_ok seed hseed u w.srv.getEpoch n t ht hn.le hb rand
  obtain ⟨honest, res, e1, e2, e3⟩ := C38_one_liar params α sM v w.calls w.srv hrun seed hseed u n t ht hn hc a2 hb rand upd
    hp wit.witness
  obtain ⟨k, hk, hed, hyl, hyv, hc1, hh⟩ := honest_closed seed hseed u w.srv hlen n t ht (by omega) a2 hb rand upd hp
  have hd : w.srv.getEpoch - u.epoch ≤ w.srv.deletions.length := by rw [Server.getEpoch]; omega
  have hres : ∃ W, res = .ok W := by
    have e2' := e2
    rw [(hh _).1 e1, hyv, postUpdate_honest wit.witness t n _ (by omega) hc1 hc (fun _ => true) _ _
      (fun j => dAns_polyFn t k (by omega) u.id rand _) (fun j => vAnsP_polyFn t k (by omega) u.id rand _)
      (by rw [filter_all, List.length_range]; omega) (Or.inl rfl) upd.yShares hyl,
      loop_closed w.srv hlen _ hd t k (by omega)] at e2'
    rw [Server.getEpoch] at hb
    rw [show w.srv.deletions.length - (w.srv.getEpoch - u.epoch) = u.epoch - 1 by rw [Server.getEpoch]; omega,
      if_neg hid] at e2'
    exact ⟨_, (Except.ok.inj e2').symm⟩
  obtain ⟨W, rfl⟩ := hres
  refine ⟨upd, honest, hp, e1, fun L ans hdiff hL => ?_⟩
  obtain ⟨res', f1, -, f3⟩ := C124_first_answers params α sM v w.calls w.srv hrun seed hseed u n t ht hc a2 hb rand upd hp
    wit.witness Q hQ r hr hrl honest ans e1 L hdiff (t + 1) (fun i hi _ => hL i hi)
  have hok := f3 (by omega)
  rw [e2] at f1
  obtain rfl := Except.ok.inj f1
  have hV : w.srv.getAccumulator = .ok (accAfter α (v • params.p1) w.srv.deletions) := by
    rw [Server.getAccumulator, hA.last]; rfl
  have hstep : LWorld.Step E H enc params seed guarded none w
      ⟨w.srv, setAt w.users i (some (u.adopt wit W _ w.srv.getEpoch)), w.calls⟩ :=
    .update w i u wit n t rand upd honest ans Q r L (t + 1) W _ hu hw ht hc hb hp e1 hQ hr hrl hdiff (fun i hi _ => hL i hi) hok hV
  refine ⟨W, _, hok, hV, hstep, ?_⟩
  have := (LWorld.inv_step E H enc params hP hK seed hseed guarded α sM v _ _ none hI hstep).user i _ setAt_self
  exact this.2.2.2.2 (by simp [User.adopt])

end
end Allo
