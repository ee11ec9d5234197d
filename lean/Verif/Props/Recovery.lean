import Verif.Props.PostUpdate
import Verif.Props.Examples

/-!
# C97: recovering from lying servers

`post_update` alone cannot cope with more than one liar (C38, C39). From the same answers a client can still
recover: ignore all but `t` servers, and check the result against the accumulator.
-/

set_option linter.unusedSectionVars false
set_option linter.unusedVariables false
namespace Allo
open Spec Finset User

section
variable {F G1 G2 GT : Type} [Field F] [DecidableEq F] [AddCommGroup G1] [Module F G1]
  [DecidableEq G1] [AddCommGroup G2] [Module F G2] [AddCommGroup GT] [Module F GT] [DecidableEq GT]

/-- The answers `ans` of `n` servers are honest except, in any way at all, those of the servers in `L`. -/
def HonestOff (L : Finset Nat) (honest ans : List (List F × List G1)) : Prop :=
  ans.length = honest.length ∧ ∀ i < honest.length, i ∉ L → ans[i]? = honest[i]?

theorem silence_off {L Q : Finset Nat} {honest ans : List (List F × List G1)} (h : HonestOff L honest ans)
    (hQ : ∀ i < honest.length, i ∈ L → i ∈ Q) : silence Q ans = silence Q honest := by
  unfold silence
  apply List.ext_getElem
  · simp [h.1]
  · intro i h1 h2
    simp at h1 h2
    by_cases hi : i ∈ Q
    · simp [hi]
    · have := h.2 i h2 (fun hL => hi (hQ i h2 hL))
      rw [List.getElem?_eq_getElem h1, List.getElem?_eq_getElem h2] at this
      simp [hi, Option.some.inj this]

/-- what `post_update` makes of the answers of exactly `t` honest servers -/
theorem exact_result (s : Server F G1 G2) (hlen : s.accumulators.length = s.deletions.length + 1)
    (seed : Nat → Nat) (hseed : ∀ d, 1 ≤ d → 1 ≤ seed d) (u : User F G1 G2) (n t : Nat) (ht : 2 ≤ t)
    (hn : t ≤ n) (hc : ∀ i, 0 < i → i ≤ n → (i : F) ≠ 0) (he1 : 1 ≤ u.epoch) (he2 : u.epoch < s.getEpoch)
    (rand : Nat → Nat → F) (upd : UserUpdate F)
    (hp : u.prepareForUpdate seed s.getEpoch n t rand = .ok (.ok upd)) (w : G1)
    (honest : List (List F × List G1)) (hhon : HonestAnswers s n upd honest) (Q : Finset Nat)
    (hQ : (range n \ Q).card = t) :
    postUpdate w t upd.yShares upd.yValues (silence Q honest)
      = .ok (if u.id ∈ s.deletions.drop (u.epoch - 1) then .error "user has been deleted"
        else .ok (followLog u.id (s.published (s.getEpoch - u.epoch)) w)) := by
  obtain ⟨k, hk, hed, hyl, hyv, hc1, hh⟩ :=
    honest_closed seed hseed u s hlen n t ht (by omega) he1 he2 rand upd hp
  rw [(hh _).1 hhon, hyv, silence_answers,
    postUpdate_honest w t n _ (by omega) hc1 hc (fun i => decide (i ∉ Q)) _ _
      (fun j => dAns_polyFn t k (by omega) u.id rand _) (fun j => vAnsP_polyFn t k (by omega) u.id rand _)
      (by rw [filter_card]; omega) (Or.inr (by rw [filter_card]; omega)) upd.yShares hyl]
  have hd : s.getEpoch - u.epoch ≤ s.deletions.length := by rw [Server.getEpoch] at he2 ⊢; omega
  rw [loop_closed s hlen _ hd t k (by omega),
    show s.deletions.length - (s.getEpoch - u.epoch) = u.epoch - 1 by rw [Server.getEpoch] at he2 ⊢; omega]

theorem exists_subset_off (n t : Nat) (L : Finset Nat) (hL : t ≤ (range n \ L).card) :
    ∃ Q : Finset Nat, (∀ i < n, i ∈ L → i ∈ Q) ∧ (range n \ Q).card = t := by
  obtain ⟨S, hS, hSc⟩ := Finset.exists_subset_card_eq hL
  refine ⟨range n \ S, fun i hi hiL => ?_, ?_⟩
  · rw [mem_sdiff]
    refine ⟨mem_range.2 hi, fun hm => ?_⟩
    have := hS hm
    rw [mem_sdiff] at this
    exact this.2 hiL
  · rw [Finset.sdiff_sdiff_eq_self (hS.trans sdiff_subset), hSc]

/-- C97: one round of answers, of which those of the servers in `L` are arbitrary (any values, any lengths), while
at least `t` servers are honest. For a user that is still a member (as in C25) there are `t` servers such that,
with the answers of all others emptied, `post_update` returns a witness `W` that passes `check_witness` against
the current accumulator — any `t` honest ones will do; and whatever subset of the answers one keeps, a returned
witness that passes the check is that same `W`. So trying subsets until the check passes recovers the right
witness, without asking again. -/
theorem C97_recover (E : Pairing F G1 G2 GT) (params : AccParams G1 G2) (hP : params.p2 ≠ 0)
    (hK : params.k2 ≠ 0) (α sM v : F) (ops₁ ops₂ : List (Server.Op F))
    (h₁ : ∀ op ∈ ops₁, op.isQuick = false) (h₂ : ∀ op ∈ ops₂, op.isDelete = false)
    (srv : Server F G1 G2) (h : (Server.new params α sM v).run (ops₁ ++ ops₂) = .ok srv)
    (seed : Nat → Nat) (hseed : ∀ d, 1 ≤ d → 1 ≤ seed d) (u : User F G1 G2) (n t : Nat) (ht : 2 ≤ t)
    (hn : t ≤ n) (hc : ∀ i, 0 < i → i ≤ n → (i : F) ≠ 0) (hu : u.publicKeys = srv.getPublicKeys)
    (he1 : 1 ≤ u.epoch) (he2 : u.epoch < srv.getEpoch) (rand : Nat → Nat → F) (upd : UserUpdate F)
    (hp : u.prepareForUpdate seed srv.getEpoch n t rand = .ok (.ok upd)) (Ve : G1)
    (hVe : srv.accumulators[u.epoch - 1]? = some Ve) (w : Witness F G1)
    (hww : u.witness = some w) (hw : u.checkWitness E params Ve = .ok ()) (hα : u.id ≠ -α)
    (hid : u.id ∉ srv.deletions.drop (u.epoch - 1))
    (honest ans : List (List F × List G1)) (hhon : HonestAnswers srv n upd honest) (L : Finset Nat)
    (hoff : HonestOff L honest ans) (hL : t ≤ (range n \ L).card) :
    ∃ V W, srv.getAccumulator = .ok V ∧
      ({ u with witness := some { w with witness := W } } : User F G1 G2).checkWitness E params V = .ok () ∧
      (∃ Q : Finset Nat, (range n \ Q).card = t ∧
        postUpdate w.witness t upd.yShares upd.yValues (silence Q ans) = .ok (.ok W)) ∧
      (∀ Q : Finset Nat, (∀ i < n, i ∈ L → i ∈ Q) → (range n \ Q).card = t →
        postUpdate w.witness t upd.yShares upd.yValues (silence Q ans) = .ok (.ok W)) ∧
      ∀ (Q : Finset Nat) (W' : G1),
        postUpdate w.witness t upd.yShares upd.yValues (silence Q ans) = .ok (.ok W') →
        ({ u with witness := some { w with witness := W' } } : User F G1 G2).checkWitness E params V = .ok () →
        W' = W := by
  have hI := invA_run params α sM v ops₁ ops₂ h₁ h₂ srv h
  have hk := (keys_run h).1
  have hlen := hI.length
  have hnl : honest.length = n := hhon.1
  rw [Server.getPublicKeys, hk] at hu
  have hex : ∀ Q : Finset Nat, (∀ i < n, i ∈ L → i ∈ Q) → (range n \ Q).card = t →
        postUpdate w.witness t upd.yShares upd.yValues (silence Q ans)
          = .ok (.ok (followLog u.id (srv.published (srv.getEpoch - u.epoch)) w.witness)) := by
    intro Q hLQ hQ
    rw [silence_off hoff (by rw [hnl]; exact hLQ),
      exact_result srv hlen seed hseed u n t ht hn hc he1 he2 rand upd hp w.witness honest hhon Q hQ, if_neg hid]
  obtain ⟨w0, hw1, hw2, hw3⟩ := (C23_check_witness E params hP hK α sM u hu Ve).1.1 hw
  rw [hww] at hw1
  cases hw1
  have hval : IsWitness α (accAfter α (v • params.p1) srv.deletions) u.id
      (followLog u.id (srv.published (srv.getEpoch - u.epoch)) w.witness) := by
    rw [Server.getEpoch] at he2
    have hi : u.epoch - 1 ≤ srv.deletions.length := by omega
    rw [hI.get _ hi] at hVe
    have hVe := Option.some.inj hVe
    have hch := chain_published hI (u.epoch - 1) hi
    rw [hVe, show srv.deletions.length - (u.epoch - 1) = srv.getEpoch - u.epoch by
      rw [Server.getEpoch]; omega] at hch
    have hfst : (srv.published (srv.getEpoch - u.epoch)).map (·.1) = srv.deletions.drop (u.epoch - 1) := by
      rw [published_fst srv hlen]
      congr 1; rw [Server.getEpoch]; omega
    have haff := followLog_affine α u.id _ _ _ w.witness hch (by rw [hfst]; exact hid)
    unfold IsWitness at *
    rw [haff, hw2, sub_self, smul_zero, add_zero]
  refine ⟨accAfter α (v • params.p1) srv.deletions, _, by rw [Server.getAccumulator, hI.last]; rfl, ?_, ?_, hex, ?_⟩
  · rw [(C23_check_witness E params hP hK α sM _ (by exact hu) _).1]
    exact ⟨_, rfl, hval, hw3⟩
  · obtain ⟨Q, hQ1, hQ2⟩ := exists_subset_off n t L hL
    exact ⟨Q, hQ2, hex Q hQ1 hQ2⟩
  · intro Q W' _ hW'
    rw [(C23_check_witness E params hP hK α sM _ (by exact hu) _).1] at hW'
    obtain ⟨w', e, h1, -⟩ := hW'
    injection e with e
    subst e
    unfold IsWitness at h1 hval
    simp only at h1
    rw [← hval] at h1
    have hne : u.id + α ≠ 0 := fun e => hα (eq_neg_of_add_eq_zero_left e)
    exact smul_right_injective _ hne h1

/-- C97: and for a deleted user any `t` honest servers give `"user has been deleted"`. -/
theorem C97_deleted (params : AccParams G1 G2) (α sM v : F) (ops : List (Server.Op F))
    (srv : Server F G1 G2) (h : (Server.new params α sM v).run ops = .ok srv)
    (seed : Nat → Nat) (hseed : ∀ d, 1 ≤ d → 1 ≤ seed d) (u : User F G1 G2) (n t : Nat) (ht : 2 ≤ t)
    (hn : t ≤ n) (hc : ∀ i, 0 < i → i ≤ n → (i : F) ≠ 0)
    (he1 : 1 ≤ u.epoch) (he2 : u.epoch < srv.getEpoch) (rand : Nat → Nat → F) (upd : UserUpdate F)
    (hp : u.prepareForUpdate seed srv.getEpoch n t rand = .ok (.ok upd)) (w : G1)
    (hid : u.id ∈ srv.deletions.drop (u.epoch - 1))
    (honest ans : List (List F × List G1)) (hhon : HonestAnswers srv n upd honest) (L : Finset Nat)
    (hoff : HonestOff L honest ans) (Q : Finset Nat) (hLQ : ∀ i < n, i ∈ L → i ∈ Q)
    (hQ : (range n \ Q).card = t) :
    postUpdate w t upd.yShares upd.yValues (silence Q ans) = .ok (.error "user has been deleted") := by
  have hlen := accs_length_run params α sM v ops srv h
  rw [silence_off hoff (by rw [hhon.1]; exact hLQ),
      exact_result srv hlen seed hseed u n t ht hn hc he1 he2 rand upd hp w honest hhon Q hQ, if_pos hid]

end
/-! ### the hypotheses are met -/

/-- `exUser` (id 3), four servers, threshold 2: whatever servers 0 and 1 answer, the valid witness can be had
from the same answers. -/
example : ∃ (srv : Server ℚ ℚ ℚ) (upd : UserUpdate ℚ) (honest : List (List ℚ × List ℚ)),
    HonestAnswers srv 4 upd honest ∧ ∀ ans, HonestOff {0, 1} honest ans → ∃ V W, srv.getAccumulator = .ok V ∧
    ({ exUser with witness := some { signature := (10 * exParams.k1 + exParams.k0) / 12, witness := W, secretKey := 10 } }
      : User ℚ ℚ ℚ).checkWitness (Pairing.field ℚ) exParams V = .ok () ∧
    ∃ Q : Finset Nat, (range 4 \ Q).card = 2 ∧
      postUpdate (6 / 7 : ℚ) 2 upd.yShares upd.yValues (silence Q ans) = .ok (.ok W) := by
  obtain ⟨srv, upd, honest, h1, he, h2, h3, h4⟩ := exSession_ok
  obtain ⟨srv0, _, g1, -, g3, g4, -⟩ := exUpdateRun
  rw [h1] at g1
  cases g1
  have hkeys := (keys_run h1).1
  refine ⟨srv, upd, honest, h3, fun ans hoff => ?_⟩
  obtain ⟨V, W, a, b, c, -, -⟩ := C97_recover (Pairing.field ℚ) exParams (by norm_num [exParams])
    (by norm_num [exParams]) 4 9 6 exPre [] (by decide) (by simp) srv (by simpa using h1) (fun _ => 1)
    (fun _ _ => le_refl _) exUser 4 2 le_rfl (by norm_num) (cast_ne_zero_of_pos 4)
    (by rw [Server.getPublicKeys, hkeys]; norm_num [exUser, exParams]) (by norm_num [exUser])
    (by rw [he]; norm_num [exUser]) (fun _ _ => 1) upd h2 6 (by rw [g3]; rfl) _ rfl exUser_ok
    (by norm_num [exUser]) (by rw [g4]; norm_num [exUser]) honest ans h3 {0, 1} hoff (by decide)
  exact ⟨V, W, a, b, c⟩

/-- and `exUser` with id 2, the deleted one, is told so. -/
example : ∃ (srv : Server ℚ ℚ ℚ), (Server.new exParams 4 9 6).run exPre = .ok srv ∧
    ∀ upd honest ans, ({ exUser with id := 2 } : User ℚ ℚ ℚ).prepareForUpdate (fun _ => 1) srv.getEpoch 4 2
      (fun _ _ => 1) = .ok (.ok upd) → HonestAnswers srv 4 upd honest → HonestOff {0, 1} honest ans →
      postUpdate (6 / 7 : ℚ) 2 upd.yShares upd.yValues (silence {0, 1} ans) = .ok (.error "user has been deleted") := by
  obtain ⟨srv, _, g1, -, g3, g4, -⟩ := exUpdateRun
  refine ⟨srv, g1, fun upd honest ans hp hh ho => ?_⟩
  exact C97_deleted exParams 4 9 6 exPre srv g1 (fun _ => 1) (fun _ _ => le_refl _) _ 4 2 le_rfl (by norm_num)
    (cast_ne_zero_of_pos 4) (by norm_num [exUser]) (by rw [Server.getEpoch, g3]; norm_num [exUser]) _ upd hp _
    (by rw [g4]; norm_num [exUser]) honest ans hh {0, 1} ho {0, 1} (fun i _ h => h) (by decide)

end Allo
