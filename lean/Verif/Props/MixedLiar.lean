import Verif.Props.Mixed
import Verif.Props.Damage
import Verif.Props.SilentLiar
import Verif.Props.Recovery

/-!
# C120: lying and silent servers, and wrong witnesses, after mixed histories

C38, C97, C119 and C124 for histories that mix `delete` and `quick_delete` safely.
-/

set_option linter.unusedSectionVars false
set_option linter.unusedVariables false
namespace Allo
open Spec Finset User Server

section
variable {F G1 G2 GT : Type} [Field F] [DecidableEq F] [AddCommGroup G1] [Module F G1]
  [DecidableEq G1] [AddCommGroup G2] [Module F G2] [AddCommGroup GT] [Module F GT] [DecidableEq GT]

/-- C120, one liar after a safe history: as C38, for every history in which each `delete` hits a fresh member. -/
theorem C120_liar (params : AccParams G1 G2) (α sM v : F)
    (ops : List (Server.Op F)) (hsafe : SafeFrom α Mix.start ops) (srv : Server F G1 G2)
    (h : (Server.new params α sM v).run ops = .ok srv) (seed : Nat → Nat)
    (hseed : ∀ d, 1 ≤ d → 1 ≤ seed d) (u : User F G1 G2) (n t : Nat) (ht : 2 ≤ t) (hn : t < n)
    (hc : ∀ i, 0 < i → i ≤ n → (i : F) ≠ 0) (he1 : 1 ≤ u.epoch) (he2 : u.epoch < srv.getEpoch)
    (rand : Nat → Nat → F) (upd : UserUpdate F)
    (hp : u.prepareForUpdate seed srv.getEpoch n t rand = .ok (.ok upd)) (w : G1) (Ve : G1)
    (hVe : srv.accumulators[u.epoch - 1]? = some Ve) (hw : IsWitness α Ve u.id w)
    (honest ans : List (List F × List G1)) (hhon : HonestAnswers srv n upd honest) (L : Finset Nat)
    (hdiff : DiffersOn L honest ans) (hL : (L.filter (· ≤ t)).card ≤ 1) (W : G1)
    (hok : postUpdate w t upd.yShares upd.yValues ans = .ok (.ok W)) :
    ∃ V, srv.getAccumulator = .ok V ∧ IsWitness α V u.id W ∧ u.id ∉ srv.deletions.drop (u.epoch - 1) := by
  have hI := invA_safe_run ops (invM_new params α sM v) (invA_new' params α sM v) hsafe h
  have hlen := hI.length
  obtain ⟨honest', res, a1, a2, a3⟩ := C38_one_liar params α sM v _ srv h seed hseed u n t ht hn hc he1 he2
    rand upd hp w
  obtain ⟨k, hk, hed, hyl, hyv, hc1, hh⟩ :=
    honest_closed seed hseed u srv hlen n t ht (by omega) he1 he2 rand upd hp
  have e1 := (hh _).1 hhon
  have e2 := (hh _).1 a1
  rw [← e1] at e2
  subst e2
  have hres : res = .ok W := by
    rcases (a3 L ans hdiff hL).1 with h' | h' <;> rw [hok] at h' <;> injection h' with h'
    · exact h'.symm
    · cases h'
  have hd : srv.getEpoch - u.epoch ≤ srv.deletions.length := by rw [Server.getEpoch]; omega
  rw [e1, hyv, postUpdate_honest w t n _ (by omega) hc1 hc (fun _ => true) _ _
      (fun j => dAns_polyFn t k (by omega) u.id rand _) (fun j => vAnsP_polyFn t k (by omega) u.id rand _)
      (by rw [filter_all, List.length_range]; omega) (Or.inl rfl) upd.yShares hyl,
    loop_closed srv hlen _ hd t k (by omega), hres] at a2
  rw [Server.getEpoch] at he2
  rw [show srv.deletions.length - (srv.getEpoch - u.epoch) = u.epoch - 1 by rw [Server.getEpoch]; omega] at a2
  injection a2 with a2
  split at a2
  · cases a2
  · next hid =>
    injection a2 with a2
    refine ⟨_, by rw [Server.getAccumulator, hI.last]; rfl, ?_, hid⟩
    have hi : u.epoch - 1 ≤ srv.deletions.length := by omega
    rw [hI.get _ hi] at hVe
    have hVe := Option.some.inj hVe
    have hch := chain_published hI (u.epoch - 1) hi
    rw [hVe, show srv.deletions.length - (u.epoch - 1) = srv.getEpoch - u.epoch by
      rw [Server.getEpoch]; omega] at hch
    have hfst : (srv.published (srv.getEpoch - u.epoch)).map (·.1) = srv.deletions.drop (u.epoch - 1) := by
      rw [published_fst srv hlen]
      congr 1; rw [Server.getEpoch]; omega
    have haff := followLog_affine α u.id _ _ _ w hch (by rw [hfst]; exact hid)
    unfold IsWitness at *
    rw [← a2, haff, hw, sub_self, smul_zero, add_zero]

/-- C120, a liar and silent servers after a safe history: as C124, for every history in which each `delete` hits a fresh
member. -/
theorem C120_liar_and_silent (params : AccParams G1 G2) (α sM v : F) (ops : List (Server.Op F))
    (hsafe : SafeFrom α Mix.start ops)
    (srv : Server F G1 G2) (h : (Server.new params α sM v).run ops = .ok srv) (seed : Nat → Nat)
    (hseed : ∀ d, 1 ≤ d → 1 ≤ seed d) (u : User F G1 G2) (n t : Nat) (ht : 2 ≤ t)
    (hc : ∀ i, 0 < i → i ≤ n → (i : F) ≠ 0) (he1 : 1 ≤ u.epoch) (he2 : u.epoch < srv.getEpoch)
    (rand : Nat → Nat → F) (upd : UserUpdate F)
    (hp : u.prepareForUpdate seed srv.getEpoch n t rand = .ok (.ok upd)) (w : G1) (Q : Finset Nat) (h0 : 0 ∉ Q)
    (r : List Nat) (hr : r = (List.range n).filter (fun i => decide (i ∉ Q))) (hrl : t < r.length)
    (honest ans : List (List F × List G1)) (hhon : HonestAnswers srv n upd honest)
    (L : Finset Nat) (hdiff : DiffersOn L honest ans) (p : Nat)
    (hL : ∀ i ≤ t, i ≠ p → ∀ l, r[i]? = some l → l ∉ L) (Ve : G1)
    (hVe : srv.accumulators[u.epoch - 1]? = some Ve) (hw : IsWitness α Ve u.id w) (W : G1)
    (hok : postUpdate w t upd.yShares upd.yValues (silence Q ans) = .ok (.ok W)) :
    ∃ V, srv.getAccumulator = .ok V ∧ IsWitness α V u.id W ∧ u.id ∉ srv.deletions.drop (u.epoch - 1) := by
  obtain ⟨res, h1, h2, -⟩ := C124_first_answers params α sM v ops srv h seed hseed u n t ht hc he1 he2 rand upd hp w Q h0
    r hr hrl honest ans hhon L hdiff p hL
  have hrn : r.length ≤ n := by
    rw [hr]; refine le_trans (List.length_filter_le _ _) (by simp)
  have : res = .ok W := by
    rcases h2 with h2 | h2 <;> rw [hok] at h2 <;> injection h2 with h2
    · exact h2.symm
    · cases h2
  subst this
  refine C120_liar params α sM v ops hsafe srv h seed hseed u n t ht (by omega) hc
    he1 he2 rand upd hp w Ve hVe hw honest honest hhon ∅ ⟨rfl, fun _ _ _ => rfl, fun a ha q hq' => ?_⟩ (by simp) W h1
  obtain ⟨c, D, V, hc1, pD, pV, hh, -⟩ := silentLiar_setup params α sM v ops srv h seed hseed u n t ht hc
    he1 he2 rand upd hp w Q r hr hrl honest hhon
  rw [hh] at ha hq'
  simp only [answers, List.mem_map] at ha hq'
  obtain ⟨i, -, rfl⟩ := ha
  obtain ⟨i', -, rfl⟩ := hq'
  simp

/-- C120, honest updates of a wrong witness after a safe history: as C119, for every history in which each `delete` hits a
fresh member. -/
theorem C120_error (params : AccParams G1 G2) (α sM v : F) (ops : List (Server.Op F))
    (hsafe : SafeFrom α Mix.start ops) (srv : Server F G1 G2) (h : (Server.new params α sM v).run ops = .ok srv)
    (servers : List (Server F G1 G2))
    (hs : ∀ s' ∈ servers, s'.accumulators = srv.accumulators ∧ s'.deletions = srv.deletions)
    (t : Nat) (ht : 2 ≤ t)
    (hn : t ≤ servers.length) (hc : ∀ i, 0 < i → i ≤ servers.length → (i : F) ≠ 0)
    (seed : Nat → Nat) (hseed : ∀ d, 1 ≤ d → 1 ≤ seed d) (u : User F G1 G2)
    (w : Witness F G1) (hw : u.witness = some w)
    (he1 : 1 ≤ u.epoch) (he2 : u.epoch < srv.getEpoch)
    (Ve : G1) (hVe : srv.accumulators[u.epoch - 1]? = some Ve)
    (hid : u.id ∉ srv.deletions.drop (u.epoch - 1)) (rand : Nat → Nat → F) :
    ∃ u' V W', srv.getAccumulator = .ok V ∧ u.update seed servers t rand = .ok (u', .ok ()) ∧
      u' = { u with witness := some { w with witness := W' }, accumulator := V } ∧
      (u.id + α) • W' - V
        = (((srv.deletions.drop (u.epoch - 1)).map (fun d => d - u.id)).prod)⁻¹ •
            ((u.id + α) • w.witness - Ve) ∧
      ((srv.deletions.drop (u.epoch - 1)).map (fun d => d - u.id)).prod ≠ 0 := by
  have hI := invA_safe_run ops (invM_new params α sM v) (invA_new' params α sM v) hsafe h
  have hlen := hI.length
  rw [Server.getEpoch] at he2
  have hcore := update_core seed hseed u w hw srv hlen _ hI.last servers hs t ht hn hc he1 he2 rand
  rw [if_neg hid] at hcore
  refine ⟨_, _, _, by rw [Server.getAccumulator, hI.last]; rfl, hcore, rfl, ?_, ?_⟩
  · have hi : u.epoch - 1 ≤ srv.deletions.length := by omega
    rw [hI.get _ hi] at hVe
    have hVe := Option.some.inj hVe
    have hch := chain_published hI (u.epoch - 1) hi
    rw [hVe, show srv.deletions.length - (u.epoch - 1) = srv.accumulators.length - u.epoch by omega] at hch
    have hfst : (srv.published (srv.accumulators.length - u.epoch)).map (·.1)
        = srv.deletions.drop (u.epoch - 1) := by
      rw [published_fst srv hlen]
      congr 1; omega
    have haff := followLog_affine α u.id _ _ _ w.witness hch (by rw [hfst]; exact hid)
    rw [hfst] at haff
    rw [haff, add_sub_cancel_left]
    rfl
  · exact fun e => hid (prodMinus_eq_zero.1 e)

/-- C120, recovering after a safe history: as C97, for every history in which each `delete` hits a fresh member. -/
theorem C120_recover (E : Pairing F G1 G2 GT) (params : AccParams G1 G2) (hP : params.p2 ≠ 0)
    (hK : params.k2 ≠ 0) (α sM v : F) (ops : List (Server.Op F))
    (hsafe : SafeFrom α Mix.start ops)
    (srv : Server F G1 G2) (h : (Server.new params α sM v).run ops = .ok srv)
    (seed : Nat → Nat) (hseed : ∀ d, 1 ≤ d → 1 ≤ seed d) (u : User F G1 G2) (n t : Nat) (ht : 2 ≤ t)
    (hn : t ≤ n) (hc : ∀ i, 0 < i → i ≤ n → (i : F) ≠ 0) (hu : u.publicKeys = srv.getPublicKeys)
    (he1 : 1 ≤ u.epoch) (he2 : u.epoch < srv.getEpoch) (rand : Nat → Nat → F) (upd : UserUpdate F)
    (hp : u.prepareForUpdate seed srv.getEpoch n t rand = .ok (.ok upd)) (Ve : G1)
    (hVe : srv.accumulators[u.epoch - 1]? = some Ve) (w : Witness F G1)
    (hww : u.witness = some w) (hw : u.checkWitness E params Ve = .ok ()) (hα : u.id ≠ -α)
    (hid : u.id ∉ srv.deletions.drop (u.epoch - 1))
    (honest ans : List (List F × List G1)) (hhon : HonestAnswers srv n upd honest) (L : Finset Nat)
    (hoff : HonestOff L honest ans) (hL : t ≤ (range n \ L).card) :
    ∃ V W, srv.getAccumulator = .ok V ∧
      ({ u with witness := some { w with witness := W } } : User F G1 G2).checkWitness E params V = .ok () ∧
      (∃ Q : Finset Nat, (range n \ Q).card = t ∧
        postUpdate w.witness t upd.yShares upd.yValues (silence Q ans) = .ok (.ok W)) ∧
      (∀ Q : Finset Nat, (∀ i < n, i ∈ L → i ∈ Q) → (range n \ Q).card = t →
        postUpdate w.witness t upd.yShares upd.yValues (silence Q ans) = .ok (.ok W)) ∧
      ∀ (Q : Finset Nat) (W' : G1),
        postUpdate w.witness t upd.yShares upd.yValues (silence Q ans) = .ok (.ok W') →
        ({ u with witness := some { w with witness := W' } } : User F G1 G2).checkWitness E params V = .ok () →
        W' = W := by
  have hI := invA_safe_run ops (invM_new params α sM v) (invA_new' params α sM v) hsafe h
  have hk := (keys_run h).1
  have hlen := hI.length
  have hnl : honest.length = n := hhon.1
  rw [Server.getPublicKeys, hk] at hu
  have hex : ∀ Q : Finset Nat, (∀ i < n, i ∈ L → i ∈ Q) → (range n \ Q).card = t →
        postUpdate w.witness t upd.yShares upd.yValues (silence Q ans)
          = .ok (.ok (followLog u.id (srv.published (srv.getEpoch - u.epoch)) w.witness)) := by
    intro Q hLQ hQ
    rw [silence_off hoff (by rw [hnl]; exact hLQ),
      exact_result srv hlen seed hseed u n t ht hn hc he1 he2 rand upd hp w.witness honest hhon Q hQ, if_neg hid]
  obtain ⟨w0, hw1, hw2, hw3⟩ := (C23_check_witness E params hP hK α sM u hu Ve).1.1 hw
  rw [hww] at hw1
  cases hw1
  have hval : IsWitness α (accAfter α (v • params.p1) srv.deletions) u.id
      (followLog u.id (srv.published (srv.getEpoch - u.epoch)) w.witness) := by
    rw [Server.getEpoch] at he2
    have hi : u.epoch - 1 ≤ srv.deletions.length := by omega
    rw [hI.get _ hi] at hVe
    have hVe := Option.some.inj hVe
    have hch := chain_published hI (u.epoch - 1) hi
    rw [hVe, show srv.deletions.length - (u.epoch - 1) = srv.getEpoch - u.epoch by
      rw [Server.getEpoch]; omega] at hch
    have hfst : (srv.published (srv.getEpoch - u.epoch)).map (·.1) = srv.deletions.drop (u.epoch - 1) := by
      rw [published_fst srv hlen]
      congr 1; rw [Server.getEpoch]; omega
    have haff := followLog_affine α u.id _ _ _ w.witness hch (by rw [hfst]; exact hid)
    unfold IsWitness at *
    rw [haff, hw2, sub_self, smul_zero, add_zero]
  refine ⟨accAfter α (v • params.p1) srv.deletions, _, by rw [Server.getAccumulator, hI.last]; rfl, ?_, ?_, hex, ?_⟩
  · rw [(C23_check_witness E params hP hK α sM _ (by exact hu) _).1]
    exact ⟨_, rfl, hval, hw3⟩
  · obtain ⟨Q, hQ1, hQ2⟩ := exists_subset_off n t L hL
    exact ⟨Q, hQ2, hex Q hQ1 hQ2⟩
  · intro Q W' _ hW'
    rw [(C23_check_witness E params hP hK α sM _ (by exact hu) _).1] at hW'
    obtain ⟨w', e, h1, -⟩ := hW'
    injection e with e
    subst e
    unfold IsWitness at h1 hval
    simp only at h1
    rw [← hval] at h1
    have hne : u.id + α ≠ 0 := fun e => hα (eq_neg_of_add_eq_zero_left e)
    exact smul_right_injective _ hne h1

end
end Allo
