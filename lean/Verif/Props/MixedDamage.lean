import Verif.Props.MixedLiar
import Verif.Props.Repeat

/-!
# C120: wrong witnesses in mixed histories

C119 for histories in which each `delete` hits a fresh member.
-/

set_option linter.unusedSectionVars false
set_option linter.unusedVariables false
namespace Allo
open Spec Finset User Server

section
variable {F G1 G2 GT : Type} [Field F] [DecidableEq F] [AddCommGroup G1] [Module F G1]
  [DecidableEq G1] [AddCommGroup G2] [Module F G2] [AddCommGroup GT] [Module F GT] [DecidableEq GT]

/-- C120, one update after a safe history (as C119): `check_witness` passes after the update exactly if it passed before it (against the
accumulator of the recorded epoch). -/
theorem C120_error_iff (E : Pairing F G1 G2 GT) (params : AccParams G1 G2) (hP : params.p2 ≠ 0)
    (hK : params.k2 ≠ 0) (α sM v : F) (ops : List (Server.Op F))
    (hsafe : SafeFrom α Mix.start ops)
    (srv : Server F G1 G2) (h : (Server.new params α sM v).run (ops) = .ok srv)
    (servers : List (Server F G1 G2))
    (hs : ∀ s' ∈ servers, s'.accumulators = srv.accumulators ∧ s'.deletions = srv.deletions)
    (t : Nat) (ht : 2 ≤ t)
    (hn : t ≤ servers.length) (hc : ∀ i, 0 < i → i ≤ servers.length → (i : F) ≠ 0)
    (seed : Nat → Nat) (hseed : ∀ d, 1 ≤ d → 1 ≤ seed d) (u : User F G1 G2)
    (hu : u.publicKeys = srv.getPublicKeys) (hw : u.witness ≠ none)
    (he1 : 1 ≤ u.epoch) (he2 : u.epoch < srv.getEpoch)
    (Ve : G1) (hVe : srv.accumulators[u.epoch - 1]? = some Ve)
    (hid : u.id ∉ srv.deletions.drop (u.epoch - 1)) (rand : Nat → Nat → F) :
    ∃ u' V, srv.getAccumulator = .ok V ∧ u.update seed servers t rand = .ok (u', .ok ()) ∧
      (u'.checkWitness E params V = .ok () ↔ u.checkWitness E params Ve = .ok ()) ∧
      u'.id = u.id ∧ u'.publicKeys = u.publicKeys ∧ u'.epoch = u.epoch := by
  obtain ⟨w, hw⟩ := Option.ne_none_iff_exists'.1 hw
  obtain ⟨u', V, W', a1, a2, rfl, a4, a5⟩ := C120_error params α sM v ops hsafe srv h servers hs t ht
    hn hc seed hseed u w hw he1 he2 Ve hVe hid rand
  refine ⟨_, V, a1, a2, ?_, rfl, rfl, rfl⟩
  have hk := (keys_run h).1
  rw [Server.getPublicKeys, hk] at hu
  rw [(C23_check_witness E params hP hK α sM _ (by exact hu) V).1,
    (C23_check_witness E params hP hK α sM u hu Ve).1]
  have key : IsWitness α V u.id W' ↔ IsWitness α Ve u.id w.witness := by
    unfold IsWitness
    rw [← sub_eq_zero, a4, smul_eq_zero, inv_eq_zero, sub_eq_zero]
    simp only [a5, false_or]
  constructor
  · rintro ⟨x, e, h1, h2⟩
    injection e with e
    subst e
    exact ⟨w, hw, key.1 h1, h2⟩
  · rintro ⟨x, e, h1, h2⟩
    rw [hw] at e
    injection e with e
    subst e
    exact ⟨_, rfl, key.2 h1, h2⟩

/-- C120, any number of updates during a safe history (as C119): through every sequence of successful updates against honest servers, the
credential passes `check_witness` at the end (against the accumulator of the epoch it has reached) exactly
if it passed at the start (against that of its first epoch). -/
theorem C120_chain (E : Pairing F G1 G2 GT) (params : AccParams G1 G2) (hP : params.p2 ≠ 0)
    (hK : params.k2 ≠ 0) (α sM v : F) (ops : List (Server.Op F))
    (hsafe : SafeFrom α Mix.start ops)
    (fin : Server F G1 G2) (h : (Server.new params α sM v).run (ops) = .ok fin)
    (u u' : User F G1 G2) (hm : Maintained params α sM v (ops) u u')
    (hu : u.publicKeys = fin.getPublicKeys) (he1 : 1 ≤ u.epoch) (he2 : u.epoch ≤ fin.getEpoch) :
    ∃ Ve V, fin.accumulators[u.epoch - 1]? = some Ve ∧ fin.accumulators[u'.epoch - 1]? = some V ∧
      (u'.checkWitness E params V = .ok () ↔ u.checkWitness E params Ve = .ok ()) ∧
      u'.id = u.id ∧ u'.publicKeys = u.publicKeys ∧ u.epoch ≤ u'.epoch := by
  generalize hfull : ops = full at hm
  induction hm with
  | done u =>
    rw [Server.getEpoch] at he2
    refine ⟨_, _, List.getElem?_eq_getElem (by omega), List.getElem?_eq_getElem (by omega), Iff.rfl, rfl, rfl,
      le_rfl⟩
  | round u u₁ u' pre hpre srv hrun hnew servers hs t ht hn hc seed hseed rand hupd rest ih =>
    obtain ⟨post, rfl⟩ := hpre
    have hsp : SafeFrom α Mix.start pre := safeFrom_append pre post _ (hfull ▸ hsafe)
    have hpost : srv.run post = .ok fin := by
      rw [hfull] at h
      obtain ⟨s, q1, q2⟩ := Server.run_append.1 h
      rw [hrun] at q1
      injection q1 with q1
      rw [q1]; exact q2
    obtain ⟨hp1, hp2, hp3⟩ := run_extends post srv fin hpost
    have hI := invA_safe_run pre (invM_new params α sM v) (invA_new' params α sM v) hsp hrun
    have hlen := hI.length
    have hle := hp1.length_le
    have hnew' := hnew
    rw [Server.getEpoch] at hnew'
    have hwne : u.witness ≠ none := by
      intro e
      unfold User.update at hupd
      rw [e] at hupd
      exact absurd (congrArg Prod.snd (Except.ok.inj hupd)) (by simp)
    have hid : u.id ∉ srv.deletions.drop (u.epoch - 1) := by
      intro hmem
      have := C26_deleted params α sM v _ srv hrun servers hs t ht hn hc seed hseed u hwne he1 hmem rand
      rw [hupd] at this
      exact absurd (congrArg Prod.snd (Except.ok.inj this)) (by simp)
    have hup : u.publicKeys = srv.getPublicKeys := by
      rw [hu, Server.getPublicKeys, Server.getPublicKeys, hp3]
    have hVs : srv.accumulators[u.epoch - 1]? = some (srv.accumulators[u.epoch - 1]'(by omega)) :=
      List.getElem?_eq_getElem (by omega)
    obtain ⟨x, V, a1, a2, a3, a4, a5, a6⟩ := C120_error_iff E params hP hK α sM v pre hsp srv hrun servers
      hs t ht hn hc seed hseed u hup hwne he1 hnew _ hVs hid rand
    rw [hupd] at a2
    have hx : u₁ = x := congrArg Prod.fst (Except.ok.inj a2)
    subst hx
    have hVsf : fin.accumulators[u.epoch - 1]? = some (srv.accumulators[u.epoch - 1]'(by omega)) := by
      obtain ⟨c, hc⟩ := hp1
      rw [← hc, List.getElem?_append_left (by omega)]; exact hVs
    have hVf : fin.accumulators[srv.getEpoch - 1]? = some V := by
      obtain ⟨c, hc⟩ := hp1
      rw [Server.getEpoch, ← hc, List.getElem?_append_left (by omega),
        show srv.accumulators.length - 1 = srv.deletions.length by omega, hI.get _ le_rfl, List.take_length]
      rw [Server.getAccumulator, hI.last] at a1
      simpa [unwrap] using a1
    obtain ⟨Ve', V', b1, b2, b3, b4, b5, b6⟩ := ih (by simp only; rw [a5]; exact hu)
      (by simp only [Server.getEpoch]; omega)
      (by simp only [Server.getEpoch]; omega)
    simp only at b1 b6
    rw [hVf] at b1
    injection b1 with b1
    subst b1
    refine ⟨_, V', hVsf, b2, b3.trans ?_, b4.trans a4, b5.trans a5, by omega⟩
    exact a3

/-- C120, lasting damage in a safe history (as C119): enough lying servers (fewer than `t` honest answers among those used) can in one
update make `post_update` return `Ok` of any point `W` they like; if `W` is not the user's witness, then no
sequence of later successful updates, all against honest servers, ever leads to a credential that passes
`check_witness`, however long the history goes on. -/
theorem C120_damage (E : Pairing F G1 G2 GT) (params : AccParams G1 G2) (hP : params.p2 ≠ 0)
    (hK : params.k2 ≠ 0) (α sM v : F) (pre post : List (Server.Op F))
    (hsafe : SafeFrom α Mix.start (pre ++ post))
    (srv fin : Server F G1 G2) (h : (Server.new params α sM v).run pre = .ok srv)
    (h' : srv.run post = .ok fin) (seed : Nat → Nat) (hseed : ∀ d, 1 ≤ d → 1 ≤ seed d)
    (u : User F G1 G2) (w : Witness F G1) (hu : u.publicKeys = srv.getPublicKeys) (n t : Nat) (ht : 2 ≤ t)
    (hn : t ≤ n) (hc : ∀ i, 0 < i → i ≤ n → (i : F) ≠ 0) (he1 : 1 ≤ u.epoch) (he2 : u.epoch < srv.getEpoch)
    (rand : Nat → Nat → F) (upd : UserUpdate F)
    (hp : u.prepareForUpdate seed srv.getEpoch n t rand = .ok (.ok upd)) (L : Finset Nat)
    (hL : ((range (min n (t + 1))) \ L).card < t) (V : G1) (hV : srv.getAccumulator = .ok V)
    (W : G1) (hW : (u.id + α) • W ≠ V) :
    ∃ honest ans, HonestAnswers srv n upd honest ∧ DiffersOn L honest ans ∧
      User.postUpdate w.witness t upd.yShares upd.yValues ans = .ok (.ok W) ∧
      ∀ u', Maintained params α sM v (pre ++ post)
        { u with witness := some { w with witness := W }, accumulator := V, epoch := srv.getEpoch } u' →
        ∃ V', fin.accumulators[u'.epoch - 1]? = some V' ∧ u'.checkWitness E params V' ≠ .ok () := by
  obtain ⟨honest, k1, ⟨ans, k2, k3⟩, -⟩ := C39_control params α sM v pre srv h seed hseed u n t ht hn hc he1 he2
    rand upd hp w.witness L hL W
  refine ⟨honest, ans, k1, k2, k3, ?_⟩
  intro u' hm
  obtain ⟨hp1, hp2, hp3⟩ := run_extends post srv fin h'
  have hfull : (Server.new params α sM v).run (pre ++ post) = .ok fin := by
    exact Server.run_append.2 ⟨srv, h, h'⟩
  have hle := hp1.length_le
  have he2' := he2
  rw [Server.getEpoch] at he2'
  obtain ⟨Ve, V', b1, b2, b3, -⟩ := C120_chain E params hP hK α sM v (pre ++ post) hsafe fin hfull _ u' hm
    (by simp only; rw [hu, Server.getPublicKeys, Server.getPublicKeys, hp3])
    (by simp only [Server.getEpoch]; omega) (by simp only [Server.getEpoch]; omega)
  refine ⟨V', b2, ?_⟩
  have hVe : Ve = V := by
    simp only at b1
    rw [Server.getAccumulator] at hV
    rw [Server.getEpoch] at b1
    obtain ⟨c, hc⟩ := hp1
    rw [← hc, List.getElem?_append_left (by omega), ← List.getLast?_eq_getElem?] at b1
    rw [b1] at hV
    simpa [unwrap] using hV
  subst hVe
  have hk := (keys_run h).1
  rw [Server.getPublicKeys, hk] at hu
  rw [Ne, b3, (C23_check_witness E params hP hK α sM _ (by exact hu) Ve).1]
  rintro ⟨x, e, q1, -⟩
  injection e with e
  subst e
  exact hW q1

end
end Allo
