import Verif.Props.Update
import Verif.Props.Malicious

/-!
# C119: honest updates neither repair nor damage a witness

`User::update` (src/user.rs:247-291) follows the log from whatever witness the user holds. Against honest
servers the *error* of the witness (`(id + α)·W − V`) is multiplied by a nonzero factor, so a witness that
was right stays right and a witness that was wrong stays wrong, through any number of updates.
-/

set_option linter.unusedSectionVars false
set_option linter.unusedVariables false
namespace Allo
open Spec Finset

section
variable {F G1 G2 GT : Type} [Field F] [DecidableEq F] [AddCommGroup G1] [Module F G1]
  [DecidableEq G1] [AddCommGroup G2] [Module F G2] [AddCommGroup GT] [Module F GT] [DecidableEq GT]

/-- C119, the error term: for every user holding any credential `w` at all, honest up-to-date servers and
an id not deleted since the recorded epoch, `update` returns `Ok` and the new witness point `W'` satisfies
`(id + α)·W' − V = (∏ (d − id))⁻¹ · ((id + α)·W − Ve)`, the product over the deletions since; signature and
secret are kept. -/
theorem C119_error (params : AccParams G1 G2) (α sM v : F) (ops₁ ops₂ : List (Server.Op F))
    (h₁ : ∀ op ∈ ops₁, op.isQuick = false) (h₂ : ∀ op ∈ ops₂, op.isDelete = false)
    (srv : Server F G1 G2) (h : (Server.new params α sM v).run (ops₁ ++ ops₂) = .ok srv)
    (servers : List (Server F G1 G2))
    (hs : ∀ s' ∈ servers, s'.accumulators = srv.accumulators ∧ s'.deletions = srv.deletions)
    (t : Nat) (ht : 2 ≤ t)
    (hn : t ≤ servers.length) (hc : ∀ i, 0 < i → i ≤ servers.length → (i : F) ≠ 0)
    (seed : Nat → Nat) (hseed : ∀ d, 1 ≤ d → 1 ≤ seed d) (u : User F G1 G2)
    (w : Witness F G1) (hw : u.witness = some w)
    (he1 : 1 ≤ u.epoch) (he2 : u.epoch < srv.getEpoch)
    (Ve : G1) (hVe : srv.accumulators[u.epoch - 1]? = some Ve)
    (hid : u.id ∉ srv.deletions.drop (u.epoch - 1)) (rand : Nat → Nat → F) :
    ∃ u' V W', srv.getAccumulator = .ok V ∧ u.update seed servers t rand = .ok (u', .ok ()) ∧
      u' = { u with witness := some { w with witness := W' }, accumulator := V } ∧
      (u.id + α) • W' - V
        = (((srv.deletions.drop (u.epoch - 1)).map (fun d => d - u.id)).prod)⁻¹ •
            ((u.id + α) • w.witness - Ve) ∧
      ((srv.deletions.drop (u.epoch - 1)).map (fun d => d - u.id)).prod ≠ 0 := by
  have hI := invA_run params α sM v ops₁ ops₂ h₁ h₂ srv h
  have hlen := hI.length
  rw [Server.getEpoch] at he2
  have hcore := update_core seed hseed u w hw srv hlen _ hI.last servers hs t ht hn hc he1 he2 rand
  rw [if_neg hid] at hcore
  refine ⟨_, _, _, by rw [Server.getAccumulator, hI.last]; rfl, hcore, rfl, ?_, ?_⟩
  · have hi : u.epoch - 1 ≤ srv.deletions.length := by omega
    rw [hI.get _ hi] at hVe
    have hVe := Option.some.inj hVe
    have hch := chain_published hI (u.epoch - 1) hi
    rw [hVe, show srv.deletions.length - (u.epoch - 1) = srv.accumulators.length - u.epoch by omega] at hch
    have hfst : (srv.published (srv.accumulators.length - u.epoch)).map (·.1)
        = srv.deletions.drop (u.epoch - 1) := by
      rw [published_fst srv hlen]
      congr 1; omega
    have haff := followLog_affine α u.id _ _ _ w.witness hch (by rw [hfst]; exact hid)
    rw [hfst] at haff
    rw [haff, add_sub_cancel_left]
    rfl
  · exact fun e => hid (prodMinus_eq_zero.1 e)

/-- C119, one update: `check_witness` passes after the update exactly if it passed before it (against the
accumulator of the recorded epoch). -/
theorem C119_update_iff (E : Pairing F G1 G2 GT) (params : AccParams G1 G2) (hP : params.p2 ≠ 0)
    (hK : params.k2 ≠ 0) (α sM v : F) (ops₁ ops₂ : List (Server.Op F))
    (h₁ : ∀ op ∈ ops₁, op.isQuick = false) (h₂ : ∀ op ∈ ops₂, op.isDelete = false)
    (srv : Server F G1 G2) (h : (Server.new params α sM v).run (ops₁ ++ ops₂) = .ok srv)
    (servers : List (Server F G1 G2))
    (hs : ∀ s' ∈ servers, s'.accumulators = srv.accumulators ∧ s'.deletions = srv.deletions)
    (t : Nat) (ht : 2 ≤ t)
    (hn : t ≤ servers.length) (hc : ∀ i, 0 < i → i ≤ servers.length → (i : F) ≠ 0)
    (seed : Nat → Nat) (hseed : ∀ d, 1 ≤ d → 1 ≤ seed d) (u : User F G1 G2)
    (hu : u.publicKeys = srv.getPublicKeys) (hw : u.witness ≠ none)
    (he1 : 1 ≤ u.epoch) (he2 : u.epoch < srv.getEpoch)
    (Ve : G1) (hVe : srv.accumulators[u.epoch - 1]? = some Ve)
    (hid : u.id ∉ srv.deletions.drop (u.epoch - 1)) (rand : Nat → Nat → F) :
    ∃ u' V, srv.getAccumulator = .ok V ∧ u.update seed servers t rand = .ok (u', .ok ()) ∧
      (u'.checkWitness E params V = .ok () ↔ u.checkWitness E params Ve = .ok ()) ∧
      u'.id = u.id ∧ u'.publicKeys = u.publicKeys ∧ u'.epoch = u.epoch := by
  obtain ⟨w, hw⟩ := Option.ne_none_iff_exists'.1 hw
  obtain ⟨u', V, W', a1, a2, rfl, a4, a5⟩ := C119_error params α sM v ops₁ ops₂ h₁ h₂ srv h servers hs t ht
    hn hc seed hseed u w hw he1 he2 Ve hVe hid rand
  refine ⟨_, V, a1, a2, ?_, rfl, rfl, rfl⟩
  have hk := (keys_run h).1
  rw [Server.getPublicKeys, hk] at hu
  rw [(C23_check_witness E params hP hK α sM _ (by exact hu) V).1,
    (C23_check_witness E params hP hK α sM u hu Ve).1]
  have key : IsWitness α V u.id W' ↔ IsWitness α Ve u.id w.witness := by
    unfold IsWitness
    rw [← sub_eq_zero, a4, smul_eq_zero, inv_eq_zero, sub_eq_zero]
    simp only [a5, false_or]
  constructor
  · rintro ⟨x, e, h1, h2⟩
    injection e with e
    subst e
    exact ⟨w, hw, key.1 h1, h2⟩
  · rintro ⟨x, e, h1, h2⟩
    rw [hw] at e
    injection e with e
    subst e
    exact ⟨_, rfl, key.2 h1, h2⟩

/-! ## any number of updates -/

/-- `Maintained … u u'`: the user goes from `u` to `u'` by any number of rounds. In each round the honest
servers have reached some point `pre` of the history `full` (later points in later rounds), `update`
returns `Ok`, and the caller then records the servers' epoch (the code does not, C27). Thresholds, server
lists, chunk-size seeds and sharing randomness differ freely from round to round. -/
inductive Maintained (params : AccParams G1 G2) (α sM v : F) (full : List (Server.Op F)) :
    User F G1 G2 → User F G1 G2 → Prop
  | done (u : User F G1 G2) : Maintained params α sM v full u u
  | round (u u₁ u' : User F G1 G2) (pre : List (Server.Op F)) (hpre : pre <+: full)
      (srv : Server F G1 G2) (hrun : (Server.new params α sM v).run pre = .ok srv)
      (hnew : u.epoch < srv.getEpoch) (servers : List (Server F G1 G2))
      (hs : ∀ s' ∈ servers, s'.accumulators = srv.accumulators ∧ s'.deletions = srv.deletions)
      (t : Nat) (ht : 2 ≤ t) (hn : t ≤ servers.length)
      (hc : ∀ i, 0 < i → i ≤ servers.length → (i : F) ≠ 0)
      (seed : Nat → Nat) (hseed : ∀ d, 1 ≤ d → 1 ≤ seed d) (rand : Nat → Nat → F)
      (hupd : u.update seed servers t rand = .ok (u₁, .ok ()))
      (rest : Maintained params α sM v full { u₁ with epoch := srv.getEpoch } u') :
      Maintained params α sM v full u u'

/-- C119, any number of updates: through every sequence of successful updates against honest servers, the
credential passes `check_witness` at the end (against the accumulator of the epoch it has reached) exactly
if it passed at the start (against that of its first epoch). -/
theorem C119_chain (E : Pairing F G1 G2 GT) (params : AccParams G1 G2) (hP : params.p2 ≠ 0)
    (hK : params.k2 ≠ 0) (α sM v : F) (ops₁ ops₂ : List (Server.Op F))
    (h₁ : ∀ op ∈ ops₁, op.isQuick = false) (h₂ : ∀ op ∈ ops₂, op.isDelete = false)
    (fin : Server F G1 G2) (h : (Server.new params α sM v).run (ops₁ ++ ops₂) = .ok fin)
    (u u' : User F G1 G2) (hm : Maintained params α sM v (ops₁ ++ ops₂) u u')
    (hu : u.publicKeys = fin.getPublicKeys) (he1 : 1 ≤ u.epoch) (he2 : u.epoch ≤ fin.getEpoch) :
    ∃ Ve V, fin.accumulators[u.epoch - 1]? = some Ve ∧ fin.accumulators[u'.epoch - 1]? = some V ∧
      (u'.checkWitness E params V = .ok () ↔ u.checkWitness E params Ve = .ok ()) ∧
      u'.id = u.id ∧ u'.publicKeys = u.publicKeys ∧ u.epoch ≤ u'.epoch := by
  generalize hfull : ops₁ ++ ops₂ = full at hm
  induction hm with
  | done u =>
    rw [Server.getEpoch] at he2
    refine ⟨_, _, List.getElem?_eq_getElem (by omega), List.getElem?_eq_getElem (by omega), Iff.rfl, rfl, rfl,
      le_rfl⟩
  | round u u₁ u' pre hpre srv hrun hnew servers hs t ht hn hc seed hseed rand hupd rest ih =>
    obtain ⟨post, rfl⟩ := hpre
    obtain ⟨a, b, hab, ⟨ca, ha⟩, ⟨cb, hb⟩⟩ := split_prefix pre post ops₁ ops₂ hfull.symm
    subst hab
    have hqa : ∀ op ∈ a, op.isQuick = false := fun op ho => h₁ op (by rw [← ha]; simp [ho])
    have hqb : ∀ op ∈ b, op.isDelete = false := fun op ho => h₂ op (by rw [← hb]; simp [ho])
    have hpost : srv.run post = .ok fin := by
      rw [hfull] at h
      obtain ⟨s, q1, q2⟩ := Server.run_append.1 h
      rw [hrun] at q1
      injection q1 with q1
      rw [q1]; exact q2
    obtain ⟨hp1, hp2, hp3⟩ := run_extends post srv fin hpost
    have hI := invA_run params α sM v a b hqa hqb srv hrun
    have hlen := hI.length
    have hle := hp1.length_le
    have hnew' := hnew
    rw [Server.getEpoch] at hnew'
    have hwne : u.witness ≠ none := by
      intro e
      unfold User.update at hupd
      rw [e] at hupd
      exact absurd (congrArg Prod.snd (Except.ok.inj hupd)) (by simp)
    have hid : u.id ∉ srv.deletions.drop (u.epoch - 1) := by
      intro hmem
      have := C26_deleted params α sM v _ srv hrun servers hs t ht hn hc seed hseed u hwne he1 hmem rand
      rw [hupd] at this
      exact absurd (congrArg Prod.snd (Except.ok.inj this)) (by simp)
    have hup : u.publicKeys = srv.getPublicKeys := by
      rw [hu, Server.getPublicKeys, Server.getPublicKeys, hp3]
    have hVs : srv.accumulators[u.epoch - 1]? = some (srv.accumulators[u.epoch - 1]'(by omega)) :=
      List.getElem?_eq_getElem (by omega)
    obtain ⟨x, V, a1, a2, a3, a4, a5, a6⟩ := C119_update_iff E params hP hK α sM v a b hqa hqb srv hrun servers
      hs t ht hn hc seed hseed u hup hwne he1 hnew _ hVs hid rand
    rw [hupd] at a2
    have hx : u₁ = x := congrArg Prod.fst (Except.ok.inj a2)
    subst hx
    have hVsf : fin.accumulators[u.epoch - 1]? = some (srv.accumulators[u.epoch - 1]'(by omega)) := by
      obtain ⟨c, hc⟩ := hp1
      rw [← hc, List.getElem?_append_left (by omega)]; exact hVs
    have hVf : fin.accumulators[srv.getEpoch - 1]? = some V := by
      obtain ⟨c, hc⟩ := hp1
      rw [Server.getEpoch, ← hc, List.getElem?_append_left (by omega),
        show srv.accumulators.length - 1 = srv.deletions.length by omega, hI.get _ le_rfl, List.take_length]
      rw [Server.getAccumulator, hI.last] at a1
      simpa [unwrap] using a1
    obtain ⟨Ve', V', b1, b2, b3, b4, b5, b6⟩ := ih (by simp only; rw [a5]; exact hu)
      (by simp only [Server.getEpoch]; omega)
      (by simp only [Server.getEpoch]; omega)
    simp only at b1 b6
    rw [hVf] at b1
    injection b1 with b1
    subst b1
    refine ⟨_, V', hVsf, b2, b3.trans ?_, b4.trans a4, b5.trans a5, by omega⟩
    exact a3

/-- C119, lasting damage: enough lying servers (fewer than `t` honest answers among those used) can in one
update make `post_update` return `Ok` of any point `W` they like; if `W` is not the user's witness, then no
sequence of later successful updates, all against honest servers, ever leads to a credential that passes
`check_witness`, however long the history goes on. -/
theorem C119_damage (E : Pairing F G1 G2 GT) (params : AccParams G1 G2) (hP : params.p2 ≠ 0)
    (hK : params.k2 ≠ 0) (α sM v : F) (pre post ops₁ ops₂ : List (Server.Op F))
    (hsplit : pre ++ post = ops₁ ++ ops₂)
    (h₁ : ∀ op ∈ ops₁, op.isQuick = false) (h₂ : ∀ op ∈ ops₂, op.isDelete = false)
    (srv fin : Server F G1 G2) (h : (Server.new params α sM v).run pre = .ok srv)
    (h' : srv.run post = .ok fin) (seed : Nat → Nat) (hseed : ∀ d, 1 ≤ d → 1 ≤ seed d)
    (u : User F G1 G2) (w : Witness F G1) (hu : u.publicKeys = srv.getPublicKeys) (n t : Nat) (ht : 2 ≤ t)
    (hn : t ≤ n) (hc : ∀ i, 0 < i → i ≤ n → (i : F) ≠ 0) (he1 : 1 ≤ u.epoch) (he2 : u.epoch < srv.getEpoch)
    (rand : Nat → Nat → F) (upd : UserUpdate F)
    (hp : u.prepareForUpdate seed srv.getEpoch n t rand = .ok (.ok upd)) (L : Finset Nat)
    (hL : ((range (min n (t + 1))) \ L).card < t) (V : G1) (hV : srv.getAccumulator = .ok V)
    (W : G1) (hW : (u.id + α) • W ≠ V) :
    ∃ honest ans, HonestAnswers srv n upd honest ∧ DiffersOn L honest ans ∧
      User.postUpdate w.witness t upd.yShares upd.yValues ans = .ok (.ok W) ∧
      ∀ u', Maintained params α sM v (pre ++ post)
        { u with witness := some { w with witness := W }, accumulator := V, epoch := srv.getEpoch } u' →
        ∃ V', fin.accumulators[u'.epoch - 1]? = some V' ∧ u'.checkWitness E params V' ≠ .ok () := by
  obtain ⟨honest, k1, ⟨ans, k2, k3⟩, -⟩ := C39_control params α sM v pre srv h seed hseed u n t ht hn hc he1 he2
    rand upd hp w.witness L hL W
  refine ⟨honest, ans, k1, k2, k3, ?_⟩
  intro u' hm
  obtain ⟨hp1, hp2, hp3⟩ := run_extends post srv fin h'
  have hfull : (Server.new params α sM v).run (ops₁ ++ ops₂) = .ok fin := by
    rw [← hsplit]; exact Server.run_append.2 ⟨srv, h, h'⟩
  have hle := hp1.length_le
  have he2' := he2
  rw [Server.getEpoch] at he2'
  rw [hsplit] at hm
  obtain ⟨Ve, V', b1, b2, b3, -⟩ := C119_chain E params hP hK α sM v ops₁ ops₂ h₁ h₂ fin hfull _ u' hm
    (by simp only; rw [hu, Server.getPublicKeys, Server.getPublicKeys, hp3])
    (by simp only [Server.getEpoch]; omega) (by simp only [Server.getEpoch]; omega)
  refine ⟨V', b2, ?_⟩
  have hVe : Ve = V := by
    simp only at b1
    rw [Server.getAccumulator] at hV
    rw [Server.getEpoch] at b1
    obtain ⟨c, hc⟩ := hp1
    rw [← hc, List.getElem?_append_left (by omega), ← List.getLast?_eq_getElem?] at b1
    rw [b1] at hV
    simpa [unwrap] using hV
  subst hVe
  have hk := (keys_run h).1
  rw [Server.getPublicKeys, hk] at hu
  rw [Ne, b3, (C23_check_witness E params hP hK α sM _ (by exact hu) Ve).1]
  rintro ⟨x, e, q1, -⟩
  injection e with e
  subst e
  exact hW q1

/-! ### a concrete history and users meeting the hypotheses -/

/-- user 3 of `exUser` with its witness overwritten by 1 (the right one is 6/7) -/
def exBadUser : User ℚ ℚ ℚ :=
  ⟨3, some { signature := (10 * exParams.k1 + exParams.k0) / 12, witness := 1, secretKey := 10 }, 6,
    ⟨4, 9 * exParams.k2⟩, 1⟩

theorem exBadUser_bad : exBadUser.checkWitness (Pairing.field ℚ) exParams 6 ≠ .ok () := by
  rw [Ne, (C23_check_witness (Pairing.field ℚ) exParams (by norm_num [exParams]) (by norm_num [exParams]) 4 9
    exBadUser (by norm_num [exBadUser, exParams]) 6).1]
  rintro ⟨w, e, h, -⟩
  simp only [exBadUser, Option.some.injEq] at e
  subst e
  norm_num [IsWitness, exBadUser] at h

/-- one update then another, in the history `exPre ++ exPost`: both users can go through both rounds -/
example (rand rand' : Nat → Nat → ℚ) (seed : Nat → Nat) (hseed : ∀ d, 1 ≤ d → 1 ≤ seed d)
    (u : User ℚ ℚ ℚ) (hu : u = exUser ∨ u = exBadUser) :
    ∃ fin u', (Server.new exParams 4 9 6).run (exPre ++ exPost) = .ok fin ∧
      Maintained exParams 4 9 6 (exPre ++ exPost) u u' ∧ u'.epoch = 4 := by
  obtain ⟨srv, srv', h1, h2, h3, h4, h5, h6⟩ := exUpdateRun
  have hep : u.epoch = 1 := by rcases hu with rfl | rfl <;> rfl
  have hid0 : u.id = 3 := by rcases hu with rfl | rfl <;> rfl
  obtain ⟨w, hw⟩ : ∃ w, u.witness = some w := by rcases hu with rfl | rfl <;> exact ⟨_, rfl⟩
  have hfull : (Server.new exParams 4 9 6).run (exPre ++ exPost) = .ok srv' :=
    Server.run_append.2 ⟨srv, h1, h2⟩
  have hfc : ∀ (n : Nat) (i : Nat), 0 < i → i ≤ n → (i : ℚ) ≠ 0 :=
    fun _ i h0 _ => by exact_mod_cast (Nat.pos_iff_ne_zero.1 h0)
  obtain ⟨u₁, V, W, a1, a2, a3, -, -⟩ := C119_error exParams 4 9 6 exPre [] (by decide) (by simp) srv
    (by simpa using h1) [srv, srv, srv] (by simp) 2 (by norm_num) (by simp) (hfc _) seed hseed u w hw
    (by omega) (by simp [Server.getEpoch, h3, hep]) 6 (by simp [h3, hep]) (by simp [h4, hep, hid0]) rand
  have he : srv.getEpoch = 2 := by simp [Server.getEpoch, h3]
  have he' : srv'.getEpoch = 4 := by simp [Server.getEpoch, h6]
  obtain ⟨u₂, V', W', b1, b2, b3, -, -⟩ := C119_error exParams 4 9 6 (exPre ++ exPost) [] (by decide) (by simp)
    srv' (by simpa using hfull) [srv', srv'] (by simp) 2 (by norm_num) (by simp) (hfc _) seed hseed
    { u₁ with epoch := srv.getEpoch } { w with witness := W } (by rw [a3])
    (by simp only; omega) (by simp only; omega) _ (List.getElem?_eq_getElem (by simp only; omega))
    (by simp only; rw [a3, h5, he]; simp only; rw [hid0]; norm_num) rand'
  exact ⟨srv', _, hfull,
    .round u u₁ _ exPre (List.prefix_append _ _) srv h1 (by omega) _ (by simp) 2 (by norm_num) (by simp)
      (hfc _) seed hseed rand a2
      (.round _ u₂ _ (exPre ++ exPost) (List.prefix_refl _) srv' hfull (by simp only; omega) [srv', srv'] (by simp)
        2 (by norm_num) (by simp) (hfc _) seed hseed rand' b2 (.done _)), he'⟩

end
end Allo
