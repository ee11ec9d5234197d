import Verif.Props.Update
import Verif.Props.Examples

/-!
# C75: replicated servers

The update protocol needs several servers with the same log. Replicas hold the same secret keys and process
the same requests, but not necessarily in the same order. What must they agree on?
-/

set_option linter.unusedSectionVars false
set_option linter.unusedVariables false
namespace Allo
open Spec Server

section
variable {F G1 G2 GT : Type} [Field F] [DecidableEq F] [AddCommGroup G1] [Module F G1]
  [DecidableEq G1] [AddCommGroup G2] [Module F G2] [AddCommGroup GT] [Module F GT] [DecidableEq GT]

/-- `add`/`delete` calls followed by `add`/`quick_delete` calls (either part may be empty): no `delete` after a
`quick_delete` (see C19 for why) -/
def Unmixed (ops : List (Op F)) : Prop :=
  ∃ ops₁ ops₂, ops = ops₁ ++ ops₂ ∧ (∀ op ∈ ops₁, op.isQuick = false) ∧ ∀ op ∈ ops₂, op.isDelete = false

/-- the ids named in the deletion calls of a history, in order -/
def deletionCalls (ops : List (Op F)) : List F :=
  ops.filterMap (fun op => match op with
    | .add _ => none
    | .delete y => some y
    | .quickDelete y => some y)

/-- every deletion call of the history comes when its id is enrolled -/
def DeletesMembers (ops : List (Op F)) : Prop :=
  ∀ pre y post, (ops = pre ++ .delete y :: post ∨ ops = pre ++ .quickDelete y :: post) →
    y ∈ (regRun pre).members

/-- C75: replicas (same keys) whose histories have the same log of successful deletions publish the same
accumulators, deletions, epoch and keys and answer every update request alike, whenever and in whatever order
the users were added, and whichever of the two deletion functions was used. -/
theorem C75_same_log (params : AccParams G1 G2) (α sM v : F) (ops ops' : List (Op F)) (hu : Unmixed ops)
    (hu' : Unmixed ops') (s s' : Server F G1 G2) (h : (Server.new params α sM v).run ops = .ok s)
    (h' : (Server.new params α sM v).run ops' = .ok s') (hlog : (regRun ops).log = (regRun ops').log) :
    s'.accumulators = s.accumulators ∧ s'.deletions = s.deletions ∧ s'.getEpoch = s.getEpoch ∧
    s'.getAccumulator = s.getAccumulator ∧ s'.getPublicKeys = s.getPublicKeys ∧
    ∀ n ys, s'.update n ys = s.update n ys := by
  obtain ⟨o1, o2, rfl, h1, h2⟩ := hu
  obtain ⟨o1', o2', rfl, h1', h2'⟩ := hu'
  have hI := invA_run params α sM v o1 o2 h1 h2 s h
  have hI' := invA_run params α sM v o1' o2' h1' h2' s' h'
  have hd : s'.deletions = s.deletions := by
    rw [(C15_refines params α sM v _ s h).1, (C15_refines params α sM v _ s' h').1, hlog]
  have ha : s'.accumulators = s.accumulators := by rw [hI'.accs, hI.accs, hd]
  have hk : ∀ (ops : List (Op F)) (s : Server F G1 G2), (Server.new params α sM v).run ops = .ok s →
      s.publicKeys = ⟨α • params.p2, sM • params.k2⟩ := by
    intro ops s h
    refine run_inv (fun s => s.publicKeys = ⟨α • params.p2, sM • params.k2⟩) (fun _ => True) ?_ ops
      (fun _ _ => trivial) h rfl
    intro s op s' r _ hI h
    rcases step_cases h with ⟨rfl, -, -⟩ | ⟨y, V, rfl, hy, hV, h0, -, rfl⟩ |
      ⟨y, C, rfl, hC, -, rfl⟩ | ⟨y, V, rfl, hy, hV, h0, -, rfl⟩ <;> exact hI
  refine ⟨ha, hd, by rw [getEpoch, getEpoch, ha], by rw [getAccumulator, getAccumulator, ha],
    by rw [getPublicKeys, getPublicKeys, hk _ _ h, hk _ _ h'], fun n ys => ?_⟩
  unfold Server.update
  rw [hd]
  have : ∀ fuel, s'.updateFuel fuel n ys = s.updateFuel fuel n ys := by
    intro fuel
    have hb : s'.updateBody ys = s.updateBody ys := by
      funext st
      unfold Server.updateBody
      rw [ha, hd]
    unfold Server.updateFuel
    rw [ha, hd, hb]
  exact this _

/-- the log of a history whose deletion calls all name enrolled ids is the list of those ids -/
theorem C75_log (ops : List (Op F)) (hm : DeletesMembers ops) : (regRun ops).log = deletionCalls ops := by
  induction ops using List.reverseRecOn with
  | nil => rfl
  | append_singleton ops op ih =>
    have ih := ih (fun pre y post hp => hm pre y (post ++ [op]) (by
      rcases hp with rfl | rfl
      · left; simp
      · right; simp))
    unfold regRun deletionCalls at *
    rw [List.foldl_append, List.filterMap_append, ← ih]
    cases op with
    | add y => simp only [List.foldl_cons, List.foldl_nil, regStep, Registry.add]; split <;> simp
    | delete y =>
      have := hm ops y [] (Or.inl rfl)
      unfold regRun at this
      simp [regStep, Registry.delete, this]
    | quickDelete y =>
      have := hm ops y [] (Or.inr rfl)
      unfold regRun at this
      simp [regStep, Registry.delete, this]

/-- C75: so replicas that process every deletion of an enrolled id, in the same order, agree; their `add` calls
may come in any order and be interleaved in any way with the deletions. -/
theorem C75_order_of_adds (params : AccParams G1 G2) (α sM v : F) (ops ops' : List (Op F)) (hu : Unmixed ops)
    (hu' : Unmixed ops') (hm : DeletesMembers ops) (hm' : DeletesMembers ops')
    (hd : deletionCalls ops = deletionCalls ops') (s s' : Server F G1 G2)
    (h : (Server.new params α sM v).run ops = .ok s) (h' : (Server.new params α sM v).run ops' = .ok s') :
    s'.accumulators = s.accumulators ∧ s'.deletions = s.deletions ∧
    ∀ n ys, s'.update n ys = s.update n ys := by
  obtain ⟨h1, h2, -, -, -, h3⟩ := C75_same_log params α sM v ops ops' hu hu' s s' h h'
    (by rw [C75_log _ hm, C75_log _ hm', hd])
  exact ⟨h1, h2, h3⟩

/-- C75: a user that enrolled with one replica updates with any `n ≥ t ≥ 2` others: each has its own history, with
the same log of deletions. -/
theorem C75_update (E : Pairing F G1 G2 GT) (params : AccParams G1 G2) (hP : params.p2 ≠ 0)
    (hK : params.k2 ≠ 0) (α sM v : F) (ops : List (Op F)) (hu : Unmixed ops) (srv : Server F G1 G2)
    (h : (Server.new params α sM v).run ops = .ok srv) (histories : List (List (Op F)))
    (hh : ∀ o ∈ histories, Unmixed o ∧ (regRun o).log = (regRun ops).log)
    (servers : List (Server F G1 G2))
    (hs : List.Forall₂ (fun o s => (Server.new params α sM v).run o = .ok s) histories servers)
    (t : Nat) (ht : 2 ≤ t) (hn : t ≤ histories.length)
    (hc : ∀ i, 0 < i → i ≤ histories.length → (i : F) ≠ 0)
    (seed : Nat → Nat) (hseed : ∀ d, 1 ≤ d → 1 ≤ seed d) (u : User F G1 G2)
    (hpk : u.publicKeys = srv.getPublicKeys) (he1 : 1 ≤ u.epoch) (he2 : u.epoch < srv.getEpoch)
    (Ve : G1) (hVe : srv.accumulators[u.epoch - 1]? = some Ve)
    (hw : u.checkWitness E params Ve = .ok ())
    (hid : u.id ∉ srv.deletions.drop (u.epoch - 1)) (rand : Nat → Nat → F) :
    ∃ u' V, srv.getAccumulator = .ok V ∧ u.update seed servers t rand = .ok (u', .ok ()) ∧
      u'.checkWitness E params V = .ok () ∧ u'.accumulator = V := by
  have hl := hs.length_eq
  obtain ⟨o1, o2, rfl, h1, h2⟩ := id hu
  obtain ⟨u', V, a1, a2, a3, a4, -⟩ := C25_update E params hP hK α sM v o1 o2 h1 h2 srv h servers (by
    intro s' hs'
    obtain ⟨i, hi, rfl⟩ := List.mem_iff_getElem.1 hs'
    have hi' : i < histories.length := by omega
    have hrun := (List.forall₂_iff_get.1 hs).2 i hi' hi
    obtain ⟨b1, b2⟩ := hh _ (List.getElem_mem hi')
    obtain ⟨c1, c2, -⟩ := C75_same_log params α sM v _ _ hu b1 srv _ h hrun b2.symm
    exact ⟨c1, c2⟩) t ht (by omega) (by rw [← hl]; exact hc) seed hseed u hpk he1 he2 Ve hVe hw hid rand
  exact ⟨u', V, a1, a2, a3, a4⟩

/-- C75 (the failure): a replica that never saw `add y` answers a deletion of `y` with `None`, changes nothing and
reports no error, and its log is different from that of every replica that deleted `y`, whatever else happens. -/
theorem C75_missed_add (params : AccParams G1 G2) (α sM v : F) (ops ops' : List (Op F)) (y : F)
    (s s' : Server F G1 G2) (h : (Server.new params α sM v).run ops = .ok s)
    (h' : (Server.new params α sM v).run ops' = .ok s') (hy : y ∈ (regRun ops).log) (hmiss : .add y ∉ ops') :
    s'.delete y = .ok (s', none) ∧ s'.quickDelete y = .ok (s', none) ∧ s'.deletions ≠ s.deletions := by
  have hnm : ∀ l : List (Op F), .add y ∉ l → y ∉ (regRun l).members := by
    intro l hl hm
    obtain ⟨pre, post, rfl, -, -⟩ := (C15_member_spec l y).1 hm
    simp at hl
  have hR := refines_run ops' (refines_new params α sM v) h'
  have hid : y ∉ s'.ids := fun hm => hnm ops' hmiss ((hR.members y).1 hm)
  have hnl : ∀ l : List (Op F), .add y ∉ l → y ∉ (regRun l).log := by
    intro l
    induction l using List.reverseRecOn with
    | nil => intro _; simp [regRun, Registry.empty]
    | append_singleton l op ih =>
      intro hl hm
      have hl' : .add y ∉ l := fun hc => hl (by simp [hc])
      have h1 := ih hl'
      have h2 := hnm l hl'
      unfold regRun at *
      rw [List.foldl_append] at hm
      cases op with
      | add z =>
        simp only [List.foldl_cons, List.foldl_nil, regStep, Registry.add] at hm
        split at hm
        · exact h1 hm
        · exact h1 hm
      | delete z =>
        simp only [List.foldl_cons, List.foldl_nil, regStep, Registry.delete] at hm
        split at hm
        · next hz =>
          rcases List.mem_append.1 hm with hm | hm
          · exact h1 hm
          · rw [List.mem_singleton] at hm
            exact h2 (hm ▸ hz)
        · exact h1 hm
      | quickDelete z =>
        simp only [List.foldl_cons, List.foldl_nil, regStep, Registry.delete] at hm
        split at hm
        · next hz =>
          rcases List.mem_append.1 hm with hm | hm
          · exact h1 hm
          · rw [List.mem_singleton] at hm
            exact h2 (hm ▸ hz)
        · exact h1 hm
  have hget : mapGet s'.allWitnesses y = none := by
    cases hg : mapGet s'.allWitnesses y with
    | none => rfl
    | some C => exact absurd (List.mem_map.2 ⟨_, mapGet_mem hg, rfl⟩) hid
  have hcon : mapContains s'.allWitnesses y = false := by
    rw [Bool.eq_false_iff]
    intro hc
    unfold mapContains at hc
    obtain ⟨p, hp, he⟩ := List.any_eq_true.1 hc
    exact hid (List.mem_map.2 ⟨p, hp, by simpa using he⟩)
  refine ⟨by simp [Server.delete, hget, pure, Except.pure],
    by simp [Server.quickDelete, hcon, pure, Except.pure], fun e => ?_⟩
  rw [(C15_refines params α sM v _ s h).1, (C15_refines params α sM v _ s' h').1] at e
  exact hnl ops' hmiss (e ▸ hy)

end

/-- two replicas: same deletions (by different functions), `add` calls in different order and at different times -/
example : ∃ s s' : Server ℚ ℚ ℚ,
    (Server.new exParams 4 9 6).run [.add 1, .add 2, .add 3, .delete 2, .add 5, .delete 1] = .ok s ∧
    (Server.new exParams 4 9 6).run [.add 2, .add 5, .quickDelete 2, .add 1, .quickDelete 1] = .ok s' ∧
    s'.accumulators = s.accumulators ∧ s'.deletions = s.deletions := by
  have h : (match (Server.new exParams (4 : ℚ) 9 6).run
        [.add 1, .add 2, .add 3, .delete 2, .add 5, .delete 1],
      (Server.new exParams (4 : ℚ) 9 6).run [.add 2, .add 5, .quickDelete 2, .add 1, .quickDelete 1] with
      | .ok s, .ok s' => true
      | _, _ => false) = true := by decide +kernel
  split at h
  · next s s' h1 h2 =>
    refine ⟨s, s', h1, h2, ?_⟩
    obtain ⟨a, b, -⟩ := C75_same_log exParams 4 9 6 _ _
      ⟨[.add 1, .add 2, .add 3, .delete 2, .add 5, .delete 1], [], by simp, by decide, by decide⟩
      ⟨[.add 2, .add 5], [.quickDelete 2, .add 1, .quickDelete 1], by simp, by decide, by decide⟩
      s s' h1 h2 (by decide)
    exact ⟨a, b⟩
  · cases h

/-- hypotheses of the failure: the second replica missed `add 2` -/
example : (2 : ℚ) ∈ (regRun [Op.add (1 : ℚ), .add 2, .delete 2]).log ∧
    Op.add (2 : ℚ) ∉ [Op.add (1 : ℚ), .delete 2] := by decide

end Allo
