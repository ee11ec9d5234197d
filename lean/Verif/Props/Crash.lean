import Verif.Model.Crash
import Verif.Props.Server

/-!
# C63: panics leave the state usable; the order of the hash map does not matter
-/

set_option linter.unusedSectionVars false
set_option linter.unusedVariables false
namespace Allo
open Spec Server

section
variable {F G1 G2 GT : Type} [Field F] [DecidableEq F] [AddCommGroup G1] [Module F G1]
  [AddCommGroup G2] [Module F G2] [AddCommGroup GT] [Module F GT] [DecidableEq G1]

/-- the keys of the witness map are pairwise different (it is a map) -/
theorem nodup_run (params : AccParams G1 G2) (α sM v : F) (ops : List (Op F)) (s : Server F G1 G2)
    (h : (Server.new params α sM v).run ops = .ok s) : s.ids.Nodup := by
  refine run_inv (fun s => s.ids.Nodup) (fun _ => True) ?_ ops (fun _ _ => trivial) h ?_
  · intro s op s' r _ hI h
    have herase : ∀ y, ((mapErase s.allWitnesses y).map (·.1)).Nodup := by
      intro y
      rw [mapErase_keys]; exact hI.filter _
    rcases step_cases h with ⟨rfl, -, -⟩ | ⟨y, V, rfl, hy, hV, h0, -, rfl⟩ |
      ⟨y, C, rfl, hC, -, rfl⟩ | ⟨y, V, rfl, hy, hV, h0, -, rfl⟩
    · exact hI
    · simp only [ids, mapInsert, List.map_cons, List.nodup_cons]
      refine ⟨?_, herase y⟩
      rw [mapErase_keys]; simp
    · simp only [ids, List.map_map]
      exact herase y
    · exact herase y
  · simp [Server.new, ids]

theorem mapGet_unique {m : List (F × G1)} (hm : (m.map (·.1)).Nodup) {k : F} {c : G1}
    (h : mapGet m k = some c) {p : F × G1} (hp : p ∈ m) (hk : p.1 = k) : p.2 = c := by
  have h1 := mapGet_mem h
  have := List.inj_on_of_nodup_map hm hp h1 hk
  rw [this]

/-- the loop of `delete` over any list of keys -/
theorem deleteLoop_run (y : F) (A : G1) (order : List F) (ho : order.Nodup) (hy : y ∉ order)
    (s : Server F G1 G2) (hs : s.ids.Nodup) :
    deleteLoop y A order s = (.ok (), { s with allWitnesses := List.map (fun p =>
        if p.1 ∈ order then (p.1, (y - p.1)⁻¹ • (p.2 - A)) else p) s.allWitnesses }) := by
  induction order generalizing s with
  | nil => simp [deleteLoop]
  | cons k order ih =>
    rw [List.nodup_cons] at ho
    simp only [List.mem_cons, not_or] at hy
    simp only [deleteLoop, Eff.bind_run, Eff.get_run]
    cases hg : mapGet s.allWitnesses k with
    | none =>
      simp only []
      rw [ih ho.2 hy.2 s hs]
      have hk := mapGet_none.1 hg
      congr 2
      apply List.map_congr_left
      intro p hp
      have : p.1 ≠ k := fun e => hk (List.mem_map.2 ⟨p, hp, e⟩)
      simp [this]
    | some c =>
      simp only [Eff.bind_run, Eff.ex_run, inv!_ne (sub_ne_zero.2 hy.1), Eff.set_run]
      rw [ih ho.2 hy.2]
      · simp only [mapSet, List.map_map]
        congr 2
        apply List.map_congr_left
        intro p hp
        simp only [Function.comp]
        by_cases hk : p.1 = k
        · have := mapGet_unique hs hg hp hk
          subst hk
          simp [ho.1, this]
        · simp [hk]
      · have : (mapSet s.allWitnesses k ((y - k)⁻¹ • (c - A))).map (·.1) = s.ids := by
          simp only [mapSet, List.map_map, ids]
          apply List.map_congr_left
          intro p _
          simp only [Function.comp]
          split <;> rfl
        show ((mapSet s.allWitnesses k ((y - k)⁻¹ • (c - A))).map (·.1)).Nodup
        rw [this]; exact hs

theorem deleteM_run (order : List F → List F) (ho : ∀ l, (order l).Perm l) (y : F)
    (s : Server F G1 G2) (hs : s.ids.Nodup) :
    ∃ s' r, s.delete y = .ok (s', r) ∧ deleteM order y s = (.ok r, s') := by
  cases hg : mapGet s.allWitnesses y with
  | none =>
    refine ⟨s, none, delete_nonmember (mapGet_none.1 hg), ?_⟩
    simp [deleteM, hg]
  | some C =>
    refine ⟨_, _, delete_member hg, ?_⟩
    have hk : ((mapErase s.allWitnesses y).map (·.1)).Nodup := by
      rw [mapErase_keys]; exact hs.filter _
    have hl := deleteLoop_run (G2 := G2) y C (order ((mapErase s.allWitnesses y).map (·.1)))
      ((ho _).nodup_iff.2 hk) (fun hm => by
        have := (ho _).mem_iff.1 hm
        rw [mapErase_keys] at this
        simp at this)
      { s with allWitnesses := mapErase s.allWitnesses y, accumulators := s.accumulators ++ [C] } hk
    simp only [deleteM, Eff.bind_run, Eff.get_run, hg, Eff.set_run, hl, Eff.pure_run]
    congr 2
    apply List.map_congr_left
    intro p hp
    rw [if_pos ((ho _).mem_iff.2 (List.mem_map.2 ⟨p, hp, rfl⟩))]

/-- Two servers that differ at most in `all_users`. -/
def SameButUsers (s s' : Server F G1 G2) : Prop := s' = { s with allUsers := s'.allUsers }

/-- C63 (one call). In every reachable state, for every iteration order of the hash map, the statements of
`add`, `delete`, `quick_delete` executed on the state one by one give the result and the state of the
model used in the other properties; and if the call panics, the state left behind differs from the state
before the call at most in `all_users` (which no function reads). -/
theorem C63_call (params : AccParams G1 G2) (α sM v : F) (ops : List (Op F)) (s : Server F G1 G2)
    (h : (Server.new params α sM v).run ops = .ok s) (order : List F → List F)
    (ho : ∀ l, (order l).Perm l) (op : Op F) :
    (∀ s' r, s.step op = .ok (s', r) → stepM order op s = (.ok r, s')) ∧
    (∀ e, s.step op = .error e →
      (stepM order op s).1 = .error e ∧ SameButUsers s (stepM order op s).2) := by
  have hI := invP_run params α sM v ops s h
  have hn := nodup_run params α sM v ops s h
  obtain ⟨V, hV⟩ : ∃ V, s.accumulators.getLast? = some V := by
    rw [List.getLast?_eq_some_getLast hI.accs]; exact ⟨_, rfl⟩
  cases op with
  | add y =>
    simp only [step, stepM]
    by_cases hy : y ∈ s.ids
    · rw [add_member hy]
      refine ⟨?_, by simp⟩
      intro s' r e
      simp only [Except.ok.injEq, Prod.mk.injEq] at e
      obtain ⟨rfl, rfl⟩ := e
      simp [addM, mapContains_iff.2 hy]
    · have hc : mapContains s.allWitnesses y = false := by
        rwa [Bool.eq_false_iff, Ne, mapContains_iff]
      by_cases h0 : y + s.witnessSecretKey = 0
      · rw [add_panic hy hV h0]
        refine ⟨by simp, ?_⟩
        intro e he
        simp only [Except.error.injEq] at he
        subst he
        simp [addM, hc, hV, h0, inv!_zero, unwrap, SameButUsers]
      · rw [add_new hy hV h0]
        refine ⟨?_, by simp⟩
        intro s' r e
        simp only [Except.ok.injEq, Prod.mk.injEq] at e
        obtain ⟨rfl, rfl⟩ := e
        simp [addM, hc, hV, inv!_ne h0, unwrap]
  | delete y =>
    obtain ⟨s', r, h1, h2⟩ := deleteM_run order ho y s hn
    simp only [step, stepM, h1, h2]
    refine ⟨?_, by simp⟩
    intro s'' r'' e
    simp only [Except.ok.injEq, Prod.mk.injEq] at e
    rw [e.1, e.2]
  | quickDelete y =>
    simp only [step, stepM]
    by_cases hy : y ∈ s.ids
    · have h0 : y + s.witnessSecretKey ≠ 0 := by rw [hI.key]; exact hI.idsne y hy
      rw [quickDelete_member hy hV h0]
      refine ⟨?_, by simp⟩
      intro s' r e
      simp only [Except.ok.injEq, Prod.mk.injEq] at e
      obtain ⟨rfl, rfl⟩ := e
      simp [quickDeleteM, mapContains_iff.2 hy, hV, inv!_ne h0, unwrap]
    · have hc : mapContains s.allWitnesses y = false := by
        rwa [Bool.eq_false_iff, Ne, mapContains_iff]
      rw [quickDelete_nonmember hy]
      refine ⟨?_, by simp⟩
      intro s' r e
      simp only [Except.ok.injEq, Prod.mk.injEq] at e
      obtain ⟨rfl, rfl⟩ := e
      simp [quickDeleteM, hc]

/-- C63 (`all_users` is never read): servers that differ only in `all_users` answer every call alike and
differ only in `all_users` afterwards. -/
theorem C63_users_unread (s s' : Server F G1 G2) (h : SameButUsers s s') :
    s'.getEpoch = s.getEpoch ∧ s'.getAccumulator = s.getAccumulator ∧ s'.getPublicKeys = s.getPublicKeys ∧
    s'.getWitnessPublicKey = s.getWitnessPublicKey ∧ s'.getSignPublicKey = s.getSignPublicKey ∧
    (∀ (H : Oracle F) (enc : Enc G1 G2 GT) params y c z pk,
      s'.witness H enc params y c z pk = s.witness H enc params y c z pk) ∧
    (∀ d ys, s'.update d ys = s.update d ys) ∧
    (∀ order op, (stepM order op s').1 = (stepM order op s).1 ∧
      SameButUsers (stepM order op s).2 (stepM order op s').2) := by
  unfold SameButUsers at h
  generalize s'.allUsers = U at h
  subst h
  refine ⟨rfl, rfl, rfl, rfl, rfl, fun _ _ _ _ _ _ _ => rfl, fun _ _ => rfl, ?_⟩
  intro order op
  cases op with
  | add y =>
    simp only [stepM, addM, Eff.bind_run, Eff.get_run]
    by_cases hc : mapContains s.allWitnesses y = true
    · simp [hc, SameButUsers]
    · simp only [hc, Bool.false_eq_true, if_false, Eff.bind_run, Eff.get_run, Eff.set_run, Eff.ex_run]
      cases unwrap s.accumulators.getLast? with
      | error e => simp [SameButUsers]
      | ok V =>
        cases inv! (y + s.witnessSecretKey) with
        | error e => simp [SameButUsers]
        | ok i => simp [SameButUsers]
  | delete y =>
    have hloop : ∀ (A : G1) (l : List F) (s₁ : Server F G1 G2) (U₁ : List F),
        (deleteLoop y A l { s₁ with allUsers := U₁ }).1 = (deleteLoop y A l s₁).1 ∧
        (deleteLoop y A l { s₁ with allUsers := U₁ }).2 =
          { (deleteLoop y A l s₁).2 with allUsers := U₁ } := by
      intro A l
      induction l with
      | nil => intro s₁ U₁; simp [deleteLoop]
      | cons k l ih =>
        intro s₁ U₁
        simp only [deleteLoop, Eff.bind_run, Eff.get_run]
        cases mapGet s₁.allWitnesses k with
        | none => exact ih s₁ U₁
        | some c =>
          simp only [Eff.bind_run, Eff.ex_run, Eff.set_run]
          cases inv! (y - k) with
          | error e => simp
          | ok i => exact ih { s₁ with allWitnesses := mapSet s₁.allWitnesses k (i • (c - A)) } U₁
    simp only [stepM, deleteM, Eff.bind_run, Eff.get_run]
    cases mapGet s.allWitnesses y with
    | none => simp [SameButUsers]
    | some C =>
      simp only [Eff.bind_run, Eff.get_run, Eff.set_run]
      have := hloop C (order ((mapErase s.allWitnesses y).map (·.1)))
        { s with allWitnesses := mapErase s.allWitnesses y, accumulators := s.accumulators ++ [C] } U
      simp only at this
      revert this
      generalize deleteLoop y C (order ((mapErase s.allWitnesses y).map (·.1)))
        { s with allWitnesses := mapErase s.allWitnesses y, accumulators := s.accumulators ++ [C] } = p
      generalize deleteLoop y C (order ((mapErase s.allWitnesses y).map (·.1)))
        { s with allUsers := U, allWitnesses := mapErase s.allWitnesses y,
                 accumulators := s.accumulators ++ [C] } = p'
      obtain ⟨r, t⟩ := p
      obtain ⟨r', t'⟩ := p'
      rintro ⟨h1, h2⟩
      simp only at h1 h2
      subst h1 h2
      cases r' <;> simp [SameButUsers]
  | quickDelete y =>
    simp only [stepM, quickDeleteM, Eff.bind_run, Eff.get_run]
    by_cases hc : mapContains s.allWitnesses y = true
    · simp only [hc, Bool.not_true, Bool.false_eq_true, if_false, Eff.bind_run, Eff.get_run, Eff.set_run,
        Eff.ex_run]
      cases unwrap s.accumulators.getLast? with
      | error e => simp [SameButUsers]
      | ok V =>
        cases inv! (y + s.witnessSecretKey) with
        | error e => simp [SameButUsers]
        | ok i => simp [SameButUsers]
    · simp [hc, SameButUsers]

/-- the calls of a history other than `add(-α)` -/
def withoutBad (α : F) (ops : List (Op F)) : List (Op F) := ops.filter (fun op => op ≠ .add (-α))

/-- C63 (histories with caught panics). Take any sequence of calls on a new server by a caller that catches
panics and goes on, with any iteration orders of the hash map. The calls that panic are exactly the calls
`add(-α)`; the state at the end is, up to `all_users`, the state of the history without these calls, which
runs without a panic; and every call answers as it does in that history. -/
theorem C63_history (params : AccParams G1 G2) (α sM v : F)
    (ops : List ((List F → List F) × Op F)) (ho : ∀ p ∈ ops, ∀ l, (p.1 l).Perm l) :
    ∃ s, (Server.new params α sM v).run (withoutBad α (ops.map (·.2))) = .ok s ∧
      SameButUsers s (runM ops (Server.new params α sM v)).2 ∧
      (runM ops (Server.new params α sM v)).1.length = ops.length ∧
      ∀ i (p : (List F → List F) × Op F), ops[i]? = some p →
        ∃ s', (Server.new params α sM v).run (withoutBad α ((ops.take i).map (·.2))) = .ok s' ∧
          (p.2 = .add (-α) → (runM ops (Server.new params α sM v)).1[i]? = some (.error .unwrapNone)) ∧
          (p.2 ≠ .add (-α) → ∃ s'' r, s'.step p.2 = .ok (s'', r) ∧
            (runM ops (Server.new params α sM v)).1[i]? = some (.ok r)) := by
  -- one step from a state equal up to users to a reachable one
  have one : ∀ (done : List (Op F)) (s t : Server F G1 G2) (p : (List F → List F) × Op F),
      (Server.new params α sM v).run done = .ok s → SameButUsers s t → (∀ l, (p.1 l).Perm l) →
      ∃ s₁, (Server.new params α sM v).run (done ++ withoutBad α [p.2]) = .ok s₁ ∧
        SameButUsers s₁ (stepM p.1 p.2 t).2 ∧
        (p.2 = .add (-α) → (stepM p.1 p.2 t).1 = .error .unwrapNone) ∧
        (p.2 ≠ .add (-α) → ∃ s'' r, s.step p.2 = .ok (s'', r) ∧ (stepM p.1 p.2 t).1 = .ok r) := by
    intro done s t p hs hst hp
    have hI := invP_run params α sM v done s hs
    obtain ⟨V, hV⟩ : ∃ V, s.accumulators.getLast? = some V := by
      rw [List.getLast?_eq_some_getLast hI.accs]; exact ⟨_, rfl⟩
    obtain ⟨-, -, -, -, -, -, -, hu⟩ := C63_users_unread (GT := Unit) s t hst
    obtain ⟨hu1, hu2⟩ := hu p.1 p.2
    obtain ⟨hc1, hc2⟩ := C63_call params α sM v done s hs p.1 hp p.2
    have tr : ∀ a b c : Server F G1 G2, SameButUsers a b → SameButUsers b c → SameButUsers a c := by
      intro a b c h1 h2
      unfold SameButUsers at *
      rw [h2, h1]
    by_cases hb : p.2 = .add (-α)
    · have hy : (-α) ∉ s.ids := fun hm => hI.idsne _ hm (by ring)
      have hpan : s.step p.2 = .error .unwrapNone := by
        rw [hb]; exact add_panic hy hV (by rw [hI.key]; ring)
      obtain ⟨h1, h2⟩ := hc2 _ hpan
      refine ⟨s, ?_, tr _ _ _ h2 hu2, fun _ => by rw [hu1, h1], fun hne => absurd hb hne⟩
      simp [withoutBad, hb, hs]
    · have hok : ∃ s'' r, s.step p.2 = .ok (s'', r) := by
        cases hop : p.2 with
        | add y =>
          by_cases hy : y ∈ s.ids
          · exact ⟨_, _, add_member hy⟩
          · refine ⟨_, _, add_new hy hV ?_⟩
            intro h0
            rw [hI.key] at h0
            exact hb (by rw [hop, eq_neg_of_add_eq_zero_left h0])
        | delete y =>
          by_cases hy : y ∈ s.ids
          · obtain ⟨C, hC⟩ := mapGet_some_of_mem hy
            exact ⟨_, _, delete_member hC⟩
          · exact ⟨_, _, delete_nonmember hy⟩
        | quickDelete y =>
          by_cases hy : y ∈ s.ids
          · exact ⟨_, _, quickDelete_member hy hV (by rw [hI.key]; exact hI.idsne y hy)⟩
          · exact ⟨_, _, quickDelete_nonmember hy⟩
      obtain ⟨s'', r, hok⟩ := hok
      have h1 := hc1 _ _ hok
      refine ⟨s'', ?_, ?_, fun e => absurd e hb, fun _ => ⟨s'', r, hok, by rw [hu1, h1]⟩⟩
      · rw [run_append]
        refine ⟨s, hs, ?_⟩
        have : withoutBad α [p.2] = [p.2] := by simp [withoutBad, hb]
        rw [this]
        exact run_cons_of hok rfl
      · rw [h1] at hu2; exact hu2
  -- many steps
  have many : ∀ (ops : List ((List F → List F) × Op F)) (done : List (Op F)) (s t : Server F G1 G2),
      (∀ p ∈ ops, ∀ l, (p.1 l).Perm l) →
      (Server.new params α sM v).run done = .ok s → SameButUsers s t →
      ∃ s₁, (Server.new params α sM v).run (done ++ withoutBad α (ops.map (·.2))) = .ok s₁ ∧
      SameButUsers s₁ (runM ops t).2 ∧ (runM ops t).1.length = ops.length ∧
      ∀ i (p : (List F → List F) × Op F), ops[i]? = some p →
        ∃ s', (Server.new params α sM v).run (done ++ withoutBad α ((ops.take i).map (·.2))) = .ok s' ∧
          (p.2 = .add (-α) → (runM ops t).1[i]? = some (.error .unwrapNone)) ∧
          (p.2 ≠ .add (-α) → ∃ s'' r, s'.step p.2 = .ok (s'', r) ∧
            (runM ops t).1[i]? = some (.ok r)) := by
    intro ops
    induction ops with
    | nil =>
      intro done s t _ hs hst
      exact ⟨s, by simp [withoutBad, hs], by simpa [runM] using hst, rfl, by simp⟩
    | cons p ops ih =>
      intro done s t hp hs hst
      obtain ⟨s₁, h1, h2, h3, h4⟩ := one done s t p hs hst (hp p (by simp))
      obtain ⟨s₂, k1, k2, k3, k4⟩ := ih (done ++ withoutBad α [p.2]) s₁ (stepM p.1 p.2 t).2
        (fun q hq => hp q (by simp [hq])) h1 h2
      have happ : ∀ l : List (Op F), done ++ withoutBad α [p.2] ++ withoutBad α l
          = done ++ withoutBad α (p.2 :: l) := by
        intro l
        rw [List.append_assoc]
        congr 1
        simp only [withoutBad]
        rw [← List.filter_append]; rfl
      refine ⟨s₂, by rw [List.map_cons, ← happ]; exact k1, k2, by simp [runM, k3], ?_⟩
      intro i q hq
      cases i with
      | zero =>
        simp only [List.getElem?_cons_zero, Option.some.injEq] at hq
        subst hq
        refine ⟨s, by simp [withoutBad, hs], ?_, ?_⟩
        · intro hb; simp [runM, h3 hb]
        · intro hb
          obtain ⟨s'', r, e1, e2⟩ := h4 hb
          exact ⟨s'', r, e1, by simp [runM, e2]⟩
      | succ i =>
        simp only [List.getElem?_cons_succ] at hq
        obtain ⟨s', e1, e2, e3⟩ := k4 i q hq
        refine ⟨s', ?_, ?_, ?_⟩
        · rw [List.take_succ_cons, List.map_cons, ← happ]; exact e1
        · intro hb; simpa [runM] using e2 hb
        · intro hb
          obtain ⟨s'', r, f1, f2⟩ := e3 hb
          exact ⟨s'', r, f1, by simpa [runM] using f2⟩
  exact many ops [] (Server.new params α sM v) (Server.new params α sM v) ho rfl rfl

/-! ### users -/

theorem rust_ok_bind {α β : Type} (a : α) (f : α → Rust β) : ((Except.ok a : Rust α) >>= f) = f a := rfl

/-- C63 (enrolment): against a reachable server, `create_witness` statement by statement is the function
used elsewhere, and a panic leaves the user as it was. -/
theorem C63_create_witness (H : Oracle F) (enc : Enc G1 G2 GT) (params params' : AccParams G1 G2)
    (α sM v : F) (ops : List (Op F)) (srv : Server F G1 G2)
    (h : (Server.new params' α sM v).run ops = .ok srv) (u : User F G1 G2) (key k : F) :
    (∀ u', u.createWitness H enc params srv key k = .ok u' →
      User.createWitnessM H enc params srv key k u = (.ok (), u')) ∧
    (∀ e, u.createWitness H enc params srv key k = .error e →
      User.createWitnessM H enc params srv key k u = (.error e, u)) := by
  have hI := invP_run params' α sM v ops srv h
  obtain ⟨V, hV⟩ : ∃ V, srv.getAccumulator = .ok V := by
    rw [getAccumulator, List.getLast?_eq_some_getLast hI.accs]; exact ⟨_, rfl⟩
  simp only [User.createWitness, User.createWitnessM, Eff.bind_run, Eff.get_run, Eff.ex_run]
  generalize srv.witness H enc params u.id _ _ _ = r
  cases r with
  | error e =>
    refine ⟨by simp [bind, Except.bind], ?_⟩
    intro e' he
    simp only [bind, Except.bind, Except.error.injEq] at he
    rw [he]
  | ok o =>
    cases o with
    | none =>
      refine ⟨?_, by simp [bind, Except.bind, pure, Except.pure]⟩
      intro u' hu
      simp only [bind, Except.bind, pure, Except.pure, Except.ok.injEq] at hu
      subst hu; rfl
    | some w =>
      obtain ⟨C, R⟩ := w
      refine ⟨?_, by simp [bind, Except.bind, pure, Except.pure, hV]⟩
      intro u' hu
      simp only [bind, Except.bind, pure, Except.pure, Except.ok.injEq, hV] at hu
      subst hu
      simp [hV]

/-- C63 (update): when the first server is reachable, `User::update` statement by statement is the function
used elsewhere; a panic and an `Err` leave the user as it was. -/
theorem C63_update (params : AccParams G1 G2) (α sM v : F) (ops : List (Op F))
    (srv : Server F G1 G2) (h : (Server.new params α sM v).run ops = .ok srv)
    (rest : List (Server F G1 G2)) (seed : Nat → Nat) (threshold : Nat) (rand : Nat → Nat → F)
    (u : User F G1 G2) :
    (∀ u' r, u.update seed (srv :: rest) threshold rand = .ok (u', r) →
      User.updateM seed (srv :: rest) threshold rand u = (.ok r, u')) ∧
    (∀ e, u.update seed (srv :: rest) threshold rand = .error e →
      User.updateM seed (srv :: rest) threshold rand u = (.error e, u)) ∧
    (∀ u' msg, u.update seed (srv :: rest) threshold rand = .ok (u', .error msg) → u' = u) := by
  have hI := invP_run params α sM v ops srv h
  obtain ⟨V, hV⟩ : ∃ V, srv.getAccumulator = .ok V := by
    rw [getAccumulator, List.getLast?_eq_some_getLast hI.accs]; exact ⟨_, rfl⟩
  have h0 : idx (srv :: rest) 0 = .ok srv := rfl
  obtain ⟨id, wit, acc, pk, ep⟩ := u
  cases wit with
  | none =>
    refine ⟨?_, ?_, ?_⟩ <;>
      simp +contextual [User.update, User.updateM, pure, Except.pure, eq_comm]
  | some w =>
    simp only [User.update, User.updateM, Eff.bind_run, Eff.get_run, Eff.ex_run, h0, rust_ok_bind]
    generalize User.prepareForUpdate seed _ srv.getEpoch (srv :: rest).length threshold rand = r
    cases r with
    | error e =>
      refine ⟨by simp [bind, Except.bind], ?_, by simp [bind, Except.bind]⟩
      intro e' he
      simp only [bind, Except.bind, Except.error.injEq] at he
      rw [he]
    | ok p =>
      cases p with
      | error e =>
        refine ⟨?_, by simp [bind, Except.bind, pure, Except.pure], ?_⟩
        · intro u' r hu
          simp only [bind, Except.bind, pure, Except.pure, Except.ok.injEq, Prod.mk.injEq] at hu
          obtain ⟨rfl, rfl⟩ := hu; rfl
        · intro u' msg hu
          simp only [bind, Except.bind, pure, Except.pure, Except.ok.injEq, Prod.mk.injEq] at hu
          exact hu.1.symm
      | ok upd =>
        simp only [Eff.bind_run, Eff.ex_run]
        generalize hd : (List.range (srv :: rest).length).mapM (m := Rust) (fun i => do
          let s ← idx (srv :: rest) i
          let ys ← idx upd.yShares i
          s.update upd.epochDiff ys) = dvs
        cases dvs with
        | error e =>
          simp only [bind, Except.bind] at hd ⊢
          rw [hd]
          refine ⟨by simp, ?_, by simp⟩
          intro e' he
          simp only [Except.error.injEq] at he
          rw [he]
        | ok dvs =>
          simp only [bind, Except.bind] at hd ⊢
          rw [hd]
          simp only []
          generalize User.postUpdate w.witness threshold upd.yShares upd.yValues dvs = q
          cases q with
          | error e =>
            refine ⟨by simp, ?_, by simp⟩
            intro e' he
            simp only [Except.error.injEq] at he
            rw [he]
          | ok q =>
            cases q with
            | error e =>
              refine ⟨?_, by simp [pure, Except.pure], ?_⟩
              · intro u' r hu
                simp only [pure, Except.pure, Except.ok.injEq, Prod.mk.injEq] at hu
                obtain ⟨rfl, rfl⟩ := hu; rfl
              · intro u' msg hu
                simp only [pure, Except.pure, Except.ok.injEq, Prod.mk.injEq] at hu
                exact hu.1.symm
            | ok nw =>
              simp only [hV]
              refine ⟨?_, by simp [pure, Except.pure], by simp [pure, Except.pure]⟩
              intro u' r hu
              simp only [pure, Except.pure, Except.ok.injEq, Prod.mk.injEq] at hu
              obtain ⟨rfl, rfl⟩ := hu
              simp [Eff.set]

/-- C63 (the state a panic leaves). The only call that panics on a reachable server, `add(-α)`, panics after
`all_users` was changed: the id `-α` stays in `all_users`, and nothing else has changed. -/
theorem C63_panic_state (params : AccParams G1 G2) (α sM v : F) (ops : List (Op F)) (s : Server F G1 G2)
    (h : (Server.new params α sM v).run ops = .ok s) (order : List F → List F)
    (ho : ∀ l, (order l).Perm l) (op : Op F) (e : Abort) :
    (stepM order op s).1 = .error e ↔ op = .add (-α) ∧ e = .unwrapNone ∧
      (stepM order op s).2 = { s with allUsers := setInsert s.allUsers (-α) } := by
  have hI := invP_run params α sM v ops s h
  obtain ⟨V, hV⟩ : ∃ V, s.accumulators.getLast? = some V := by
    rw [List.getLast?_eq_some_getLast hI.accs]; exact ⟨_, rfl⟩
  have hmem : (-α) ∉ s.ids := fun hm => hI.idsne _ hm (by ring)
  have hc : mapContains s.allWitnesses (-α) = false := by
    rwa [Bool.eq_false_iff, Ne, mapContains_iff]
  have h0 : -α + s.witnessSecretKey = 0 := by rw [hI.key]; ring
  have hb : stepM order (.add (-α)) s =
      (.error .unwrapNone, { s with allUsers := setInsert s.allUsers (-α) }) := by
    simp [stepM, addM, hc, hV, h0, inv!_zero, unwrap]
  constructor
  · intro he
    obtain ⟨h1, h2⟩ := C63_call params α sM v ops s h order ho op
    by_cases hop : op = .add (-α)
    · subst hop
      rw [hb] at he ⊢
      simp only [Except.error.injEq] at he
      exact ⟨rfl, he.symm, rfl⟩
    · exfalso
      have hok : ∃ s'' r, s.step op = .ok (s'', r) := by
        cases op with
        | add y =>
          by_cases hy : y ∈ s.ids
          · exact ⟨_, _, add_member hy⟩
          · refine ⟨_, _, add_new hy hV ?_⟩
            intro h0
            rw [hI.key] at h0
            exact hop (by rw [eq_neg_of_add_eq_zero_left h0])
        | delete y =>
          by_cases hy : y ∈ s.ids
          · obtain ⟨C, hC⟩ := mapGet_some_of_mem hy
            exact ⟨_, _, delete_member hC⟩
          · exact ⟨_, _, delete_nonmember hy⟩
        | quickDelete y =>
          by_cases hy : y ∈ s.ids
          · exact ⟨_, _, quickDelete_member hy hV (by rw [hI.key]; exact hI.idsne y hy)⟩
          · exact ⟨_, _, quickDelete_nonmember hy⟩
      obtain ⟨s'', r, hok⟩ := hok
      rw [h1 _ _ hok] at he
      simp at he
  · rintro ⟨rfl, rfl, -⟩
    rw [hb]

theorem deleteLoop_users (y : F) (A : G1) (l : List F) (s : Server F G1 G2) :
    (deleteLoop y A l s).2.allUsers = s.allUsers ∧ ∀ z, z ∈ (deleteLoop y A l s).2.ids → z ∈ s.ids := by
  induction l generalizing s with
  | nil => simp [deleteLoop]
  | cons k l ih =>
    simp only [deleteLoop, Eff.bind_run, Eff.get_run]
    cases mapGet s.allWitnesses k with
    | none => exact ih s
    | some c =>
      simp only [Eff.bind_run, Eff.ex_run, Eff.set_run]
      cases inv! (y - k) with
      | error e => simp
      | ok i =>
        have := ih { s with allWitnesses := mapSet s.allWitnesses k (i • (c - A)) }
        refine ⟨this.1, fun z hz => ?_⟩
        have hz := this.2 z hz
        have : ({ s with allWitnesses := mapSet s.allWitnesses k (i • (c - A)) } : Server F G1 G2).ids = s.ids := by
          simp only [mapSet, List.map_map, ids]
          apply List.map_congr_left
          intro p _
          simp only [Function.comp]
          split <;> rfl
        rwa [this] at hz

/-- C63 (`all_users` as an audit record). After any sequence of calls on a new server by a caller that
catches panics, `all_users` holds exactly the ids that were ever passed to `add`: also those whose `add`
panicked and those deleted since. -/
theorem C63_all_users (params : AccParams G1 G2) (α sM v : F)
    (ops : List ((List F → List F) × Op F)) (y : F) :
    y ∈ (runM ops (Server.new params α sM v)).2.allUsers ↔ Op.add y ∈ ops.map (·.2) := by
  have key : ∀ (ops : List ((List F → List F) × Op F)) (s : Server F G1 G2),
      (∀ z ∈ s.ids, z ∈ s.allUsers) →
      (y ∈ (runM ops s).2.allUsers ↔ y ∈ s.allUsers ∨ Op.add y ∈ ops.map (·.2)) := by
    intro ops
    induction ops with
    | nil => intro s _; simp [runM]
    | cons p ops ih =>
      obtain ⟨order, op⟩ := p
      intro s hs
      have one : (∀ z ∈ (stepM order op s).2.ids, z ∈ (stepM order op s).2.allUsers) ∧
          (y ∈ (stepM order op s).2.allUsers ↔ y ∈ s.allUsers ∨ Op.add y = op) := by
        cases op with
        | add k =>
          have hins : ∀ z, z ∈ setInsert s.allUsers k ↔ z ∈ s.allUsers ∨ z = k := by
            intro z; unfold setInsert; split
            · rename_i hk
              constructor
              · exact Or.inl
              · rintro (h | rfl)
                · exact h
                · simpa using hk
            · simp [or_comm]
          by_cases hc : mapContains s.allWitnesses k = true
          · have hk : k ∈ s.allUsers := hs k (mapContains_iff.1 hc)
            simp only [stepM, addM, Eff.bind_run, Eff.get_run, hc, if_true, Eff.pure_run, Op.add.injEq]
            refine ⟨hs, ?_⟩
            constructor
            · exact Or.inl
            · rintro (h | rfl)
              · exact h
              · exact hk
          · simp only [stepM, addM, hc, Bool.false_eq_true, if_false, Eff.bind_run, Eff.get_run, Eff.set_run,
              Eff.ex_run, Op.add.injEq]
            have hmono : ∀ z ∈ s.ids, z ∈ setInsert s.allUsers k := fun z hz => (hins z).2 (Or.inl (hs z hz))
            cases unwrap s.accumulators.getLast? with
            | error e => exact ⟨hmono, hins y⟩
            | ok V =>
              cases inv! (k + s.witnessSecretKey) with
              | error e => exact ⟨hmono, hins y⟩
              | ok i =>
                refine ⟨?_, hins y⟩
                intro z hz
                simp only [Eff.pure_run, ids, mapInsert, List.map_cons, List.mem_cons] at hz
                rcases hz with rfl | hz
                · exact (hins z).2 (Or.inr rfl)
                · rw [mapErase_keys, List.mem_filter] at hz
                  exact hmono z hz.1
        | delete k =>
          simp only [stepM, deleteM, Eff.bind_run, Eff.get_run]
          cases mapGet s.allWitnesses k with
          | none => simpa using hs
          | some C =>
            simp only [Eff.bind_run, Eff.get_run, Eff.set_run]
            have hl := deleteLoop_users k C (order ((mapErase s.allWitnesses k).map (·.1)))
              { s with allWitnesses := mapErase s.allWitnesses k, accumulators := s.accumulators ++ [C] }
            revert hl
            generalize deleteLoop k C (order ((mapErase s.allWitnesses k).map (·.1)))
              { s with allWitnesses := mapErase s.allWitnesses k, accumulators := s.accumulators ++ [C] } = q
            obtain ⟨r, t⟩ := q
            rintro ⟨hl1, hl2⟩
            simp only at hl1 hl2
            have hids : ∀ z ∈ t.ids, z ∈ t.allUsers := by
              intro z hz
              have := hl2 z hz
              simp only [ids] at this
              rw [mapErase_keys, List.mem_filter] at this
              rw [hl1]; exact hs z this.1
            cases r with
            | error e => exact ⟨hids, by simp [hl1]⟩
            | ok u => exact ⟨hids, by simp [hl1]⟩
        | quickDelete k =>
          simp only [stepM, quickDeleteM, Eff.bind_run, Eff.get_run]
          have her : ∀ z, z ∈ (mapErase s.allWitnesses k).map (·.1) → z ∈ s.allUsers := by
            intro z hz
            rw [mapErase_keys, List.mem_filter] at hz
            exact hs z hz.1
          by_cases hc : mapContains s.allWitnesses k = true
          · simp only [hc, Bool.not_true, Bool.false_eq_true, if_false, Eff.bind_run, Eff.get_run,
              Eff.set_run, Eff.ex_run]
            cases unwrap s.accumulators.getLast? with
            | error e => exact ⟨her, by simp⟩
            | ok V =>
              cases inv! (k + s.witnessSecretKey) with
              | error e => exact ⟨her, by simp⟩
              | ok i => exact ⟨her, by simp⟩
          · simpa [hc] using hs
      simp only [runM, List.map_cons, List.mem_cons]
      rw [ih _ one.1, one.2, or_assoc]
  rw [key ops _ (by simp [Server.new, ids])]
  simp [Server.new]

end

/-! ### a concrete history with a caught panic (`α = 4`, the hash map is walked backwards) -/

def exCrash : List ((List ℚ → List ℚ) × Op ℚ) :=
  [(List.reverse, .add 1), (List.reverse, .add 2), (List.reverse, .add (-4)), (List.reverse, .add 3),
   (List.reverse, .delete 2), (List.reverse, .add (-4)), (List.reverse, .quickDelete 1)]

example : (∀ p ∈ exCrash, ∀ l, (p.1 l).Perm l) ∧
    ((runM exCrash (Server.new exParams 4 9 6)).1.map (fun r => match r with
      | .ok (some x) => some x
      | .ok none => some 0
      | .error _ => none)) = [some (6 / 5), some 1, none, some (6 / 7), some 1, none, some (1 / 5)] ∧
    (runM exCrash (Server.new exParams 4 9 6)).2.deletions = [2, 1] ∧
    (-4 : ℚ) ∈ (runM exCrash (Server.new exParams 4 9 6)).2.allUsers ∧
    (runM exCrash (Server.new exParams 4 9 6)).2.allUsers.length = 4 ∧
    (runM exCrash (Server.new exParams 4 9 6)).2.ids = [3] ∧
    withoutBad (4 : ℚ) (exCrash.map (·.2)) = [.add 1, .add 2, .add 3, .delete 2, .quickDelete 1] := by
  refine ⟨?_, by decide +kernel, by decide +kernel, by decide +kernel, by decide +kernel,
    by decide +kernel, by decide +kernel⟩
  intro p hp l
  simp only [exCrash, List.mem_cons, List.not_mem_nil, or_false] at hp
  rcases hp with rfl | rfl | rfl | rfl | rfl | rfl | rfl <;> exact List.reverse_perm l

/-- a server whose key makes the enrolment panic (`id = -s`): the user is left as it was -/
example : ∃ srv, (Server.new exParams 4 (-1) 6).run [.add (1 : ℚ)] = .ok srv ∧
    ∀ (H : Oracle ℚ) (enc : Enc ℚ ℚ ℚ) (u : User ℚ ℚ ℚ) (key k : ℚ), u.id = 1 →
      (∃ e, u.createWitness H enc exParams srv key k = .error e) := by
  have hadd := add_new (s := Server.new exParams (4 : ℚ) (-1) 6) (y := 1) (V := (6 : ℚ) • exParams.p1)
    (by simp [Server.new, ids]) rfl (by show (1 : ℚ) + 4 ≠ 0; norm_num)
  refine ⟨_, run_cons_of (op := .add 1) hadd rfl, ?_⟩
  intro H enc u key k hu
  have h0 : ∀ c : ℚ, (k - c * key) • exParams.k1 + c • (key • exParams.k1) = k • exParams.k1 := by
    intro c; module
  refine ⟨.unwrapNone, ?_⟩
  have hz : (1 : ℚ) + (Server.new exParams (4 : ℚ) (-1) 6).signSecretKey = 0 := by
    show (1 : ℚ) + (-1) = 0; norm_num
  simp only [User.createWitness, Server.witness, hu, h0, hz, inv!_zero]
  simp [mapContains, mapInsert, mapGet, unwrap, bind, Except.bind]

end Allo
