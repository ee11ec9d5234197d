import Verif.Lemmas.Server
import Verif.Lemmas.Pairing
import Verif.Model.User
import Mathlib.Tactic.NormNum

/-!
# C15–C24: the server state machine, witness issuance and credential checks
-/

set_option linter.unusedSectionVars false
set_option linter.unusedVariables false

namespace Allo
open Spec Server

section
variable {F G1 G2 GT : Type} [Field F] [DecidableEq F] [AddCommGroup G1] [Module F G1]
  [AddCommGroup G2] [Module F G2] [AddCommGroup GT] [Module F GT]

/-- The abstract effect of a call on the registry. -/
def regStep (r : Registry F) : Op F → Registry F
  | .add y => r.add y
  | .delete y => r.delete y
  | .quickDelete y => r.delete y

/-- The registry after a history of calls. -/
def regRun (ops : List (Op F)) : Registry F := ops.foldl regStep Registry.empty

/-- Relation between a server and a registry. -/
structure Refines (s : Server F G1 G2) (r : Registry F) : Prop where
  members : ∀ y, y ∈ s.ids ↔ y ∈ r.members
  log : s.deletions = r.log
  ever : ∀ y, y ∈ s.allUsers ↔ y ∈ r.ever

theorem refines_step {s s' : Server F G1 G2} {r : Registry F} {op : Op F} {out : Option G1}
    (hR : Refines s r) (h : s.step op = .ok (s', out)) : Refines s' (regStep r op) := by
  rcases step_cases h with ⟨rfl, -, ⟨y, rfl, hy⟩ | ⟨y, rfl | rfl, hy⟩⟩ |
    ⟨y, V, rfl, hy, hV, h0, -, rfl⟩ | ⟨y, C, rfl, hC, -, rfl⟩ | ⟨y, V, rfl, hy, hV, h0, -, rfl⟩
  · have := (hR.members y).1 hy
    simpa [regStep, Registry.add, this] using hR
  · have : y ∉ r.members := fun hm => hy ((hR.members y).2 hm)
    simpa [regStep, Registry.delete, this] using hR
  · have : y ∉ r.members := fun hm => hy ((hR.members y).2 hm)
    simpa [regStep, Registry.delete, this] using hR
  · have hm : y ∉ r.members := fun hm => hy ((hR.members y).2 hm)
    simp only [regStep, Registry.add, hm, if_false]
    refine ⟨?_, hR.log, ?_⟩
    · intro z
      rw [ids, ids_insert, hR.members z]; simp
    · intro z
      simp only [mem_setInsert, hR.ever z, List.mem_cons]
  · have hyid : y ∈ s.ids := List.mem_map.2 ⟨_, mapGet_mem hC, rfl⟩
    have hm : y ∈ r.members := (hR.members y).1 hyid
    simp only [regStep, Registry.delete, hm, if_true]
    refine ⟨?_, ?_, hR.ever⟩
    · intro z
      rw [ids, ids_erase_map, hR.members z]; simp
    · simp [hR.log]
  · have hm : y ∈ r.members := (hR.members y).1 hy
    simp only [regStep, Registry.delete, hm, if_true]
    refine ⟨?_, ?_, hR.ever⟩
    · intro z
      rw [ids, ids_erase, hR.members z]; simp
    · simp [hR.log]

theorem refines_run (ops : List (Op F)) {s s' : Server F G1 G2} {r : Registry F}
    (hR : Refines s r) (h : s.run ops = .ok s') : Refines s' (ops.foldl regStep r) := by
  induction ops generalizing s r with
  | nil => simp only [run_nil, Except.ok.injEq] at h; exact h ▸ hR
  | cons op ops ih =>
    obtain ⟨s1, out, h1, h2⟩ := run_cons_ok h
    exact ih (refines_step hR h1) h2

theorem refines_new (params : AccParams G1 G2) (α sM v : F) :
    Refines (Server.new params α sM v) Registry.empty := by
  refine ⟨?_, rfl, ?_⟩ <;> intro y <;> simp [Server.new, ids, Registry.empty]

/-- No mixing assumption is needed for the members: other invariants of all histories. -/
structure InvP (α : F) (s : Server F G1 G2) : Prop where
  key : s.witnessSecretKey = α
  accs : s.accumulators ≠ []
  idsne : ∀ y ∈ s.ids, y + α ≠ 0

theorem invP_run (params : AccParams G1 G2) (α sM v : F) (ops : List (Op F)) (s : Server F G1 G2)
    (h : (Server.new params α sM v).run ops = .ok s) : InvP α s := by
  refine run_inv (InvP α) (fun _ => True) ?_ ops (fun _ _ => trivial) h ?_
  · intro s op s' r _ hI h
    rcases step_cases h with ⟨rfl, -, -⟩ | ⟨y, V, rfl, hy, hV, h0, -, rfl⟩ |
      ⟨y, C, rfl, hC, -, rfl⟩ | ⟨y, V, rfl, hy, hV, h0, -, rfl⟩
    · exact hI
    · refine ⟨hI.key, hI.accs, fun z hz => ?_⟩
      rcases ids_insert.1 hz with rfl | hz
      · rwa [hI.key] at h0
      · exact hI.idsne z hz
    · exact ⟨hI.key, by simp, fun z hz => hI.idsne z ((ids_erase_map _).1 hz).1⟩
    · exact ⟨hI.key, by simp, fun z hz => hI.idsne z (ids_erase.1 hz).1⟩
  · refine ⟨rfl, ?_, ?_⟩ <;> simp [Server.new, ids]

/-! ## C15 -/

/-- C15: after any history of calls the server refines the registry of that history: the deletion
log and the set of ids ever added are exactly the registry's, and `add`/`delete` answer as the
registry says (`None` exactly for members / non-members, and then nothing changes). -/
theorem C15_refines (params : AccParams G1 G2) (α sM v : F) (ops : List (Op F)) (s : Server F G1 G2)
    (h : (Server.new params α sM v).run ops = .ok s) :
    s.deletions = (regRun ops).log ∧
    (∀ y, y ∈ s.allUsers ↔ y ∈ (regRun ops).ever) ∧
    (∀ y s' r, s.add y = .ok (s', r) →
      (r = none ↔ y ∈ (regRun ops).members) ∧ (r = none → s' = s)) ∧
    (∀ y s' r, s.delete y = .ok (s', r) →
      (r = none ↔ y ∉ (regRun ops).members) ∧ (r = none → s' = s)) ∧
    (∀ y s' r, s.quickDelete y = .ok (s', r) →
      (r = none ↔ y ∉ (regRun ops).members) ∧ (r = none → s' = s)) := by
  have hR := refines_run ops (refines_new params α sM v) h
  refine ⟨hR.log, hR.ever, ?_, ?_, ?_⟩
  · intro y s' r ho
    rcases step_cases (op := .add y) ho with ⟨rfl, hr, ⟨z, hz, hy⟩ | ⟨z, hz | hz, hy⟩⟩ |
      ⟨z, V, hz, hy, hV, h0, hr, rfl⟩ | ⟨z, C, hz, -⟩ | ⟨z, V, hz, -⟩ <;> cases hz
    · have := (hR.members y).1 hy
      exact ⟨⟨fun _ => this, fun _ => hr⟩, fun _ => rfl⟩
    · have : y ∉ (regRun ops).members := fun hm => hy ((hR.members y).2 hm)
      simp [hr, this]
  · intro y s' r ho
    rcases step_cases (op := .delete y) ho with ⟨rfl, hr, ⟨z, hz, hy⟩ | ⟨z, hz | hz, hy⟩⟩ |
      ⟨z, V, hz, hy, hV, h0, hr, rfl⟩ | ⟨z, C, hz, hC, hr, -⟩ | ⟨z, V, hz, -⟩ <;> cases hz
    · have : y ∉ (regRun ops).members := fun hm => hy ((hR.members y).2 hm)
      simp [hr, this]
    · have hyid : y ∈ s.ids := List.mem_map.2 ⟨_, mapGet_mem hC, rfl⟩
      have : y ∈ (regRun ops).members := (hR.members y).1 hyid
      simp [hr, this]
  · intro y s' r ho
    rcases step_cases (op := .quickDelete y) ho with ⟨rfl, hr, ⟨z, hz, hy⟩ | ⟨z, hz | hz, hy⟩⟩ |
      ⟨z, V, hz, hy, hV, h0, hr, rfl⟩ | ⟨z, C, hz, hC, hr, -⟩ | ⟨z, V, hz, hy, hV, h0, hr, -⟩ <;>
      cases hz
    · have : y ∉ (regRun ops).members := fun hm => hy ((hR.members y).2 hm)
      simp [hr, this]
    · have : y ∈ (regRun ops).members := (hR.members y).1 hy
      simp [hr, this]

/-- C15: a fact about the specification itself: `y` is a member after a history exactly when its last
successful-or-not add/delete call was an `add`. -/
theorem C15_member_spec (ops : List (Op F)) (y : F) :
    y ∈ (regRun ops).members ↔
      ∃ pre post, ops = pre ++ .add y :: post ∧ .delete y ∉ post ∧ .quickDelete y ∉ post := by
  unfold regRun
  induction ops using List.reverseRecOn with
  | nil => simp [Registry.empty]
  | append_singleton l op ih =>
    rw [List.foldl_append, List.foldl_cons, List.foldl_nil]
    have key : (∃ pre post, l ++ [op] = pre ++ Op.add y :: post ∧ .delete y ∉ post ∧ .quickDelete y ∉ post)
        ↔ op = .add y ∨ ((∃ pre post, l = pre ++ Op.add y :: post ∧ .delete y ∉ post ∧
            .quickDelete y ∉ post) ∧ op ≠ .delete y ∧ op ≠ .quickDelete y) := by
      constructor
      · rintro ⟨pre, post, h, h1, h2⟩
        rcases List.eq_nil_or_concat post with rfl | ⟨post', o, rfl⟩
        · have := List.append_inj' h rfl
          left; simpa using this.2
        · rw [List.concat_eq_append, ← List.cons_append, ← List.append_assoc] at h
          obtain ⟨e1, e2⟩ := List.append_inj' h rfl
          simp only [List.cons.injEq, and_true] at e2
          subst e2
          simp at h1 h2
          exact Or.inr ⟨⟨pre, post', e1, h1.1, h2.1⟩, Ne.symm h1.2, Ne.symm h2.2⟩
      · rintro (rfl | ⟨⟨pre, post, rfl, h1, h2⟩, h3, h4⟩)
        · exact ⟨l, [], by simp, by simp, by simp⟩
        · exact ⟨pre, post ++ [op], by simp, by simp [h1, Ne.symm h3], by simp [h2, Ne.symm h4]⟩
    rw [key, ← ih]
    generalize l.foldl regStep Registry.empty = r
    cases op with
    | add z =>
      simp only [regStep, Registry.add, Op.add.injEq, ne_eq, reduceCtorEq, not_false_eq_true, and_self,
        and_true]
      by_cases hz : z ∈ r.members
      · simp only [hz, if_true]
        constructor
        · exact Or.inr
        · rintro (rfl | h)
          · exact hz
          · exact h
      · simp only [hz, if_false, List.mem_cons, eq_comm (a := y)]
    | delete z =>
      simp only [regStep, Registry.delete, reduceCtorEq, false_or, ne_eq, Op.delete.injEq,
        not_false_eq_true, and_true]
      by_cases hz : z ∈ r.members
      · simp [hz, eq_comm (a := y)]
      · simp only [hz, if_false]
        constructor
        · intro h; exact ⟨h, by rintro rfl; exact hz h⟩
        · exact fun h => h.1
    | quickDelete z =>
      simp only [regStep, Registry.delete, reduceCtorEq, false_or, ne_eq, Op.quickDelete.injEq,
        not_false_eq_true, true_and]
      by_cases hz : z ∈ r.members
      · simp [hz, eq_comm (a := y)]
      · simp only [hz, if_false]
        constructor
        · intro h; exact ⟨h, by rintro rfl; exact hz h⟩
        · exact fun h => h.1

/-- a concrete reachable state: add 1, 2, 3, delete 2, refuse 2 again, re-add 2 -/
def exParams : AccParams ℚ ℚ := ⟨1, 1, 2, 3, 1, 5, 7, 11⟩

def exOps : List (Op ℚ) := [.add 1, .add 2, .add 3, .delete 2, .delete 2, .add 1, .add 2]

theorem exRun : ∃ s, (Server.new exParams 4 9 6).run exOps = .ok s ∧ s.deletions = [2] ∧
    (2 : ℚ) ∈ s.ids ∧ (1 : ℚ) ∈ s.ids ∧ (3 : ℚ) ∈ s.ids := by
  have h : (match (Server.new exParams 4 9 6).run exOps with
      | .ok s => decide (s.deletions = [2] ∧ (2 : ℚ) ∈ s.ids ∧ (1 : ℚ) ∈ s.ids ∧ (3 : ℚ) ∈ s.ids)
      | .error _ => false) = true := by decide +kernel
  split at h
  · next s hs => exact ⟨s, hs, of_decide_eq_true h⟩
  · simp at h

/-! ## C16 -/

/-- C16: histories of `add`/`delete` calls followed by `add`/`quick_delete` calls (either part may be
empty): the `i`-th accumulator is the initial one divided by the first `i` deleted elements. -/
theorem invA_run (params : AccParams G1 G2) (α sM v : F) (ops₁ ops₂ : List (Op F))
    (h₁ : ∀ op ∈ ops₁, op.isQuick = false) (h₂ : ∀ op ∈ ops₂, op.isDelete = false)
    (s : Server F G1 G2) (h : (Server.new params α sM v).run (ops₁ ++ ops₂) = .ok s) :
    InvA α (v • params.p1) s := by
  obtain ⟨s1, h3, h4⟩ := run_append.1 h
  have := run_inv (InvW α (v • params.p1)) (fun op => op.isQuick = false)
    (fun s op s' r ho hI hs => invW_step ho hI hs) ops₁ h₁ h3 (invW_new params α sM v)
  exact run_inv (InvA α (v • params.p1)) (fun op => op.isDelete = false)
    (fun s op s' r ho hI hs => invA_step ho hI hs) ops₂ h₂ h4 this.toInvA

theorem C16_history (params : AccParams G1 G2) (α sM v : F) (ops₁ ops₂ : List (Op F))
    (h₁ : ∀ op ∈ ops₁, op.isQuick = false) (h₂ : ∀ op ∈ ops₂, op.isDelete = false)
    (s : Server F G1 G2) (h : (Server.new params α sM v).run (ops₁ ++ ops₂) = .ok s) :
    s.accumulators.length = s.deletions.length + 1 ∧
    (∀ i ≤ s.deletions.length, s.accumulators[i]? =
      some (((s.deletions.take i).map (fun d => d + α)).prod⁻¹ • (v • params.p1))) ∧
    s.getEpoch = 1 + s.deletions.length ∧
    s.getAccumulator = .ok ((s.deletions.map (fun d => d + α)).prod⁻¹ • (v • params.p1)) := by
  have hI := invA_run params α sM v ops₁ ops₂ h₁ h₂ s h
  refine ⟨hI.length, fun i hi => hI.get i hi, ?_, ?_⟩
  · rw [getEpoch, hI.length]; omega
  · rw [getAccumulator, hI.last]; rfl

/-- C16: `add` never changes the accumulators, the deletion log or the keys. -/
theorem C16_add_keeps (s s' : Server F G1 G2) (y : F) (r : Option G1) (h : s.add y = .ok (s', r)) :
    s'.accumulators = s.accumulators ∧ s'.deletions = s.deletions ∧
    s'.publicKeys = s.publicKeys ∧ s'.getEpoch = s.getEpoch := by
  rcases step_cases (op := .add y) h with ⟨rfl, -⟩ | ⟨z, V, hz, hy, hV, h0, hr, rfl⟩ |
    ⟨z, C, hz, -⟩ | ⟨z, V, hz, -⟩
  · simp
  · simp [getEpoch]
  · cases hz
  · cases hz

example : (∀ op ∈ exOps, op.isQuick = false) ∧
    (∀ op ∈ [Op.quickDelete (1 : ℚ), .add 7], op.isDelete = false) := by decide

/-! ## C17 -/

theorem invW_run (params : AccParams G1 G2) (α sM v : F) (ops : List (Op F))
    (h₁ : ∀ op ∈ ops, op.isQuick = false) (s : Server F G1 G2)
    (h : (Server.new params α sM v).run ops = .ok s) : InvW α (v • params.p1) s :=
  run_inv (InvW α (v • params.p1)) (fun op => op.isQuick = false)
    (fun s op s' r ho hI hs => invW_step ho hI hs) ops h₁ h (invW_new params α sM v)

theorem keys_run {P : AccParams G1 G2} {α sM v : F} {ops : List (Op F)} {s : Server F G1 G2}
    (h : (Server.new P α sM v).run ops = .ok s) :
    s.publicKeys = ⟨α • P.p2, sM • P.k2⟩ ∧ s.witnessSecretKey = α ∧ s.signSecretKey = sM := by
  refine run_inv (fun s => s.publicKeys = ⟨α • P.p2, sM • P.k2⟩ ∧ s.witnessSecretKey = α ∧
    s.signSecretKey = sM) (fun _ => True) ?_ ops (fun _ _ => trivial) h ⟨rfl, rfl, rfl⟩
  intro s op s' r _ hI h
  rcases step_cases h with ⟨rfl, -, -⟩ | ⟨y, V, rfl, hy, hV, h0, -, rfl⟩ |
      ⟨y, C, rfl, hC, -, rfl⟩ | ⟨y, V, rfl, hy, hV, h0, -, rfl⟩ <;> exact hI

/-- C17: after any history of `add`/`delete` calls every stored witness verifies (pairing check with the
server's public witness key) against the current accumulator. -/
theorem C17_stored_witnesses_valid (E : Pairing F G1 G2 GT) (params : AccParams G1 G2)
    (α sM v : F) (ops : List (Op F))
    (h₁ : ∀ op ∈ ops, op.isQuick = false) (s : Server F G1 G2)
    (h : (Server.new params α sM v).run ops = .ok s) (V : G1) (hV : s.getAccumulator = .ok V) :
    (∀ y C, mapGet s.allWitnesses y = some C →
      IsWitness α V y C ∧
      E.e C (y • params.p2 + s.getWitnessPublicKey) + E.e V (-params.p2) = 0) ∧
    (∀ y s' C, s.add y = .ok (s', some C) → IsWitness α V y C ∧ s'.getAccumulator = .ok V) := by
  have hI := invW_run params α sM v ops h₁ s h
  have hk := keys_run h
  rw [getAccumulator, hI.last] at hV
  simp only [unwrap, Except.ok.injEq] at hV
  subst hV
  constructor
  · intro y C hC
    have := hI.wits _ (mapGet_mem hC)
    refine ⟨this, ?_⟩
    rw [getWitnessPublicKey, hk.1]
    simp only at this
    simp only []
    rw [← add_smul, map_neg, map_smul, ← LinearMap.smul_apply, ← map_smul, this]
    simp
  · intro y s' C hs
    have hI' := invW_step (op := .add y) rfl hI hs
    rcases step_cases (op := .add y) hs with ⟨rfl, hr, -⟩ | ⟨z, V, hz, hy, hV, h0, hr, rfl⟩ |
      ⟨z, C, hz, -⟩ | ⟨z, V, hz, -⟩
    · simp at hr
    · cases hz
      obtain rfl := Option.some.inj hr
      refine ⟨hI'.wits (y, _) (by simp [mapInsert]), ?_⟩
      rw [getAccumulator, hI'.last]; rfl
    · cases hz
    · cases hz

/-! ## C18, C19 -/

/-- C18: from any `add`/`delete` history, `delete(y)` and `quick_delete(y)` both succeed, return the same
accumulator and agree on accumulators, deletion log, ids ever added and members; `quick_delete` leaves
the stored witnesses as they were, i.e. valid for the previous accumulator only. -/
theorem C18_delete_quickDelete (params : AccParams G1 G2) (α sM v : F) (ops : List (Op F))
    (h₁ : ∀ op ∈ ops, op.isQuick = false) (s : Server F G1 G2)
    (h : (Server.new params α sM v).run ops = .ok s) (y : F) (V : G1)
    (hV : s.getAccumulator = .ok V) :
    ∃ s₁ s₂ r, s.delete y = .ok (s₁, r) ∧ s.quickDelete y = .ok (s₂, r) ∧
      s₁.accumulators = s₂.accumulators ∧ s₁.deletions = s₂.deletions ∧
      s₁.allUsers = s₂.allUsers ∧ s₁.allWitnesses.map (·.1) = s₂.allWitnesses.map (·.1) ∧
      (∀ z C, mapGet s₂.allWitnesses z = some C → IsWitness α V z C) := by
  have hI := invW_run params α sM v ops h₁ s h
  have hV' := hV
  rw [getAccumulator, hI.last] at hV'
  simp only [unwrap, Except.ok.injEq] at hV'
  by_cases hy : y ∈ s.ids
  · obtain ⟨C, hC⟩ := mapGet_some_of_mem hy
    have hw := hI.wits _ (mapGet_mem hC)
    have hy0 := hI.idsne y hy
    have hy0' : y + s.witnessSecretKey ≠ 0 := by rwa [hI.key]
    have hCe : C = (y + s.witnessSecretKey)⁻¹ • accAfter α (v • params.p1) s.deletions := by
      rw [← hw, hI.key, smul_smul, inv_mul_cancel₀ hy0, one_smul]
    have hq := quickDelete_member hy hI.last hy0'
    rw [← hCe] at hq
    refine ⟨_, _, some C, delete_member hC, hq, rfl, rfl, rfl, ?_, ?_⟩
    · simp [List.map_map, Function.comp_def]
    · intro z D hD
      have := (mem_mapErase.1 (mapGet_mem hD)).1
      rw [← hV']
      exact hI.wits _ this
  · exact ⟨s, s, none, delete_nonmember hy, quickDelete_nonmember hy, rfl, rfl, rfl, rfl,
      fun z C hC => hV' ▸ hI.wits _ (mapGet_mem hC)⟩

/-- C19: mixing the two kinds of deletion revives the quick-deleted user. For every `add`/`delete` history
with two distinct members `a`, `b` and current accumulator `V`: `quick_delete(a)` then `delete(b)` succeed and
1. the new current accumulator `V₂` is `V/(b+α)`: `a` has not been removed from it;
2. `(V₁ - V₂)/(b - a)`, computed from published values only, is a valid witness for `a` against it;
3. all stored witnesses are valid for `V₂`, but
4. any third user `y` who follows the published log (`C ↦ (C - V')/(y' - y)` for each deletion, as the update
   protocol does) ends with a witness that is valid exactly if `a + α = 1` or `V = 0`. -/
theorem C19_revival (params : AccParams G1 G2) (α sM v : F) (ops : List (Op F))
    (h₁ : ∀ op ∈ ops, op.isQuick = false) (s : Server F G1 G2)
    (h : (Server.new params α sM v).run ops = .ok s) (V : G1) (hV : s.getAccumulator = .ok V)
    (a b : F) (ha : a ∈ s.ids) (hb : b ∈ s.ids) (hab : a ≠ b) :
    ∃ s₁ s₂ V₁ V₂, s.quickDelete a = .ok (s₁, some V₁) ∧ s₁.delete b = .ok (s₂, some V₂) ∧
      s₂.getAccumulator = .ok V₂ ∧ V₂ = (b + α)⁻¹ • V ∧ a ∉ s₂.ids ∧
      IsWitness α V₂ a ((b - a)⁻¹ • (V₁ - V₂)) ∧
      (∀ z C, mapGet s₂.allWitnesses z = some C → IsWitness α V₂ z C) ∧
      (∀ y C, y ≠ a → y ≠ b → y ≠ -α → IsWitness α V y C →
        (IsWitness α V₂ y ((b - y)⁻¹ • ((a - y)⁻¹ • (C - V₁) - V₂)) ↔ a + α = 1 ∨ V = 0)) := by
  have hI := invW_run params α sM v ops h₁ s h
  rw [getAccumulator, hI.last] at hV
  simp only [unwrap, Except.ok.injEq] at hV
  have hw : ∀ p ∈ s.allWitnesses, (p.1 + α) • p.2 = V := hV ▸ hI.wits
  have ha0 := hI.idsne a ha
  have hb0 := hI.idsne b hb
  have ha0' : a + s.witnessSecretKey ≠ 0 := by rwa [hI.key]
  have hq := quickDelete_member ha hI.last ha0'
  rw [hI.key, hV] at hq
  have hbmem : b ∈ (mapErase s.allWitnesses a).map (·.1) := ids_erase.2 ⟨hb, Ne.symm hab⟩
  obtain ⟨C, hC⟩ := mapGet_some_of_mem hbmem
  have hCw : (b + α) • C = V := hw _ (mem_mapErase.1 (mapGet_mem hC)).1
  have hCe : C = (b + α)⁻¹ • V := by rw [← hCw, smul_smul, inv_mul_cancel₀ hb0, one_smul]
  refine ⟨_, _, _, C, hq, delete_member (by exact hC), ?_, hCe, ?_, ?_, ?_, ?_⟩
  · simp [getAccumulator, unwrap]
  · intro hm
    rw [ids, ids_erase_map] at hm
    have := hm.1
    rw [ids, ids_erase] at this
    exact this.2 rfl
  · have hba : b - a ≠ 0 := sub_ne_zero.2 (Ne.symm hab)
    rw [IsWitness, hCe]
    rw [← sub_smul, smul_smul, smul_smul]
    congr 1
    field_simp
    ring
  · intro z D hD
    have := mapGet_mem hD
    simp only [List.mem_map] at this
    obtain ⟨q, hq1, hq2⟩ := this
    obtain ⟨hq3, hq4⟩ := mem_mapErase.1 hq1
    have hq5 := (mem_mapErase.1 hq3).1
    obtain ⟨rfl, rfl⟩ := Prod.mk.inj hq2
    have hbz : b - q.1 ≠ 0 := sub_ne_zero.2 (Ne.symm hq4)
    rw [IsWitness, smul_comm, smul_sub, hw q hq5, ← hCw, ← sub_smul, smul_smul]
    rw [show (b - q.1)⁻¹ * (b + α - (q.1 + α)) = 1 by field_simp; ring, one_smul]
  · intro y D hya hyb hy0 hD
    have hy0' : y + α ≠ 0 := fun h0 => hy0 (eq_neg_of_add_eq_zero_left h0)
    have hby : b - y ≠ 0 := sub_ne_zero.2 (Ne.symm hyb)
    have hay : a - y ≠ 0 := sub_ne_zero.2 (Ne.symm hya)
    unfold IsWitness at hD ⊢
    have hDe : D = (y + α)⁻¹ • V := by rw [← hD, smul_smul, inv_mul_cancel₀ hy0', one_smul]
    rw [hDe, hCe, ← sub_eq_zero]
    have : (y + α) • (b - y)⁻¹ • ((a - y)⁻¹ • ((y + α)⁻¹ • V - (a + α)⁻¹ • V) - (b + α)⁻¹ • V)
        - (b + α)⁻¹ • V = ((b - y)⁻¹ * (a + α)⁻¹ * (1 - (a + α))) • V := by
      have e : (y + α) • (b - y)⁻¹ • ((a - y)⁻¹ • ((y + α)⁻¹ • V - (a + α)⁻¹ • V) - (b + α)⁻¹ • V)
        - (b + α)⁻¹ • V = ((y + α) * (b - y)⁻¹ * ((a - y)⁻¹ * ((y + α)⁻¹ - (a + α)⁻¹) - (b + α)⁻¹)
          - (b + α)⁻¹) • V := by module
      rw [e]
      congr 1
      field_simp
      ring
    rw [this, smul_eq_zero]
    simp only [mul_eq_zero, inv_eq_zero, hby, ha0, false_or, sub_eq_zero, eq_comm (a := (1 : F))]

example : ∃ s, (Server.new exParams 4 9 6).run exOps = .ok s ∧ (1 : ℚ) ∈ s.ids ∧ (3 : ℚ) ∈ s.ids := by
  obtain ⟨s, h, -, -, h1, h3⟩ := exRun
  exact ⟨s, h, h1, h3⟩

/-! ## C20 -/

/-- C20: in every reachable state (any mixture of calls) `delete` and `quick_delete` return for every id, and
`add` panics exactly for a non-member id equal to `-α`. -/
theorem C20_no_panic (params : AccParams G1 G2) (α sM v : F) (ops : List (Op F))
    (s : Server F G1 G2) (h : (Server.new params α sM v).run ops = .ok s) (y : F) :
    (∃ r, s.delete y = .ok r) ∧ (∃ r, s.quickDelete y = .ok r) ∧
    ((∃ e, s.add y = .error e) ↔ y = -α ∧ y ∉ (regRun ops).members) ∧
    (∃ V, s.getAccumulator = .ok V) := by
  have hI := invP_run params α sM v ops s h
  have hR := refines_run ops (refines_new params α sM v) h
  obtain ⟨V, hV⟩ : ∃ V, s.accumulators.getLast? = some V := by
    rw [List.getLast?_eq_some_getLast hI.accs]; exact ⟨_, rfl⟩
  refine ⟨?_, ?_, ?_, V, by rw [getAccumulator, hV]; rfl⟩
  · by_cases hy : y ∈ s.ids
    · obtain ⟨C, hC⟩ := mapGet_some_of_mem hy
      exact ⟨_, delete_member hC⟩
    · exact ⟨_, delete_nonmember hy⟩
  · by_cases hy : y ∈ s.ids
    · exact ⟨_, quickDelete_member hy hV (by rw [hI.key]; exact hI.idsne y hy)⟩
    · exact ⟨_, quickDelete_nonmember hy⟩
  · rw [show (regRun ops).members = (List.foldl regStep Registry.empty ops).members from rfl,
      ← hR.members y]
    by_cases hy : y ∈ s.ids
    · simp [add_member hy, hy]
    · by_cases h0 : y + s.witnessSecretKey = 0
      · simp only [add_panic hy hV h0, hy, not_false_eq_true, and_true]
        rw [hI.key] at h0
        simp [eq_neg_of_add_eq_zero_left h0]
      · simp only [add_new hy hV h0, reduceCtorEq, exists_false, hy, not_false_eq_true, and_true,
          false_iff]
        rintro rfl
        rw [hI.key] at h0
        exact h0 (by ring)

/-! ## C21 -/

/-- The challenge `Server::witness` recomputes: the hash of the public key and of
`K1 * response + pk * challenge`. -/
def enrolChallenge (H : Oracle F) (enc : Enc G1 G2 GT) (pk commitment : G1) : F :=
  H ⟨"user_signature_proof", [("user_pub_key", enc.g1 pk), ("commitment", enc.g1 commitment)]⟩
    "challenge"

/-- C21: `witness` returns `None` for non-members and for a wrong proof of key; otherwise it returns the
stored membership witness and a signature `R` with `(y+s) R = pk + K0`; it panics exactly when it would
have to sign for `y = -s`. -/
theorem C21_witness (H : Oracle F) (enc : Enc G1 G2 GT) (params : AccParams G1 G2)
    (s : Server F G1 G2) (y c z : F) (pk : G1) :
    (y ∉ s.ids → s.witness H enc params y c z pk = .ok none) ∧
    (enrolChallenge H enc pk (z • params.k1 + c • pk) ≠ c →
      s.witness H enc params y c z pk = .ok none) ∧
    (y ∈ s.ids → enrolChallenge H enc pk (z • params.k1 + c • pk) = c →
      (y + s.signSecretKey ≠ 0 → ∃ C R, s.witness H enc params y c z pk = .ok (some (C, R)) ∧
        mapGet s.allWitnesses y = some C ∧ (y + s.signSecretKey) • R = pk + params.k0) ∧
      (y + s.signSecretKey = 0 → s.witness H enc params y c z pk = .error .unwrapNone)) := by
  have hcon : ∀ b, mapContains s.allWitnesses y = b → (b = true ↔ y ∈ s.ids) := by
    rintro b rfl; exact mapContains_iff
  refine ⟨?_, ?_, ?_⟩
  · intro hy
    unfold witness
    rw [if_pos]
    · rfl
    · simp only [Bool.not_eq_true', Bool.eq_false_iff, ne_eq, mapContains_iff]; exact hy
  · intro hc
    unfold witness
    split
    · rfl
    · rw [if_pos]
      · rfl
      · exact hc
  · intro hy hc
    obtain ⟨C, hC⟩ := mapGet_some_of_mem hy
    have hm : (!mapContains s.allWitnesses y) = false := by simp [mapContains_iff.2 hy]
    have hH : H (((Transcript.new "user_signature_proof").append "user_pub_key" (enc.g1 pk)).append
        "commitment" (enc.g1 (z • params.k1 + c • pk))) "challenge" = c := hc
    constructor
    · intro h0
      refine ⟨C, (y + s.signSecretKey)⁻¹ • (pk + params.k0), ?_, hC, ?_⟩
      · simp only [witness, hm, Bool.false_eq_true, if_false, hH, ne_eq, not_true_eq_false, hC, unwrap,
          inv!_ne h0, bind, Except.bind, pure, Except.pure]
      · rw [smul_smul, mul_inv_cancel₀ h0, one_smul]
    · intro h0
      simp only [witness, hm, Bool.false_eq_true, if_false, hH, ne_eq, not_true_eq_false, hC, unwrap,
          h0, inv!_zero, bind, Except.bind]

/-! ## C22, C23, C24 -/

variable [DecidableEq GT] [DecidableEq G1]

/-- C23 for the free function `Witness::verify`. -/
theorem credVerify_iff (E : Pairing F G1 G2 GT) (params : AccParams G1 G2) (hP : params.p2 ≠ 0)
    (hK : params.k2 ≠ 0) (α s : F) (V : G1) (y : F) (w : Witness F G1) :
    credVerify E V ⟨α • params.p2, s • params.k2⟩ params y w = .ok () ↔
      IsWitness α V y w.witness ∧
      (y + s) • w.signature = w.secretKey • params.k1 + params.k0 := by
  unfold credVerify IsWitness
  simp only [E.check_iff hP, E.check_iff hK]
  by_cases h1 : (y + α) • w.witness = V <;>
    by_cases h2 : (y + s) • w.signature = w.secretKey • params.k1 + params.k0 <;> simp [h1, h2]

/-- C23: `check_witness` is `Ok` exactly when the user has a witness and both equations hold; without a
witness it is `Err("no witness")` and in every other case `Err("failed")`. -/
theorem C23_check_witness (E : Pairing F G1 G2 GT) (params : AccParams G1 G2) (hP : params.p2 ≠ 0)
    (hK : params.k2 ≠ 0) (α s : F) (u : User F G1 G2)
    (hu : u.publicKeys = ⟨α • params.p2, s • params.k2⟩) (V : G1) :
    (u.checkWitness E params V = .ok () ↔ ∃ w, u.witness = some w ∧
      IsWitness α V u.id w.witness ∧
      (u.id + s) • w.signature = w.secretKey • params.k1 + params.k0) ∧
    (u.witness = none → u.checkWitness E params V = .error "no witness") ∧
    (u.witness ≠ none → u.checkWitness E params V = .ok () ∨
      u.checkWitness E params V = .error "failed") := by
  unfold User.checkWitness
  rw [hu]
  cases hw : u.witness with
  | none => simp
  | some w =>
    refine ⟨by simp only [credVerify_iff E params hP hK]; simp, by simp, fun _ => ?_⟩
    unfold credVerify
    dsimp only
    split
    · exact Or.inl rfl
    · exact Or.inr rfl

/-- C22: for every `add`/`delete` history, a current member (other than `-s`, where the server panics) that
calls `create_witness` gets a witness that passes `check_witness` against the server's accumulator and
records the server's epoch and accumulator. For every hash function, key and nonce. -/
theorem C22_create_witness (E : Pairing F G1 G2 GT) (H : Oracle F) (enc : Enc G1 G2 GT)
    (params : AccParams G1 G2) (hP : params.p2 ≠ 0) (hK : params.k2 ≠ 0) (α sM v : F)
    (ops : List (Op F)) (h₁ : ∀ op ∈ ops, op.isQuick = false) (srv : Server F G1 G2)
    (h : (Server.new params α sM v).run ops = .ok srv) (u : User F G1 G2) (y : F)
    (hu : User.new srv y = .ok u) (hy : y ∈ (regRun ops).members) (hs : y ≠ -sM) (key k : F) :
    ∃ u' V, u.createWitness H enc params srv key k = .ok u' ∧ srv.getAccumulator = .ok V ∧
      u'.checkWitness E params V = .ok () ∧ u'.epoch = srv.getEpoch ∧ u'.accumulator = V ∧
      u'.id = y ∧ (∃ w, u'.witness = some w ∧ w.secretKey = key) := by
  have hI := invW_run params α sM v ops h₁ srv h
  have hk := keys_run h
  have hR := refines_run ops (refines_new params α sM v) h
  have hyid := (hR.members y).2 hy
  have hacc : srv.getAccumulator = .ok (accAfter α (v • params.p1) srv.deletions) := by
    rw [getAccumulator, hI.last]; rfl
  have hu' : u = ⟨y, none, accAfter α (v • params.p1) srv.deletions, srv.publicKeys, srv.getEpoch⟩ := by
    rw [User.new, hacc] at hu
    simp only [bind, Except.bind, pure, Except.pure, Except.ok.injEq] at hu
    exact hu.symm
  have hs' : y + srv.signSecretKey ≠ 0 := by
    rw [hk.2.2]; exact fun h0 => hs (eq_neg_of_add_eq_zero_left h0)
  generalize hc : enrolChallenge H enc (key • params.k1) (k • params.k1) = c
  have hcom : (k - c * key) • params.k1 + c • key • params.k1 = k • params.k1 := by module
  obtain ⟨hw, -⟩ := (C21_witness H enc params srv y c (k - c * key) (key • params.k1)).2.2 hyid
    (by rw [hcom]; exact hc)
  obtain ⟨C, R, hw1, hw2, hw3⟩ := hw hs'
  have hcall : u.createWitness H enc params srv key k = .ok { u with
      witness := some { secretKey := key, witness := C, signature := R }
      epoch := srv.getEpoch
      accumulator := accAfter α (v • params.p1) srv.deletions } := by
    unfold User.createWitness
    have hH : H (((Transcript.new "user_signature_proof").append "user_pub_key"
      (enc.g1 (key • params.k1))).append "commitment" (enc.g1 (k • params.k1))) "challenge" = c := hc
    simp only [hH]
    rw [show u.id = y by rw [hu'], hw1]
    simp only [bind, Except.bind, hacc, pure, Except.pure]
  refine ⟨_, _, hcall, hacc, ?_, rfl, rfl, by rw [hu'], ⟨_, rfl, rfl⟩⟩
  rw [(C23_check_witness E params hP hK α sM _ (by rw [hu']; exact hk.1) _).1]
  refine ⟨_, rfl, ?_, ?_⟩
  · simp only [hu']
    exact hI.wits _ (mapGet_mem hw2)
  · simp only [hu']
    rw [← hk.2.2]; exact hw3

/-- C22: the two getters a verifier reads from the server are the keys the issued credential satisfies: after
any `add`/`delete` history the credential of a fresh enrolment passes both pairing equations, the first
under `get_witness_public_key`, the second under `get_sign_public_key`; and `get_public_keys` is that pair. -/
theorem C22_getters (E : Pairing F G1 G2 GT) (H : Oracle F) (enc : Enc G1 G2 GT)
    (params : AccParams G1 G2) (hP : params.p2 ≠ 0) (hK : params.k2 ≠ 0) (α sM v : F)
    (ops : List (Op F)) (h₁ : ∀ op ∈ ops, op.isQuick = false) (srv : Server F G1 G2)
    (h : (Server.new params α sM v).run ops = .ok srv) (u : User F G1 G2) (y : F)
    (hu : User.new srv y = .ok u) (hy : y ∈ (regRun ops).members) (hs : y ≠ -sM) (key k : F) :
    srv.getPublicKeys = ⟨srv.getWitnessPublicKey, srv.getSignPublicKey⟩ ∧
    ∃ u' V w, u.createWitness H enc params srv key k = .ok u' ∧ srv.getAccumulator = .ok V ∧
      u'.witness = some w ∧
      E.e w.witness (y • params.p2 + srv.getWitnessPublicKey) = E.e V params.p2 ∧
      E.e w.signature (y • params.k2 + srv.getSignPublicKey) =
        E.e (key • params.k1 + params.k0) params.k2 := by
  refine ⟨rfl, ?_⟩
  obtain ⟨u', V, g1, g2, g3, -, -, g6, w, g7, g8⟩ :=
    C22_create_witness E H enc params hP hK α sM v ops h₁ srv h u y hu hy hs key k
  have hk := (keys_run h).1
  have hpk : u'.publicKeys = srv.publicKeys := by
    have hun : u.publicKeys = srv.publicKeys := by
      rw [User.new, g2] at hu
      simp only [bind, Except.bind, pure, Except.pure, Except.ok.injEq] at hu
      rw [← hu]; rfl
    rw [← hun]
    unfold User.createWitness at g1
    simp only [bind, Except.bind, pure, Except.pure] at g1
    repeat' split at g1
    all_goals first | (cases g1; rfl) | cases g1
  rw [(C23_check_witness E params hP hK α sM _ (by rw [hpk, hk]) V).1] at g3
  obtain ⟨w', e1, e2, e3⟩ := g3
  rw [g7] at e1
  cases e1
  refine ⟨u', V, w, g1, g2, g7, ?_, ?_⟩
  · rw [getWitnessPublicKey, hk, ← add_smul, map_smul, ← LinearMap.smul_apply, ← map_smul]
    rw [g6] at e2
    exact congrArg (fun x => E.e x params.p2) e2
  · rw [getSignPublicKey, hk, ← add_smul, map_smul, ← LinearMap.smul_apply, ← map_smul]
    rw [g6, g8] at e3
    rw [e3]

/-- C22: for a non-member the user is unchanged. -/
theorem C22_nonmember (H : Oracle F) (enc : Enc G1 G2 GT) (params : AccParams G1 G2)
    (srv : Server F G1 G2) (u : User F G1 G2) (h : u.id ∉ srv.ids) (key k : F) :
    u.createWitness H enc params srv key k = .ok u := by
  unfold User.createWitness
  simp only [(C21_witness H enc params srv u.id _ _ _).1 h]
  rfl

/-- C24: a witness that is valid at one epoch checks against the accumulator of a later epoch exactly when
the product of `(d + α)` over the deletions in between is 1, or the accumulator is the identity. -/
theorem C24_stale (E : Pairing F G1 G2 GT) (params : AccParams G1 G2) (hP : params.p2 ≠ 0)
    (hK : params.k2 ≠ 0) (α sM v : F) (ops₁ ops₂ : List (Op F))
    (h₁ : ∀ op ∈ ops₁, op.isQuick = false) (h₂ : ∀ op ∈ ops₂, op.isDelete = false)
    (srv : Server F G1 G2) (h : (Server.new params α sM v).run (ops₁ ++ ops₂) = .ok srv)
    (y : F) (w : Witness F G1) (i j : Nat) (hij : i ≤ j) (Vi Vj : G1)
    (hi : srv.accumulators[i]? = some Vi) (hj : srv.accumulators[j]? = some Vj)
    (hw : credVerify E Vi srv.getPublicKeys params y w = .ok ()) :
    credVerify E Vj srv.getPublicKeys params y w = .ok () ↔
      (((srv.deletions.take j).drop i).map (fun d => d + α)).prod = 1 ∨ v • params.p1 = 0 := by
  have hI := invA_run params α sM v ops₁ ops₂ h₁ h₂ srv h
  rw [getPublicKeys, (keys_run h).1] at *
  rw [credVerify_iff E params hP hK] at *
  obtain ⟨hw1, hw2⟩ := hw
  have hjl : j ≤ srv.deletions.length := by
    have := hI.length
    have hj' := List.getElem?_eq_some_iff.1 hj
    obtain ⟨hj', -⟩ := hj'
    omega
  rw [hI.get i (by omega)] at hi
  rw [hI.get j hjl] at hj
  have hi := Option.some.inj hi
  have hj := Option.some.inj hj
  have hsplit : srv.deletions.take j = srv.deletions.take i ++ (srv.deletions.take j).drop i := by
    conv_lhs => rw [← List.take_append_drop i (srv.deletions.take j), List.take_take,
      Nat.min_eq_left hij]
  have hno : ∀ l, (∀ d ∈ l, d ∈ srv.deletions) → prodPlus α l ≠ 0 := by
    intro l hl
    rw [Ne, prodPlus_eq_zero]
    exact fun hm => hI.noneg (hl _ hm)
  have hn1 := hno (srv.deletions.take i) (fun d hd => List.mem_of_mem_take hd)
  have hn2 := hno ((srv.deletions.take j).drop i)
    (fun d hd => List.mem_of_mem_take (List.mem_of_mem_drop hd))
  unfold IsWitness at *
  rw [hw1]
  simp only [hw2, and_true]
  rw [← hj, show accAfter α (v • params.p1) (srv.deletions.take j) = _ from
    congrArg (accAfter α (v • params.p1)) hsplit, accAfter_append, hi]
  change Vi = (prodPlus α _)⁻¹ • Vi ↔ prodPlus α _ = 1 ∨ _
  have hVi : Vi = 0 ↔ v • params.p1 = 0 := by
    rw [← hi, accAfter, smul_eq_zero]
    simp [hn1]
  rw [← hVi, eq_comm, ← sub_eq_zero]
  have : (prodPlus α ((srv.deletions.take j).drop i))⁻¹ • Vi - Vi
    = ((prodPlus α ((srv.deletions.take j).drop i))⁻¹ - 1) • Vi := by module
  rw [this, smul_eq_zero, sub_eq_zero, inv_eq_one]

/-- C24: in particular one deletion of an element other than `1 - α` invalidates every witness of the
previous epoch. -/
theorem C24_single (E : Pairing F G1 G2 GT) (params : AccParams G1 G2) (hP : params.p2 ≠ 0)
    (hK : params.k2 ≠ 0) (α sM v : F) (ops₁ ops₂ : List (Op F))
    (h₁ : ∀ op ∈ ops₁, op.isQuick = false) (h₂ : ∀ op ∈ ops₂, op.isDelete = false)
    (srv : Server F G1 G2) (h : (Server.new params α sM v).run (ops₁ ++ ops₂) = .ok srv)
    (hv : v • params.p1 ≠ 0) (y : F) (w : Witness F G1) (i : Nat) (Vi Vj : G1) (d : F)
    (hd : srv.deletions[i]? = some d) (hd1 : d ≠ 1 - α)
    (hi : srv.accumulators[i]? = some Vi) (hj : srv.accumulators[i + 1]? = some Vj)
    (hw : credVerify E Vi srv.getPublicKeys params y w = .ok ()) :
    credVerify E Vj srv.getPublicKeys params y w ≠ .ok () := by
  intro hc
  rw [C24_stale E params hP hK α sM v ops₁ ops₂ h₁ h₂ srv h y w i (i + 1) (by omega) Vi Vj hi hj hw] at hc
  obtain ⟨hlt, rfl⟩ := List.getElem?_eq_some_iff.1 hd
  rcases hc with hc | hc
  · have : (srv.deletions.take (i + 1)).drop i = [srv.deletions[i]] := by
      rw [List.drop_take, Nat.add_sub_cancel_left, List.drop_eq_getElem_cons hlt]; rfl
    rw [this] at hc
    simp at hc
    exact hd1 (eq_sub_of_add_eq hc)
  · exact hv hc

end
end Allo
