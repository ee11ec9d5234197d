import Verif.Model.Server
import Verif.Lemmas.Batch
import Verif.Lemmas.Pairing

/-! Lemmas about the server state machine. -/

set_option linter.unusedSectionVars false
namespace Allo
open Spec

section maps
variable {K V : Type} [DecidableEq K]

theorem mapContains_iff {m : List (K × V)} {k : K} :
    mapContains m k = true ↔ k ∈ m.map (·.1) := by
  simp [mapContains]

theorem mapGet_none {m : List (K × V)} {k : K} : mapGet m k = none ↔ k ∉ m.map (·.1) := by
  simp [mapGet]
  constructor
  · intro h v hv; exact h k v hv rfl
  · rintro h a b hab rfl; exact h b hab

theorem mapGet_mem {m : List (K × V)} {k : K} {v : V} (h : mapGet m k = some v) : (k, v) ∈ m := by
  simp only [mapGet, Option.map_eq_some_iff] at h
  obtain ⟨p, hp, rfl⟩ := h
  have h1 := List.mem_of_find?_eq_some hp
  have h2 := List.find?_some hp
  simp at h2
  rw [← h2]; exact h1

theorem mapGet_some_of_mem {m : List (K × V)} {k : K} (h : k ∈ m.map (·.1)) :
    ∃ v, mapGet m k = some v := by
  cases hg : mapGet m k with
  | none => exact absurd h (mapGet_none.1 hg)
  | some v => exact ⟨v, rfl⟩

theorem mem_mapErase {m : List (K × V)} {k : K} {p : K × V} :
    p ∈ mapErase m k ↔ p ∈ m ∧ p.1 ≠ k := by simp [mapErase]

theorem mapErase_keys (m : List (K × V)) (k : K) :
    (mapErase m k).map (·.1) = (m.map (·.1)).filter (· ≠ k) := by
  rw [List.filter_map]; rfl

theorem mem_mapInsert {m : List (K × V)} {k : K} {v : V} {p : K × V} :
    p ∈ mapInsert m k v ↔ p = (k, v) ∨ (p ∈ m ∧ p.1 ≠ k) := by
  simp [mapInsert, mem_mapErase]

theorem mem_setInsert {s : List K} {k x : K} : x ∈ setInsert s k ↔ x = k ∨ x ∈ s := by
  unfold setInsert
  split
  · next h =>
    constructor
    · exact Or.inr
    · rintro (rfl | h')
      · exact h
      · exact h'
  · simp

theorem mapGet_mapInsert (m : List (K × V)) (k : K) (v : V) : mapGet (mapInsert m k v) k = some v := by
  simp [mapGet, mapInsert]

end maps

namespace Server
variable {F G1 G2 GT : Type} [Field F] [DecidableEq F] [AddCommGroup G1] [Module F G1]
  [AddCommGroup G2] [Module F G2] [AddCommGroup GT] [Module F GT]

/-- the keys of the witness map -/
def ids (s : Server F G1 G2) : List F := s.allWitnesses.map (·.1)

/-! ### unfolded forms of the calls -/

theorem add_member {s : Server F G1 G2} {y : F} (h : y ∈ s.ids) : s.add y = .ok (s, none) := by
  unfold add
  rw [if_pos (mapContains_iff.2 h)]; rfl

theorem add_new {s : Server F G1 G2} {y : F} {V : G1} (h : y ∉ s.ids)
    (hV : s.accumulators.getLast? = some V) (hy : y + s.witnessSecretKey ≠ 0) :
    s.add y = .ok ({ s with allUsers := setInsert s.allUsers y,
                            allWitnesses := mapInsert s.allWitnesses y ((y + s.witnessSecretKey)⁻¹ • V) },
                   some ((y + s.witnessSecretKey)⁻¹ • V)) := by
  unfold add
  rw [if_neg (by rwa [mapContains_iff]), hV, inv!_ne hy]; rfl

theorem add_panic {s : Server F G1 G2} {y : F} {V : G1} (h : y ∉ s.ids)
    (hV : s.accumulators.getLast? = some V) (hy : y + s.witnessSecretKey = 0) :
    s.add y = .error .unwrapNone := by
  unfold add
  rw [if_neg (by rwa [mapContains_iff]), hV, hy, inv!_zero]; rfl

theorem delete_nonmember {s : Server F G1 G2} {y : F} (h : y ∉ s.ids) :
    s.delete y = .ok (s, none) := by
  unfold delete
  rw [mapGet_none.2 h]; rfl

theorem delete_member {s : Server F G1 G2} {y : F} {C : G1} (h : mapGet s.allWitnesses y = some C) :
    s.delete y = .ok ({ s with
      accumulators := s.accumulators ++ [C]
      allWitnesses := (mapErase s.allWitnesses y).map (fun p => (p.1, (y - p.1)⁻¹ • (p.2 - C)))
      deletions := s.deletions ++ [y] }, some C) := by
  unfold delete
  rw [h]
  simp only []
  rw [mapM_ok (mapErase s.allWitnesses y) _ (fun p => (p.1, (y - p.1)⁻¹ • (p.2 - C)))]
  · rfl
  · intro p hp
    have : y - p.1 ≠ 0 := sub_ne_zero.2 (Ne.symm (mem_mapErase.1 hp).2)
    rw [inv!_ne this]; rfl

theorem quickDelete_nonmember {s : Server F G1 G2} {y : F} (h : y ∉ s.ids) :
    s.quickDelete y = .ok (s, none) := by
  unfold quickDelete
  have : mapContains s.allWitnesses y = false := by rwa [Bool.eq_false_iff, Ne, mapContains_iff]
  rw [this]; rfl

theorem quickDelete_member {s : Server F G1 G2} {y : F} {V : G1} (h : y ∈ s.ids)
    (hV : s.accumulators.getLast? = some V) (hy : y + s.witnessSecretKey ≠ 0) :
    s.quickDelete y = .ok ({ s with
      accumulators := s.accumulators ++ [(y + s.witnessSecretKey)⁻¹ • V]
      allWitnesses := mapErase s.allWitnesses y
      deletions := s.deletions ++ [y] }, some ((y + s.witnessSecretKey)⁻¹ • V)) := by
  unfold quickDelete
  rw [mapContains_iff.2 h, hV, inv!_ne hy]; rfl

theorem quickDelete_panic {s : Server F G1 G2} {y : F} {V : G1} (h : y ∈ s.ids)
    (hV : s.accumulators.getLast? = some V) (hy : y + s.witnessSecretKey = 0) :
    s.quickDelete y = .error .unwrapNone := by
  unfold quickDelete
  rw [mapContains_iff.2 h, hV, hy, inv!_zero]; rfl

/-! ### what a successful step does -/

/-- The facts needed about any successful step. -/
theorem step_cases {s s' : Server F G1 G2} {op : Op F} {r : Option G1} (h : s.step op = .ok (s', r)) :
    (s' = s ∧ r = none ∧ ((∃ y, op = .add y ∧ y ∈ s.ids) ∨
        (∃ y, (op = .delete y ∨ op = .quickDelete y) ∧ y ∉ s.ids))) ∨
    (∃ y V, op = .add y ∧ y ∉ s.ids ∧ s.accumulators.getLast? = some V ∧
      y + s.witnessSecretKey ≠ 0 ∧ r = some ((y + s.witnessSecretKey)⁻¹ • V) ∧
      s' = { s with allUsers := setInsert s.allUsers y,
                    allWitnesses := mapInsert s.allWitnesses y ((y + s.witnessSecretKey)⁻¹ • V) }) ∨
    (∃ y C, op = .delete y ∧ mapGet s.allWitnesses y = some C ∧ r = some C ∧
      s' = { s with
        accumulators := s.accumulators ++ [C]
        allWitnesses := (mapErase s.allWitnesses y).map (fun p => (p.1, (y - p.1)⁻¹ • (p.2 - C)))
        deletions := s.deletions ++ [y] }) ∨
    (∃ y V, op = .quickDelete y ∧ y ∈ s.ids ∧ s.accumulators.getLast? = some V ∧
      y + s.witnessSecretKey ≠ 0 ∧ r = some ((y + s.witnessSecretKey)⁻¹ • V) ∧
      s' = { s with
        accumulators := s.accumulators ++ [(y + s.witnessSecretKey)⁻¹ • V]
        allWitnesses := mapErase s.allWitnesses y
        deletions := s.deletions ++ [y] }) := by
  cases op with
  | add y =>
    by_cases hy : y ∈ s.ids
    · rw [step, add_member hy] at h
      simp only [Except.ok.injEq, Prod.mk.injEq] at h
      exact Or.inl ⟨h.1.symm, h.2.symm, Or.inl ⟨y, rfl, hy⟩⟩
    · cases hV : s.accumulators.getLast? with
      | none =>
        rw [step, add, if_neg (by rwa [mapContains_iff]), hV] at h
        simp [unwrap, bind, Except.bind] at h
      | some V =>
        by_cases h0 : y + s.witnessSecretKey = 0
        · rw [step, add_panic hy hV h0] at h; simp at h
        · rw [step, add_new hy hV h0] at h
          simp only [Except.ok.injEq, Prod.mk.injEq] at h
          exact Or.inr (Or.inl ⟨y, V, rfl, hy, rfl, h0, h.2.symm, h.1.symm⟩)
  | delete y =>
    by_cases hy : y ∈ s.ids
    · obtain ⟨C, hC⟩ := mapGet_some_of_mem hy
      rw [step, delete_member hC] at h
      simp only [Except.ok.injEq, Prod.mk.injEq] at h
      exact Or.inr (Or.inr (Or.inl ⟨y, C, rfl, hC, h.2.symm, h.1.symm⟩))
    · rw [step, delete_nonmember hy] at h
      simp only [Except.ok.injEq, Prod.mk.injEq] at h
      exact Or.inl ⟨h.1.symm, h.2.symm, Or.inr ⟨y, Or.inl rfl, hy⟩⟩
  | quickDelete y =>
    by_cases hy : y ∈ s.ids
    · cases hV : s.accumulators.getLast? with
      | none =>
        rw [step, quickDelete, mapContains_iff.2 hy, hV] at h
        simp [unwrap, bind, Except.bind] at h
      | some V =>
        by_cases h0 : y + s.witnessSecretKey = 0
        · rw [step, quickDelete_panic hy hV h0] at h; simp at h
        · rw [step, quickDelete_member hy hV h0] at h
          simp only [Except.ok.injEq, Prod.mk.injEq] at h
          exact Or.inr (Or.inr (Or.inr ⟨y, V, rfl, hy, rfl, h0, h.2.symm, h.1.symm⟩))
    · rw [step, quickDelete_nonmember hy] at h
      simp only [Except.ok.injEq, Prod.mk.injEq] at h
      exact Or.inl ⟨h.1.symm, h.2.symm, Or.inr ⟨y, Or.inr rfl, hy⟩⟩

/-! ### runs -/

@[simp] theorem run_nil (s : Server F G1 G2) : s.run [] = .ok s := rfl

theorem run_cons_ok {s s' : Server F G1 G2} {op : Op F} {ops : List (Op F)}
    (h : s.run (op :: ops) = .ok s') : ∃ s1 r, s.step op = .ok (s1, r) ∧ s1.run ops = .ok s' := by
  rw [run, List.foldlM_cons] at h
  cases hs : s.step op with
  | error e => rw [hs] at h; simp [bind, Except.bind] at h
  | ok p =>
    rw [hs] at h
    exact ⟨p.1, p.2, rfl, h⟩

theorem run_cons_of {s s1 s' : Server F G1 G2} {op : Op F} {ops : List (Op F)} {r : Option G1}
    (h1 : s.step op = .ok (s1, r)) (h2 : s1.run ops = .ok s') : s.run (op :: ops) = .ok s' := by
  rw [run, List.foldlM_cons, h1]; exact h2

theorem run_append {s s' : Server F G1 G2} {ops ops' : List (Op F)} :
    s.run (ops ++ ops') = .ok s' ↔ ∃ s1, s.run ops = .ok s1 ∧ s1.run ops' = .ok s' := by
  rw [run, List.foldlM_append]
  cases h : s.run ops with
  | error e =>
    rw [run] at h; rw [h]
    simp [bind, Except.bind]
  | ok s1 =>
    rw [run] at h; rw [h]
    constructor
    · intro h'; exact ⟨s1, rfl, h'⟩
    · rintro ⟨s2, h2, h'⟩
      simp only [Except.ok.injEq] at h2
      subst h2; exact h'

/-- invariants are lifted to runs -/
theorem run_inv (P : Server F G1 G2 → Prop) (allowed : Op F → Prop)
    (hstep : ∀ s op s' r, allowed op → P s → s.step op = .ok (s', r) → P s')
    (ops : List (Op F)) (ho : ∀ op ∈ ops, allowed op) {s s' : Server F G1 G2}
    (h : s.run ops = .ok s') (hP : P s) : P s' := by
  induction ops generalizing s with
  | nil => simp only [run_nil, Except.ok.injEq] at h; exact h ▸ hP
  | cons op ops ih =>
    obtain ⟨s1, r, h1, h2⟩ := run_cons_ok h
    exact ih (fun o hm => ho o (by simp [hm])) h2 (hstep s op s1 r (ho op (by simp)) hP h1)

/-- calls that are not `quick_delete` -/
def Op.isQuick : Op F → Bool
  | .quickDelete _ => true
  | _ => false

def Op.isDelete : Op F → Bool
  | .delete _ => true
  | _ => false

/-! ### invariants -/

/-- The public history: the accumulators are those of the deletion log. -/
structure InvA (α : F) (V₀ : G1) (s : Server F G1 G2) : Prop where
  key : s.witnessSecretKey = α
  accs : s.accumulators = (List.range (s.deletions.length + 1)).map
    (fun i => accAfter α V₀ (s.deletions.take i))
  noneg : -α ∉ s.deletions
  idsne : ∀ y ∈ s.ids, y + α ≠ 0

/-- and every stored witness is valid for the current accumulator -/
structure InvW (α : F) (V₀ : G1) (s : Server F G1 G2) : Prop extends InvA α V₀ s where
  wits : ∀ p ∈ s.allWitnesses, (p.1 + α) • p.2 = accAfter α V₀ s.deletions

theorem InvA.last {α : F} {V₀ : G1} {s : Server F G1 G2} (h : InvA α V₀ s) :
    s.accumulators.getLast? = some (accAfter α V₀ s.deletions) := by
  rw [h.accs, List.range_succ, List.map_append]
  simp

theorem InvA.length {α : F} {V₀ : G1} {s : Server F G1 G2} (h : InvA α V₀ s) :
    s.accumulators.length = s.deletions.length + 1 := by
  rw [h.accs]; simp

theorem InvA.get {α : F} {V₀ : G1} {s : Server F G1 G2} (h : InvA α V₀ s) (i : Nat)
    (hi : i ≤ s.deletions.length) :
    s.accumulators[i]? = some (accAfter α V₀ (s.deletions.take i)) := by
  rw [h.accs]; simp [Nat.lt_succ_of_le hi]

theorem accAfter_snoc (α : F) (V₀ : G1) (l : List F) (y : F) :
    accAfter α V₀ (l ++ [y]) = (y + α)⁻¹ • accAfter α V₀ l := by
  unfold accAfter
  rw [prodPlus_append, prodPlus_cons, prodPlus_nil, mul_one, mul_comm, mul_inv, mul_smul]

theorem accAfter_append (α : F) (V₀ : G1) (l l' : List F) :
    accAfter α V₀ (l ++ l') = accAfter α (accAfter α V₀ l) l' := by
  unfold accAfter
  rw [prodPlus_append, mul_comm, mul_inv, mul_smul]

theorem accs_snoc (α : F) (V₀ : G1) (l : List F) (y : F) :
    (List.range (l.length + 1)).map (fun i => accAfter α V₀ (l.take i)) ++ [accAfter α V₀ (l ++ [y])]
      = (List.range ((l ++ [y]).length + 1)).map (fun i => accAfter α V₀ ((l ++ [y]).take i)) := by
  rw [List.length_append, List.length_singleton, List.range_succ (n := l.length + 1), List.map_append]
  congr 1
  · apply List.map_congr_left
    intro i hi
    rw [List.mem_range] at hi
    rw [List.take_append_of_le_length (by omega)]
  · simp only [List.map_cons, List.map_nil]
    rw [List.take_of_length_le (by simp)]

theorem invW_new (params : AccParams G1 G2) (α sM v : F) :
    InvW α (v • params.p1) (Server.new params α sM v) := by
  refine ⟨⟨rfl, ?_, ?_, ?_⟩, ?_⟩ <;> simp [Server.new, accAfter, ids]

theorem ids_insert {s : Server F G1 G2} {y z : F} {C : G1} :
    z ∈ (mapInsert s.allWitnesses y C).map (·.1) ↔ z = y ∨ z ∈ s.ids := by
  simp only [mapInsert, List.map_cons, List.mem_cons, mapErase_keys, List.mem_filter, ids]
  by_cases h : z = y <;> simp [h]

theorem ids_erase {s : Server F G1 G2} {y z : F} :
    z ∈ (mapErase s.allWitnesses y).map (·.1) ↔ z ∈ s.ids ∧ z ≠ y := by
  rw [mapErase_keys, List.mem_filter, ids]; simp

theorem ids_erase_map {s : Server F G1 G2} {y z : F} (f : F × G1 → G1) :
    z ∈ ((mapErase s.allWitnesses y).map (fun p => (p.1, f p))).map (·.1) ↔ z ∈ s.ids ∧ z ≠ y := by
  rw [List.map_map]
  exact ids_erase

/-- `InvA` is kept by `add` and `quick_delete` -/
theorem invA_step {α : F} {V₀ : G1} {s s' : Server F G1 G2} {op : Op F} {r : Option G1}
    (ho : op.isDelete = false) (hI : InvA α V₀ s) (h : s.step op = .ok (s', r)) : InvA α V₀ s' := by
  rcases step_cases h with ⟨rfl, -, -⟩ | ⟨y, V, rfl, hy, hV, h0, -, rfl⟩ |
    ⟨y, C, rfl, hC, -, rfl⟩ | ⟨y, V, rfl, hy, hV, h0, -, rfl⟩
  · exact hI
  · refine ⟨hI.key, hI.accs, hI.noneg, ?_⟩
    intro z hz
    rcases ids_insert.1 hz with rfl | hz
    · rwa [hI.key] at h0
    · exact hI.idsne z hz
  · simp [Op.isDelete] at ho
  · rw [hI.last] at hV
    obtain rfl := (Option.some.inj hV).symm
    refine ⟨hI.key, ?_, ?_, ?_⟩
    · simp only
      rw [hI.key, ← accAfter_snoc, hI.accs]
      exact accs_snoc α V₀ s.deletions y
    · simp only [List.mem_append, List.mem_singleton, not_or]
      refine ⟨hI.noneg, ?_⟩
      intro e
      rw [hI.key, ← e] at h0
      exact h0 (by ring)
    · intro z hz
      exact hI.idsne z (ids_erase.1 hz).1

/-- `InvW` is kept by `add` and `delete` -/
theorem invW_step {α : F} {V₀ : G1} {s s' : Server F G1 G2} {op : Op F} {r : Option G1}
    (ho : op.isQuick = false) (hI : InvW α V₀ s) (h : s.step op = .ok (s', r)) : InvW α V₀ s' := by
  rcases step_cases h with ⟨rfl, -, -⟩ | ⟨y, V, rfl, hy, hV, h0, -, rfl⟩ |
    ⟨y, C, rfl, hC, -, rfl⟩ | ⟨y, V, rfl, hy, hV, h0, -, rfl⟩
  · exact hI
  · refine ⟨invA_step (op := .add y) rfl hI.toInvA h, ?_⟩
    rw [hI.last] at hV
    obtain rfl := (Option.some.inj hV).symm
    intro p hp
    rcases mem_mapInsert.1 hp with rfl | ⟨hp, -⟩
    · simp only
      rw [hI.key] at h0 ⊢
      rw [smul_smul, mul_inv_cancel₀ h0, one_smul]
    · exact hI.wits p hp
  · have hCw := hI.wits _ (mapGet_mem hC)
    simp only at hCw
    have hyid : y ∈ s.ids := List.mem_map.2 ⟨_, mapGet_mem hC, rfl⟩
    have hy0 := hI.idsne y hyid
    have hC' : C = accAfter α V₀ (s.deletions ++ [y]) := by
      rw [accAfter_snoc, ← hCw, smul_smul, inv_mul_cancel₀ hy0, one_smul]
    refine ⟨⟨hI.key, ?_, ?_, ?_⟩, ?_⟩
    · simp only
      rw [hC', hI.accs]
      exact accs_snoc α V₀ s.deletions y
    · simp only [List.mem_append, List.mem_singleton, not_or]
      refine ⟨hI.noneg, ?_⟩
      intro e
      rw [← e] at hy0
      exact hy0 (by ring)
    · intro z hz
      exact hI.idsne z ((ids_erase_map _).1 hz).1
    · intro p hp
      simp only [List.mem_map] at hp
      obtain ⟨q, hq, rfl⟩ := hp
      obtain ⟨hq1, hq2⟩ := mem_mapErase.1 hq
      have hw := hI.wits q hq1
      have hne : y - q.1 ≠ 0 := sub_ne_zero.2 (Ne.symm hq2)
      simp only
      rw [← hC', smul_comm, smul_sub, hw, ← hCw, ← sub_smul, smul_smul]
      rw [show (y - q.1)⁻¹ * (y + α - (q.1 + α)) = 1 by field_simp; ring, one_smul]
  · simp [Op.isQuick] at ho

end Server
end Allo
