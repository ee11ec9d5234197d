import Verif.Lemmas.Batch
import Verif.Lemmas.Pairing
import Mathlib.Tactic.NormNum
import Mathlib.Algebra.BigOperators.Group.List.Lemmas

/-!
# C01–C11: accumulator, membership and non-membership witnesses (`src/accumulator`)
-/

set_option linter.unusedSectionVars false

namespace Allo
open Spec

section
variable {F G1 G2 GT : Type} [Field F] [DecidableEq F] [AddCommGroup G1] [Module F G1]
  [AddCommGroup G2] [Module F G2] [AddCommGroup GT] [Module F GT] [DecidableEq GT]

/-! ## C01 -/

/-- C01: `verify` accepts exactly when `(y + sk) * C = V`. -/
theorem C01_verify_iff (E : Pairing F G1 G2 GT) (C V : G1) (y sk : F) :
    mwVerify E C y (publicKey E sk) V = true ↔ IsWitness sk V y C :=
  mwVerify_iff E C V y sk

/-- C01: for every element other than `-sk` exactly one witness value verifies. -/
theorem C01_unique (E : Pairing F G1 G2 GT) (V : G1) (y sk : F) (h : y ≠ -sk) :
    ∃! C : G1, mwVerify E C y (publicKey E sk) V = true := by
  have h' : y + sk ≠ 0 := fun h0 => h (eq_neg_of_add_eq_zero_left h0)
  refine ⟨(y + sk)⁻¹ • V, ?_, ?_⟩
  · show mwVerify E ((y + sk)⁻¹ • V) y (publicKey E sk) V = true
    rw [mwVerify_iff, smul_smul, mul_inv_cancel₀ h', one_smul]
  · intro C hC
    have hC : (y + sk) • C = V := (mwVerify_iff E C V y sk).1 hC
    rw [← hC, smul_smul, inv_mul_cancel₀ h', one_smul]

example : mwVerify (Pairing.field ℚ) 2 3 (publicKey (Pairing.field ℚ) 4) 14 = true := by
  rw [C01_verify_iff]; norm_num [IsWitness]

/-! ## C02 -/

/-- C02: `new` returns `Some` of a verifying witness for every accumulator and every element
other than `-sk` — nothing is assumed about `y` having been added. -/
theorem C02_new (E : Pairing F G1 G2 GT) (V : G1) (y sk : F) (h : y + sk ≠ 0) :
    ∃ w, mwNew y V sk = .ok (some w) ∧ mwVerify E w y (publicKey E sk) V = true := by
  have h' : sk + y ≠ 0 := by rwa [add_comm]
  refine ⟨(sk + y)⁻¹ • V, ?_, ?_⟩
  · simp [mwNew, accRemove, inv!_ne h', bind, Except.bind, pure, Except.pure]
  · rw [mwVerify_iff, smul_smul, add_comm y, mul_inv_cancel₀ h', one_smul]

/-- C02: it panics exactly when `y + sk = 0`, and never returns `None`. -/
theorem C02_panic (V : G1) (y sk : F) :
    ((∃ e, mwNew y V sk = .error e) ↔ y + sk = 0) ∧ mwNew y V sk ≠ .ok none := by
  rw [add_comm]
  by_cases h : sk + y = 0
  · simp [mwNew, accRemove, h, bind, Except.bind]
  · simp [mwNew, accRemove, inv!_ne h, h, bind, Except.bind, pure, Except.pure]

/-- C02, consequence: a witness is issued, and verifies, for an element that is not in the set. -/
theorem C02_nonmember (E : Pairing F G1 G2 GT) (S : List F) (y sk : F) (h : y + sk ≠ 0)
    (_hy : y ∉ S) :
    ∃ w, mwNew y (accWithElements E sk S) sk = .ok (some w) ∧
      mwVerify E w y (publicKey E sk) (accWithElements E sk S) = true :=
  C02_new E _ y sk h

example : (5 : ℚ) + 4 ≠ 0 ∧ (5 : ℚ) ∉ [1, 2] := by norm_num

/-! ## C03 -/

/-- C03: add then remove restores the accumulator (panics only for `-sk`). -/
theorem C03_add_remove (V : G1) (sk y : F) (h : y ≠ -sk) :
    accRemove (accAdd V sk y) sk y = .ok V := by
  have h' : sk + y ≠ 0 := fun h0 => h (eq_neg_of_add_eq_zero_right h0)
  simp [accRemove, accAdd, inv!_ne h', bind, Except.bind, pure, Except.pure, smul_smul,
    inv_mul_cancel₀ h']

/-- C03: remove then add restores the accumulator. -/
theorem C03_remove_add (V V' : G1) (sk y : F) (h : accRemove V sk y = .ok V') :
    accAdd V' sk y = V := by
  by_cases h' : sk + y = 0
  · simp [accRemove, h', bind, Except.bind] at h
  · simp [accRemove, inv!_ne h', bind, Except.bind, pure, Except.pure] at h
    rw [accAdd, ← h, smul_smul, mul_inv_cancel₀ h', one_smul]

/-- C03: additions commute, removals commute, additions commute with removals. -/
theorem C03_commute (V : G1) (sk a b : F) :
    accAdd (accAdd V sk a) sk b = accAdd (accAdd V sk b) sk a ∧
    (accRemove V sk a >>= fun W => accRemove W sk b) = (accRemove V sk b >>= fun W => accRemove W sk a) ∧
    accRemove (accAdd V sk a) sk b = (accRemove V sk b).map (fun W => accAdd W sk a) := by
  refine ⟨?_, ?_, ?_⟩
  · simp only [accAdd, smul_smul, mul_comm]
  · by_cases ha' : sk + a = 0 <;> by_cases hb' : sk + b = 0
    · simp [accRemove, ha', hb', bind, Except.bind]
    · simp [accRemove, ha', inv!_ne hb', bind, Except.bind, pure, Except.pure]
    · simp [accRemove, hb', inv!_ne ha', bind, Except.bind, pure, Except.pure]
    · simp [accRemove, inv!_ne ha', inv!_ne hb', bind, Except.bind, pure, Except.pure, smul_smul,
        mul_comm]
  · by_cases hb' : sk + b = 0
    · simp [accRemove, hb', bind, Except.bind, Except.map]
    · simp [accRemove, accAdd, inv!_ne hb', bind, Except.bind, pure, Except.pure, smul_smul,
        mul_comm, Except.map]

/-- C03: `add_elements` is folding `add`; `with_elements` is folding `add` from the generator. -/
theorem C03_add_elements (E : Pairing F G1 G2 GT) (V : G1) (sk : F) (m : List F) :
    accAddElements V sk m = m.foldl (fun V y => accAdd V sk y) V ∧
    accWithElements E sk m = m.foldl (fun V y => accAdd V sk y) E.g1 := by
  have key : ∀ V : G1, batchAdditions sk m • V = m.foldl (fun V y => accAdd V sk y) V := by
    intro V
    rw [batchAdditions_eq]
    induction m generalizing V with
    | nil => simp
    | cons a m ih =>
      rw [List.foldl_cons, ← ih, accAdd, smul_smul, prodPlus_cons]
      congr 1; ring
  exact ⟨key V, key E.g1⟩

/-- C03: `with_elements` fills a default accumulator; without elements it is the default accumulator. -/
theorem C03_default (E : Pairing F G1 G2 GT) (sk : F) (m : List F) :
    accWithElements E sk m = accAddElements (accDefault E) sk m ∧ accWithElements E sk [] = accDefault E := by
  refine ⟨rfl, ?_⟩
  rw [(C03_add_elements E (accDefault E) sk []).2]
  rfl

/-- C03: `remove_elements` is folding `remove`. -/
theorem C03_remove_elements (V : G1) (sk : F) (m : List F) :
    accRemoveElements V sk m = m.foldlM (fun V y => accRemove V sk y) V := by
  unfold accRemoveElements
  induction m generalizing V with
  | nil =>
    rw [batchDeletions_ok (by simp)]
    simp [bind, Except.bind, pure, Except.pure]
  | cons a m ih =>
    rw [List.foldlM_cons]
    by_cases ha : sk + a = 0
    · have : -sk ∈ a :: m := by simp [eq_neg_of_add_eq_zero_right ha]
      simp [batchDeletions_err this, accRemove, ha, bind, Except.bind]
    · rw [accRemove, inv!_ne ha]
      simp only [bind, Except.bind, pure, Except.pure]
      have ha' : -sk ≠ a := fun h => ha (by rw [← h]; ring)
      by_cases hm : -sk ∈ m
      · have h2 := ih ((sk + a)⁻¹ • V)
        rw [batchDeletions_err hm] at h2
        rw [batchDeletions_err (by simp [hm]), ← h2]
        rfl
      · have h2 := ih ((sk + a)⁻¹ • V)
        rw [batchDeletions_ok hm] at h2
        rw [batchDeletions_ok (by simp [hm, ha']), ← h2]
        simp only [bind, Except.bind, pure, Except.pure, prodPlus_cons, smul_smul]
        rw [mul_inv, add_comm a, mul_comm (sk + a)⁻¹]

/-- C03: the order of the listed elements does not matter. -/
theorem C03_order (E : Pairing F G1 G2 GT) (V : G1) (sk : F) (m m' : List F) (h : m.Perm m') :
    accAddElements V sk m = accAddElements V sk m' ∧
    accWithElements E sk m = accWithElements E sk m' ∧
    accRemoveElements V sk m = accRemoveElements V sk m' := by
  have key : batchAdditions sk m = batchAdditions sk m' := by
    rw [batchAdditions_eq, batchAdditions_eq]
    exact (h.map _).prod_eq
  simp only [accAddElements, accWithElements, accRemoveElements, batchDeletions, key, and_self]

/-- C03: removing a list undoes adding it. -/
theorem C03_add_remove_elements (V : G1) (sk : F) (m : List F) (h : -sk ∉ m) :
    accRemoveElements (accAddElements V sk m) sk m = .ok V := by
  have : prodPlus sk m ≠ 0 := by rwa [Ne, prodPlus_eq_zero]
  simp [accRemoveElements, accAddElements, batchDeletions_ok h, batchAdditions_eq, bind,
    Except.bind, pure, Except.pure, smul_smul, inv_mul_cancel₀ this]

/-- C03: exact panic conditions. -/
theorem C03_panic (V : G1) (sk y : F) (m : List F) :
    ((∃ e, accRemove V sk y = .error e) ↔ y = -sk) ∧
    ((∃ e, accRemoveElements V sk m = .error e) ↔ -sk ∈ m) := by
  constructor
  · by_cases h : sk + y = 0
    · simp [accRemove, bind, Except.bind, eq_neg_of_add_eq_zero_right h]
    · have : y ≠ -sk := fun h0 => h (by rw [h0]; ring)
      simp [accRemove, inv!_ne h, bind, Except.bind, pure, Except.pure, this]
  · by_cases h : -sk ∈ m
    · simp [accRemoveElements, batchDeletions_err h, h, bind, Except.bind]
    · simp [accRemoveElements, batchDeletions_ok h, h, bind, Except.bind, pure, Except.pure]

/-- C03: the assigning variants compute the same values as the pure ones. -/
theorem C03_assign (V : G1) (sk y : F) (m a d : List F) :
    accAddAssign V sk y = accAdd V sk y ∧ accRemoveAssign V sk y = accRemove V sk y ∧
    accAddElementsAssign V sk m = accAddElements V sk m ∧
    accRemoveElementsAssign V sk m = accRemoveElements V sk m ∧
    accUpdateAssign V sk a d = accUpdate V sk a d :=
  ⟨rfl, rfl, rfl, rfl, rfl⟩

/-- C03: the accumulator computed by `update` is that of `add_elements` then `remove_elements`. -/
theorem C03_update_acc (V : G1) (sk : F) (a d : List F) :
    (accUpdate V sk a d).map (·.1) = accRemoveElements (accAddElements V sk a) sk d := by
  by_cases h : -sk ∈ d
  · simp [accUpdate_err V sk a d h, accRemoveElements, batchDeletions_err h, Except.map, bind,
      Except.bind]
  · obtain ⟨cs, h1, -, -⟩ := accUpdate_ok V sk a d h
    simp [h1, accRemoveElements, accAddElements, batchDeletions_ok h, Except.map, bind, Except.bind,
      pure, Except.pure, batchAdditions_eq, smul_smul, mul_comm]

example : (7 : ℚ) ≠ -4 ∧ (-4 : ℚ) ∉ [1, 2, 2] := by norm_num

/-! ## C04, C05 -/

theorem coeffs_empty {V V' : G1} {sk : F} {A D : List F} {cs : List G1}
    (h : accUpdate V sk A D = .ok (V', cs)) :
    -sk ∉ D ∧ V' = (prodPlus sk A * (prodPlus sk D)⁻¹) • V ∧ (cs = [] → A = [] ∧ D = []) ∧
      ∀ y, (y + sk) • polyVal y cs
        = (prodPlus sk A * (prodPlus sk D)⁻¹ * prodMinus y D - prodMinus y A) • V := by
  by_cases hD : -sk ∈ D
  · rw [accUpdate_err V sk A D hD] at h; simp at h
  · obtain ⟨cs', h1, h2, h3⟩ := accUpdate_ok V sk A D hD
    rw [h1] at h
    simp only [Except.ok.injEq, Prod.mk.injEq] at h
    obtain ⟨rfl, rfl⟩ := h
    refine ⟨hD, rfl, ?_, h3⟩
    rintro rfl
    simp at h2
    have := h2.symm
    constructor <;> apply List.length_eq_zero_iff.1 <;> omega

/-- algebraic core of C04 and C09 -/
theorem batch_core {V V' C : G1} {sk y d : F} {P : G1} {A D : List F} {cs : List G1}
    (hw : (y + sk) • C + d • P = V) (hu : accUpdate V sk A D = .ok (V', cs)) (hy : y ∉ D) :
    (y + sk) • mwBatchUpdate C y A D cs + (d * (prodMinus y A * (prodMinus y D)⁻¹)) • P = V' := by
  obtain ⟨-, hV', hc, hp⟩ := coeffs_empty hu
  have hD : prodMinus y D ≠ 0 := by rwa [Ne, prodMinus_eq_zero]
  have hp := hp y
  rw [mwBatchUpdate_eq C y A D cs hy hc, hV', smul_add, smul_comm (y + sk) (prodMinus y D)⁻¹, hp]
  have hC : (y + sk) • C = V - d • P := by rw [← hw]; abel
  rw [smul_comm (y + sk), hC, smul_smul, smul_sub, smul_smul]
  have : (prodMinus y D)⁻¹ * (prodPlus sk A * (prodPlus sk D)⁻¹ * prodMinus y D - prodMinus y A)
      = prodPlus sk A * (prodPlus sk D)⁻¹ - prodMinus y A * (prodMinus y D)⁻¹ := by
    field_simp
  rw [this]
  module

/-- C04: a batch update keeps a verifying witness verifying (unless `y` itself is deleted). -/
theorem C04_batch_update (E : Pairing F G1 G2 GT) (C V V' : G1) (sk y : F) (A D : List F)
    (cs : List G1) (hw : mwVerify E C y (publicKey E sk) V = true)
    (hu : accUpdate V sk A D = .ok (V', cs)) (hy : y ∉ D) :
    mwVerify E (mwBatchUpdate C y A D cs) y (publicKey E sk) V' = true := by
  rw [mwVerify_iff] at *
  have := batch_core (P := (0 : G1)) (d := 0) (by simpa using hw) hu hy
  simpa using this

/-- C04: `update` itself panics exactly when `-sk` is listed for deletion. -/
theorem C04_update_panics (V : G1) (sk : F) (A D : List F) :
    (∃ e, accUpdate V sk A D = .error e) ↔ -sk ∈ D := by
  by_cases h : -sk ∈ D
  · simp [accUpdate_err V sk A D h, h]
  · obtain ⟨cs, h1, -⟩ := accUpdate_ok V sk A D h
    simp [h1, h]

example : ∃ V' cs, accUpdate (14 : ℚ) (4 : ℚ) [1, 1, 2] [5] = .ok (V', cs) ∧ (3 : ℚ) ∉ [(5 : ℚ)] ∧
    mwVerify (Pairing.field ℚ) 2 3 (publicKey (Pairing.field ℚ) 4) 14 = true := by
  obtain ⟨cs, h, -⟩ := accUpdate_ok (14 : ℚ) (4 : ℚ) [1, 1, 2] [5] (by norm_num)
  exact ⟨_, cs, h, by norm_num, by rw [C01_verify_iff]; norm_num [IsWitness]⟩

/-- C05: if `y` was removed, `evaluate_delta` says so and the batch update leaves the witness alone. -/
theorem C05_removed_unchanged (C : G1) (y : F) (A D : List F) (cs : List G1) (hy : y ∈ D) :
    evaluateDelta y A D cs = .error "element was removed" ∧ mwBatchUpdate C y A D cs = C := by
  have := evaluateDelta_removed y A D cs hy
  exact ⟨this, by simp [mwBatchUpdate, this]⟩

/-- C05: conversely, `evaluate_delta` reports "element was removed" only if `y` is in `deletions`. -/
theorem C05_error_iff (y : F) (A D : List F) (cs : List G1) :
    evaluateDelta y A D cs = .error "element was removed" ↔ y ∈ D := by
  constructor
  · intro h
    by_contra hy
    by_cases hc : cs = []
    · have hD : prodMinus y D ≠ 0 := by rwa [Ne, prodMinus_eq_zero]
      simp [evaluateDelta, dad_eq, invert?_ne hD, hc, pg1Eval] at h
    · simp [evaluateDelta_ok y A D cs hy hc] at h
  · exact evaluateDelta_removed y A D cs

/-- C05: the unchanged witness verifies against the new accumulator only if it equals the old one. -/
theorem C05_removed_rejected (E : Pairing F G1 G2 GT) (C V V' : G1) (sk y : F) (A D : List F)
    (cs : List G1) (hw : mwVerify E C y (publicKey E sk) V = true) (hy : y ∈ D) :
    mwVerify E (mwBatchUpdate C y A D cs) y (publicKey E sk) V' = true ↔ V' = V := by
  rw [(C05_removed_unchanged C y A D cs hy).2]
  rw [mwVerify_iff] at *
  rw [hw]
  exact eq_comm

/-! ## C06, C07 -/

/-- C06: `multi_batch_update` is the sequence of `batch_update`s. An entry without coefficients must
have no changes (every entry produced by `Accumulator::update` is of this kind, `coeffs_empty`). -/
theorem C06_multi_eq_sequence (C : G1) (y : F) (deltas : List (List F × List F × List G1))
    (hy : ∀ t ∈ deltas, y ∉ t.2.1) (hc : ∀ t ∈ deltas, t.2.2 = [] → t.1 = [] ∧ t.2.1 = []) :
    mwMultiBatchUpdate C y deltas
      = deltas.foldl (fun C t => mwBatchUpdate C y t.1 t.2.1 t.2.2) C :=
  mwMultiBatch_eq_fold y deltas C hy hc

/-- C06 for non-membership witnesses. -/
theorem C06_multi_eq_sequence_non (w : NonMembershipWitness F G1) (y : F)
    (deltas : List (List F × List F × List G1))
    (hy : ∀ t ∈ deltas, y ∉ t.2.1) (hc : ∀ t ∈ deltas, t.2.2 = [] → t.1 = [] ∧ t.2.1 = []) :
    nmwMultiBatchUpdate w y deltas
      = deltas.foldl (fun w t => nmwBatchUpdate w y t.1 t.2.1 t.2.2) w :=
  nmwMultiBatch_eq_fold y deltas w hy hc

/-- C06: if some entry deletes `y`, both kinds of witness are left unchanged. -/
theorem C06_removed_unchanged (C : G1) (w : NonMembershipWitness F G1) (y : F)
    (deltas : List (List F × List F × List G1)) (hy : ∃ t ∈ deltas, y ∈ t.2.1) :
    mwMultiBatchUpdate C y deltas = C ∧ nmwMultiBatchUpdate w y deltas = w := by
  have := evaluateDeltas_removed y deltas hy
  exact ⟨by simp [mwMultiBatchUpdate, this], by simp [nmwMultiBatchUpdate, this]⟩

/-- The condition on empty coefficient lists in C06 cannot be dropped: with an addition but no
coefficients, `batch_update` skips the entry and `multi_batch_update` scales by it. -/
theorem C06_empty_coefficients_differ :
    let d : List (List ℚ × List ℚ × List ℚ) := [([5], [], []), ([], [], [1])]
    mwMultiBatchUpdate (1 : ℚ) (0 : ℚ) d ≠ d.foldl (fun C t => mwBatchUpdate C 0 t.1 t.2.1 t.2.2) 1 := by
  norm_num [mwMultiBatchUpdate, mwBatchUpdate, evaluateDeltas, evaluateDelta, dad, pg1Eval, pg1Add,
    pg1Scale, invert?, mwApplyDelta, List.range, List.range.loop]

/-- Test harness of C07: a history of `Accumulator::update` calls; collects what the issuer
publishes, `(additions, deletions, coefficients)` of each call. -/
def updateHistory (sk : F) : G1 → List (List F × List F) →
    Rust (G1 × List (List F × List F × List G1))
  | V, [] => pure (V, [])
  | V, (a, d) :: rest => do
    let (V', cs) ← accUpdate V sk a d
    let (V'', l) ← updateHistory sk V' rest
    pure (V'', (a, d, cs) :: l)

theorem updateHistory_cons {sk : F} {V V'' : G1} {a d rest l}
    (h : updateHistory sk V ((a, d) :: rest) = .ok (V'', l)) :
    ∃ V' cs l', accUpdate V sk a d = .ok (V', cs) ∧ updateHistory sk V' rest = .ok (V'', l') ∧
      l = (a, d, cs) :: l' := by
  simp only [updateHistory, bind, Except.bind, pure, Except.pure] at h
  cases h1 : accUpdate V sk a d with
  | error e => simp [h1] at h
  | ok p =>
    simp only [h1] at h
    cases h2 : updateHistory sk p.1 rest with
    | error e => simp [h2] at h
    | ok q =>
      simp only [h2, Except.ok.injEq, Prod.mk.injEq] at h
      obtain ⟨rfl, rfl⟩ := h
      exact ⟨p.1, p.2, q.2, rfl, h2, rfl⟩

theorem history_fold {sk y : F} {P : G1} (hist : List (List F × List F)) {V V' : G1}
    {l : List (List F × List F × List G1)} (w : NonMembershipWitness F G1)
    (hw : (y + sk) • w.c + w.d • P = V) (hh : updateHistory sk V hist = .ok (V', l))
    (hy : ∀ b ∈ hist, y ∉ b.2) :
    (let w' := l.foldl (fun w t => nmwBatchUpdate w y t.1 t.2.1 t.2.2) w
     (y + sk) • w'.c + w'.d • P = V' ∧
       (w'.d = 0 ↔ w.d = 0 ∨ ∃ b ∈ hist, y ∈ b.1)) ∧
    (∀ t ∈ l, y ∉ t.2.1) ∧ (∀ t ∈ l, t.2.2 = [] → t.1 = [] ∧ t.2.1 = []) := by
  induction hist generalizing V l w with
  | nil =>
    simp only [updateHistory, pure, Except.pure, Except.ok.injEq, Prod.mk.injEq] at hh
    obtain ⟨rfl, rfl⟩ := hh
    simpa using hw
  | cons b rest ih =>
    obtain ⟨a, d⟩ := b
    obtain ⟨V1, cs, l', h1, h2, rfl⟩ := updateHistory_cons hh
    have hyd : y ∉ d := hy (a, d) (by simp)
    have hc := (coeffs_empty h1).2.2.1
    have core := batch_core hw h1 hyd
    have hnb := nmwBatchUpdate_eq w y a d cs hyd hc
    have := ih (nmwBatchUpdate w y a d cs) (by rw [hnb]; exact core) h2
      (fun b hb => hy b (by simp [hb]))
    obtain ⟨⟨i1, i2⟩, i3, i4⟩ := this
    refine ⟨⟨by simpa using i1, ?_⟩, ?_, ?_⟩
    · simp only [List.foldl_cons]
      rw [i2, hnb]
      have hD : prodMinus y d ≠ 0 := by rwa [Ne, prodMinus_eq_zero]
      simp only [mul_eq_zero, inv_eq_zero, hD, or_false, prodMinus_eq_zero, List.mem_cons,
        exists_eq_or_imp, or_assoc]
    · intro t ht
      rcases List.mem_cons.1 ht with rfl | ht
      · exact hyd
      · exact i3 t ht
    · intro t ht
      rcases List.mem_cons.1 ht with rfl | ht
      · exact hc
      · exact i4 t ht

theorem fold_nbatch_c {y : F} (l : List (List F × List F × List G1)) (C : G1) (d : F)
    (hy : ∀ t ∈ l, y ∉ t.2.1) (hc : ∀ t ∈ l, t.2.2 = [] → t.1 = [] ∧ t.2.1 = []) :
    (l.foldl (fun w t => nmwBatchUpdate w y t.1 t.2.1 t.2.2) ⟨C, d⟩).c
      = l.foldl (fun C t => mwBatchUpdate C y t.1 t.2.1 t.2.2) C := by
  rw [fold_nbatch_closed y l ⟨C, d⟩ hy hc]

/-- C07: one `multi_batch_update` over any history of accumulator updates (none deleting `y`) yields
a witness for the final accumulator; so does applying `batch_update` for each. -/
theorem C07_history (E : Pairing F G1 G2 GT) (C V V' : G1) (sk y : F)
    (hist : List (List F × List F)) (published : List (List F × List F × List G1))
    (hw : mwVerify E C y (publicKey E sk) V = true)
    (hh : updateHistory sk V hist = .ok (V', published)) (hy : ∀ b ∈ hist, y ∉ b.2) :
    mwVerify E (mwMultiBatchUpdate C y published) y (publicKey E sk) V' = true ∧
    mwVerify E (published.foldl (fun C t => mwBatchUpdate C y t.1 t.2.1 t.2.2) C) y
      (publicKey E sk) V' = true := by
  rw [mwVerify_iff] at hw
  obtain ⟨⟨h1, -⟩, h3, h4⟩ := history_fold (P := (0 : G1)) hist ⟨C, 0⟩ (by simpa using hw) hh hy
  have h2 : mwVerify E (published.foldl (fun C t => mwBatchUpdate C y t.1 t.2.1 t.2.2) C) y
      (publicKey E sk) V' = true := by
    rw [mwVerify_iff, ← fold_nbatch_c published C 0 h3 h4]
    simpa using h1
  exact ⟨by rw [mwMultiBatch_eq_fold y published C h3 h4]; exact h2, h2⟩

/-- C07 for non-membership witnesses; the scalar stays non-zero as long as `y` is never added. -/
theorem C07_history_non (E : Pairing F G1 G2 GT) (w : NonMembershipWitness F G1) (V V' : G1)
    (sk y : F) (hist : List (List F × List F)) (published : List (List F × List F × List G1))
    (hw : nmwVerify E w y (publicKey E sk) V = true)
    (hh : updateHistory sk V hist = .ok (V', published)) (hy : ∀ b ∈ hist, y ∉ b.2) :
    nmwVerify E (nmwMultiBatchUpdate w y published) y (publicKey E sk) V' = true ∧
    nmwVerify E (published.foldl (fun w t => nmwBatchUpdate w y t.1 t.2.1 t.2.2) w) y
      (publicKey E sk) V' = true ∧
    ((nmwMultiBatchUpdate w y published).d = 0 ↔ w.d = 0 ∨ ∃ b ∈ hist, y ∈ b.1) := by
  rw [nmwVerify_iff] at hw
  obtain ⟨⟨h1, h2⟩, h3, h4⟩ := history_fold hist w hw hh hy
  rw [nmwMultiBatch_eq_fold y published w h3 h4, nmwVerify_iff]
  exact ⟨h1, h1, h2⟩

/-- C07: the history itself panics only when `-sk` is deleted; so the hypotheses are met by every
history without it. -/
theorem C07_history_total (sk : F) (V : G1) (hist : List (List F × List F))
    (h : ∀ b ∈ hist, -sk ∉ b.2) : ∃ r, updateHistory sk V hist = .ok r := by
  induction hist generalizing V with
  | nil => exact ⟨_, rfl⟩
  | cons b rest ih =>
    obtain ⟨a, d⟩ := b
    obtain ⟨cs, h1, -⟩ := accUpdate_ok V sk a d (h (a, d) (by simp))
    obtain ⟨r, hr⟩ := ih ((prodPlus sk a * (prodPlus sk d)⁻¹) • V) (fun b hb => h b (by simp [hb]))
    exact ⟨_, by simp only [updateHistory, h1, bind, Except.bind, hr]; rfl⟩

example : ∃ r, updateHistory (4 : ℚ) (14 : ℚ) [([1, 2], []), ([], []), ([6], [1, 2])] = .ok r :=
  C07_history_total _ _ _ (by norm_num)

/-! ## C08, C09, C10 -/

theorem fold_pair (l : List F) (a b sk y : F) :
    (l.map (fun e => (e + sk, e - y))).foldl (fun (a : F × F) y => (a.1 * y.1, a.2 * y.2)) (a, b)
      = (a * prodPlus sk l, b * prodMinus y l) := by
  induction l generalizing a b with
  | nil => simp
  | cons c l ih =>
    simp only [List.map_cons, List.foldl_cons, ih, prodPlus_cons, prodMinus_cons]
    simp only [mul_assoc]

theorem nmwNew_eq (E : Pairing F G1 G2 GT) (y : F) (S : List F) (sk : F) :
    nmwNew E y S sk =
      if y ∈ S then .ok none
      else if y + sk = 0 then .error .unwrapNone
      else .ok (some ⟨((prodPlus sk S - prodMinus y S) * (y + sk)⁻¹) • E.g1, prodMinus y S⟩) := by
  unfold nmwNew
  by_cases h : y ∈ S
  · simp [h, pure, Except.pure]
  · by_cases h2 : y + sk = 0
    · simp [h, h2, bind, Except.bind]
    · simp [h, h2, inv!_ne h2, fold_pair, bind, Except.bind, pure, Except.pure]

/-- C08: `new` returns `None` exactly when `y` is in the set. -/
theorem C08_none_iff (E : Pairing F G1 G2 GT) (y : F) (S : List F) (sk : F) :
    nmwNew E y S sk = .ok none ↔ y ∈ S := by
  rw [nmwNew_eq]
  by_cases h : y ∈ S
  · simp [h]
  · by_cases h2 : y + sk = 0 <;> simp [h, h2]

/-- C08: otherwise it returns a witness with `d ≠ 0` that verifies against the accumulator of the set. -/
theorem C08_some (E : Pairing F G1 G2 GT) (y : F) (S : List F) (sk : F) (h : y ∉ S)
    (h2 : y ≠ -sk) :
    ∃ w, nmwNew E y S sk = .ok (some w) ∧ w.d ≠ 0 ∧
      nmwVerify E w y (publicKey E sk) (accWithElements E sk S) = true := by
  have h2' : y + sk ≠ 0 := fun h0 => h2 (eq_neg_of_add_eq_zero_left h0)
  refine ⟨_, by rw [nmwNew_eq, if_neg h, if_neg h2'], ?_, ?_⟩
  · simpa [prodMinus_eq_zero] using h
  · rw [nmwVerify_iff, accWithElements, batchAdditions_eq, smul_smul, ← add_smul]
    congr 1
    field_simp
    ring

/-- C08: it panics exactly when `y` is not in the set and `y = -sk`. -/
theorem C08_panic (E : Pairing F G1 G2 GT) (y : F) (S : List F) (sk : F) :
    (∃ e, nmwNew E y S sk = .error e) ↔ y ∉ S ∧ y = -sk := by
  rw [nmwNew_eq, eq_neg_iff_add_eq_zero]
  by_cases h : y ∈ S
  · simp [h]
  · by_cases h2 : y + sk = 0 <;> simp [h, h2]

example : (3 : ℚ) ∉ [(1 : ℚ), 2] ∧ (3 : ℚ) ≠ -4 := by norm_num

/-- C09: a batch-updated non-membership witness verifies against the new accumulator; its scalar
is zero only if it was before or `y` was added. -/
theorem C09_batch_update_non (E : Pairing F G1 G2 GT) (w : NonMembershipWitness F G1) (V V' : G1)
    (sk y : F) (A D : List F) (cs : List G1) (hw : nmwVerify E w y (publicKey E sk) V = true)
    (hu : accUpdate V sk A D = .ok (V', cs)) (hy : y ∉ D) :
    nmwVerify E (nmwBatchUpdate w y A D cs) y (publicKey E sk) V' = true ∧
    ((nmwBatchUpdate w y A D cs).d = 0 ↔ w.d = 0 ∨ y ∈ A) := by
  rw [nmwVerify_iff] at *
  have hc := (coeffs_empty hu).2.2.1
  rw [nmwBatchUpdate_eq w y A D cs hy hc]
  refine ⟨batch_core hw hu hy, ?_⟩
  have hD : prodMinus y D ≠ 0 := by rwa [Ne, prodMinus_eq_zero]
  simp [hD, prodMinus_eq_zero]

/-- C09: across a deletion of `y` itself the witness is left unchanged. -/
theorem C09_deleted_unchanged (w : NonMembershipWitness F G1) (y : F) (A D : List F)
    (cs : List G1) (hy : y ∈ D) : nmwBatchUpdate w y A D cs = w := by
  simp [nmwBatchUpdate, evaluateDelta_removed y A D cs hy]

example : nmwVerify (Pairing.field ℚ) ⟨1, 7⟩ 3 (publicKey (Pairing.field ℚ) 4) 14 = true ∧
    ∃ r, accUpdate (14 : ℚ) (4 : ℚ) [1] [2] = .ok r := by
  refine ⟨by rw [nmwVerify_iff]; norm_num [Pairing.field], ?_⟩
  obtain ⟨cs, h, -⟩ := accUpdate_ok (14 : ℚ) (4 : ℚ) [1] [2] (by norm_num)
  exact ⟨_, h⟩

/-- C10, what holds: `verify` accepts exactly when the equation `(y+sk)*C + d*P = V` holds. The
full property (members are never accepted) fails, see `C10_member_accepted`. -/
theorem C10_verify_iff (E : Pairing F G1 G2 GT) (w : NonMembershipWitness F G1) (V : G1)
    (y sk : F) :
    nmwVerify E w y (publicKey E sk) V = true ↔ IsNonWitness sk E.g1 V y w.c w.d :=
  nmwVerify_iff E w V y sk

/-- C10 fails: for every set and every member `y` (other than `-sk`), some non-membership witness
verifies — the membership witness with `d = 0`. -/
theorem C10_member_accepted (E : Pairing F G1 G2 GT) (S : List F) (y sk : F) (_hy : y ∈ S)
    (C : G1) (hC : mwVerify E C y (publicKey E sk) (accWithElements E sk S) = true) :
    nmwVerify E ⟨C, 0⟩ y (publicKey E sk) (accWithElements E sk S) = true := by
  rw [mwVerify_iff] at hC
  rw [nmwVerify_iff]
  simpa using hC

/-- C10 fails: a non-membership witness batch-updated across the addition of its own element still
verifies (with `d = 0`), although `y` is now a member. -/
theorem C10_update_across_own_addition (E : Pairing F G1 G2 GT) (w : NonMembershipWitness F G1)
    (V V' : G1) (sk y : F) (A D : List F) (cs : List G1)
    (hw : nmwVerify E w y (publicKey E sk) V = true)
    (hu : accUpdate V sk A D = .ok (V', cs)) (hyA : y ∈ A) (hy : y ∉ D) :
    nmwVerify E (nmwBatchUpdate w y A D cs) y (publicKey E sk) V' = true ∧
      (nmwBatchUpdate w y A D cs).d = 0 := by
  have := C09_batch_update_non E w V V' sk y A D cs hw hu hy
  exact ⟨this.1, this.2.2 (Or.inr hyA)⟩

/-- C10 fails with `update`, too: it turns the witness into `(V_old, 0)`, which verifies. -/
theorem C10_single_update_across_own_addition (E : Pairing F G1 G2 GT)
    (w : NonMembershipWitness F G1) (V : G1) (sk y : F) :
    nmwUpdate w y V (accAdd V sk y) [y] [] = ⟨V, 0⟩ ∧
    nmwVerify E ⟨V, 0⟩ y (publicKey E sk) (accAdd V sk y) = true := by
  refine ⟨by simp [nmwUpdate, nmwUpdateDels, nmwUpdateAdds], ?_⟩
  rw [nmwVerify_iff, accAdd, add_comm y]; simp

/-- C10: the concrete counterexample (set `{3}`, `sk = 4`). -/
theorem C10_counterexample :
    ∃ (w : NonMembershipWitness ℚ ℚ), (3 : ℚ) ∈ [(3 : ℚ)] ∧
      nmwVerify (Pairing.field ℚ) w 3 (publicKey (Pairing.field ℚ) 4)
        (accWithElements (Pairing.field ℚ) 4 [3]) = true := by
  refine ⟨⟨1, 0⟩, by simp, ?_⟩
  rw [nmwVerify_iff]
  norm_num [accWithElements, batchAdditions, Pairing.field]

/-! ## C11 -/

/-- C11: one addition. -/
theorem C11_single_add (E : Pairing F G1 G2 GT) (C V : G1) (sk y a : F)
    (hw : mwVerify E C y (publicKey E sk) V = true) :
    mwVerify E (mwUpdate C y V (accAdd V sk a) [a] []) y (publicKey E sk) (accAdd V sk a) = true := by
  rw [mwVerify_iff] at *
  simp only [mwUpdate, mwUpdateDels, mwUpdateAdds, List.foldl_cons, List.foldl_nil, accAdd]
  rw [smul_add, smul_comm, hw]
  module

/-- C11: one deletion, of another element. -/
theorem C11_single_delete (E : Pairing F G1 G2 GT) (C V V' : G1) (sk y d : F)
    (hw : mwVerify E C y (publicKey E sk) V = true) (hV : accRemove V sk d = .ok V') (hd : d ≠ y) :
    mwVerify E (mwUpdate C y V V' [] [d]) y (publicKey E sk) V' = true := by
  rw [mwVerify_iff] at *
  have hV := C03_remove_add V V' sk d hV
  have h0 : d - y ≠ 0 := sub_ne_zero.2 hd
  simp only [mwUpdate, mwUpdateDels, mwUpdateAdds, List.foldl_nil, invert?_ne h0]
  rw [smul_comm, smul_sub, hw, ← hV, accAdd, ← sub_smul, smul_smul]
  rw [show (d - y)⁻¹ * (sk + d - (y + sk)) = 1 by field_simp; ring, one_smul]

/-- C11: a deletion of `y` itself leaves the witness unchanged. -/
theorem C11_own_delete (C V V' : G1) (w : NonMembershipWitness F G1) (y : F) (A : List F) :
    mwUpdate C y V V' A [y] = C ∧ nmwUpdate w y V V' A [y] = w := by
  simp [mwUpdate, mwUpdateDels, nmwUpdate, nmwUpdateDels]

/-- C11 for non-membership: one addition. -/
theorem C11_single_add_non (E : Pairing F G1 G2 GT) (w : NonMembershipWitness F G1) (V : G1)
    (sk y a : F) (hw : nmwVerify E w y (publicKey E sk) V = true) :
    nmwVerify E (nmwUpdate w y V (accAdd V sk a) [a] []) y (publicKey E sk) (accAdd V sk a) = true ∧
    ((nmwUpdate w y V (accAdd V sk a) [a] []).d = 0 ↔ w.d = 0 ∨ a = y) := by
  rw [nmwVerify_iff] at *
  simp only [nmwUpdate, nmwUpdateDels, nmwUpdateAdds, List.foldl_cons, List.foldl_nil, accAdd]
  constructor
  · have hC : (y + sk) • w.c = V - w.d • E.g1 := by rw [← hw]; abel
    rw [smul_add, smul_comm, hC]
    module
  · simp [sub_eq_zero]

/-- C11 for non-membership: one deletion, of another element. -/
theorem C11_single_delete_non (E : Pairing F G1 G2 GT) (w : NonMembershipWitness F G1) (V V' : G1)
    (sk y d : F) (hw : nmwVerify E w y (publicKey E sk) V = true)
    (hV : accRemove V sk d = .ok V') (hd : d ≠ y) :
    nmwVerify E (nmwUpdate w y V V' [] [d]) y (publicKey E sk) V' = true ∧
    ((nmwUpdate w y V V' [] [d]).d = 0 ↔ w.d = 0) := by
  rw [nmwVerify_iff] at *
  have hV := C03_remove_add V V' sk d hV
  have h0 : d - y ≠ 0 := sub_ne_zero.2 hd
  simp only [nmwUpdate, nmwUpdateDels, nmwUpdateAdds, List.foldl_nil, invert?_ne h0]
  constructor
  · have hC : (y + sk) • w.c = V - w.d • E.g1 := by rw [← hw]; abel
    rw [smul_comm, smul_sub, hC, ← hV, accAdd]
    have : (d - y)⁻¹ • ((sk + d) • V' - w.d • E.g1 - (y + sk) • V') + (w.d * (d - y)⁻¹) • E.g1
        = ((d - y)⁻¹ * (d - y)) • V' := by module
    rw [this, inv_mul_cancel₀ h0, one_smul]
  · simp [h0]

/-- A caller that performs changes one at a time (`true`: add, `false`: remove) and calls `update` of the
membership witness after each of them. -/
def followSingle (y sk : F) : List (Bool × F) → G1 → G1 → Rust (G1 × G1)
  | [], V, C => .ok (V, C)
  | (true, a) :: cs, V, C => followSingle y sk cs (accAdd V sk a) (mwUpdate C y V (accAdd V sk a) [a] [])
  | (false, d) :: cs, V, C => do
    let V' ← accRemove V sk d
    followSingle y sk cs V' (mwUpdate C y V V' [] [d])

/-- The same for a non-membership witness. -/
def followSingleNon (y sk : F) : List (Bool × F) → G1 → NonMembershipWitness F G1 →
    Rust (G1 × NonMembershipWitness F G1)
  | [], V, w => .ok (V, w)
  | (true, a) :: cs, V, w => followSingleNon y sk cs (accAdd V sk a) (nmwUpdate w y V (accAdd V sk a) [a] [])
  | (false, d) :: cs, V, w => do
    let V' ← accRemove V sk d
    followSingleNon y sk cs V' (nmwUpdate w y V V' [] [d])

/-- C11: called once per change, `update` follows any history that does not delete `y`. -/
theorem C11_sequence (E : Pairing F G1 G2 GT) (y sk : F) (cs : List (Bool × F)) (hy : (false, y) ∉ cs)
    (C V C' V' : G1) (hw : mwVerify E C y (publicKey E sk) V = true)
    (h : followSingle y sk cs V C = .ok (V', C')) : mwVerify E C' y (publicKey E sk) V' = true := by
  induction cs generalizing V C with
  | nil => simp only [followSingle, Except.ok.injEq, Prod.mk.injEq] at h; rw [← h.1, ← h.2]; exact hw
  | cons c cs ih =>
    obtain ⟨b, a⟩ := c
    have hy' : (false, y) ∉ cs := fun h => hy (List.mem_cons_of_mem _ h)
    cases b with
    | true => exact ih hy' _ _ (C11_single_add E C V sk y a hw) h
    | false =>
      cases hV : accRemove V sk a with
      | error e => simp [followSingle, hV, bind, Except.bind] at h
      | ok V1 =>
        simp only [followSingle, hV, bind, Except.bind] at h
        refine ih hy' _ _ (C11_single_delete E C V V1 sk y a hw hV ?_) h
        rintro rfl
        exact hy List.mem_cons_self

/-- C11: likewise for non-membership witnesses; the scalar becomes zero exactly when `y` is added. -/
theorem C11_sequence_non (E : Pairing F G1 G2 GT) (y sk : F) (cs : List (Bool × F)) (hy : (false, y) ∉ cs)
    (w w' : NonMembershipWitness F G1) (V V' : G1) (hw : nmwVerify E w y (publicKey E sk) V = true)
    (h : followSingleNon y sk cs V w = .ok (V', w')) :
    nmwVerify E w' y (publicKey E sk) V' = true ∧ (w'.d = 0 ↔ w.d = 0 ∨ (true, y) ∈ cs) := by
  induction cs generalizing V w with
  | nil =>
    simp only [followSingleNon, Except.ok.injEq, Prod.mk.injEq] at h
    rw [← h.1, ← h.2]; exact ⟨hw, by simp⟩
  | cons c cs ih =>
    obtain ⟨b, a⟩ := c
    have hy' : (false, y) ∉ cs := fun h => hy (List.mem_cons_of_mem _ h)
    cases b with
    | true =>
      obtain ⟨h1, h2⟩ := C11_single_add_non E w V sk y a hw
      obtain ⟨g1, g2⟩ := ih hy' _ _ h1 h
      refine ⟨g1, ?_⟩
      rw [g2, h2, List.mem_cons, Prod.mk.injEq, eq_comm (a := y)]
      tauto
    | false =>
      cases hV : accRemove V sk a with
      | error e => simp [followSingleNon, hV, bind, Except.bind] at h
      | ok V1 =>
        simp only [followSingleNon, hV, bind, Except.bind] at h
        have hne : a ≠ y := by
          rintro rfl
          exact hy List.mem_cons_self
        obtain ⟨h1, h2⟩ := C11_single_delete_non E w V V1 sk y a hw hV hne
        obtain ⟨g1, g2⟩ := ih hy' _ _ h1 h
        refine ⟨g1, ?_⟩
        rw [g2, h2, List.mem_cons, Prod.mk.injEq]
        simp

/-- the hypotheses of `C11_sequence` can be met: add 5, remove 2, add 7 with `y = 3`, `sk = 4` -/
example : ∃ V' C' : ℚ, mwVerify (Pairing.field ℚ) 2 3 (publicKey (Pairing.field ℚ) 4) 14 = true ∧
    followSingle (3 : ℚ) 4 [(true, 5), (false, 2), (true, 7)] (14 : ℚ) 2 = .ok (V', C') := by
  exact ⟨231, 33, by decide +kernel, by decide +kernel⟩

/-- C11: when `y` is deleted together with elements listed before it, `update` does not leave the witness alone
(as `batch_update` does, C05) but returns in the middle of the loop with a changed one, whatever the
additions. -/
theorem C11_own_delete_later (C V V' : G1) (y d : F) (A : List F) (hd : d ≠ y) (cs : List G1) :
    mwUpdate C y V V' A [d, y] = (d - y)⁻¹ • (C - V') ∧ mwBatchUpdate C y A [d, y] cs = C := by
  have h1 : d - y ≠ 0 := sub_ne_zero.2 hd
  refine ⟨by simp [mwUpdate, mwUpdateDels, invert?_ne h1], ?_⟩
  exact (C05_removed_unchanged C y A [d, y] cs (by simp)).2

/-- C11, two deletions: the updated witness is valid exactly when `d₂ + sk = 1` or the accumulator
is the identity (`y ≠ -sk`): in general it is not. -/
theorem C11_two_deletions (E : Pairing F G1 G2 GT) (C V V' : G1) (sk y d₁ d₂ : F)
    (hw : mwVerify E C y (publicKey E sk) V = true) (hV : accRemoveElements V sk [d₁, d₂] = .ok V')
    (hy : y ≠ -sk) (h₁ : d₁ ≠ y) (h₂ : d₂ ≠ y) :
    mwVerify E (mwUpdate C y V V' [] [d₁, d₂]) y (publicKey E sk) V' = true ↔
      d₂ + sk = 1 ∨ V = 0 := by
  rw [mwVerify_iff] at *
  have hs : y + sk ≠ 0 := fun h0 => hy (eq_neg_of_add_eq_zero_left h0)
  have h1 : d₁ - y ≠ 0 := sub_ne_zero.2 h₁
  have h2 : d₂ - y ≠ 0 := sub_ne_zero.2 h₂
  have hno : -sk ∉ [d₁, d₂] := by
    intro hm
    rw [accRemoveElements, batchDeletions_err hm] at hV
    simp [bind, Except.bind] at hV
  have hpp : prodPlus sk [d₁, d₂] ≠ 0 := by rwa [Ne, prodPlus_eq_zero]
  have hVV : V = ((d₁ + sk) * (d₂ + sk)) • V' := by
    rw [accRemoveElements, batchDeletions_ok hno] at hV
    simp only [bind, Except.bind, pure, Except.pure, Except.ok.injEq] at hV
    rw [← hV, smul_smul]
    simp only [prodPlus_cons, prodPlus_nil, mul_one] at hpp ⊢
    rw [mul_inv_cancel₀ hpp, one_smul]
  have hV0 : V = 0 ↔ V' = 0 := by
    rw [hVV, smul_eq_zero]
    simp only [prodPlus_cons, prodPlus_nil, mul_one] at hpp
    simp [hpp]
  simp only [mwUpdate, mwUpdateDels, mwUpdateAdds, List.foldl_nil, invert?_ne h1, invert?_ne h2]
  rw [hV0, ← sub_eq_zero]
  have : (y + sk) • (d₂ - y)⁻¹ • ((d₁ - y)⁻¹ • (C - V') - V') - V'
      = ((d₂ - y)⁻¹ * (d₁ - y)⁻¹ * (y + sk) * (d₂ + sk - 1)) • V' := by
    have e : (y + sk) • (d₂ - y)⁻¹ • ((d₁ - y)⁻¹ • (C - V') - V')
        = ((d₂ - y)⁻¹ * (d₁ - y)⁻¹) • ((y + sk) • C) - ((d₂ - y)⁻¹ * (d₁ - y)⁻¹ * (y + sk)) • V'
          - ((d₂ - y)⁻¹ * (y + sk)) • V' := by module
    rw [e, hw, hVV]
    have e2 : ((d₂ - y)⁻¹ * (d₁ - y)⁻¹) • ((d₁ + sk) * (d₂ + sk)) • V'
        - ((d₂ - y)⁻¹ * (d₁ - y)⁻¹ * (y + sk)) • V' - ((d₂ - y)⁻¹ * (y + sk)) • V' - V'
        = ((d₂ - y)⁻¹ * (d₁ - y)⁻¹ * ((d₁ + sk) * (d₂ + sk)) - (d₂ - y)⁻¹ * (d₁ - y)⁻¹ * (y + sk)
          - (d₂ - y)⁻¹ * (y + sk) - 1) • V' := by module
    rw [e2]
    congr 1
    field_simp
    ring
  rw [this, smul_eq_zero]
  simp [h1, h2, hs, sub_eq_zero]

/-- C11, two additions: valid exactly when `a₁ + sk = 1` or the accumulator is the identity. -/
theorem C11_two_additions (E : Pairing F G1 G2 GT) (C V : G1) (sk y a₁ a₂ : F)
    (hw : mwVerify E C y (publicKey E sk) V = true) (hy : y ≠ -sk) :
    mwVerify E (mwUpdate C y V (accAddElements V sk [a₁, a₂]) [a₁, a₂] []) y (publicKey E sk)
        (accAddElements V sk [a₁, a₂]) = true ↔ a₁ + sk = 1 ∨ V = 0 := by
  rw [mwVerify_iff] at *
  have hs : y + sk ≠ 0 := fun h0 => hy (eq_neg_of_add_eq_zero_left h0)
  simp only [mwUpdate, mwUpdateDels, mwUpdateAdds, List.foldl_cons, List.foldl_nil, accAddElements,
    batchAdditions_eq, prodPlus_cons, prodPlus_nil]
  rw [← sub_eq_zero]
  have : (y + sk) • ((a₂ - y) • ((a₁ - y) • C + V) + V) - ((a₁ + sk) * ((a₂ + sk) * 1)) • V
      = ((y + sk) * (1 - (a₁ + sk))) • V := by
    have e : (y + sk) • ((a₂ - y) • ((a₁ - y) • C + V) + V)
        = ((a₂ - y) * (a₁ - y)) • ((y + sk) • C) + ((y + sk) * (a₂ - y)) • V + (y + sk) • V := by
      module
    rw [e, hw]
    module
  rw [this, smul_eq_zero]
  simp only [mul_eq_zero, hs, false_or, sub_eq_zero, eq_comm (a := (1 : F))]

/-- C11, one addition and one deletion in the same call: valid exactly in degenerate cases. -/
theorem C11_mixed (E : Pairing F G1 G2 GT) (C V V' : G1) (sk y a d : F)
    (hw : mwVerify E C y (publicKey E sk) V = true)
    (hV : accRemove (accAdd V sk a) sk d = .ok V') (hy : y ≠ -sk) (hd : d ≠ y) :
    mwVerify E (mwUpdate C y V V' [a] [d]) y (publicKey E sk) V' = true ↔
      a = d ∨ 1 + y = a + d + sk ∨ V = 0 := by
  rw [mwVerify_iff] at *
  have hs : y + sk ≠ 0 := fun h0 => hy (eq_neg_of_add_eq_zero_left h0)
  have h1 : d - y ≠ 0 := sub_ne_zero.2 hd
  have hds : sk + d ≠ 0 := by
    intro h0
    simp [accRemove, h0, bind, Except.bind] at hV
  obtain ⟨W, rfl⟩ : ∃ W, V = (sk + d) • W :=
    ⟨(sk + d)⁻¹ • V, by rw [smul_smul, mul_inv_cancel₀ hds, one_smul]⟩
  have hV' : V' = (sk + a) • W := by
    simp only [accRemove, accAdd, inv!_ne hds, bind, Except.bind, pure, Except.pure,
      Except.ok.injEq] at hV
    rw [← hV]
    rw [smul_smul, smul_smul]
    congr 1
    field_simp
  have hW : (sk + d) • W = 0 ↔ W = 0 := by simp [hds]
  simp only [mwUpdate, mwUpdateDels, mwUpdateAdds, List.foldl_cons, List.foldl_nil, invert?_ne h1]
  rw [hW, ← sub_eq_zero]
  have : (y + sk) • ((a - y) • (d - y)⁻¹ • (C - V') + (sk + d) • W) - V'
      = ((d - y)⁻¹ * (y + sk) * (a - d) * (1 + y - (a + d + sk))) • W := by
    have e : (y + sk) • ((a - y) • (d - y)⁻¹ • (C - V') + (sk + d) • W)
        = ((a - y) * (d - y)⁻¹) • ((y + sk) • C) - ((y + sk) * (a - y) * (d - y)⁻¹) • V'
          + ((y + sk) * (sk + d)) • W := by module
    rw [e, hw, hV']
    have e2 : ((a - y) * (d - y)⁻¹) • (sk + d) • W - ((y + sk) * (a - y) * (d - y)⁻¹) • (sk + a) • W
          + ((y + sk) * (sk + d)) • W - (sk + a) • W
        = (((a - y) * (d - y)⁻¹) * (sk + d) - ((y + sk) * (a - y) * (d - y)⁻¹) * (sk + a)
          + ((y + sk) * (sk + d)) - (sk + a)) • W := by module
    rw [e2]
    congr 1
    field_simp
    ring
  rw [this, smul_eq_zero]
  simp [h1, hs, sub_eq_zero, or_assoc]

/-- C11: a concrete two-deletion counterexample. -/
theorem C11_counterexample :
    mwVerify (Pairing.field ℚ) 2 3 (publicKey (Pairing.field ℚ) 4) 14 = true ∧
    accRemoveElements (14 : ℚ) (4 : ℚ) [1, 2] = .ok (14 / 30) ∧
    mwVerify (Pairing.field ℚ) (mwUpdate (2 : ℚ) (3 : ℚ) 14 (14 / 30) [] [1, 2]) 3
      (publicKey (Pairing.field ℚ) 4) (14 / 30) = false := by
  have h1 : mwVerify (Pairing.field ℚ) 2 3 (publicKey (Pairing.field ℚ) 4) 14 = true := by
    rw [C01_verify_iff]; norm_num [IsWitness]
  have h2 : accRemoveElements (14 : ℚ) (4 : ℚ) [1, 2] = .ok (14 / 30) := by
    rw [accRemoveElements, batchDeletions_ok (by norm_num)]
    norm_num [bind, Except.bind, pure, Except.pure]
  refine ⟨h1, h2, ?_⟩
  rw [Bool.eq_false_iff, Ne, C11_two_deletions _ _ _ _ _ _ _ _ h1 h2 (by norm_num) (by norm_num)
    (by norm_num)]
  norm_num

end
end Allo
