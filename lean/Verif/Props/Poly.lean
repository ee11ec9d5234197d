import Verif.Lemmas.Poly
import Mathlib.Tactic.NormNum

/-!
# C12, C13, C14: the public polynomial types and `dad`

Specification: `Spec.polyVal x l` is `l[0] + x•l[1] + x²•l[2] + …` (see `polyVal_eq_sum`).
-/

set_option linter.unusedSectionVars false

namespace Allo
open Spec

section
variable {F M : Type} [Field F] [DecidableEq F] [AddCommGroup M] [Module F M]

/-- The specification `polyVal` is the textbook sum `Σ xⁱ•lᵢ`. -/
theorem polyVal_eq_sum (x : F) (l : List M) :
    polyVal x l = (l.zipIdx.map (fun p => x ^ p.2 • p.1)).sum := by
  suffices h : ∀ k, x ^ k • polyVal x l = ((l.zipIdx k).map (fun p => x ^ p.2 • p.1)).sum by
    simpa using h 0
  induction l with
  | nil => simp
  | cons a l ih =>
    intro k
    simp [← ih, smul_add, pow_succ, mul_smul]

/-- C12: `eval` of a non-empty polynomial is the value of the polynomial, `degree` is `len-1`;
both panic on the empty polynomial. -/
theorem C12_eval_degree (p : List F) (x : F) :
    (p ≠ [] → polyEval p x = .ok (polyVal x p) ∧ polyDegree p = .ok (p.length - 1)) ∧
    (p = [] → (∃ e, polyEval p x = .error e) ∧ (∃ e, polyDegree p = .error e)) := by
  constructor
  · intro h
    exact ⟨polyEval_ok p x h, usub_le (List.length_pos_iff.2 h)⟩
  · rintro rfl
    exact ⟨⟨_, rfl⟩, ⟨_, rfl⟩⟩

/-- C12: `+=`, `-=`, `*=` act on values as `+`, `-`, `*`, at every point. -/
theorem C12_arith (p q : List F) (c x : F) :
    polyVal x (polyAdd p q) = polyVal x p + polyVal x q ∧
    polyVal x (polySub p q) = polyVal x p - polyVal x q ∧
    polyVal x (polyMul p q) = polyVal x p * polyVal x q ∧
    polyVal x (polyScale p c) = polyVal x p * c :=
  ⟨polyAdd_val x p q, polySub_val x p q, polyMul_val x p q, polyScale_val x p c⟩

/-- C12: lengths of the results; the product of two empty polynomials stays empty. -/
theorem C12_lengths (p q : List F) (c : F) :
    (polyAdd p q).length = max p.length q.length ∧
    (polySub p q).length = max p.length q.length ∧
    (polyScale p c).length = p.length ∧
    ((p ≠ [] ∨ q ≠ []) → (polyMul p q).length = p.length + q.length - 1) ∧
    (polyMul ([] : List F) [] = []) :=
  ⟨polyAdd_length p q, polySub_length p q, polyScale_length p c, polyMul_length p q, rfl⟩

/-- C12: hence `eval` after `+=`, `-=`, `*=` is computed from the evaluations, whenever none of the
operands is the empty polynomial. -/
theorem C12_eval_hom (p q : List F) (x a b : F) (hp : polyEval p x = .ok a)
    (hq : polyEval q x = .ok b) :
    polyEval (polyAdd p q) x = .ok (a + b) ∧ polyEval (polySub p q) x = .ok (a - b) ∧
    polyEval (polyMul p q) x = .ok (a * b) := by
  have hne : ∀ {p : List F} {a : F}, polyEval p x = .ok a → p ≠ [] := by
    rintro p a h rfl
    exact absurd h (by simp [polyEval, usub, bind, Except.bind])
  have hp0 := hne hp
  have hq0 := hne hq
  rw [polyEval_ok p x hp0] at hp
  rw [polyEval_ok q x hq0] at hq
  have hpl := List.length_pos_iff.2 hp0
  have hql := List.length_pos_iff.2 hq0
  injection hp with hp
  injection hq with hq
  have h1 : polyAdd p q ≠ [] := by
    rw [← List.length_pos_iff, polyAdd_length]; omega
  have h2 : polySub p q ≠ [] := by
    rw [← List.length_pos_iff, polySub_length]; omega
  have h3 : polyMul p q ≠ [] := by
    rw [← List.length_pos_iff, polyMul_length _ _ (Or.inl hp0)]; omega
  rw [polyEval_ok _ x h1, polyEval_ok _ x h2, polyEval_ok _ x h3, polyAdd_val, polySub_val,
    polyMul_val, hp, hq]
  exact ⟨rfl, rfl, rfl⟩

example : polyEval [1, 2, 3] (2 : ℚ) = .ok 17 ∧ polyEval [5, 1] (2 : ℚ) = .ok 7 := by
  rw [polyEval_ok _ _ (by simp), polyEval_ok _ _ (by simp)]
  norm_num [polyVal]

/-- C13: `evaluate` returns `None` exactly on the empty polynomial, otherwise `Σ xⁱ•Aᵢ`. -/
theorem C13_evaluate (A : List M) (x : F) :
    (pg1Eval A x = none ↔ A = []) ∧ (A ≠ [] → pg1Eval A x = some (polyVal x A)) := by
  rw [pg1Eval_eq]
  by_cases h : A = [] <;> simp [h]

/-- C13: `+=` and `*= scalar` on values, for all lengths. -/
theorem C13_arith (A B : List M) (c x : F) :
    polyVal x (pg1Add A B) = polyVal x A + polyVal x B ∧
    polyVal x (pg1Scale A c) = c • polyVal x A ∧
    (pg1Add A B).length = max A.length B.length ∧ (pg1Scale A c).length = A.length :=
  ⟨pg1Add_val x A B, pg1Scale_val x A c, pg1Add_length A B, pg1Scale_length A c⟩

/-- C14: `dad(values, y)` is the product of the differences `v - y`. -/
theorem C14_dad (values : List F) (y : F) :
    dad values y = (values.map (fun v => v - y)).prod := dad_eq values y

/-- C14: it is zero exactly when `y` occurs in `values`. -/
theorem C14_dad_zero (values : List F) (y : F) : dad values y = 0 ↔ y ∈ values := by
  rw [dad_eq, prodMinus_eq_zero]

end
end Allo
