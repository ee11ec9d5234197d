import Mathlib.Algebra.Module.Basic
import Mathlib.Algebra.Field.Basic
import Mathlib.Algebra.BigOperators.Group.List.Basic

/-!
# Specification vocabulary

Small definitions, independent of the model, in which the property theorems are stated.
-/

namespace Spec

section
variable {F M : Type} [Field F] [AddCommGroup M] [Module F M]

/-- Value of the polynomial with coefficients `l` (constant term first) at `x`:
`l[0] + x•l[1] + x²•l[2] + …`. The coefficients may be scalars or points. -/
def polyVal (x : F) : List M → M
  | [] => 0
  | a :: l => a + x • polyVal x l

/-- `∏ (v + α)` over a list of elements. -/
def prodPlus (α : F) (l : List F) : F := (l.map (· + α)).prod

/-- `∏ (v - y)` over a list of elements. -/
def prodMinus (y : F) (l : List F) : F := (l.map (· - y)).prod

/-- `C` is a membership witness of `y` in the accumulator `V` under the secret key `α`. -/
def IsWitness (α : F) (V : M) (y : F) (C : M) : Prop := (y + α) • C = V

/-- `(C, d)` satisfies the non-membership equation of `y` in `V` with base point `P`. -/
def IsNonWitness (α : F) (P V : M) (y : F) (C : M) (d : F) : Prop :=
  (y + α) • C + d • P = V

/-- The accumulator after removing the elements of `log` from `V₀`. -/
def accAfter (α : F) (V₀ : M) (log : List F) : M := (prodPlus α log)⁻¹ • V₀

/-- The points `(x, v)` lie on one polynomial of degree less than `t` (with coefficients in `M`). -/
def OnPoly (t : Nat) (pts : List (F × M)) : Prop :=
  ∃ A : List M, A.length = t ∧ ∀ p ∈ pts, p.2 = polyVal p.1 A

end

/-! ### The abstract server: a set of members and a log of deletions -/

section server
variable {F : Type} [DecidableEq F]

/-- What a caller knows: who is a member, the log of successful deletions, who was ever added. -/
structure Registry (F : Type) where
  members : List F
  log : List F
  ever : List F

def Registry.empty : Registry F := ⟨[], [], []⟩

def Registry.add (r : Registry F) (y : F) : Registry F :=
  if y ∈ r.members then r else ⟨y :: r.members, r.log, y :: r.ever⟩

def Registry.delete (r : Registry F) (y : F) : Registry F :=
  if y ∈ r.members then ⟨r.members.filter (· ≠ y), r.log ++ [y], r.ever⟩ else r

end server
end Spec
