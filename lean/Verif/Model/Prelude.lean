import Mathlib.Algebra.Field.Basic
import Mathlib.Algebra.Module.LinearMap.Basic
import Mathlib.Algebra.Algebra.Bilinear

/-!
# Prelude of the model

The pieces of Rust and of the `blsful` dependency that the code in `/repo/src` is written in.

* `Rust α` : the outcome of a Rust expression: a value, or an abort (panic / no return).
* `Pairing` : what is assumed of `blsful::inner_types` (prime-order groups and the pairing).
-/

namespace Allo

/-- How a Rust computation can fail to return a value.
`unwrapNone`: `unwrap`/`expect` on an empty `Option`/`CtOption`.
`index`: slice or `Vec` index out of bounds.
`overflow`: `usize` subtraction below zero (overflow checks on).
`divZero`: integer division by zero.
`diverge`: the loop has not finished within the fuel given to it. -/
inductive Abort where
  | unwrapNone
  | index
  | overflow
  | divZero
  | diverge
  deriving DecidableEq, Repr

/-- Outcome of a Rust expression that may panic. -/
abbrev Rust (α : Type) := Except Abort α

/-- `v[i]` on a slice or `Vec`: panics when out of bounds. -/
def idx {α : Type} (l : List α) (i : Nat) : Rust α :=
  match l[i]? with
  | some a => .ok a
  | none => .error .index

/-- `Option::unwrap`, `Option::expect`, `CtOption::unwrap`. -/
def unwrap {α : Type} : Option α → Rust α
  | some a => .ok a
  | none => .error .unwrapNone

/-- `a - b` on `usize`, overflow checks on. -/
def usub (a b : Nat) : Rust Nat :=
  if b ≤ a then .ok (a - b) else .error .overflow

/-- `a / b` on `usize`. -/
def udiv (a b : Nat) : Rust Nat :=
  if b = 0 then .error .divZero else .ok (a / b)

/-- `Scalar::invert` (blsful, returns a `CtOption`): `None` exactly on zero. -/
def invert? {F : Type} [Field F] [DecidableEq F] (x : F) : Option F :=
  if x = 0 then none else some x⁻¹

/-- `x.invert().unwrap()` / `.expect("to not be zero")`. -/
def inv! {F : Type} [Field F] [DecidableEq F] (x : F) : Rust F :=
  unwrap (invert? x)

/-- A `while` loop run for at most `fuel` tests of its condition. `diverge` means the loop was
still running when the fuel was used up; a loop that never ends gives `diverge` for every fuel. -/
def whileFuel {σ : Type} (cond : σ → Rust Bool) (body : σ → Rust σ) : Nat → σ → Rust σ
  | 0, _ => .error .diverge
  | fuel + 1, s => do
      if ← cond s then
        let s' ← body s
        whileFuel cond body fuel s'
      else
        pure s

/-- What is assumed of the curve dependency (`blsful::inner_types`): `G1`, `G2`, `Gt` are
vector spaces over the scalar field, `e` is the pairing `pairing(&g1, &g2)` (Gt is written
additively in the code, too), bilinear and non-degenerate, the generators are not the
identity and `G1` is generated by `GENERATOR`. `P * s` in Rust is `s • P` here. -/
structure Pairing (F G1 G2 GT : Type) [Field F] [AddCommGroup G1] [Module F G1]
    [AddCommGroup G2] [Module F G2] [AddCommGroup GT] [Module F GT] where
  /-- the pairing -/
  e : G1 →ₗ[F] G2 →ₗ[F] GT
  /-- `G1Projective::GENERATOR` -/
  g1 : G1
  /-- `G2Projective::GENERATOR` -/
  g2 : G2
  nondeg : ∀ P Q, e P Q = 0 → P = 0 ∨ Q = 0
  g1_ne : g1 ≠ 0
  g2_ne : g2 ≠ 0
  g1_gen : ∀ P : G1, ∃ r : F, P = r • g1

/-- The assumptions of `Pairing` are satisfiable over every field: multiplication on the field
itself is such a pairing (this is the group "in the exponent"). -/
def Pairing.field (F : Type) [Field F] : Pairing F F F F where
  e := LinearMap.mul F F
  g1 := 1
  g2 := 1
  nondeg P Q h := by simpa using h
  g1_ne := one_ne_zero
  g2_ne := one_ne_zero
  g1_gen P := ⟨P, by simp⟩

end Allo
