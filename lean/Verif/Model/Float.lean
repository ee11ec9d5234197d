import Verif.Model.User
import Mathlib.Data.Int.Log
import Mathlib.Analysis.Real.Sqrt

/-!
# The machine arithmetic of the chunk-size search (src/user.rs:127-135)

The seed is computed in `f64`, the search in `usize`. Here both are modelled with their rounding and their
range.
-/

namespace Allo

/-- Round to the nearest integer, ties to even. -/
noncomputable def roundHalfEven (x : ℝ) : ℤ :=
  if Int.fract x < 1 / 2 then ⌊x⌋
  else if 1 / 2 < Int.fract x then ⌊x⌋ + 1
  else if Even ⌊x⌋ then ⌊x⌋ else ⌊x⌋ + 1

/-- The unit in the last place of binary64 at `x`: 53 significant bits. -/
noncomputable def ulp (x : ℝ) : ℝ := (2 : ℝ) ^ (Int.log 2 x - 52)

/-- IEEE-754 binary64 rounding (round to nearest, ties to even) of a non-negative real number that is neither
too large for binary64 nor subnormal (all numbers in src/user.rs:127 are 0 or between 1 and `2^66`). -/
noncomputable def f64 (x : ℝ) : ℝ := if x = 0 then 0 else roundHalfEven (x / ulp x) * ulp x

/-- `((d as f64) * 2.5).sqrt() as usize`, src/user.rs:127: the conversion, the product and the square root
are rounded, the conversion back truncates. -/
noncomputable def seedF64 (d : Nat) : Nat := ⌊f64 (Real.sqrt (f64 (f64 d * 2.5)))⌋₊

/-- a `usize` value (64 bit): overflow checks on -/
def usize (n : Nat) : Rust Nat := if n < 2 ^ 64 then .ok n else .error .overflow

/-- The test of the loop, src/user.rs:133, `2 * k < 5 * (d + k - 1) / k`, with every intermediate result
in 64 bits. -/
def chunkCond64 (d k : Nat) : Rust Bool := do
  let l ← usize (2 * k)
  let a ← usize (d + k)
  let a ← usub a 1
  let a ← usize (5 * a)
  let q ← udiv a k
  pure (decide (l < q))

/-- The loop, src/user.rs:133-135, with `k += 1` in 64 bits. -/
def chunkSizeFuel64 (fuel d seed : Nat) : Rust Nat :=
  whileFuel (chunkCond64 d) (fun k => usize (k + 1)) fuel seed

end Allo
