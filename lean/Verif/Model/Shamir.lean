import Verif.Model.Prelude

/-!
# Model of the Shamir functions of `src/utils.rs`

The random polynomial coefficients are an argument (`coef k` is the coefficient drawn for degree `k ≥ 1`).
-/

namespace Allo

section
variable {F : Type} [Field F] [DecidableEq F]

/-- `vsss_rs::Polynomial::evaluate(x, threshold)` on `Vec<Scalar>` (dependency; Horner on the
first `threshold` coefficients), used at src/utils.rs:123. -/
def vsssEvaluate (poly : List F) (x : F) (threshold : Nat) : Rust F := do
  let degree ← usub threshold 1
  let out ← idx poly degree
  (List.range degree).reverse.foldlM (fun out i => do
    let a ← idx poly i
    pure (out * x + a)) out

/-- `shamir_share`, src/utils.rs:111-126. `Vec::create(threshold)` is `threshold` zeros (dependency),
so `poly[0] = secret` panics for `threshold = 0`. `Scalar::from((i + 1) as u64)` is the cast. -/
def shamirShare (threshold numShares : Nat) (secret : F) (coef : Nat → F) :
    Rust (List (F × F)) := do
  if threshold = 0 then .error .index
  else
    let poly := secret :: (List.range (threshold - 1)).map (fun k => coef (k + 1))
    (List.range numShares).mapM (fun i => do
      let x : F := ((i + 1 : Nat) : F)
      let s ← vsssEvaluate poly x threshold
      pure (x, s))

/-- The inner loop `for ii in 0..threshold` for coefficient `i` of `shamir_coefficients`,
src/utils.rs:140-148, started at `product`. -/
def shamirCoefficient {T : Type} (threshold : Nat) (shares : List (F × T)) (product : F) (i : Nat) :
    Rust F :=
  (List.range threshold).foldlM (fun c ii => do
    if i = ii then
      let xi ← idx shares i
      let v ← inv! xi.1
      pure (c * v)
    else
      let xii ← idx shares ii
      let xi ← idx shares i
      let v ← inv! (xii.1 - xi.1)
      pure (c * v)) product

/-- The check part of `shamir_coefficients`, src/utils.rs:154-166: the loop carries
`check_coefficients`; entry `i` and entry `0` are modified at step `i`. -/
def shamirChecks {T : Type} (threshold : Nat) (shares : List (F × T)) (product : F)
    (coefficients : List F) : Rust (List F) := do
  let xt ← idx shares threshold
  let x0 ← idx shares 0
  let v0 ← inv! x0.1
  let adjustment := xt.1 * v0
  let _ ← idx coefficients 0
  let checks := coefficients.set 0 (product * x0.1)
  (List.range' 1 (threshold - 1)).foldlM (fun checks i => do
    let xi ← idx shares i
    let v ← inv! (xt.1 - xi.1)
    let checks := checks.modify i (· * (adjustment * (x0.1 - xi.1) * v))
    let v' ← inv! (xi.1 - xt.1)
    let checks := checks.modify 0 (· * v')
    pure checks) checks

/-- `shamir_coefficients`, src/utils.rs:130-171. -/
def shamirCoefficients {T : Type} (threshold : Nat) (shares : List (F × T)) :
    Rust (List F × Option (List F)) := do
  -- `shares[0..threshold]` panics when too short
  if shares.length < threshold then .error .index
  else
    let product := (shares.take threshold).foldl (fun a y => a * y.1) 1
    let coefficients ← (List.range threshold).mapM (shamirCoefficient threshold shares product)
    if shares.length > threshold then
      let checks ← shamirChecks threshold shares product coefficients
      pure (coefficients, some checks)
    else
      pure (coefficients, none)

/-- `shamir_rebuild_scalar`, src/utils.rs:174-198. -/
def shamirRebuildScalar (shares : List (F × F)) (coefficients : List F)
    (checkCoefficients : Option (List F)) : Rust (Option F) := do
  let result ← (List.range coefficients.length).foldlM (fun r i => do
    let s ← idx shares i
    let c ← idx coefficients i
    pure (r + s.2 * c)) 0
  match checkCoefficients with
  | some checks => do
    let threshold := coefficients.length
    let c0 ← idx checks 0
    let st ← idx shares threshold
    let checkResult ← (List.range' 1 (threshold - 1)).foldlM (fun r i => do
      let c ← idx checks i
      let s ← idx shares i
      pure (r + c * s.2)) (c0 * st.2)
    if checkResult = result then pure (some result) else pure none
  | none => pure (some result)

variable {G : Type} [AddCommGroup G] [Module F G] [DecidableEq G]

/-- `shamir_rebuild_point`, src/utils.rs:203-227. -/
def shamirRebuildPoint (shares : List (F × G)) (coefficients : List F)
    (checkCoefficients : Option (List F)) : Rust (Option G) := do
  let result ← (List.range coefficients.length).foldlM (fun r i => do
    let s ← idx shares i
    let c ← idx coefficients i
    pure (r + c • s.2)) 0
  match checkCoefficients with
  | some checks => do
    let threshold := coefficients.length
    let st ← idx shares threshold
    let c0 ← idx checks 0
    let checkResult ← (List.range' 1 (threshold - 1)).foldlM (fun r i => do
      let s ← idx shares i
      let c ← idx checks i
      pure (r + c • s.2)) (c0 • st.2)
    if checkResult = result then pure (some result) else pure none
  | none => pure (some result)

end
end Allo
