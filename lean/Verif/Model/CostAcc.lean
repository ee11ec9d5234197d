import Verif.Model.Cost
import Verif.Model.AccWitness

/-!
# The operations of the accumulator's batch functions

The functions of `Verif.Model.Key` and `Verif.Model.AccWitness`, written again over operations that record themselves
(see `Verif.Model.Cost`). `Verif.Props.CostAcc` proves that they compute the same.
-/

namespace Allo
open Counted

section
variable {M : Type} [Meter M] {F G : Type} [Field F] [DecidableEq F] [AddCommGroup G] [Module F G]

/-- `SecretKey::batch_additions`, src/accumulator/key.rs:49-56. -/
def batchAdditionsC (sk : F) (additions : List F) : CountedM M F :=
  (additions.map (fun v => v + sk)).foldlM (fun a y => fmulC a y) 1

/-- `SecretKey::batch_deletions`, src/accumulator/key.rs:59-61. -/
def batchDeletionsC (sk : F) (deletions : List F) : CountedM M F := do
  let p ← batchAdditionsC sk deletions
  finvC p

/-- `Polynomial *= Scalar`, src/accumulator/utils.rs:231-237. -/
def polyScaleC (self : List F) (rhs : F) : CountedM M (List F) := self.mapM (fun a => fmulC a rhs)

/-- `PolynomialG1 *= Scalar`, src/accumulator/utils.rs:107-113. -/
def pg1ScaleC (self : List G) (rhs : F) : CountedM M (List G) := self.mapM (fun a => pmulC rhs a)

/-- `PolynomialG1 += PolynomialG1`, src/accumulator/utils.rs:92-105. -/
def pg1AddC (self rhs : List G) : CountedM M (List G) :=
  let minLen := min self.length rhs.length
  let self' := if self.length = minLen then self ++ rhs.drop minLen else self
  (List.range minLen).foldlM (fun s i => tick Meter.padd (pure (s.modify i (· + rhs.getD i 0)))) self'

/-- src/accumulator/key.rs:76-81 and 98-103. -/
def linProdC (js : List F) : CountedM M (List F) :=
  js.foldlM (fun poly j => polyMulC poly [j, -1]) [1]

/-- src/accumulator/key.rs:72-84. -/
def vdLoopC (sk : F) (deletions : List F) : CountedM M (List F) :=
  (List.range deletions.length).foldlM (fun vd s => do
    let c ← batchDeletionsC sk (deletions.take (s + 1))
    let poly ← linProdC (deletions.take s)
    let poly ← polyScaleC poly c
    pure (polyAdd vd poly)) []

/-- src/accumulator/key.rs:92-97. -/
def vaFactorC (sk : F) (additions : List F) (s : Nat) : CountedM M F :=
  if s = 0 then pure 1 else batchAdditionsC sk (additions.take s)

/-- src/accumulator/key.rs:90-106. -/
def vaLoopC (sk : F) (additions : List F) : CountedM M (List F) :=
  (List.range additions.length).foldlM (fun va s => do
    let c ← vaFactorC sk additions s
    let poly ← linProdC (additions.drop (s + 1))
    let poly ← polyScaleC poly c
    pure (polyAdd va poly)) []

/-- `SecretKey::create_coefficients`, src/accumulator/key.rs:64-111. -/
def createCoefficientsC (sk : F) (additions deletions : List F) : CountedM M (List F) := do
  let vd ← vdLoopC sk deletions
  let a ← batchAdditionsC sk additions
  let vd ← polyScaleC vd a
  let va ← vaLoopC sk additions
  pure (polySub va vd)

/-- `Accumulator::add_elements`, src/accumulator/acc.rs:167-170 (`with_elements`, 161-164, starts from the generator). -/
def accAddElementsC (V : G) (key : F) (m : List F) : CountedM M G := do
  let y ← batchAdditionsC key m
  pmulC y V

/-- `Accumulator::remove_elements`, src/accumulator/acc.rs:202-205. -/
def accRemoveElementsC (V : G) (key : F) (deletions : List F) : CountedM M G := do
  let v ← batchDeletionsC key deletions
  pmulC v V

/-- `Accumulator::update_assign`, src/accumulator/acc.rs:227-244. -/
def accUpdateAssignC (self : G) (key : F) (additions deletions : List F) : CountedM M (G × List G) := do
  let a ← batchAdditionsC key additions
  let d ← batchDeletionsC key deletions
  let a ← fmulC a d
  let cs ← createCoefficientsC key additions deletions
  let coefficients ← cs.mapM (fun c => pmulC c self)
  let V ← pmulC a self
  pure (V, coefficients)

/-- `MembershipWitness::new`, src/accumulator/witness.rs:59-61, with `Accumulator::remove`, acc.rs:189-192. -/
def mwNewC (value : F) (accumulator : G) (secretKey : F) : CountedM M (Option G) := do
  let v ← finvC (secretKey + value)
  let c ← pmulC v accumulator
  pure (some c)

/-- The loop of src/accumulator/witness.rs:443-452: `aa`, `dd` and the two running products. -/
def deltasFirstC (y : F) (deltas : List (List F × List F × List G)) :
    CountedM M ((List F × List F) × F × F) :=
  deltas.foldlM (fun (st : (List F × List F) × F × F) t => do
    let ta ← dadC t.1 y
    let td ← dadC t.2.1 y
    let accA ← fmulC st.2.1 ta
    let accD ← fmulC st.2.2 td
    pure ((st.1.1 ++ [ta], st.1.2 ++ [td]), accA, accD)) (([], []), 1, 1)

/-- The loop of src/accumulator/witness.rs:460-478. -/
def deltasSecondC (aa dd : List F) (deltas : List (List F × List F × List G)) : CountedM M (List G) :=
  (List.range deltas.length).foldlM (fun poly i => do
    let ddh ← (dd.take i).foldlM (fun a h => fmulC a h) 1
    let dak ← ((aa.take deltas.length).drop (i + 1)).foldlM (fun a k => fmulC a k) 1
    let dak ← fmulC dak ddh
    let pp ← pg1ScaleC (deltas.getD i ([], [], [])).2.2 dak
    pg1AddC poly pp) []

/-- `evaluate_deltas`, src/accumulator/witness.rs:425-489. -/
def evaluateDeltasC (y : F) (deltas : List (List F × List F × List G)) : CountedM M (Except String (Delta F G)) := do
  let (aadd, accA, accD) ← deltasFirstC y deltas
  match ← (tick Meter.finv (pure (invert? accD)) : CountedM M (Option F)) with
  | none => pure (.error "element was removed")
  | some accD => do
    let poly ← deltasSecondC aadd.1 aadd.2 deltas
    let accA ← fmulC accA accD
    match ← pg1EvalC poly y with
    | some v => do
      let p ← pmulC accD v
      pure (.ok { d := accA, p := p })
    | none => pure (.error "polynomial is empty")

/-- `MembershipWitness::multi_batch_update_assign`, src/accumulator/witness.rs:184-194, with `apply_delta_assign`,
94-99. -/
def mwMultiBatchUpdateC (self : G) (y : F) (deltas : List (List F × List F × List G)) : CountedM M G := do
  match ← evaluateDeltasC y deltas with
  | .ok delta => do
    let s ← pmulC delta.d self
    paddC s delta.p
  | .error _ => pure self

/-- The deletion loop of `MembershipWitness::update_assign`, src/accumulator/witness.rs:125-136. -/
def mwUpdateDelsC (y : F) (newAcc : G) : List F → G → CountedM M (G × Bool)
  | [], c => pure (c, true)
  | d :: ds, c => do
    match ← (tick Meter.finv (pure (invert? (d - y))) : CountedM M (Option F)) with
    | none => pure (c, false)
    | some t => do
      let c ← psubC c newAcc
      let c ← pmulC t c
      mwUpdateDelsC y newAcc ds c

/-- `MembershipWitness::update_assign`, src/accumulator/witness.rs:116-144. -/
def mwUpdateC (self : G) (y : F) (oldAcc newAcc : G) (additions deletions : List F) : CountedM M G := do
  match ← mwUpdateDelsC y newAcc deletions self with
  | (c, false) => pure c
  | (c, true) => additions.foldlM (fun c a => do
      let c ← pmulC (a - y) c
      paddC c oldAcc) c

end
end Allo
