import Verif.Model.User

/-!
# The group and field operations that are performed

The same functions as in `Verif.Model.Server`, `Verif.Model.Shamir`, `Verif.Model.User` and `Verif.Model.AccWitness`,
written again over operations that record themselves (as numbers or as a sequence): scalar multiplications of points, additions and subtractions of
points, multiplications and inversions in the field. (`Verif.Props.Cost` proves that they compute the same.)
Not counted: field additions, copying, comparing, hash tables, drawing random numbers.
-/

namespace Allo

/-- Numbers of operations. -/
@[ext] structure Ops where
  /-- point times scalar -/
  pmul : Nat := 0
  /-- point plus or minus point -/
  padd : Nat := 0
  /-- scalar times scalar -/
  fmul : Nat := 0
  /-- `invert` of a scalar -/
  finv : Nat := 0
  deriving DecidableEq

namespace Ops

instance : Add Ops := ⟨fun a b => ⟨a.pmul + b.pmul, a.padd + b.padd, a.fmul + b.fmul, a.finv + b.finv⟩⟩
instance : Zero Ops := ⟨⟨0, 0, 0, 0⟩⟩
instance : LE Ops := ⟨fun a b => a.pmul ≤ b.pmul ∧ a.padd ≤ b.padd ∧ a.fmul ≤ b.fmul ∧ a.finv ≤ b.finv⟩

end Ops

/-- A way to record operations: numbers of operations (`Ops`), or the operations themselves in their order (`Trace`). -/
class Meter (M : Type) where
  /-- one record after another -/
  app : M → M → M
  /-- point times scalar -/
  pmul : M
  /-- point plus or minus point -/
  padd : M
  /-- scalar times scalar -/
  fmul : M
  /-- `invert` of a scalar -/
  finv : M

instance : Meter Ops where
  app := (· + ·)
  pmul := { pmul := 1 }
  padd := { padd := 1 }
  fmul := { fmul := 1 }
  finv := { finv := 1 }

/-- The kinds of operations. -/
inductive OpKind
  | pmul | padd | fmul | finv
  deriving DecidableEq, Repr

/-- The operations in the order in which they are performed. -/
abbrev Trace := List OpKind

instance : Meter Trace where
  app := (· ++ ·)
  pmul := [.pmul]
  padd := [.padd]
  fmul := [.fmul]
  finv := [.finv]

/-- A Rust expression that records its operations. -/
abbrev CountedM (M α : Type) := StateT M (Except Abort) α

/-- A Rust expression that counts its operations. -/
abbrev Counted (α : Type) := CountedM Ops α

namespace Counted
variable {M : Type} [Meter M]

/-- something that costs nothing -/
def free {α : Type} (r : Rust α) : CountedM M α := fun c => r.map (fun a => (a, c))

/-- something that costs `o` -/
def tick {α : Type} (o : M) (r : Rust α) : CountedM M α := fun c => r.map (fun a => (a, Meter.app c o))

end Counted

open Counted

section
variable {M : Type} [Meter M] {F G : Type} [Field F] [DecidableEq F] [AddCommGroup G] [Module F G]

/-- `P * s`, `P *= s` on `G1Projective` -/
def pmulC (s : F) (P : G) : CountedM M G := tick Meter.pmul (pure (s • P))
/-- `P + Q`, `P += Q` -/
def paddC (P Q : G) : CountedM M G := tick Meter.padd (pure (P + Q))
/-- `P - Q` -/
def psubC (P Q : G) : CountedM M G := tick Meter.padd (pure (P - Q))
/-- `a * b`, `a *= b` on `Scalar` -/
def fmulC (a b : F) : CountedM M F := tick Meter.fmul (pure (a * b))
/-- `a.invert().unwrap()` -/
def finvC (a : F) : CountedM M F := tick Meter.finv (inv! a)

/-- `Polynomial *= &[Scalar]`, src/accumulator/utils.rs:208-229. -/
def polyMulC (self rhs : List F) : CountedM M (List F) :=
  if !self.isEmpty || !rhs.isEmpty then
    let zeros := List.replicate (self.length + rhs.length - 1) (0 : F)
    self.zipIdx.foldlM (fun s (item, i) =>
      rhs.zipIdx.foldlM (fun s (jitem, j) => do
        let m ← fmulC jitem item
        pure (s.modify (i + j) (· + m))) s) zeros
  else pure self

namespace Server
variable {G1 G2 : Type} [AddCommGroup G1] [Module F G1]

/-- `Server::add`, src/servers.rs:52-70. -/
def addC (self : Server F G1 G2) (y : F) : CountedM M (Server F G1 G2 × Option G1) :=
  if mapContains self.allWitnesses y then pure (self, none)
  else do
    let allUsers := setInsert self.allUsers y
    let last ← free (unwrap self.accumulators.getLast?)
    let i ← finvC (y + self.witnessSecretKey)
    let wit ← pmulC i last
    let allWitnesses := mapInsert self.allWitnesses y wit
    pure ({ self with allUsers := allUsers, allWitnesses := allWitnesses }, some wit)

/-- `Server::delete`, src/servers.rs:77-95. -/
def deleteC (self : Server F G1 G2) (userId : F) : CountedM M (Server F G1 G2 × Option G1) :=
  match mapGet self.allWitnesses userId with
  | none => pure (self, none)
  | some wit => do
    let rest := mapErase self.allWitnesses userId
    let newAccumulator := wit
    let rest ← rest.mapM (fun (p : F × G1) => do
      let i ← finvC (userId - p.1)
      let c ← psubC p.2 newAccumulator
      let t ← pmulC i c
      pure (p.1, t))
    pure ({ self with
      accumulators := self.accumulators ++ [newAccumulator]
      allWitnesses := rest
      deletions := self.deletions ++ [userId] }, some newAccumulator)

/-- `Server::quick_delete`, src/servers.rs:99-116. -/
def quickDeleteC (self : Server F G1 G2) (y : F) : CountedM M (Server F G1 G2 × Option G1) :=
  if !mapContains self.allWitnesses y then pure (self, none)
  else do
    let allWitnesses := mapErase self.allWitnesses y
    let last ← free (unwrap self.accumulators.getLast?)
    let i ← finvC (y + self.witnessSecretKey)
    let newAccumulator ← pmulC i last
    pure ({ self with
      accumulators := self.accumulators ++ [newAccumulator]
      allWitnesses := allWitnesses
      deletions := self.deletions ++ [y] }, some newAccumulator)

/-- src/servers.rs:187-194 -/
def chunkPolysC (deletions : List F) (lo hi : Nat) : CountedM M (List F × List (List F)) :=
  (List.range' lo (hi - lo)).foldlM (fun (st : List F × List (List F)) i => do
    let vPolys := st.2 ++ [st.1]
    let y ← free (idx deletions i)
    let dPoly ← polyMulC st.1 [y, -1]
    pure (dPoly, vPolys)) ([1], [])

/-- src/servers.rs:197-200 and 206-209 -/
def evalOnSharesC (p yShares : List F) : CountedM M F := do
  let p0 ← free (idx p 0)
  (List.range' 1 (p.length - 1)).foldlM (fun r i => do
    let pi ← free (idx p i)
    let s ← free (idx yShares (i - 1))
    let m ← fmulC pi s
    pure (r + m)) p0

/-- src/servers.rs:213-216 -/
def evalPointsC (accumulators : List G1) (accStart : Nat) (evals : List F) : CountedM M G1 :=
  evals.zipIdx.foldlM (fun vPoint (v, i) => do
    let a ← free (idx accumulators (accStart + i))
    let m ← pmulC v a
    paddC vPoint m) 0

/-- src/servers.rs:187-220 -/
def updateBodyC (self : Server F G1 G2) (yShares : List F) (st : UpdateState F G1) :
    CountedM M (UpdateState F G1) := do
  let k := yShares.length + 1
  let nDel := self.deletions.length
  let (dPoly, vPolys) ← chunkPolysC self.deletions st.delStart (min (st.delStart + k - 1) nDel)
  let d ← evalOnSharesC dPoly yShares
  let vPolyEvals ← vPolys.mapM (fun v => evalOnSharesC v yShares)
  let vPoint ← evalPointsC self.accumulators st.accStart vPolyEvals
  pure { delStart := st.delStart + (k - 1)
         accStart := st.accStart + (k - 1)
         ds := st.ds ++ [d]
         vs := st.vs ++ [vPoint] }

/-- the loop of src/servers.rs:186-221, as `whileFuel` -/
def updateLoopC (self : Server F G1 G2) (yShares : List F) : Nat → UpdateState F G1 → CountedM M (UpdateState F G1)
  | 0, _ => free (.error .diverge)
  | fuel + 1, st =>
    if st.delStart < self.deletions.length then do
      let st' ← updateBodyC self yShares st
      updateLoopC self yShares fuel st'
    else pure st

/-- `Server::update`, src/servers.rs:159-223. -/
def updateC (self : Server F G1 G2) (numEpochs : Nat) (yShares : List F) : CountedM M (List F × List G1) :=
  if numEpochs > self.deletions.length then pure ([], [])
  else do
    let nDel := self.deletions.length
    let nAcc := self.accumulators.length
    let delStart ← free (usub nDel numEpochs)
    let accStart ← free (usub nAcc numEpochs)
    let st ← updateLoopC self yShares (self.deletions.length + 1)
      { delStart := delStart, accStart := accStart, ds := [], vs := [] }
    pure (st.ds, st.vs)

end Server

/-- `vsss_rs::Polynomial::evaluate` (dependency), see `vsssEvaluate`. -/
def vsssEvaluateC (poly : List F) (x : F) (threshold : Nat) : CountedM M F := do
  let degree ← free (usub threshold 1)
  let out ← free (idx poly degree)
  (List.range degree).reverse.foldlM (fun out i => do
    let a ← free (idx poly i)
    let m ← fmulC out x
    pure (m + a)) out

/-- `shamir_share`, src/utils.rs:111-126. -/
def shamirShareC (threshold numShares : Nat) (secret : F) (coef : Nat → F) : CountedM M (List (F × F)) :=
  if threshold = 0 then free (.error .index)
  else
    let poly := secret :: (List.range (threshold - 1)).map (fun k => coef (k + 1))
    (List.range numShares).mapM (fun i => do
      let x : F := ((i + 1 : Nat) : F)
      let s ← vsssEvaluateC poly x threshold
      pure (x, s))

/-- src/utils.rs:140-148 -/
def shamirCoefficientC {T : Type} (threshold : Nat) (shares : List (F × T)) (product : F) (i : Nat) : CountedM M F :=
  (List.range threshold).foldlM (fun c ii => do
    if i = ii then
      let xi ← free (idx shares i)
      let v ← finvC xi.1
      fmulC c v
    else
      let xii ← free (idx shares ii)
      let xi ← free (idx shares i)
      let v ← finvC (xii.1 - xi.1)
      fmulC c v) product

/-- src/utils.rs:154-166 -/
def shamirChecksC {T : Type} (threshold : Nat) (shares : List (F × T)) (product : F)
    (coefficients : List F) : CountedM M (List F) := do
  let xt ← free (idx shares threshold)
  let x0 ← free (idx shares 0)
  let v0 ← finvC x0.1
  let adjustment ← fmulC xt.1 v0
  let _ ← free (idx coefficients 0)
  let c0 ← fmulC product x0.1
  let checks := coefficients.set 0 c0
  (List.range' 1 (threshold - 1)).foldlM (fun checks i => do
    let xi ← free (idx shares i)
    let v ← finvC (xt.1 - xi.1)
    let a ← fmulC adjustment (x0.1 - xi.1)
    let a ← fmulC a v
    let checks ← tick Meter.fmul (pure (checks.modify i (· * a)))
    let v' ← finvC (xi.1 - xt.1)
    let checks ← tick Meter.fmul (pure (checks.modify 0 (· * v')))
    pure checks) checks

/-- `shamir_coefficients`, src/utils.rs:130-171. -/
def shamirCoefficientsC {T : Type} (threshold : Nat) (shares : List (F × T)) :
    CountedM M (List F × Option (List F)) :=
  if shares.length < threshold then free (.error .index)
  else do
    let product ← (shares.take threshold).foldlM (fun a y => fmulC a y.1) 1
    let coefficients ← (List.range threshold).mapM (shamirCoefficientC threshold shares product)
    if shares.length > threshold then
      let checks ← shamirChecksC threshold shares product coefficients
      pure (coefficients, some checks)
    else
      pure (coefficients, none)

/-- `shamir_rebuild_scalar`, src/utils.rs:174-198. -/
def shamirRebuildScalarC (shares : List (F × F)) (coefficients : List F)
    (checkCoefficients : Option (List F)) : CountedM M (Option F) := do
  let result ← (List.range coefficients.length).foldlM (fun r i => do
    let s ← free (idx shares i)
    let c ← free (idx coefficients i)
    let m ← fmulC s.2 c
    pure (r + m)) 0
  match checkCoefficients with
  | some checks => do
    let threshold := coefficients.length
    let c0 ← free (idx checks 0)
    let st ← free (idx shares threshold)
    let m ← fmulC c0 st.2
    let checkResult ← (List.range' 1 (threshold - 1)).foldlM (fun r i => do
      let c ← free (idx checks i)
      let s ← free (idx shares i)
      let m ← fmulC c s.2
      pure (r + m)) m
    if checkResult = result then pure (some result) else pure none
  | none => pure (some result)

variable [DecidableEq G]

/-- `shamir_rebuild_point`, src/utils.rs:203-227. -/
def shamirRebuildPointC (shares : List (F × G)) (coefficients : List F)
    (checkCoefficients : Option (List F)) : CountedM M (Option G) := do
  let result ← (List.range coefficients.length).foldlM (fun r i => do
    let s ← free (idx shares i)
    let c ← free (idx coefficients i)
    let m ← pmulC c s.2
    paddC r m) 0
  match checkCoefficients with
  | some checks => do
    let threshold := coefficients.length
    let st ← free (idx shares threshold)
    let c0 ← free (idx checks 0)
    let m ← pmulC c0 st.2
    let checkResult ← (List.range' 1 (threshold - 1)).foldlM (fun r i => do
      let s ← free (idx shares i)
      let c ← free (idx checks i)
      let m ← pmulC c s.2
      paddC r m) m
    if checkResult = result then pure (some result) else pure none
  | none => pure (some result)

namespace User
variable {G1 G2 : Type} [AddCommGroup G1] [Module F G1] [DecidableEq G1]

/-- src/user.rs:138-157 -/
def shareVectorsC (id : F) (numServers threshold k : Nat) (rand : Nat → Nat → F) :
    CountedM M (List (List F) × List F) := do
  let first ← shamirShareC threshold numServers id (rand 0)
  let yShares := first.map (fun p => [p.2])
  let yValues := first.map (fun p => p.1)
  let n ← free (usub k 1)
  let res ← (List.range' 1 (n - 1)).foldlM (fun (st : List (List F) × F) j => do
    let yPower ← fmulC st.2 id
    let shares ← shamirShareC threshold numServers yPower (rand j)
    let ys := shares.zipIdx.foldl (fun ys (p, i) => ys.modify i (· ++ [p.2])) st.1
    pure (ys, yPower)) (yShares, id)
  pure (res.1, yValues)

/-- `User::prepare_for_update`, src/user.rs:113-164. -/
def prepareForUpdateC (seed : Nat → Nat) (self : User F G1 G2) (newEpoch numServers threshold : Nat)
    (rand : Nat → Nat → F) : CountedM M (Except String (UserUpdate F)) :=
  if numServers < threshold then pure (.error "invalid threshold")
  else if threshold ≤ 1 then pure (.error "invalid threshold")
  else do
    let d ← free (usub newEpoch self.epoch)
    let k ← free (chunkSize d (seed d))
    let (yShares, yValues) ← shareVectorsC self.id numServers threshold k rand
    pure (.ok { epochDiff := d, yShares := yShares, yValues := yValues })

/-- src/user.rs:212-243. The multiplication `d_test *= d_chunk` (line 219), whose result is never read, counts. -/
def rebuildLoopC (coefficients : List F) (checks : Option (List F)) (vChunks : List (List (F × G1))) :
    Nat → List (List (F × F)) → G1 → CountedM M (Except String G1)
  | _, [], w => pure (.ok w)
  | i, dShares :: rest, w => do
    match ← shamirRebuildScalarC dShares coefficients checks with
    | some dChunk =>
      if dChunk = 0 then pure (.error "user has been deleted")
      else do
        tick Meter.fmul (pure ())
        let vShares ← free (idx vChunks i)
        match ← shamirRebuildPointC vShares coefficients checks with
        | some vChunk =>
          let c ← psubC w vChunk
          let inv ← finvC dChunk
          let w ← pmulC inv c
          rebuildLoopC coefficients checks vChunks (i + 1) rest w
        | none => pure (.error "malicious server")
    | none => pure (.error "malicious server")

/-- `User::post_update`, src/user.rs:169-244. -/
def postUpdateC (oldWitness : G1) (threshold : Nat) (yShares : List (List F)) (yValues : List F)
    (dvs : List (List F × List G1)) : CountedM M (Except String G1) := do
  let (dChunks, vChunks) ← free (collect yShares.length yValues dvs)
  let first ← free (idx dChunks 0)
  let (coefficients, checks) ← shamirCoefficientsC threshold first
  rebuildLoopC coefficients checks vChunks 0 dChunks oldWitness

end User

/-! ### the update of Vitto and Biryukov (the benchmark's comparison) -/

/-- `PolynomialG1::evaluate`, src/accumulator/utils.rs:76-89. -/
def pg1EvalC (A : List G) (x : F) : CountedM M (Option G) :=
  match A with
  | [] => pure none
  | a0 :: rest => do
    let r ← rest.foldlM (fun (st : G × F) a => do
      let m ← pmulC st.2 a
      let res ← paddC st.1 m
      let p ← fmulC st.2 x
      pure (res, p)) (a0, x)
    pure (some r.1)

/-- `dad`, src/accumulator/utils.rs:43-52. -/
def dadC (values : List F) (y : F) : CountedM M F :=
  match values with
  | [v] => pure (v - y)
  | _ => (values.map (fun v => v - y)).foldlM (fun a y => fmulC a y) 1

/-- `MembershipWitness::batch_update_assign` with `evaluate_delta` and `apply_delta_assign`,
src/accumulator/witness.rs:94-99, 160-170 and 492-527. -/
def mwBatchUpdateC (self : G) (y : F) (additions deletions : List F) (coefficients : List G) : CountedM M G := do
  let dD ← dadC deletions y
  match ← (tick Meter.finv (pure (invert? dD)) : CountedM M (Option F)) with
  | none => pure self
  | some dD => do
    let dA ← dadC additions y
    let dA ← fmulC dA dD
    match ← pg1EvalC coefficients y with
    | some v => do
      let p ← pmulC dD v
      let s ← pmulC dA self
      paddC s p
    | none => pure self

end
end Allo
