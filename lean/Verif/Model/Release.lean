import Verif.Model.Float

/-!
# Release builds: the same code with wrapping `usize` arithmetic

`Cargo.toml` sets no profile, so `cargo build --release` compiles `a - b`, `a + b` and `a * b` on `usize` to
64-bit wrapping arithmetic (division by zero, index and `unwrap` failures still panic). This file repeats the
functions of `src/user.rs` and `src/servers.rs` in which `usize` arithmetic occurs on the way of an update. What
has no such arithmetic (`shamir_share` for thresholds from 2 on, `post_update`) is shared with the checked
model. As there, memory is not modelled: an allocation that fails aborts the process.
-/

namespace Allo

/-- `a + b` on `usize` without overflow checks -/
def wadd (a b : Nat) : Nat := (a + b) % 2 ^ 64

/-- `a - b` on `usize` without overflow checks -/
def wsub (a b : Nat) : Nat := (a + (2 ^ 64 - b)) % 2 ^ 64

/-- `a * b` on `usize` without overflow checks -/
def wmul (a b : Nat) : Nat := (a * b) % 2 ^ 64

/-- `2 * k < 5 * (d + k - 1) / k`, src/user.rs:133, release build. -/
def chunkCondRel (d k : Nat) : Rust Bool := do
  let q ← udiv (wmul 5 (wsub (wadd d k) 1)) k
  pure (decide (wmul 2 k < q))

/-- `while .. { k += 1 }`, src/user.rs:133-135, release build. -/
def chunkSizeFuelRel (fuel d seed : Nat) : Rust Nat :=
  whileFuel (chunkCondRel d) (fun k => pure (wadd k 1)) fuel seed

namespace Server
variable {F G1 G2 : Type} [Field F] [DecidableEq F] [AddCommGroup G1] [Module F G1]

/-- `v_point`, src/servers.rs:213-216, release build. -/
def evalPointsRel (accumulators : List G1) (accStart : Nat) (evals : List F) : Rust G1 :=
  evals.zipIdx.foldlM (fun vPoint (v, i) => do
    let a ← idx accumulators (wadd accStart i)
    pure (vPoint + v • a)) 0

/-- Body of the loop of `Server::update`, src/servers.rs:187-220, release build. -/
def updateBodyRel (self : Server F G1 G2) (yShares : List F) (st : UpdateState F G1) :
    Rust (UpdateState F G1) := do
  let k := wadd yShares.length 1
  let nDel := self.deletions.length
  let (dPoly, vPolys) ← chunkPolys self.deletions st.delStart (min (wsub (wadd st.delStart k) 1) nDel)
  let d ← evalOnShares dPoly yShares
  let vPolyEvals ← vPolys.mapM (fun v => evalOnShares v yShares)
  let vPoint ← evalPointsRel self.accumulators st.accStart vPolyEvals
  pure { delStart := wadd st.delStart (wsub k 1)
         accStart := wadd st.accStart (wsub k 1)
         ds := st.ds ++ [d]
         vs := st.vs ++ [vPoint] }

/-- `Server::update`, src/servers.rs:159-223, release build; `fuel` bounds the number of loop tests. -/
def updateFuelRel (fuel : Nat) (self : Server F G1 G2) (numEpochs : Nat) (yShares : List F) :
    Rust (List F × List G1) :=
  if numEpochs > self.deletions.length then pure ([], [])
  else do
    let nDel := self.deletions.length
    let nAcc := self.accumulators.length
    let st ← whileFuel (fun st => pure (decide (st.delStart < nDel))) (updateBodyRel self yShares) fuel
      { delStart := wsub nDel numEpochs, accStart := wsub nAcc numEpochs, ds := [], vs := [] }
    pure (st.ds, st.vs)

/-- `Server::update`, src/servers.rs:159-223, release build (same fuel as the checked model). -/
def updateRel (self : Server F G1 G2) (numEpochs : Nat) (yShares : List F) :
    Rust (List F × List G1) :=
  updateFuelRel (self.deletions.length + 1) self numEpochs yShares

end Server

namespace User
variable {F G1 G2 GT : Type} [Field F] [DecidableEq F] [AddCommGroup G1] [Module F G1]
  [DecidableEq G1] [AddCommGroup G2] [Module F G2] [AddCommGroup GT] [Module F GT]

/-- The share vectors of `prepare_for_update`, src/user.rs:138-157, release build: only `k - 1` in the loop
bound is `usize` arithmetic. -/
def shareVectorsRel (id : F) (numServers threshold k : Nat) (rand : Nat → Nat → F) :
    Rust (List (List F) × List F) := do
  let first ← shamirShare threshold numServers id (rand 0)
  let yShares := first.map (fun p => [p.2])
  let yValues := first.map (fun p => p.1)
  let res ← (List.range' 1 (wsub k 1 - 1)).foldlM (fun (st : List (List F) × F) j => do
    let yPower := st.2 * id
    let shares ← shamirShare threshold numServers yPower (rand j)
    let ys := shares.zipIdx.foldl (fun ys (p, i) => ys.modify i (· ++ [p.2])) st.1
    pure (ys, yPower)) (yShares, id)
  pure (res.1, yValues)

/-- `User::prepare_for_update`, src/user.rs:113-164, release build, with the floating point seed; `fuel` bounds
the number of tests of the chunk-size loop. -/
noncomputable def prepareForUpdateRel (fuel : Nat) (self : User F G1 G2)
    (newEpoch numServers threshold : Nat) (rand : Nat → Nat → F) :
    Rust (Except String (UserUpdate F)) := do
  if numServers < threshold then return .error "invalid threshold"
  if threshold ≤ 1 then return .error "invalid threshold"
  let d := wsub newEpoch self.epoch
  let k ← chunkSizeFuelRel fuel d (seedF64 d)
  let (yShares, yValues) ← shareVectorsRel self.id numServers threshold k rand
  return .ok { epochDiff := d, yShares := yShares, yValues := yValues }

/-- `User::update`, src/user.rs:247-291, release build. -/
noncomputable def updateRel (fuel : Nat) (self : User F G1 G2) (servers : List (Server F G1 G2))
    (threshold : Nat) (rand : Nat → Nat → F) : Rust (User F G1 G2 × Except String Unit) := do
  match self.witness with
  | none => return (self, .error "No witness")
  | some w =>
    let s0 ← idx servers 0
    match ← self.prepareForUpdateRel fuel s0.getEpoch servers.length threshold rand with
    | .error e => return (self, .error e)
    | .ok upd =>
      let dvs ← (List.range servers.length).mapM (fun i => do
        let s ← idx servers i
        let ys ← idx upd.yShares i
        s.updateRel upd.epochDiff ys)
      match ← postUpdate w.witness threshold upd.yShares upd.yValues dvs with
      | .ok newWitness =>
        let acc ← s0.getAccumulator
        return ({ self with witness := some { w with witness := newWitness }, accumulator := acc },
                .ok ())
      | .error e => return (self, .error e)

end User
end Allo
