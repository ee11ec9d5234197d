import Verif.Model.Key
import Verif.Model.Transcript

/-!
# Model of `src/servers.rs`
-/

namespace Allo

/-! ### `HashMap` / `HashSet` as association lists (the operations the code uses) -/

section hashmap
variable {K V : Type} [DecidableEq K]

/-- `HashMap::get` -/
def mapGet (m : List (K × V)) (k : K) : Option V := (m.find? (fun p => p.1 = k)).map (·.2)

/-- `HashMap::contains_key` -/
def mapContains (m : List (K × V)) (k : K) : Bool := m.any (fun p => p.1 = k)

/-- `HashMap::remove` (the map part; the returned value is `mapGet`) -/
def mapErase (m : List (K × V)) (k : K) : List (K × V) := m.filter (fun p => p.1 ≠ k)

/-- `HashMap::insert` -/
def mapInsert (m : List (K × V)) (k : K) (v : V) : List (K × V) := (k, v) :: mapErase m k

/-- `HashSet::insert` -/
def setInsert (s : List K) (k : K) : List K := if k ∈ s then s else k :: s

end hashmap

/-- `Server`, src/servers.rs:12-27. -/
structure Server (F G1 G2 : Type) where
  accumulators : List G1
  witnessSecretKey : F
  publicKeys : PublicKeys G2
  signSecretKey : F
  allUsers : List F
  allWitnesses : List (F × G1)
  deletions : List F

namespace Server
variable {F G1 G2 GT : Type} [Field F] [DecidableEq F] [AddCommGroup G1] [Module F G1]
  [AddCommGroup G2] [Module F G2] [AddCommGroup GT] [Module F GT]

/-- `Server::new`, src/servers.rs:31-49; the three random secret keys are arguments. -/
def new (params : AccParams G1 G2) (alpha sM v : F) : Server F G1 G2 :=
  let q := alpha • params.p2
  let qM := sM • params.k2
  let v := v • params.p1
  { accumulators := [v]
    witnessSecretKey := alpha
    signSecretKey := sM
    publicKeys := { witnessKey := q, signKey := qM }
    allUsers := []
    allWitnesses := []
    deletions := [] }

/-- `Server::add`, src/servers.rs:52-70. -/
def add (self : Server F G1 G2) (y : F) : Rust (Server F G1 G2 × Option G1) :=
  if mapContains self.allWitnesses y then pure (self, none)
  else do
    let allUsers := setInsert self.allUsers y
    let last ← unwrap self.accumulators.getLast?
    let i ← inv! (y + self.witnessSecretKey)
    let wit := i • last
    let allWitnesses := mapInsert self.allWitnesses y wit
    pure ({ self with allUsers := allUsers, allWitnesses := allWitnesses }, some wit)

/-- `Server::delete`, src/servers.rs:77-95. The loop over `iter_mut()` updates every entry
independently, so its (unspecified) order does not matter (proved in `Verif.Props.Crash`, C63). -/
def delete (self : Server F G1 G2) (userId : F) : Rust (Server F G1 G2 × Option G1) :=
  match mapGet self.allWitnesses userId with
  | none => pure (self, none)
  | some wit => do
    let rest := mapErase self.allWitnesses userId
    let newAccumulator := wit
    let rest ← rest.mapM (fun (p : F × G1) => do
      let i ← inv! (userId - p.1)
      let t := i • (p.2 - newAccumulator)
      pure (p.1, t))
    pure ({ self with
      accumulators := self.accumulators ++ [newAccumulator]
      allWitnesses := rest
      deletions := self.deletions ++ [userId] }, some newAccumulator)

/-- `Server::quick_delete`, src/servers.rs:99-116. -/
def quickDelete (self : Server F G1 G2) (y : F) : Rust (Server F G1 G2 × Option G1) :=
  if !mapContains self.allWitnesses y then pure (self, none)
  else do
    let allWitnesses := mapErase self.allWitnesses y
    let last ← unwrap self.accumulators.getLast?
    let i ← inv! (y + self.witnessSecretKey)
    let newAccumulator := i • last
    pure ({ self with
      accumulators := self.accumulators ++ [newAccumulator]
      allWitnesses := allWitnesses
      deletions := self.deletions ++ [y] }, some newAccumulator)

/-- `Server::witness`, src/servers.rs:121-154. -/
def witness (H : Oracle F) (enc : Enc G1 G2 GT) (self : Server F G1 G2) (params : AccParams G1 G2)
    (y challenge response : F) (userPubKey : G1) : Rust (Option (G1 × G1)) :=
  if !mapContains self.allWitnesses y then pure none
  else
    let transcript := Transcript.new "user_signature_proof"
    let transcript := transcript.append "user_pub_key" (enc.g1 userPubKey)
    let transcript := transcript.append "commitment"
      (enc.g1 (response • params.k1 + challenge • userPubKey))
    let check := H transcript "challenge"
    if check ≠ challenge then pure none
    else do
      -- `self.all_witnesses[y]` (panics when absent)
      let accWitness ← unwrap (mapGet self.allWitnesses y)
      let i ← inv! (y + self.signSecretKey)
      let signature := i • (userPubKey + params.k0)
      pure (some (accWitness, signature))

/-- Building the update polynomials of one chunk, src/servers.rs:187-194:
`for i in lo..hi { v_polys.push(d_poly.clone()); d_poly *= &[deletions[i], -1] }`. -/
def chunkPolys (deletions : List F) (lo hi : Nat) : Rust (List F × List (List F)) :=
  (List.range' lo (hi - lo)).foldlM (fun (st : List F × List (List F)) i => do
    let vPolys := st.2 ++ [st.1]
    let y ← idx deletions i
    let dPoly := polyMul st.1 [y, -1]
    pure (dPoly, vPolys)) ([1], [])

/-- Evaluating one polynomial on the shares, src/servers.rs:197-200 and 206-209:
`p[0] + Σ_{i ≥ 1} p[i] * y_shares[i-1]`. -/
def evalOnShares (p yShares : List F) : Rust F := do
  let p0 ← idx p 0
  (List.range' 1 (p.length - 1)).foldlM (fun r i => do
    let pi ← idx p i
    let s ← idx yShares (i - 1)
    pure (r + pi * s)) p0

/-- `v_point`, src/servers.rs:213-216. -/
def evalPoints (accumulators : List G1) (accStart : Nat) (evals : List F) : Rust G1 :=
  evals.zipIdx.foldlM (fun vPoint (v, i) => do
    let a ← idx accumulators (accStart + i)
    pure (vPoint + v • a)) 0

/-- State of the `while` loop of `Server::update`. -/
structure UpdateState (F G1 : Type) where
  delStart : Nat
  accStart : Nat
  ds : List F
  vs : List G1

/-- Body of the `while` loop of `Server::update`, src/servers.rs:187-220. `k = y_shares.len() + 1`. -/
def updateBody (self : Server F G1 G2) (yShares : List F) (st : UpdateState F G1) :
    Rust (UpdateState F G1) := do
  let k := yShares.length + 1
  let nDel := self.deletions.length
  let (dPoly, vPolys) ← chunkPolys self.deletions st.delStart (min (st.delStart + k - 1) nDel)
  let d ← evalOnShares dPoly yShares
  let vPolyEvals ← vPolys.mapM (fun v => evalOnShares v yShares)
  let vPoint ← evalPoints self.accumulators st.accStart vPolyEvals
  pure { delStart := st.delStart + (k - 1)
         accStart := st.accStart + (k - 1)
         ds := st.ds ++ [d]
         vs := st.vs ++ [vPoint] }

/-- `Server::update`, src/servers.rs:159-223, with `fuel` bounding the number of loop tests. -/
def updateFuel (fuel : Nat) (self : Server F G1 G2) (numEpochs : Nat) (yShares : List F) :
    Rust (List F × List G1) :=
  if numEpochs > self.deletions.length then pure ([], [])
  else do
    let nDel := self.deletions.length
    let nAcc := self.accumulators.length
    let delStart ← usub nDel numEpochs
    let accStart ← usub nAcc numEpochs
    let st ← whileFuel (fun st => pure (decide (st.delStart < nDel))) (updateBody self yShares) fuel
      { delStart := delStart, accStart := accStart, ds := [], vs := [] }
    pure (st.ds, st.vs)

/-- `Server::update`, src/servers.rs:159-223. The fuel `deletions.len() + 1` is enough for every
terminating call (`update_fuel_indep`), and calls that exceed it never return. -/
def update (self : Server F G1 G2) (numEpochs : Nat) (yShares : List F) :
    Rust (List F × List G1) :=
  updateFuel (self.deletions.length + 1) self numEpochs yShares

/-- `Server::get_epoch`, src/servers.rs:226-228. -/
def getEpoch (self : Server F G1 G2) : Nat := self.accumulators.length

/-- `Server::get_accumulator`, src/servers.rs:231-233. -/
def getAccumulator (self : Server F G1 G2) : Rust G1 := unwrap self.accumulators.getLast?

/-- `Server::get_witness_public_key`, src/servers.rs:236-238. -/
def getWitnessPublicKey (self : Server F G1 G2) : G2 := self.publicKeys.witnessKey

/-- `Server::get_sign_public_key`, src/servers.rs:241-243. -/
def getSignPublicKey (self : Server F G1 G2) : G2 := self.publicKeys.signKey

/-- `Server::get_public_keys`, src/servers.rs:246-248. -/
def getPublicKeys (self : Server F G1 G2) : PublicKeys G2 := self.publicKeys

/-- The state-changing calls a server accepts. -/
inductive Op (F : Type)
  | add (y : F)
  | delete (y : F)
  | quickDelete (y : F)
  deriving DecidableEq

/-- One call. -/
def step (self : Server F G1 G2) : Op F → Rust (Server F G1 G2 × Option G1)
  | .add y => self.add y
  | .delete y => self.delete y
  | .quickDelete y => self.quickDelete y

/-- A history of calls; aborts if one of them panics. -/
def run (self : Server F G1 G2) (ops : List (Op F)) : Rust (Server F G1 G2) :=
  ops.foldlM (fun s op => do let (s', _) ← s.step op; pure s') self

end Server
end Allo
