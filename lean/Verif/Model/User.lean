import Verif.Model.Server
import Verif.Model.AccWitness
import Verif.Model.Credential
import Verif.Model.Shamir

/-!
# Model of `src/user.rs`

Methods on `&mut self` return the new user. Random values are arguments. `Result<T, &str>` is
`Except String T`; panics are in the outer `Rust`.
-/

namespace Allo

/-- `User`, src/user.rs:10-21. -/
structure User (F G1 G2 : Type) where
  id : F
  witness : Option (Witness F G1)
  accumulator : G1
  publicKeys : PublicKeys G2
  epoch : Nat

/-- `UserUpdate`, src/user.rs:332-339. -/
structure UserUpdate (F : Type) where
  epochDiff : Nat
  yShares : List (List F)
  yValues : List F

/-- The test of the chunk-size loop, `2 * k < 5 * (d + k - 1) / k`, src/user.rs:133. -/
def chunkCond (d k : Nat) : Rust Bool := do
  let a ← usub (d + k) 1
  let q ← udiv (5 * a) k
  pure (decide (2 * k < q))

/-- The chunk-size loop `while .. { k += 1 }`, src/user.rs:133-135, from the seed
`((d as f64) * 2.5).sqrt() as usize` (src/user.rs:127). -/
def chunkSizeFuel (fuel d seed : Nat) : Rust Nat :=
  whileFuel (chunkCond d) (fun k => pure (k + 1)) fuel seed

/-- The loop with enough fuel (`chunkSize_fuel_indep`). -/
def chunkSize (d seed : Nat) : Rust Nat := chunkSizeFuel (5 * d + 6) d seed

namespace User
variable {F G1 G2 GT : Type} [Field F] [DecidableEq F] [AddCommGroup G1] [Module F G1]
  [DecidableEq G1] [AddCommGroup G2] [Module F G2] [AddCommGroup GT] [Module F GT]

/-- `User::new`, src/user.rs:25-33. -/
def new (server : Server F G1 G2) (id : F) : Rust (User F G1 G2) := do
  let acc ← server.getAccumulator
  pure { id := id, witness := none, accumulator := acc, publicKeys := server.getPublicKeys,
         epoch := server.getEpoch }

/-- `User::random`, src/user.rs:37-66; the random id and long-term secret are arguments. -/
def random (alpha s : F) (accParams : AccParams G1 G2) (accumulator : G1)
    (publicKeys : PublicKeys G2) (epoch : Nat) (id longTermSecret : F) : Rust (User F G1 G2) := do
  let i ← inv! (s + id)
  let signature := i • ((longTermSecret • accParams.k1) + accParams.k0)
  let mw ← mwNew id accumulator alpha
  let mw ← unwrap mw
  pure { id := id
         witness := some { signature := signature, witness := mw, secretKey := longTermSecret }
         accumulator := accumulator
         publicKeys := publicKeys
         epoch := epoch }

/-- `User::get_accumulator`, src/user.rs:69-71. -/
def getAccumulator (self : User F G1 G2) : G1 := self.accumulator

/-- `User::get_id`, src/user.rs:74-76. -/
def getId (self : User F G1 G2) : F := self.id

/-- `User::create_witness`, src/user.rs:82-109; the random key and nonce are arguments. -/
def createWitness (H : Oracle F) (enc : Enc G1 G2 GT) (self : User F G1 G2)
    (params : AccParams G1 G2) (server : Server F G1 G2) (key k : F) : Rust (User F G1 G2) := do
  let userPubKey := key • params.k1
  let kPoint := k • params.k1
  let transcript := Transcript.new "user_signature_proof"
  let transcript := transcript.append "user_pub_key" (enc.g1 userPubKey)
  let transcript := transcript.append "commitment" (enc.g1 kPoint)
  let challenge := H transcript "challenge"
  let response := k - challenge * key
  match ← server.witness H enc params self.id challenge response userPubKey with
  | some (witness, signature) =>
    let acc ← server.getAccumulator
    pure { self with
      witness := some { secretKey := key, witness := witness, signature := signature }
      epoch := server.getEpoch
      accumulator := acc }
  | none => pure self

/-- The share vectors of `prepare_for_update`, src/user.rs:138-157, for a chosen `k`:
the first power creates the vectors, powers `2 .. k-1` are pushed to them.
`rand j` are the polynomial coefficients drawn for the power `y^(j+1)`. -/
def shareVectors (id : F) (numServers threshold k : Nat) (rand : Nat → Nat → F) :
    Rust (List (List F) × List F) := do
  let first ← shamirShare threshold numServers id (rand 0)
  let yShares := first.map (fun p => [p.2])
  let yValues := first.map (fun p => p.1)
  let n ← usub k 1
  let res ← (List.range' 1 (n - 1)).foldlM (fun (st : List (List F) × F) j => do
    let yPower := st.2 * id
    let shares ← shamirShare threshold numServers yPower (rand j)
    let ys := shares.zipIdx.foldl (fun ys (p, i) => ys.modify i (· ++ [p.2])) st.1
    pure (ys, yPower)) (yShares, id)
  pure (res.1, yValues)

/-- `User::prepare_for_update`, src/user.rs:113-164. `seed d` stands for
`((d as f64) * 2.5).sqrt() as usize`. -/
def prepareForUpdate (seed : Nat → Nat) (self : User F G1 G2) (newEpoch numServers threshold : Nat)
    (rand : Nat → Nat → F) : Rust (Except String (UserUpdate F)) := do
  if numServers < threshold then return .error "invalid threshold"
  if threshold ≤ 1 then return .error "invalid threshold"
  let d ← usub newEpoch self.epoch
  let k ← chunkSize d (seed d)
  let (yShares, yValues) ← shareVectors self.id numServers threshold k rand
  return .ok { epochDiff := d, yShares := yShares, yValues := yValues }

/-- Collecting one component of the servers' answers, src/user.rs:182-201 (the code does it for the
`d` and the `v` vectors in one loop; the two halves do not interact except that both can panic).
Step `i`: initialise the chunk vector from the first non-empty answer, then push `(x_i, value)`. -/
def collectStep {T : Type} (yValues : List F) (answers : List (List T))
    (chunks : List (List (F × T))) (i : Nat) : Rust (List (List (F × T))) := do
  let ans ← idx answers i
  let chunks := if chunks.isEmpty then List.replicate ans.length [] else chunks
  ans.zipIdx.foldlM (fun chunks (d, ii) => do
    let x ← idx yValues i
    let _ ← idx chunks ii
    pure (chunks.modify ii (· ++ [(x, d)]))) chunks

/-- The collection loop of `post_update`, src/user.rs:186-201. -/
def collect (n : Nat) (yValues : List F) (dvs : List (List F × List G1)) :
    Rust (List (List (F × F)) × List (List (F × G1))) :=
  (List.range n).foldlM (fun st i => do
    let dc ← collectStep yValues (dvs.map (·.1)) st.1 i
    let vc ← collectStep yValues (dvs.map (·.2)) st.2 i
    pure (dc, vc)) ([], [])

/-- The rebuilding loop of `post_update`, src/user.rs:212-243, from chunk number `i` on.
(`d_test`, line 211 and 219, is never read.) -/
def rebuildLoop (coefficients : List F) (checks : Option (List F))
    (vChunks : List (List (F × G1))) :
    Nat → List (List (F × F)) → G1 → Rust (Except String G1)
  | _, [], w => pure (.ok w)
  | i, dShares :: rest, w => do
    match ← shamirRebuildScalar dShares coefficients checks with
    | some dChunk =>
      if dChunk = 0 then return .error "user has been deleted"
      let vShares ← idx vChunks i
      match ← shamirRebuildPoint vShares coefficients checks with
      | some vChunk =>
        let inv ← inv! dChunk
        rebuildLoop coefficients checks vChunks (i + 1) rest (inv • (w - vChunk))
      | none => return .error "malicious server"
    | none => return .error "malicious server"

/-- `User::post_update`, src/user.rs:169-244 (`self` is not used by the code). -/
def postUpdate (oldWitness : G1) (threshold : Nat) (yShares : List (List F)) (yValues : List F)
    (dvs : List (List F × List G1)) : Rust (Except String G1) := do
  let (dChunks, vChunks) ← collect yShares.length yValues dvs
  let first ← idx dChunks 0
  let (coefficients, checks) ← shamirCoefficients threshold first
  rebuildLoop coefficients checks vChunks 0 dChunks oldWitness

/-- `User::update`, src/user.rs:247-291. Returns the user after the call and the result.
Note that `epoch` is not assigned. -/
def update (seed : Nat → Nat) (self : User F G1 G2) (servers : List (Server F G1 G2))
    (threshold : Nat) (rand : Nat → Nat → F) : Rust (User F G1 G2 × Except String Unit) := do
  match self.witness with
  | none => return (self, .error "No witness")
  | some w =>
    let s0 ← idx servers 0
    match ← self.prepareForUpdate seed s0.getEpoch servers.length threshold rand with
    | .error e => return (self, .error e)
    | .ok upd =>
      let dvs ← (List.range servers.length).mapM (fun i => do
        let s ← idx servers i
        let ys ← idx upd.yShares i
        s.update upd.epochDiff ys)
      match ← postUpdate w.witness threshold upd.yShares upd.yValues dvs with
      | .ok newWitness =>
        let acc ← s0.getAccumulator
        return ({ self with witness := some { w with witness := newWitness }, accumulator := acc },
                .ok ())
      | .error e => return (self, .error e)

/-- `User::make_membership_proof`, src/user.rs:294-312. -/
def makeMembershipProof [DecidableEq GT] (E : Pairing F G1 G2 GT) (H : Oracle F)
    (enc : Enc G1 G2 GT) (self : User F G1 G2) (params : AccParams G1 G2)
    (publicKeys : PublicKeys G2) (ephemeral : Bytes) (rand : ProofRand F) :
    Option (CredProof F G1) :=
  match self.witness with
  | none => none
  | some w => makeProof E H enc w self.id self.accumulator params publicKeys ephemeral rand

/-- `User::check_witness`, src/user.rs:316-327. -/
def checkWitness [DecidableEq GT] (E : Pairing F G1 G2 GT) (self : User F G1 G2)
    (params : AccParams G1 G2) (accumulator : G1) : Except String Unit :=
  match self.witness with
  | some w => credVerify E accumulator self.publicKeys params self.id w
  | none => .error "no witness"

/-- The calls that change a user. -/
inductive Call (F G1 G2 : Type)
  | createWitness (server : Server F G1 G2) (key k : F)
  | update (servers : List (Server F G1 G2)) (threshold : Nat) (rand : Nat → Nat → F)

/-- One call; the result of `update` is ignored. -/
def call (H : Oracle F) (enc : Enc G1 G2 GT) (params : AccParams G1 G2) (seed : Nat → Nat) (self : User F G1 G2) :
    Call F G1 G2 → Rust (User F G1 G2)
  | .createWitness server key k => self.createWitness H enc params server key k
  | .update servers threshold rand => do
    let (u, _) ← self.update seed servers threshold rand
    pure u

/-- A history of calls; aborts if one of them panics. -/
def calls (H : Oracle F) (enc : Enc G1 G2 GT) (params : AccParams G1 G2) (seed : Nat → Nat) (self : User F G1 G2)
    (cs : List (Call F G1 G2)) : Rust (User F G1 G2) :=
  cs.foldlM (fun u c => u.call H enc params seed c) self

end User
end Allo
