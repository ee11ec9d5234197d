import Verif.Model.User

/-!
# Statement-level model of the methods on `&mut self`

`Server::{add, delete, quick_delete}` and `User::{create_witness, update}` again, this time statement by
statement on a mutable state, so that the state a panic leaves behind (seen by a caller that catches the
unwinding) is part of the outcome. `delete` walks over the hash map in an arbitrary order.
-/

namespace Allo

/-- A piece of code that changes a state `σ` and may panic; the state is kept when it panics. -/
def Eff (σ α : Type) := σ → Rust α × σ

namespace Eff
variable {σ α β : Type}

/-- sequencing: a panic skips the rest and keeps the changes made so far -/
instance : Monad (Eff σ) where
  pure a := fun s => (.ok a, s)
  bind m f := fun s =>
    match m s with
    | (.ok a, s') => f a s'
    | (.error e, s') => (.error e, s')

/-- read the state -/
def get : Eff σ σ := fun s => (.ok s, s)

/-- assign -/
def set (f : σ → σ) : Eff σ Unit := fun s => (.ok (), f s)

/-- an expression that does not change the state but may panic -/
def ex (r : Rust α) : Eff σ α := fun s => (r, s)

@[simp] theorem pure_run (a : α) (s : σ) : (pure a : Eff σ α) s = (.ok a, s) := rfl
@[simp] theorem bind_run (m : Eff σ α) (f : α → Eff σ β) (s : σ) :
    (m >>= f) s = match m s with
      | (.ok a, s') => f a s'
      | (.error e, s') => (.error e, s') := rfl
@[simp] theorem get_run (s : σ) : (get : Eff σ σ) s = (.ok s, s) := rfl
@[simp] theorem set_run (f : σ → σ) (s : σ) : set f s = (.ok (), f s) := rfl
@[simp] theorem ex_run (r : Rust α) (s : σ) : (ex r : Eff σ α) s = (r, s) := rfl
end Eff

/-- Writing through a `&mut` to the value of an existing key of a `HashMap`. -/
def mapSet {K V : Type} [DecidableEq K] (m : List (K × V)) (k : K) (v : V) : List (K × V) :=
  m.map (fun p => if p.1 = k then (p.1, v) else p)

namespace Server
variable {F G1 G2 GT : Type} [Field F] [DecidableEq F] [AddCommGroup G1] [Module F G1]
  [AddCommGroup G2] [Module F G2] [AddCommGroup GT] [Module F GT]

/-- `Server::add`, src/servers.rs:52-70, statement by statement: `all_users` is changed (line 57) before
the witness is computed (lines 59-62, can panic) and stored (line 64). -/
def addM (y : F) : Eff (Server F G1 G2) (Option G1) := do
  let self ← Eff.get
  if mapContains self.allWitnesses y then
    pure none
  else do
    Eff.set (fun s => { s with allUsers := setInsert s.allUsers y })
    let self ← Eff.get
    let last ← Eff.ex (unwrap self.accumulators.getLast?)
    let i ← Eff.ex (inv! (y + self.witnessSecretKey))
    let wit := i • last
    Eff.set (fun s => { s with allWitnesses := mapInsert s.allWitnesses y wit })
    pure (some wit)

/-- The loop of `Server::delete`, src/servers.rs:85-90, over the keys in the order `order`. -/
def deleteLoop (userId : F) (newAccumulator : G1) : List F → Eff (Server F G1 G2) Unit
  | [] => pure ()
  | otherY :: order => do
    let self ← Eff.get
    match mapGet self.allWitnesses otherY with
    | none => deleteLoop userId newAccumulator order
    | some otherWitness => do
      let i ← Eff.ex (inv! (userId - otherY))
      let t := i • (otherWitness - newAccumulator)
      Eff.set (fun s => { s with allWitnesses := mapSet s.allWitnesses otherY t })
      deleteLoop userId newAccumulator order

/-- `Server::delete`, src/servers.rs:77-95, statement by statement. `order` gives the (unspecified) order in
which `iter_mut` visits the keys that are left after the removal. -/
def deleteM (order : List F → List F) (userId : F) : Eff (Server F G1 G2) (Option G1) := do
  let self ← Eff.get
  match mapGet self.allWitnesses userId with
  | none => pure none
  | some wit => do
    Eff.set (fun s => { s with allWitnesses := mapErase s.allWitnesses userId })
    let newAccumulator := wit
    Eff.set (fun s => { s with accumulators := s.accumulators ++ [newAccumulator] })
    let self ← Eff.get
    deleteLoop userId newAccumulator (order (self.allWitnesses.map (·.1)))
    Eff.set (fun s => { s with deletions := s.deletions ++ [userId] })
    pure (some newAccumulator)

/-- `Server::quick_delete`, src/servers.rs:99-116, statement by statement. -/
def quickDeleteM (y : F) : Eff (Server F G1 G2) (Option G1) := do
  let self ← Eff.get
  if !mapContains self.allWitnesses y then
    pure none
  else do
    Eff.set (fun s => { s with allWitnesses := mapErase s.allWitnesses y })
    let self ← Eff.get
    let last ← Eff.ex (unwrap self.accumulators.getLast?)
    let i ← Eff.ex (inv! (y + self.witnessSecretKey))
    let newAccumulator := i • last
    Eff.set (fun s => { s with accumulators := s.accumulators ++ [newAccumulator] })
    Eff.set (fun s => { s with deletions := s.deletions ++ [y] })
    pure (some newAccumulator)

/-- One call. -/
def stepM (order : List F → List F) : Op F → Eff (Server F G1 G2) (Option G1)
  | .add y => addM y
  | .delete y => deleteM order y
  | .quickDelete y => quickDeleteM y

/-- A history of calls by a caller that catches panics and goes on; gives the outcome of every call and the
state at the end. The order of the hash map may be different in every call. -/
def runM : List ((List F → List F) × Op F) → Server F G1 G2 → List (Rust (Option G1)) × Server F G1 G2
  | [], s => ([], s)
  | (order, op) :: ops, s =>
    let r := stepM order op s
    let rest := runM ops r.2
    (r.1 :: rest.1, rest.2)

end Server

namespace User
variable {F G1 G2 GT : Type} [Field F] [DecidableEq F] [AddCommGroup G1] [Module F G1]
  [DecidableEq G1] [AddCommGroup G2] [Module F G2] [AddCommGroup GT] [Module F GT]

/-- `User::create_witness`, src/user.rs:82-109, statement by statement: the three fields are assigned one
after the other (lines 101-107) and `get_accumulator` could panic between them. -/
def createWitnessM (H : Oracle F) (enc : Enc G1 G2 GT) (params : AccParams G1 G2)
    (server : Server F G1 G2) (key k : F) : Eff (User F G1 G2) Unit := do
  let self ← Eff.get
  let userPubKey := key • params.k1
  let kPoint := k • params.k1
  let transcript := Transcript.new "user_signature_proof"
  let transcript := transcript.append "user_pub_key" (enc.g1 userPubKey)
  let transcript := transcript.append "commitment" (enc.g1 kPoint)
  let challenge := H transcript "challenge"
  let response := k - challenge * key
  let answer ← Eff.ex (server.witness H enc params self.id challenge response userPubKey)
  match answer with
  | some (witness, signature) => do
    Eff.set (fun u => { u with witness := some { secretKey := key, witness := witness, signature := signature } })
    Eff.set (fun u => { u with epoch := server.getEpoch })
    let acc ← Eff.ex server.getAccumulator
    Eff.set (fun u => { u with accumulator := acc })
  | none => pure ()

/-- `User::update`, src/user.rs:247-291, statement by statement: the witness is assigned (line 281) before
`servers[0].get_accumulator()` is called (line 284). -/
def updateM (seed : Nat → Nat) (servers : List (Server F G1 G2)) (threshold : Nat) (rand : Nat → Nat → F) :
    Eff (User F G1 G2) (Except String Unit) := do
  let self ← Eff.get
  match self.witness with
  | none => pure (.error "No witness")
  | some w => do
    let s0 ← Eff.ex (idx servers 0)
    let prep ← Eff.ex (self.prepareForUpdate seed s0.getEpoch servers.length threshold rand)
    match prep with
    | .error e => pure (.error e)
    | .ok upd => do
      let dvs ← Eff.ex ((List.range servers.length).mapM (fun i => do
        let s ← idx servers i
        let ys ← idx upd.yShares i
        s.update upd.epochDiff ys))
      let post ← Eff.ex (postUpdate w.witness threshold upd.yShares upd.yValues dvs)
      match post with
      | .ok newWitness => do
        Eff.set (fun u => { u with witness := u.witness.map (fun w => { w with witness := newWitness }) })
        let acc ← Eff.ex s0.getAccumulator
        Eff.set (fun u => { u with accumulator := acc })
        pure (.ok ())
      | .error e => pure (.error e)

end User
end Allo
