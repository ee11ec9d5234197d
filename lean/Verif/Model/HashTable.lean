import Verif.Model.Server

/-!
# Servers on hash tables

`Verif.Model.Server` uses association lists for the `HashMap<Element, MembershipWitness>` and the
`HashSet<Element>` of `Server` (src/servers.rs:22-25). Here are the same functions on hash tables with chaining, for any
hash function and number of buckets, with `impl Hash for Element` (src/accumulator/acc.rs:16-20). The layout of
the table of the standard library is different (open addressing, SIMD probing) and not modelled; what is common
is that an entry is looked for only where its hash says.
-/

namespace Allo

/-- A hash table: a list of buckets. -/
structure Table (F V : Type) where
  buckets : List (List (F × V))

/-- `impl Hash for Element`, src/accumulator/acc.rs:16-20: the hasher `h` is given the 32 bytes of the scalar (`bytes`). -/
def elementHash {F : Type} (h : List UInt8 → Nat) (bytes : F → List UInt8) (y : F) : Nat := h (bytes y)

namespace Table
variable {F V : Type} [DecidableEq F] (hash : F → Nat)

/-- The bucket for a key. -/
def slot (t : Table F V) (y : F) : Nat := hash y % t.buckets.length

/-- A new table with `n` buckets. -/
def empty (n : Nat) : Table F V := ⟨List.replicate n []⟩

/-- `get`: only the bucket of the key is searched. -/
def get (t : Table F V) (y : F) : Option V := mapGet (t.buckets.getD (t.slot hash y) []) y

/-- `contains_key`. -/
def contains (t : Table F V) (y : F) : Bool := mapContains (t.buckets.getD (t.slot hash y) []) y

/-- `insert`. -/
def insert (t : Table F V) (y : F) (v : V) : Table F V :=
  ⟨t.buckets.modify (t.slot hash y) (fun b => mapInsert b y v)⟩

/-- `remove`. -/
def remove (t : Table F V) (y : F) : Table F V :=
  ⟨t.buckets.modify (t.slot hash y) (fun b => mapErase b y)⟩

/-- All entries, in the order of iteration. -/
def entries (t : Table F V) : List (F × V) := t.buckets.flatten

/-- The table is moved to one with `n` buckets (when it has grown too full). -/
def resize (t : Table F V) (n : Nat) : Table F V :=
  t.entries.foldl (fun t p => t.insert hash p.1 p.2) (empty n)

/-- `iter_mut`: every entry is replaced, bucket by bucket. -/
def iterMut (t : Table F V) (f : F × V → Rust (F × V)) : Rust (Table F V) := do
  let bs ← t.buckets.mapM (fun b => b.mapM f)
  pure ⟨bs⟩

end Table

/-- `Server`, src/servers.rs:12-27, with hash tables. -/
structure HServer (F G1 G2 : Type) where
  accumulators : List G1
  witnessSecretKey : F
  publicKeys : PublicKeys G2
  signSecretKey : F
  allUsers : Table F Unit
  allWitnesses : Table F G1
  deletions : List F

namespace HServer
variable {F G1 G2 GT : Type} [Field F] [DecidableEq F] [AddCommGroup G1] [Module F G1]
  [AddCommGroup G2] [Module F G2] [AddCommGroup GT] [Module F GT] (hash : F → Nat)

/-- `Server::new`, src/servers.rs:31-49. -/
def new (n : Nat) (params : AccParams G1 G2) (alpha sM v : F) : HServer F G1 G2 :=
  { accumulators := [v • params.p1]
    witnessSecretKey := alpha
    signSecretKey := sM
    publicKeys := { witnessKey := alpha • params.p2, signKey := sM • params.k2 }
    allUsers := Table.empty n
    allWitnesses := Table.empty n
    deletions := [] }

/-- `Server::add`, src/servers.rs:52-70. -/
def add (self : HServer F G1 G2) (y : F) : Rust (HServer F G1 G2 × Option G1) :=
  if self.allWitnesses.contains hash y then pure (self, none)
  else do
    let allUsers := if self.allUsers.contains hash y then self.allUsers else self.allUsers.insert hash y ()
    let last ← unwrap self.accumulators.getLast?
    let i ← inv! (y + self.witnessSecretKey)
    let wit := i • last
    let allWitnesses := self.allWitnesses.insert hash y wit
    pure ({ self with allUsers := allUsers, allWitnesses := allWitnesses }, some wit)

/-- `Server::delete`, src/servers.rs:77-95. -/
def delete (self : HServer F G1 G2) (userId : F) : Rust (HServer F G1 G2 × Option G1) :=
  match self.allWitnesses.get hash userId with
  | none => pure (self, none)
  | some wit => do
    let rest := self.allWitnesses.remove hash userId
    let rest ← rest.iterMut (fun p => do
      let i ← inv! (userId - p.1)
      let t := i • (p.2 - wit)
      pure (p.1, t))
    pure ({ self with
      accumulators := self.accumulators ++ [wit]
      allWitnesses := rest
      deletions := self.deletions ++ [userId] }, some wit)

/-- `Server::quick_delete`, src/servers.rs:99-116. -/
def quickDelete (self : HServer F G1 G2) (y : F) : Rust (HServer F G1 G2 × Option G1) :=
  if !self.allWitnesses.contains hash y then pure (self, none)
  else do
    let allWitnesses := self.allWitnesses.remove hash y
    let last ← unwrap self.accumulators.getLast?
    let i ← inv! (y + self.witnessSecretKey)
    let newAccumulator := i • last
    pure ({ self with
      accumulators := self.accumulators ++ [newAccumulator]
      allWitnesses := allWitnesses
      deletions := self.deletions ++ [y] }, some newAccumulator)

/-- `Server::witness`, src/servers.rs:121-154. -/
def witness (H : Oracle F) (enc : Enc G1 G2 GT) (self : HServer F G1 G2) (params : AccParams G1 G2)
    (y challenge response : F) (userPubKey : G1) : Rust (Option (G1 × G1)) :=
  if !self.allWitnesses.contains hash y then pure none
  else
    let transcript := Transcript.new "user_signature_proof"
    let transcript := transcript.append "user_pub_key" (enc.g1 userPubKey)
    let transcript := transcript.append "commitment"
      (enc.g1 (response • params.k1 + challenge • userPubKey))
    let check := H transcript "challenge"
    if check ≠ challenge then pure none
    else do
      let accWitness ← unwrap (self.allWitnesses.get hash y)
      let i ← inv! (y + self.signSecretKey)
      let signature := i • (userPubKey + params.k0)
      pure (some (accWitness, signature))

/-- The two tables are moved to tables of other sizes. -/
def resize (self : HServer F G1 G2) (n m : Nat) : HServer F G1 G2 :=
  { self with allUsers := self.allUsers.resize hash n, allWitnesses := self.allWitnesses.resize hash m }

/-- One call. -/
def step (self : HServer F G1 G2) : Server.Op F → Rust (HServer F G1 G2 × Option G1)
  | .add y => self.add hash y
  | .delete y => self.delete hash y
  | .quickDelete y => self.quickDelete hash y

/-- The same server with association lists. -/
def toServer (self : HServer F G1 G2) : Server F G1 G2 :=
  { accumulators := self.accumulators
    witnessSecretKey := self.witnessSecretKey
    publicKeys := self.publicKeys
    signSecretKey := self.signSecretKey
    allUsers := self.allUsers.entries.map (·.1)
    allWitnesses := self.allWitnesses.entries
    deletions := self.deletions }

end HServer
end Allo
