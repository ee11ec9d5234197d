import Verif.Model.Serde

/-!
# Model of the `serde` derives, for self-describing formats (JSON)

The same derives as in `Model/Serde.lean`, used with a format that keeps the names of the fields. What the
derived code does (serde's `derive`, no attributes; the crate uses none):

* a struct is written as an object, the fields in order of declaration under their Rust names;
* an object is read entry by entry: an unknown name is skipped, a known name that was already seen is an error,
  otherwise the value is read at once; afterwards a field that was not seen is an error, except that an
  `Option` becomes `None`;
* an array is accepted, too: the fields in order of declaration, neither fewer nor more;
* a newtype is its content; `Option` is `null` or the content; `Vec` and `HashSet` are arrays; `HashMap` is an
  object whose keys are the texts of the ids; `usize` is a number below `2^64`.

How the dependency writes a scalar (a text) or a point (anything) is a parameter. The characters of the text
itself (quotes, escapes, blanks) are the format's business and are not modelled: a document is a tree.
-/

namespace Allo

/-- A document. The entries of an object are in the order of the file and may repeat a name. -/
inductive Val
  | null
  | num (n : Nat)
  | str (s : String)
  | arr (l : List Val)
  | obj (l : List (String × Val))

/-- How a type is written and read. `absent` is what a field of this type becomes when it is not in the
object (`serde::__private::de::missing_field`: an error unless the type is an `Option`). -/
structure Fmt (α : Type) where
  enc : α → Val
  dec : Val → Except String α
  absent : Option α := none

/-- How the dependency writes a scalar in a human-readable format. -/
structure Txt (α : Type) where
  enc : α → String
  dec : String → Except String α

namespace Fmt
variable {α β : Type}

/-- a scalar -/
def text (t : Txt α) : Fmt α where
  enc x := .str (t.enc x)
  dec
    | .str s => t.dec s
    | _ => .error "invalid type"

/-- `usize` -/
def usize : Fmt Nat where
  enc n := .num n
  dec
    | .num n => if n < 2 ^ 64 then .ok n else .error "invalid value"
    | _ => .error "invalid type"

/-- `Option<T>` -/
def option (b : Fmt α) : Fmt (Option α) where
  enc
    | none => .null
    | some x => b.enc x
  dec
    | .null => .ok none
    | v => (b.dec v).map some
  absent := some none

/-- the entries of an array -/
def decList (b : Fmt α) : List Val → Except String (List α)
  | [] => .ok []
  | v :: l => do
    let x ← b.dec v
    let r ← decList b l
    pure (x :: r)

/-- `Vec<T>`, and what is written and read for a `HashSet<T>` -/
def vec (b : Fmt α) : Fmt (List α) where
  enc l := .arr (l.map b.enc)
  dec
    | .arr l => decList b l
    | _ => .error "invalid type"

/-- the entries of an object that stands for a map -/
def decEntries (k : Txt α) (b : Fmt β) : List (String × Val) → Except String (List (α × β))
  | [] => .ok []
  | e :: l => do
    let x ← k.dec e.1
    let y ← b.dec e.2
    let r ← decEntries k b l
    pure ((x, y) :: r)

/-- what is written and read for a `HashMap<K, T>`: the entries in iteration order -/
def map (k : Txt α) (b : Fmt β) : Fmt (List (α × β)) where
  enc l := .obj (l.map (fun p => (k.enc p.1, b.enc p.2)))
  dec
    | .obj l => decEntries k b l
    | _ => .error "invalid type"

/-- A value can be read (used while the entries of an object are visited). -/
def check (b : Fmt α) (v : Val) : Except String Unit := (b.dec v).map (fun _ => ())

/-- The value of a field after all entries were visited. -/
def slot (b : Fmt α) (name : String) (seen : List (String × Val)) : Except String α :=
  match mapGet seen name with
  | some v => b.dec v
  | none =>
    match b.absent with
    | some x => .ok x
    | none => .error s!"missing field `{name}`"

end Fmt

/-- The fields of a struct, as a tuple. -/
structure Fields (α : Type) where
  names : List (String × (Val → Except String Unit))
  enc : α → List (String × Val)
  take : List (String × Val) → Except String α
  seq : List Val → Except String α

namespace Fields
variable {α β : Type}

/-- the last field -/
def last (name : String) (b : Fmt α) : Fields α where
  names := [(name, b.check)]
  enc x := [(name, b.enc x)]
  take := b.slot name
  seq
    | [] => .error "invalid length"
    | [v] => b.dec v
    | v :: _ => do
      let _ ← b.dec v
      .error "trailing characters"

/-- a field and the ones after it -/
def cons (name : String) (b : Fmt α) (r : Fields β) : Fields (α × β) where
  names := (name, b.check) :: r.names
  enc p := (name, b.enc p.1) :: r.enc p.2
  take seen := do
    let x ← b.slot name seen
    let y ← r.take seen
    pure (x, y)
  seq
    | [] => .error "invalid length"
    | v :: l => do
      let x ← b.dec v
      let y ← r.seq l
      pure (x, y)

/-- The loop of the derived `visit_map`; `seen` are the fields that have a value already. -/
def visit (names : List (String × (Val → Except String Unit))) :
    List (String × Val) → List (String × Val) → Except String (List (String × Val))
  | [], seen => .ok seen
  | e :: es, seen =>
    match mapGet names e.1 with
    | none => visit names es seen
    | some chk =>
      if mapContains seen e.1 then .error s!"duplicate field `{e.1}`"
      else do
        chk e.2
        visit names es (seen ++ [e])

/-- a derived implementation -/
def struct (fs : Fields α) (f : β → α) (g : α → β) : Fmt β where
  enc x := .obj (fs.enc (f x))
  dec
    | .obj es => do
      let seen ← visit fs.names es []
      let x ← fs.take seen
      pure (g x)
    | .arr l => do
      let x ← fs.seq l
      pure (g x)
    | _ => .error "invalid type"

end Fields

open Fields Fmt
variable {F G1 G2 : Type}

/-- `PublicKeys`, src/utils.rs:13-19. -/
def valPublicKeys (g2 : Fmt G2) : Fmt (PublicKeys G2) :=
  (cons "witness_key" g2 (last "sign_key" g2)).struct (fun k => (k.witnessKey, k.signKey)) (fun p => ⟨p.1, p.2⟩)

/-- `AccParams`, src/utils.rs:22-32. -/
def valAccParams (g1 : Fmt G1) (g2 : Fmt G2) : Fmt (AccParams G1 G2) :=
  (cons "p1" g1 (cons "p2" g2 (cons "k0" g1 (cons "k1" g1 (cons "k2" g2 (cons "x1" g1 (cons "y1" g1
    (last "z1" g1)))))))).struct
    (fun p => (p.p1, p.p2, p.k0, p.k1, p.k2, p.x1, p.y1, p.z1))
    (fun p => ⟨p.1, p.2.1, p.2.2.1, p.2.2.2.1, p.2.2.2.2.1, p.2.2.2.2.2.1, p.2.2.2.2.2.2.1, p.2.2.2.2.2.2.2⟩)

/-- `Witness`, src/witness.rs:14-22. -/
def valWitness (f : Txt F) (g1 : Fmt G1) : Fmt (Witness F G1) :=
  (cons "secret_key" (text f) (cons "witness" g1 (last "signature" g1))).struct
    (fun w => (w.secretKey, w.witness, w.signature)) (fun p => ⟨p.1, p.2.1, p.2.2⟩)

/-- `MembershipProof` (of a credential), src/witness.rs:292-306. -/
def valCredProof (f : Txt F) (g1 : Fmt G1) : Fmt (CredProof F G1) :=
  (cons "u_1" g1 (cons "u_2" g1 (cons "r" g1 (cons "challenge" (text f) (cons "s_0" (text f)
    (cons "s_1" (text f) (cons "s_2" (text f) (cons "s_3" (text f) (cons "s_4" (text f) (cons "s_5" (text f)
    (cons "s_6" (text f) (last "s_7" (text f))))))))))))).struct
    (fun p => (p.u1, p.u2, p.r, p.challenge, p.s0, p.s1, p.s2, p.s3, p.s4, p.s5, p.s6, p.s7))
    (fun p => ⟨p.1, p.2.1, p.2.2.1, p.2.2.2.1, p.2.2.2.2.1, p.2.2.2.2.2.1, p.2.2.2.2.2.2.1, p.2.2.2.2.2.2.2.1,
      p.2.2.2.2.2.2.2.2.1, p.2.2.2.2.2.2.2.2.2.1, p.2.2.2.2.2.2.2.2.2.2.1, p.2.2.2.2.2.2.2.2.2.2.2⟩)

/-- `MembershipProof` (of the accumulator), src/accumulator/proof.rs:229-239. -/
def valMemProof (f : Txt F) (g1 : Fmt G1) : Fmt (MemProof F G1) :=
  (cons "e_c" g1 (cons "t_sigma" g1 (cons "t_rho" g1 (cons "s_sigma" (text f) (cons "s_rho" (text f)
    (cons "s_delta_sigma" (text f) (cons "s_delta_rho" (text f) (last "s_y" (text f))))))))).struct
    (fun p => (p.eC, p.tSigma, p.tRho, p.sSigma, p.sRho, p.sDeltaSigma, p.sDeltaRho, p.sY))
    (fun p => ⟨p.1, p.2.1, p.2.2.1, p.2.2.2.1, p.2.2.2.2.1, p.2.2.2.2.2.1, p.2.2.2.2.2.2.1, p.2.2.2.2.2.2.2⟩)

/-- `ProofParams`, src/accumulator/proof.rs:13-23. -/
def valProofParams (g1 : Fmt G1) : Fmt (ProofParams G1) :=
  (cons "x" g1 (cons "y" g1 (cons "z" g1 (last "k" g1)))).struct (fun p => (p.x, p.y, p.z, p.k))
    (fun p => ⟨p.1, p.2.1, p.2.2.1, p.2.2.2⟩)

/-- `NonMembershipWitness`, src/accumulator/witness.rs:207-213. -/
def valNonMembershipWitness (f : Txt F) (g1 : Fmt G1) : Fmt (NonMembershipWitness F G1) :=
  (cons "c" g1 (last "d" (text f))).struct (fun w => (w.c, w.d)) (fun p => ⟨p.1, p.2⟩)

/-- `Delta`, src/accumulator/witness.rs:418-422. -/
def valDelta (f : Txt F) (g1 : Fmt G1) : Fmt (Delta F G1) :=
  (cons "d" (text f) (last "p" g1)).struct (fun w => (w.d, w.p)) (fun p => ⟨p.1, p.2⟩)

/-- `User`, src/user.rs:9-21. -/
def valUser (f : Txt F) (g1 : Fmt G1) (g2 : Fmt G2) : Fmt (User F G1 G2) :=
  (cons "id" (text f) (cons "witness" (option (valWitness f g1)) (cons "accumulator" g1
    (cons "public_keys" (valPublicKeys g2) (last "epoch" Fmt.usize))))).struct
    (fun u => (u.id, u.witness, u.accumulator, u.publicKeys, u.epoch))
    (fun p => ⟨p.1, p.2.1, p.2.2.1, p.2.2.2.1, p.2.2.2.2⟩)

/-- `Server`, src/servers.rs:11-27. `ordU`, `ordW` are the iteration orders of the set and of the map; reading
inserts the entries one by one. -/
def valServer [DecidableEq F] (f : Txt F) (g1 : Fmt G1) (g2 : Fmt G2) (ordU : List F → List F)
    (ordW : List (F × G1) → List (F × G1)) : Fmt (Server F G1 G2) :=
  (cons "accumulators" (vec g1) (cons "witness_secret_key" (text f) (cons "public_keys" (valPublicKeys g2)
    (cons "sign_secret_key" (text f) (cons "all_users" (vec (text f)) (cons "all_witnesses" (Fmt.map f g1)
    (last "deletions" (vec (text f))))))))).struct
    (fun s => (s.accumulators, s.witnessSecretKey, s.publicKeys, s.signSecretKey, ordU s.allUsers,
      ordW s.allWitnesses, s.deletions))
    (fun p => { accumulators := p.1, witnessSecretKey := p.2.1, publicKeys := p.2.2.1, signSecretKey := p.2.2.2.1
                allUsers := p.2.2.2.2.1.foldl setInsert []
                allWitnesses := p.2.2.2.2.2.1.foldl (fun m q => mapInsert m q.1 q.2) []
                deletions := p.2.2.2.2.2.2 })

end Allo
