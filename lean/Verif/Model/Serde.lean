import Verif.Model.User
import Verif.Model.AccProof

/-!
# Model of the `serde` derives, for the BARE format

The crate derives `Serialize` and `Deserialize` for its types and uses them with `serde_bare` (dependency;
src/accumulator/proof.rs:806-816, benches/updates.rs). Without attributes (the crate uses none) a derived
implementation writes the fields of a struct in order of declaration and reads them back in that order, a
newtype is written as its content, `Option` as a tag byte and the content, `Vec`, `HashSet` and `HashMap` as
their length (a variable-length integer) and their entries in iteration order, `usize` as eight bytes,
little endian. Reading a set or a map inserts the entries one by one. How the dependency writes a scalar
or a point is a parameter.
-/

namespace Allo

/-- How a type is written and read; reading returns the rest of the input. -/
structure Bare (α : Type) where
  enc : α → Bytes
  dec : Bytes → Option (α × Bytes)

/-- What is written is read back, whatever follows it. -/
def Bare.Reads {α : Type} (b : Bare α) (x : α) : Prop := ∀ r, b.dec (b.enc x ++ r) = some (x, r)

namespace Bare
variable {α β : Type}

/-- BARE `uint`: seven bits per byte, least significant first, top bit set on all but the last. -/
def uintEnc (n : Nat) : Bytes :=
  if n < 128 then [UInt8.ofNat n] else UInt8.ofNat (n % 128 + 128) :: uintEnc (n / 128)
termination_by n
decreasing_by omega

def uintDec : Bytes → Option (Nat × Bytes)
  | [] => none
  | b :: r =>
    if b.toNat < 128 then some (b.toNat, r)
    else match uintDec r with
      | some (v, r) => some (b.toNat - 128 + 128 * v, r)
      | none => none

/-- `usize`, written as `u64`: eight bytes, little endian. -/
def leEnc : Nat → Nat → Bytes
  | 0, _ => []
  | k + 1, n => UInt8.ofNat (n % 256) :: leEnc k (n / 256)

def leDec : Nat → Bytes → Option (Nat × Bytes)
  | 0, r => some (0, r)
  | _ + 1, [] => none
  | k + 1, b :: r =>
    match leDec k r with
    | some (v, r) => some (b.toNat + 256 * v, r)
    | none => none

def usize : Bare Nat := ⟨leEnc 8, leDec 8⟩

/-- `Option<T>` -/
def option (b : Bare α) : Bare (Option α) where
  enc
    | none => [0]
    | some x => 1 :: b.enc x
  dec
    | [] => none
    | t :: r =>
      if t = 0 then some (none, r)
      else if t = 1 then (b.dec r).map (fun p => (some p.1, p.2))
      else none

/-- the entries of a sequence -/
def seqEnc (b : Bare α) : List α → Bytes
  | [] => []
  | x :: l => b.enc x ++ seqEnc b l

def seqDec (b : Bare α) : Nat → Bytes → Option (List α × Bytes)
  | 0, r => some ([], r)
  | n + 1, r =>
    match b.dec r with
    | none => none
    | some (x, r) =>
      match seqDec b n r with
      | none => none
      | some (l, r) => some (x :: l, r)

/-- `Vec<T>` -/
def vec (b : Bare α) : Bare (List α) where
  enc l := uintEnc l.length ++ seqEnc b l
  dec r :=
    match uintDec r with
    | none => none
    | some (n, r) => seqDec b n r

/-- two fields, or a map entry -/
def both (a : Bare α) (b : Bare β) : Bare (α × β) where
  enc p := a.enc p.1 ++ b.enc p.2
  dec r :=
    match a.dec r with
    | none => none
    | some (x, r) =>
      match b.dec r with
      | none => none
      | some (y, r) => some ((x, y), r)

/-- a struct, given by the tuple of its fields -/
def iso (b : Bare α) (f : β → α) (g : α → β) : Bare β where
  enc x := b.enc (f x)
  dec r := (b.dec r).map (fun p => (g p.1, p.2))

end Bare

open Bare
variable {F G1 G2 : Type}

/-- `PublicKeys`, src/utils.rs:13-19. -/
def barePublicKeys (g2 : Bare G2) : Bare (PublicKeys G2) :=
  (both g2 g2).iso (fun k => (k.witnessKey, k.signKey)) (fun p => ⟨p.1, p.2⟩)

/-- `AccParams`, src/utils.rs:22-32. -/
def bareAccParams (g1 : Bare G1) (g2 : Bare G2) : Bare (AccParams G1 G2) :=
  (both g1 (both g2 (both g1 (both g1 (both g2 (both g1 (both g1 g1))))))).iso
    (fun p => (p.p1, p.p2, p.k0, p.k1, p.k2, p.x1, p.y1, p.z1))
    (fun p => ⟨p.1, p.2.1, p.2.2.1, p.2.2.2.1, p.2.2.2.2.1, p.2.2.2.2.2.1, p.2.2.2.2.2.2.1, p.2.2.2.2.2.2.2⟩)

/-- `Witness`, src/witness.rs:14-22. -/
def bareWitness (f : Bare F) (g1 : Bare G1) : Bare (Witness F G1) :=
  (both f (both g1 g1)).iso (fun w => (w.secretKey, w.witness, w.signature)) (fun p => ⟨p.1, p.2.1, p.2.2⟩)

/-- `MembershipProof` (of a credential), src/witness.rs:292-306. -/
def bareCredProof (f : Bare F) (g1 : Bare G1) : Bare (CredProof F G1) :=
  (both g1 (both g1 (both g1 (both f (both f (both f (both f (both f (both f (both f (both f f))))))))))).iso
    (fun p => (p.u1, p.u2, p.r, p.challenge, p.s0, p.s1, p.s2, p.s3, p.s4, p.s5, p.s6, p.s7))
    (fun p => ⟨p.1, p.2.1, p.2.2.1, p.2.2.2.1, p.2.2.2.2.1, p.2.2.2.2.2.1, p.2.2.2.2.2.2.1, p.2.2.2.2.2.2.2.1,
      p.2.2.2.2.2.2.2.2.1, p.2.2.2.2.2.2.2.2.2.1, p.2.2.2.2.2.2.2.2.2.2.1, p.2.2.2.2.2.2.2.2.2.2.2⟩)

/-- `MembershipProof` (of the accumulator), src/accumulator/proof.rs:229-239. -/
def bareMemProof (f : Bare F) (g1 : Bare G1) : Bare (MemProof F G1) :=
  (both g1 (both g1 (both g1 (both f (both f (both f (both f f))))))).iso
    (fun p => (p.eC, p.tSigma, p.tRho, p.sSigma, p.sRho, p.sDeltaSigma, p.sDeltaRho, p.sY))
    (fun p => ⟨p.1, p.2.1, p.2.2.1, p.2.2.2.1, p.2.2.2.2.1, p.2.2.2.2.2.1, p.2.2.2.2.2.2.1, p.2.2.2.2.2.2.2⟩)

/-- `ProofParams`, src/accumulator/proof.rs:13-23. -/
def bareProofParams (g1 : Bare G1) : Bare (ProofParams G1) :=
  (both g1 (both g1 (both g1 g1))).iso (fun p => (p.x, p.y, p.z, p.k)) (fun p => ⟨p.1, p.2.1, p.2.2.1, p.2.2.2⟩)

/-- `NonMembershipWitness`, src/accumulator/witness.rs:207-213. -/
def bareNonMembershipWitness (f : Bare F) (g1 : Bare G1) : Bare (NonMembershipWitness F G1) :=
  (both g1 f).iso (fun w => (w.c, w.d)) (fun p => ⟨p.1, p.2⟩)

/-- `Delta`, src/accumulator/witness.rs:418-422. -/
def bareDelta (f : Bare F) (g1 : Bare G1) : Bare (Delta F G1) :=
  (both f g1).iso (fun w => (w.d, w.p)) (fun p => ⟨p.1, p.2⟩)

/-- `User`, src/user.rs:9-21. -/
def bareUser (f : Bare F) (g1 : Bare G1) (g2 : Bare G2) : Bare (User F G1 G2) :=
  (both f (both (option (bareWitness f g1)) (both g1 (both (barePublicKeys g2) usize)))).iso
    (fun u => (u.id, u.witness, u.accumulator, u.publicKeys, u.epoch))
    (fun p => ⟨p.1, p.2.1, p.2.2.1, p.2.2.2.1, p.2.2.2.2⟩)

/-- `Server`, src/servers.rs:11-27: what is written. `ordU`, `ordW` are the iteration orders of the set and
of the map. -/
def serverEnc (f : Bare F) (g1 : Bare G1) (g2 : Bare G2) (ordU : List F → List F)
    (ordW : List (F × G1) → List (F × G1)) (s : Server F G1 G2) : Bytes :=
  (vec g1).enc s.accumulators ++ (f.enc s.witnessSecretKey ++ ((barePublicKeys g2).enc s.publicKeys ++
    (f.enc s.signSecretKey ++ ((vec f).enc (ordU s.allUsers) ++ ((vec (both f g1)).enc (ordW s.allWitnesses) ++
      (vec f).enc s.deletions)))))

/-- `Server`: what is read; the set and the map are filled by insertion. -/
def serverDec [DecidableEq F] (f : Bare F) (g1 : Bare G1) (g2 : Bare G2) (r : Bytes) :
    Option (Server F G1 G2 × Bytes) := do
  let (accumulators, r) ← (vec g1).dec r
  let (witnessSecretKey, r) ← f.dec r
  let (publicKeys, r) ← (barePublicKeys g2).dec r
  let (signSecretKey, r) ← f.dec r
  let (users, r) ← (vec f).dec r
  let (wits, r) ← (vec (both f g1)).dec r
  let (deletions, r) ← (vec f).dec r
  pure ({ accumulators, witnessSecretKey, publicKeys, signSecretKey
          allUsers := users.foldl setInsert []
          allWitnesses := wits.foldl (fun m p => mapInsert m p.1 p.2) []
          deletions }, r)

/-- `serde_bare::from_slice`, with bytes left over treated as an error (the strict reading: whatever this
version reads, a version that ignores the rest reads, too, with the same result). -/
def fromSlice {α : Type} (dec : Bytes → Option (α × Bytes)) (b : Bytes) : Option α :=
  match dec b with
  | some (x, []) => some x
  | _ => none

end Allo
