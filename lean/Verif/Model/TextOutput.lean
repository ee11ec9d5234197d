import Verif.Model.User
import Verif.Model.AccProof

/-!
# Model of the `Display` implementations and of the derived `Debug` of the types that hold secrets

`write!(f, "lit {} lit {} lit", a, b)` writes the literals and the texts of the arguments one after the other.
The texts of scalars and points are written by the dependency. They are a relation (`Prints`), not a function:
a point may be printed in coordinates that depend on how it was computed.
-/

namespace Allo

/-- `p x w`: `w` is a text that may be printed for `x`. -/
def Prints (α : Type) := α → List Char → Prop

namespace Prints
variable {α β : Type}

/-- the last argument of a format string, between the literals `s` and `e` -/
def last (s : String) (p : Prints α) (e : String) : Prints α :=
  fun x w => ∃ u, p x u ∧ w = s.toList ++ u ++ e.toList

/-- the literal `s`, an argument, and the rest of the format string -/
def piece (s : String) (p : Prints α) (r : Prints β) : Prints (α × β) :=
  fun x w => ∃ u v, p x.1 u ∧ r x.2 v ∧ w = s.toList ++ u ++ v

/-- a struct, printed by its fields -/
def of (r : Prints α) (f : β → α) : Prints β := fun x w => r (f x) w

/-- `usize`: decimal digits -/
def decimal : Prints Nat := fun n w =>
  w ≠ [] ∧ (∀ c ∈ w, c.isDigit = true) ∧ w.foldl (fun v c => 10 * v + (c.toNat - 48)) 0 = n

/-- the entries of a list after the first one, and the closing bracket -/
def more (p : Prints α) (close : Char) : List α → List Char → Prop
  | [], w => w = [close]
  | x :: l, w => ∃ u v, p x u ∧ more p close l v ∧ w = ", ".toList ++ u ++ v

/-- derived `Debug` of lists (`[a, b]`), sets (`{a, b}`) and maps (`{k: v, l: w}`) -/
def list (p : Prints α) (opn close : Char) : Prints (List α) := fun l w =>
  match l with
  | [] => w = [opn, close]
  | x :: l => ∃ u v, p x u ∧ more p close l v ∧ w = opn :: u ++ v

/-- derived `Debug` of `Option` -/
def option (p : Prints α) : Prints (Option α) := fun x w =>
  match x with
  | none => w = "None".toList
  | some x => ∃ u, p x u ∧ w = "Some(".toList ++ u ++ ")".toList

end Prints

open Prints
variable {F G1 G2 : Type}

/-! ### `Display` -/

/-- `Display for Element`, src/accumulator/acc.rs:22-26. -/
def showElement (f : Prints F) : Prints F := last "Element { " f " }"

/-- `Display for Coefficient`, src/accumulator/acc.rs:73-77. -/
def showCoefficient (g : Prints G1) : Prints G1 := last "Coefficient { " g " }"

/-- `Display for Accumulator`, src/accumulator/acc.rs:114-118. -/
def showAccumulator (g : Prints G1) : Prints G1 := last "Accumulator { " g " }"

/-- `Display for PublicKey`, src/accumulator/key.rs:119-123. -/
def showPublicKey (g : Prints G2) : Prints G2 := last "PublicKey { " g " }"

/-- `Display for MembershipWitness`, src/accumulator/witness.rs:27-31. -/
def showMembershipWitness (g : Prints G1) : Prints G1 := last "MembershipWitness { " g " }"

/-- `Display for NonMembershipWitness`, src/accumulator/witness.rs:227-231. -/
def showNonMembershipWitness (f : Prints F) (g : Prints G1) : Prints (NonMembershipWitness F G1) :=
  (piece "NonMembershipWitness { c: " g (last ", d: " f " }")).of (fun w => (w.c, w.d))

/-- `Display for ProofParams`, src/accumulator/proof.rs:25-36; `b` is `{:?}` of the compressed bytes. -/
def showProofParams (b : Prints G1) : Prints (ProofParams G1) :=
  (piece "ProofParams { x: " b (piece ", y: " b (piece ", z: " b (last ", k: " b " }")))).of
    (fun p => (p.x, p.y, p.z, p.k))

/-- `Display for MembershipProof` (of the accumulator), src/accumulator/proof.rs:241-246. -/
def showMemProof (f : Prints F) (g : Prints G1) : Prints (MemProof F G1) :=
  (piece "MembershipProof { e_c: " g (piece ", t_sigma: " g (piece ", t_rho: " g (piece ", s_sigma: " f
    (piece ", s_rho: " f (piece ", s_delta_sigma: " f (piece ", s_delta_rho: " f
    (last ", s_y: " f " }")))))))).of
    (fun p => (p.eC, p.tSigma, p.tRho, p.sSigma, p.sRho, p.sDeltaSigma, p.sDeltaRho, p.sY))

/-- `Display for NonMembershipProof`, src/accumulator/proof.rs:742-747. -/
def showNonProof (f : Prints F) (g : Prints G1) : Prints (NonProof F G1) :=
  (piece "NonMembershipProof { e_c: " g (piece ", e_d: " g (piece ", e_dm1: " g (piece ", t_sigma: " g
    (piece ", t_rho: " g (piece ", s_sigma: " f (piece ", s_rho: " f (piece ", s_delta_sigma: " f
    (piece ", s_delta_rho: " f (piece ", s_u: " f (piece ", s_v: " f (piece ", s_w: " f
    (last ", s_y: " f " }"))))))))))))).of
    (fun p => (p.eC, p.eD, p.eDm1, p.tSigma, p.tRho, p.sSigma, p.sRho, p.sDeltaSigma, p.sDeltaRho, p.sU, p.sV,
      p.sW, p.sY))

/-- `Display for MembershipProof` (of a credential), src/witness.rs:308-329, with its missing colon and comma
and the line break. -/
def showCredProof (f : Prints F) (g : Prints G1) : Prints (CredProof F G1) :=
  (piece "MembershipProof { u_1: " g (piece ", u_2: " g (piece ", r: " g (piece ", challenge " f
    (piece ", s_0: " f (piece "\n             s_1: " f (piece ", s_2: " f (piece ",  s_3: " f
    (piece ",  s_4: " f (piece ",  s_5: " f (piece ",  s_6: " f (last ",  s_7: " f " }")))))))))))).of
    (fun p => (p.u1, p.u2, p.r, p.challenge, p.s0, p.s1, p.s2, p.s3, p.s4, p.s5, p.s6, p.s7))

/-! ### derived `Debug` of what holds secrets -/

/-- `SecretKey`, src/accumulator/key.rs:12-13. -/
def debugSecretKey (f : Prints F) : Prints F := last "SecretKey(" f ")"

/-- `Element`, src/accumulator/acc.rs:13-14. -/
def debugElement (f : Prints F) : Prints F := last "Element(" f ")"

/-- `Accumulator`, src/accumulator/acc.rs:111-112. -/
def debugAccumulator (g : Prints G1) : Prints G1 := last "Accumulator(" g ")"

/-- `MembershipWitness`, src/accumulator/witness.rs:24-25. -/
def debugMembershipWitness (g : Prints G1) : Prints G1 := last "MembershipWitness(" g ")"

/-- `PublicKeys`, src/utils.rs:13-19, with `PublicKey`, src/accumulator/key.rs:116-117. -/
def debugPublicKeys (g : Prints G2) : Prints (PublicKeys G2) :=
  (piece "PublicKeys { witness_key: " (last "PublicKey(" g ")") (last ", sign_key: " (last "PublicKey(" g ")") " }")).of
    (fun k => (k.witnessKey, k.signKey))

/-- `ProofMessage`, src/accumulator/proof_message.rs:7-20. -/
def debugProofMessage (f : Prints F) : Prints (ProofMessage F) := fun m w =>
  match m with
  | .hidden m => last "Hidden { message: " f " }" m w
  | .sharedBlinding m b => piece "SharedBlinding { message: " f (last ", blinder: " f " }") (m, b) w

/-- `Witness`, src/witness.rs:14-22. -/
def debugWitness (f : Prints F) (g : Prints G1) : Prints (Witness F G1) :=
  (piece "Witness { secret_key: " (debugSecretKey f) (piece ", witness: " (debugMembershipWitness g)
    (last ", signature: " g " }"))).of (fun w => (w.secretKey, w.witness, w.signature))

/-- `User`, src/user.rs:9-21. -/
def debugUser (f : Prints F) (g1 : Prints G1) (g2 : Prints G2) : Prints (User F G1 G2) :=
  (piece "User { id: " (debugElement f) (piece ", witness: " (option (debugWitness f g1))
    (piece ", accumulator: " (debugAccumulator g1) (piece ", public_keys: " (debugPublicKeys g2)
    (last ", epoch: " decimal " }"))))).of (fun u => (u.id, u.witness, u.accumulator, u.publicKeys, u.epoch))

/-- `Server`, src/servers.rs:11-27. `ordU`, `ordW` are the iteration orders of the set and of the map. -/
def debugServer (f : Prints F) (g1 : Prints G1) (g2 : Prints G2) (ordU : List F → List F)
    (ordW : List (F × G1) → List (F × G1)) : Prints (Server F G1 G2) :=
  (piece "Server { accumulators: " (list (debugAccumulator g1) '[' ']')
    (piece ", witness_secret_key: " (debugSecretKey f) (piece ", public_keys: " (debugPublicKeys g2)
    (piece ", sign_secret_key: " (debugSecretKey f) (piece ", all_users: " (list (debugElement f) '{' '}')
    (piece ", all_witnesses: " (list (piece "" (debugElement f) (last ": " (debugMembershipWitness g1) "")) '{' '}')
    (last ", deletions: " (list (debugElement f) '[' ']') " }"))))))).of
    (fun s => (s.accumulators, s.witnessSecretKey, s.publicKeys, s.signSecretKey, ordU s.allUsers,
      ordW s.allWitnesses, s.deletions))

end Allo
