import Verif.Model.AccProof
import Verif.Model.User

/-!
# The operations performed when a credential is issued, shown and checked

The functions of `Verif.Model.Credential`, `Verif.Model.AccProof`, `Server::witness` and `User::create_witness`,
written again, one operation at a time in the order of the Rust code, over operations that record themselves.
(`Verif.Props.TraceCred` proves that they compute the same.) Recorded: operations on points and in `Gt`, pairings,
multiplications and inversions of scalars, drawing a random scalar, appending to a transcript (with its label and
the number of bytes), drawing a challenge from it. Not recorded: additions and negations of scalars, comparisons,
looking up in the hash table, conversions between coordinates.
-/

namespace Allo

/-- What is recorded. -/
inductive CredOp
  /-- `G1Projective * Scalar` -/
  | mul1
  /-- `G1Projective + G1Projective` or `-` -/
  | add1
  /-- `-G1Projective` -/
  | neg1
  /-- `G2Projective * Scalar` -/
  | mul2
  /-- `G2Projective + G2Projective` -/
  | add2
  /-- `-G2Projective` -/
  | neg2
  /-- `G1Projective::sum_of_products` of `n` points -/
  | msm (n : Nat)
  /-- one pairing -/
  | pairing
  /-- `multi_miller_loop` of two pairs and `final_exponentiation` -/
  | pairing2
  /-- `Gt + Gt` -/
  | addT
  /-- `Scalar * Scalar` -/
  | fmul
  /-- `Scalar::invert` -/
  | finv
  /-- `generate_fr` with the system's randomness -/
  | draw
  /-- `append_message` of `n` bytes -/
  | append (label : String) (n : Nat)
  /-- `Element::from_transcript` -/
  | challenge
  deriving DecidableEq, Repr

/-- A Rust expression that records its operations. -/
abbrev RecM (α : Type) := StateT (List CredOp) (Except Abort) α

namespace RecM

/-- a recorded operation -/
def op {α : Type} (o : CredOp) (a : α) : RecM α := fun c => .ok (a, c ++ [o])

/-- something that is not recorded -/
def free {α : Type} (r : Rust α) : RecM α := fun c => r.map (fun a => (a, c))

/-- the operations that were performed by a call that returns, in order -/
def trace {α : Type} (x : RecM α) : Rust (List CredOp) := (x []).map Prod.snd

/-- what the call returns -/
def value {α : Type} (x : RecM α) : Rust α := (x []).map Prod.fst

end RecM

open RecM

section
variable {F G1 G2 GT : Type} [Field F] [DecidableEq F] [AddCommGroup G1] [Module F G1]
  [AddCommGroup G2] [Module F G2] [AddCommGroup GT] [Module F GT]

/-- `P * s` in `G1` -/
def mul1R (P : G1) (s : F) : RecM G1 := op .mul1 (s • P)
/-- `P + Q` in `G1` -/
def add1R (P Q : G1) : RecM G1 := op .add1 (P + Q)
/-- `P - Q` in `G1` -/
def sub1R (P Q : G1) : RecM G1 := op .add1 (P - Q)
/-- `-P` in `G1` -/
def neg1R (P : G1) : RecM G1 := op .neg1 (-P)
/-- `P * s` in `G2` -/
def mul2R (P : G2) (s : F) : RecM G2 := op .mul2 (s • P)
/-- `P + Q` in `G2` -/
def add2R (P Q : G2) : RecM G2 := op .add2 (P + Q)
/-- `-P` in `G2` -/
def neg2R (P : G2) : RecM G2 := op .neg2 (-P)
/-- `a + b` in `Gt` -/
def addTR (a b : GT) : RecM GT := op .addT (a + b)
/-- `a * b` for scalars -/
def fmulR (a b : F) : RecM F := op .fmul (a * b)
/-- `a.invert().unwrap()` -/
def finvR (a : F) : RecM F := do
  op .finv ()
  free (inv! a)
/-- `generate_fr(SALT, None, rng)`, `SecretKey::new(None)`, `Element::random()`: the value that is drawn is an argument -/
def drawR (a : F) : RecM F := op .draw a
/-- `t.append_message(label, m)` -/
def appendR (t : Transcript) (label : String) (m : Bytes) : RecM Transcript := op (.append label m.length) (t.append label m)
/-- `Element::from_transcript(label, t)` -/
def challengeR (H : Oracle F) (t : Transcript) (label : String) : RecM F := op .challenge (H t label)

/-- `pair`, src/accumulator/proof.rs:788-790 -/
def pairR (E : Pairing F G1 G2 GT) (P : G1) (Q : G2) : RecM GT := op .pairing (E.e P Q)

/-- `pairing`, src/accumulator/proof.rs:792-795 -/
def pairingExpR (E : Pairing F G1 G2 GT) (P : G1) (Q : G2) (exp : F) : RecM GT := do
  let base ← mul1R P exp
  pairR E base Q

/-- `cap_r`, src/accumulator/proof.rs:784-786 -/
def capRR (bases : List G1) (scalars : List F) : RecM G1 := op (.msm bases.length) (capR bases scalars)

/-- `schnorr`, src/accumulator/proof.rs:797-799 -/
def schnorrR (r v challenge : F) : RecM F := do
  let m ← fmulR v challenge
  pure (m + r)

/-- `multi_miller_loop(&[(p, q), (p', q')]).final_exponentiation().is_identity()` -/
def pairing2R [DecidableEq GT] (E : Pairing F G1 G2 GT) (P : G1) (Q : G2) (P' : G1) (Q' : G2) : RecM Bool :=
  op .pairing2 (decide (E.e P Q + E.e P' Q' = 0))

/-- `Witness::verify`, src/witness.rs:26-83: both checks are always made. -/
def credVerifyR [DecidableEq GT] (E : Pairing F G1 G2 GT) (accumulator : G1)
    (publicKeys : PublicKeys G2) (params : AccParams G1 G2) (y : F) (w : Witness F G1) :
    RecM (Except String Unit) := do
  let a ← mul2R params.p2 y
  let a ← add2R a publicKeys.witnessKey
  let b ← neg2R params.p2
  let firstCheck ← pairing2R E w.witness a accumulator b
  let a ← mul2R params.k2 y
  let a ← add2R a publicKeys.signKey
  let p ← mul1R params.k1 w.secretKey
  let p ← add1R p params.k0
  let b ← neg2R params.k2
  let secondCheck ← pairing2R E w.signature a p b
  if firstCheck && secondCheck then pure (.ok ()) else pure (.error "failed")

/-- `a * s + b * t + c * u` in `G1` -/
def lin3R (a : G1) (s : F) (b : G1) (t : F) (c : G1) (u : F) : RecM G1 := do
  let p ← mul1R a s
  let q ← mul1R b t
  let p ← add1R p q
  let q ← mul1R c u
  add1R p q

/-- `MembershipProofCommitting::new`, src/witness.rs:175-235. -/
def Committing.newR (E : Pairing F G1 G2 GT) (w : Witness F G1) (params : AccParams G1 G2)
    (publicKeys : PublicKeys G2) (rand : ProofRand F) : RecM (Committing F G1 GT) := do
  let r0 ← drawR rand.r0
  let r1 ← drawR rand.r1
  let r2 ← drawR rand.r2
  let k0 ← drawR rand.k0
  let k1 ← drawR rand.k1
  let k2 ← drawR rand.k2
  let k3 ← drawR rand.k3
  let k4 ← drawR rand.k4
  let k5 ← drawR rand.k5
  let k6 ← drawR rand.k6
  let k7 ← drawR rand.k7
  let q ← mul1R params.z1 r0
  let u1 ← add1R w.signature q
  let q ← mul1R params.z1 r1
  let u2 ← add1R w.witness q
  let rPoint ← lin3R params.x1 r0 params.y1 r1 params.z1 r2
  let t1 ← lin3R params.x1 k1 params.y1 k2 params.z1 k3
  let p ← lin3R params.x1 k4 params.y1 k5 params.z1 k6
  let q ← mul1R rPoint k7
  let t2 ← sub1R p q
  let p ← mul1R params.k1 k0
  let q ← mul1R u1 k7
  let p ← sub1R p q
  let e1 ← pairR E p params.k2
  let a ← mul2R params.k2 k4
  let b ← mul2R publicKeys.signKey k1
  let a ← add2R a b
  let e2 ← pairR E params.z1 a
  let pi1 ← addTR e1 e2
  let p ← mul1R params.z1 k5
  let q ← mul1R u2 k7
  let p ← sub1R p q
  let e1 ← pairR E p params.p2
  let a ← mul2R publicKeys.witnessKey k2
  let e2 ← pairR E params.z1 a
  let pi2 ← addTR e1 e2
  pure { rand := ⟨r0, r1, r2, k0, k1, k2, k3, k4, k5, k6, k7⟩, u1, u2, rPoint, t1, t2, pi1, pi2 }

/-- The seven messages of both `get_bytes_for_challenge`, src/witness.rs:240-248 and 403-409. -/
def appendCommitmentsR (enc : Enc G1 G2 GT) (u1 u2 r t1 t2 : G1) (pi1 pi2 : GT) (t : Transcript) :
    RecM Transcript := do
  let t ← appendR t "U_1" (enc.g1 u1)
  let t ← appendR t "U_2" (enc.g1 u2)
  let t ← appendR t "R" (enc.g1 r)
  let t ← appendR t "T_1" (enc.g1 t1)
  let t ← appendR t "T_2" (enc.g1 t2)
  let t ← appendR t "Pi_1" (enc.gt pi1)
  appendR t "Pi_2" (enc.gt pi2)

/-- `MembershipProofCommitting::gen_proof`, src/witness.rs:253-284. -/
def Committing.genProofR (c : Committing F G1 GT) (w : Witness F G1) (userId challenge : F) :
    RecM (CredProof F G1) := do
  let s0 ← schnorrR c.rand.k0 w.secretKey challenge
  let s1 ← schnorrR c.rand.k1 c.rand.r0 challenge
  let s2 ← schnorrR c.rand.k2 c.rand.r1 challenge
  let s3 ← schnorrR c.rand.k3 c.rand.r2 challenge
  let m ← fmulR c.rand.r0 userId
  let s4 ← schnorrR c.rand.k4 m challenge
  let m ← fmulR c.rand.r1 userId
  let s5 ← schnorrR c.rand.k5 m challenge
  let m ← fmulR c.rand.r2 userId
  let s6 ← schnorrR c.rand.k6 m challenge
  let s7 ← schnorrR c.rand.k7 userId challenge
  pure { u1 := c.u1, u2 := c.u2, r := c.rPoint, challenge, s0, s1, s2, s3, s4, s5, s6, s7 }

/-- src/witness.rs:103-113 and 135-145, with `AccParams::add_to_transcript`, src/utils.rs:99-104. -/
def credTranscriptR (enc : Enc G1 G2 GT) (params : AccParams G1 G2) (publicKeys : PublicKeys G2)
    (accumulator : G1) : RecM Transcript := do
  let t ← appendR (Transcript.new "basic_membership_proof") "Signature Public Key" (enc.g2 publicKeys.witnessKey)
  let t ← appendR t "Witness Public Key" (enc.g2 publicKeys.signKey)
  let t ← appendR t "Accumulator" (enc.g1 accumulator)
  let t ← appendR t "Proof Param K" (enc.g1 params.k1)
  let t ← appendR t "Proof Param X" (enc.g1 params.x1)
  let t ← appendR t "Proof Param Y" (enc.g1 params.y1)
  appendR t "Proof Param Z" (enc.g1 params.z1)

/-- `Witness::make_membership_proof`, src/witness.rs:88-124. -/
def makeProofR [DecidableEq GT] (E : Pairing F G1 G2 GT) (H : Oracle F) (enc : Enc G1 G2 GT)
    (w : Witness F G1) (userId : F) (accumulator : G1) (params : AccParams G1 G2)
    (publicKeys : PublicKeys G2) (ephemeral : Bytes) (rand : ProofRand F) :
    RecM (Option (CredProof F G1)) := do
  match ← credVerifyR E accumulator publicKeys params userId w with
  | .error _ => pure none
  | .ok () =>
    let mpc ← Committing.newR E w params publicKeys rand
    let t ← credTranscriptR enc params publicKeys accumulator
    let t ← appendCommitmentsR enc mpc.u1 mpc.u2 mpc.rPoint mpc.t1 mpc.t2 mpc.pi1 mpc.pi2 t
    let t ← appendR t "Ephemeral challenge" ephemeral
    let challenge ← challengeR H t "challenge"
    let p ← mpc.genProofR w userId challenge
    pure (some p)

/-- `MembershipProof::get_bytes_for_challenge`, src/witness.rs:374-410. -/
def CredProof.getBytesForChallengeR (E : Pairing F G1 G2 GT) (enc : Enc G1 G2 GT)
    (p : CredProof F G1) (params : AccParams G1 G2) (publicKeys : PublicKeys G2) (accumulator : G1)
    (t : Transcript) : RecM Transcript := do
  let a ← lin3R params.x1 p.s1 params.y1 p.s2 params.z1 p.s3
  let b ← mul1R p.r p.challenge
  let t1 ← sub1R a b
  let a ← lin3R params.x1 p.s4 params.y1 p.s5 params.z1 p.s6
  let b ← mul1R p.r p.s7
  let t2 ← sub1R a b
  let a ← mul1R params.k1 p.s0
  let b ← mul1R p.u1 p.s7
  let a ← sub1R a b
  let b ← mul1R params.z1 p.s4
  let a ← add1R a b
  let b ← mul1R params.k0 p.challenge
  let a ← add1R a b
  let e1 ← pairR E a params.k2
  let a ← mul1R params.z1 p.s1
  let b ← mul1R p.u1 p.challenge
  let a ← sub1R a b
  let e2 ← pairR E a publicKeys.signKey
  let pi1 ← addTR e1 e2
  let n ← neg1R p.u2
  let a ← mul1R n p.s7
  let b ← mul1R params.z1 p.s5
  let a ← add1R a b
  let b ← mul1R accumulator p.challenge
  let a ← add1R a b
  let e1 ← pairR E a params.p2
  let a ← mul1R params.z1 p.s2
  let b ← mul1R p.u2 p.challenge
  let a ← sub1R a b
  let e2 ← pairR E a publicKeys.witnessKey
  let pi2 ← addTR e1 e2
  appendCommitmentsR enc p.u1 p.u2 p.r t1 t2 pi1 pi2 t

/-- `Witness::check_membership_proof`, src/witness.rs:127-153. -/
def checkProofR (E : Pairing F G1 G2 GT) (H : Oracle F) (enc : Enc G1 G2 GT)
    (proof : CredProof F G1) (params : AccParams G1 G2) (publicKeys : PublicKeys G2)
    (accumulator : G1) (ephemeral : Bytes) : RecM Bool := do
  let t ← credTranscriptR enc params publicKeys accumulator
  let t ← proof.getBytesForChallengeR E enc params publicKeys accumulator t
  let t ← appendR t "Ephemeral challenge" ephemeral
  let challenge ← challengeR H t "challenge"
  pure (decide (challenge = proof.challenge))

/-- `Server::witness`, src/servers.rs:121-154. -/
def Server.witnessR (H : Oracle F) (enc : Enc G1 G2 GT) (self : Server F G1 G2) (params : AccParams G1 G2)
    (y challenge response : F) (userPubKey : G1) : RecM (Option (G1 × G1)) :=
  if !mapContains self.allWitnesses y then pure none
  else do
    let t ← appendR (Transcript.new "user_signature_proof") "user_pub_key" (enc.g1 userPubKey)
    let p ← mul1R params.k1 response
    let q ← mul1R userPubKey challenge
    let p ← add1R p q
    let t ← appendR t "commitment" (enc.g1 p)
    let check ← challengeR H t "challenge"
    if check ≠ challenge then pure none
    else do
      let accWitness ← free (unwrap (mapGet self.allWitnesses y))
      let p ← add1R userPubKey params.k0
      let i ← finvR (y + self.signSecretKey)
      let signature ← mul1R p i
      pure (some (accWitness, signature))

/-- `User::create_witness`, src/user.rs:82-109. -/
def User.createWitnessR (H : Oracle F) (enc : Enc G1 G2 GT) (self : User F G1 G2)
    (params : AccParams G1 G2) (server : Server F G1 G2) (key k : F) : RecM (User F G1 G2) := do
  let key ← drawR key
  let userPubKey ← mul1R params.k1 key
  let k ← drawR k
  let kPoint ← mul1R params.k1 k
  let t ← appendR (Transcript.new "user_signature_proof") "user_pub_key" (enc.g1 userPubKey)
  let t ← appendR t "commitment" (enc.g1 kPoint)
  let challenge ← challengeR H t "challenge"
  let m ← fmulR challenge key
  let response := k - m
  match ← server.witnessR H enc params self.id challenge response userPubKey with
  | some (witness, signature) =>
    let acc ← free server.getAccumulator
    pure { self with
      witness := some { secretKey := key, witness := witness, signature := signature }
      epoch := server.getEpoch
      accumulator := acc }
  | none => pure self

/-! ### the proofs of `src/accumulator/proof.rs` -/

/-- `ProofMessage::get_blinder`, src/accumulator/proof_message.rs:33-41: a hidden message draws. -/
def ProofMessage.getBlinderR (fresh : F) : ProofMessage F → RecM F
  | .hidden _ => drawR fresh
  | .sharedBlinding _ b => pure b

/-- `MembershipProofCommitting::new`, src/accumulator/proof.rs:100-185. -/
def MemCommitting.newR (E : Pairing F G1 G2 GT) (y : ProofMessage F) (witness : G1)
    (params : ProofParams G1) (pubkey : G2) (rand : MemRand F) : RecM (MemCommitting F G1 GT) := do
  let message := y.getMessage
  let sigma ← drawR rand.sigma
  let rho ← drawR rand.rho
  let eC ← mul1R params.z (sigma + rho)
  let eC ← add1R eC witness
  let tSigma ← mul1R params.x sigma
  let tRho ← mul1R params.y rho
  let deltaSigma ← fmulR message sigma
  let deltaRho ← fmulR message rho
  let rY ← y.getBlinderR rand.ry
  let rSigma ← drawR rand.rSigma
  let rRho ← drawR rand.rRho
  let rDeltaSigma ← drawR rand.rDeltaSigma
  let rDeltaRho ← drawR rand.rDeltaRho
  let capRSigma ← mul1R params.x rSigma
  let capRRho ← mul1R params.y rRho
  let n ← neg1R params.x
  let capRDeltaSigma ← capRR [tSigma, n] [rY, rDeltaSigma]
  let n ← neg1R params.y
  let capRDeltaRho ← capRR [tRho, n] [rY, rDeltaRho]
  let g2 := E.g2
  let lhs ← mul1R eC rY
  let z ← mul1R params.z (-(rDeltaSigma + rDeltaRho))
  let lhs ← add1R lhs z
  let e1 ← pairR E lhs g2
  let e2 ← pairingExpR E params.z pubkey (-(rSigma + rRho))
  let capRE ← addTR e1 e2
  pure { eC, tSigma, tRho, deltaSigma, deltaRho, blindingFactor := rY, rSigma, rRho, rDeltaSigma, rDeltaRho,
         sigma, rho, capRSigma, capRRho, capRDeltaSigma, capRDeltaRho, capRE, witnessValue := message }

/-- `MembershipProofCommitting::gen_proof`, src/accumulator/proof.rs:203-225. -/
def MemCommitting.genProofR (c : MemCommitting F G1 GT) (challenge : F) : RecM (MemProof F G1) := do
  let sY ← schnorrR c.blindingFactor c.witnessValue challenge
  let sSigma ← schnorrR c.rSigma c.sigma challenge
  let sRho ← schnorrR c.rRho c.rho challenge
  let sDeltaSigma ← schnorrR c.rDeltaSigma c.deltaSigma challenge
  let sDeltaRho ← schnorrR c.rDeltaRho c.deltaRho challenge
  pure { eC := c.eC, tSigma := c.tSigma, tRho := c.tRho, sY, sSigma, sRho, sDeltaSigma, sDeltaRho }

/-- `MembershipProof::finalize`, src/accumulator/proof.rs:254-330. -/
def MemProof.finalizeR (E : Pairing F G1 G2 GT) (self : MemProof F G1) (accumulator : G1)
    (params : ProofParams G1) (pubkey : G2) (challenge : F) : RecM (MemFinal G1 GT) := do
  let n ← neg1R self.tSigma
  let capRSigma ← capRR [params.x, n] [self.sSigma, challenge]
  let n ← neg1R self.tRho
  let capRRho ← capRR [params.y, n] [self.sRho, challenge]
  let n ← neg1R params.x
  let capRDeltaSigma ← capRR [self.tSigma, n] [self.sY, self.sDeltaSigma]
  let n ← neg1R params.y
  let capRDeltaRho ← capRR [self.tRho, n] [self.sY, self.sDeltaRho]
  let g2 := E.g2
  let lhs ← mul1R self.eC self.sY
  let rhs ← mul1R params.z (-(self.sDeltaSigma + self.sDeltaRho))
  let lhs ← add1R lhs rhs
  let rhs ← mul1R accumulator (-challenge)
  let lhs ← add1R lhs rhs
  let e1 ← pairR E lhs g2
  let lhs ← mul1R params.z (-(self.sSigma + self.sRho))
  let rhs ← mul1R self.eC challenge
  let lhs ← add1R lhs rhs
  let e2 ← pairR E lhs pubkey
  let capRE ← addTR e1 e2
  pure { eC := self.eC, tSigma := self.tSigma, tRho := self.tRho, capRE, capRSigma, capRRho, capRDeltaSigma,
         capRDeltaRho }

/-- src/accumulator/proof.rs:454-459: the argument `blinding_factor`, or a random value -/
def blindingR (fresh : F) : Option F → RecM F
  | none => drawR fresh
  | some b => pure b

/-- `NonMembershipProofCommitting::new`, src/accumulator/proof.rs:425-556. -/
def NonCommitting.newR (E : Pairing F G1 G2 GT) (y : F) (witness : NonMembershipWitness F G1)
    (params : ProofParams G1) (pubkey : G2) (blinding : Option F) (rand : NonRand F) :
    RecM (NonCommitting F G1 GT) := do
  let sigma ← drawR rand.sigma
  let rho ← drawR rand.rho
  let eC ← mul1R params.z (sigma + rho)
  let eC ← add1R eC witness.c
  let tSigma ← mul1R params.x sigma
  let tRho ← mul1R params.y rho
  let deltaSigma ← fmulR y sigma
  let deltaRho ← fmulR y rho
  let rY ← blindingR rand.ry blinding
  let rSigma ← drawR rand.rSigma
  let rRho ← drawR rand.rRho
  let rDeltaSigma ← drawR rand.rDeltaSigma
  let rDeltaRho ← drawR rand.rDeltaRho
  let capRSigma ← mul1R params.x rSigma
  let capRRho ← mul1R params.y rRho
  let n ← neg1R params.x
  let capRDeltaSigma ← capRR [tSigma, n] [rY, rDeltaSigma]
  let n ← neg1R params.y
  let capRDeltaRho ← capRR [tRho, n] [rY, rDeltaRho]
  let tau ← drawR rand.tau
  let pi ← drawR rand.pi
  let eD ← capRR [E.g1, params.k] [witness.d, tau]
  let dInv ← finvR witness.d
  let eDm1 ← capRR [E.g1, params.k] [dInv, pi]
  let rU ← drawR rand.rU
  let rV ← drawR rand.rV
  let rW ← drawR rand.rW
  let capRA ← capRR [E.g1, params.k] [rU, rV]
  let capRB ← capRR [eDm1, params.k] [rU, rW]
  let g2 := E.g2
  let lhs ← mul1R eC rY
  let z ← mul1R params.z (-(rDeltaSigma + rDeltaRho))
  let lhs ← add1R lhs z
  let k ← mul1R params.k (-rV)
  let lhs ← add1R lhs k
  let e1 ← pairR E lhs g2
  let e2 ← pairingExpR E params.z pubkey (-(rSigma + rRho))
  let capRE ← addTR e1 e2
  pure { eC, eD, eDm1, tSigma, tRho, deltaSigma, deltaRho, blindingFactor := rY, sigma, rho, tau, pi,
         rU, rV, rW, rSigma, rRho, rDeltaSigma, rDeltaRho, capRA, capRB, capRE, capRDeltaRho,
         capRDeltaSigma, capRRho, capRSigma, witnessD := witness.d, witnessValue := y }

/-- `NonMembershipProofCommitting::gen_proof`, src/accumulator/proof.rs:578-612. -/
def NonCommitting.genProofR (c : NonCommitting F G1 GT) (challenge : F) : RecM (NonProof F G1) := do
  let sY ← schnorrR c.blindingFactor c.witnessValue challenge
  let sSigma ← schnorrR c.rSigma c.sigma challenge
  let sRho ← schnorrR c.rRho c.rho challenge
  let sDeltaSigma ← schnorrR c.rDeltaSigma c.deltaSigma challenge
  let sDeltaRho ← schnorrR c.rDeltaRho c.deltaRho challenge
  let sU ← schnorrR c.rU c.witnessD challenge
  let sV ← schnorrR c.rV c.tau challenge
  let m ← fmulR c.pi c.witnessD
  let sW ← schnorrR c.rW (-m) challenge
  pure { eC := c.eC, eD := c.eD, eDm1 := c.eDm1, tSigma := c.tSigma, tRho := c.tRho, sSigma, sRho, sDeltaSigma,
         sDeltaRho, sY, sU, sV, sW }

/-- `NonMembershipProof::finalize`, src/accumulator/proof.rs:636-739. -/
def NonProof.finalizeR (E : Pairing F G1 G2 GT) (self : NonProof F G1) (accumulator : G1)
    (params : ProofParams G1) (pubkey : G2) (challenge : F) : RecM (NonFinal G1 GT) := do
  let n ← neg1R self.tSigma
  let capRSigma ← capRR [params.x, n] [self.sSigma, challenge]
  let n ← neg1R self.tRho
  let capRRho ← capRR [params.y, n] [self.sRho, challenge]
  let n ← neg1R params.x
  let capRDeltaSigma ← capRR [self.tSigma, n] [self.sY, self.sDeltaSigma]
  let n ← neg1R params.y
  let capRDeltaRho ← capRR [self.tRho, n] [self.sY, self.sDeltaRho]
  let g2 := E.g2
  let lhs ← mul1R self.eC self.sY
  let rhs ← mul1R params.z (-(self.sDeltaSigma + self.sDeltaRho))
  let lhs ← add1R lhs rhs
  let rhs ← mul1R accumulator (-challenge)
  let lhs ← add1R lhs rhs
  let rhs ← mul1R params.k (-self.sV)
  let lhs ← add1R lhs rhs
  let rhs ← mul1R self.eD challenge
  let lhs ← add1R lhs rhs
  let e1 ← pairR E lhs g2
  let lhs ← mul1R params.z (-(self.sSigma + self.sRho))
  let rhs ← mul1R self.eC challenge
  let lhs ← add1R lhs rhs
  let e2 ← pairR E lhs pubkey
  let capRE ← addTR e1 e2
  let g1 := E.g1
  let capRA ← capRR [g1, params.k, self.eD] [self.sU, self.sV, -challenge]
  let capRB ← capRR [params.k, self.eDm1, g1] [self.sW, self.sU, -challenge]
  pure { eC := self.eC, eD := self.eD, eDm1 := self.eDm1, tSigma := self.tSigma, tRho := self.tRho, capRA, capRB,
         capRE, capRSigma, capRRho, capRDeltaSigma, capRDeltaRho }

end
end Allo
