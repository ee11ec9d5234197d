import Verif.Model.Credential
import Verif.Model.AccWitness

/-!
# Model of `src/accumulator/proof.rs` and `src/accumulator/proof_message.rs`

Random values are arguments. `ProofParams::new` is in `Verif.Model.Hashing`, the byte encoding of
the membership proof in `Verif.Model.Codec`.
-/

namespace Allo

/-- `ProofParams`, src/accumulator/proof.rs:14-23. -/
structure ProofParams (G1 : Type) where
  x : G1
  y : G1
  z : G1
  k : G1

/-- `ProofParams::add_to_transcript`, src/accumulator/proof.rs:65-70. -/
def ProofParams.addToTranscript {G1 G2 GT : Type} (enc : Enc G1 G2 GT) (p : ProofParams G1)
    (t : Transcript) : Transcript :=
  (((t.append "Proof Param K" (enc.g1 p.k)).append "Proof Param X" (enc.g1 p.x)).append
    "Proof Param Y" (enc.g1 p.y)).append "Proof Param Z" (enc.g1 p.z)

/-- `ProofMessage`, src/accumulator/proof_message.rs:8-21. -/
inductive ProofMessage (F : Type)
  | hidden (message : F)
  | sharedBlinding (message blinder : F)

/-- `ProofMessage::get_message`, src/accumulator/proof_message.rs:25-30. -/
def ProofMessage.getMessage {F : Type} : ProofMessage F → F
  | .hidden m => m
  | .sharedBlinding m _ => m

/-- `ProofMessage::get_blinder`, src/accumulator/proof_message.rs:33-41; `fresh` is the random value that
is drawn for a hidden message. -/
def ProofMessage.getBlinder {F : Type} (fresh : F) : ProofMessage F → F
  | .hidden _ => fresh
  | .sharedBlinding _ b => b

/-- The random values drawn in `MembershipProofCommitting::new`, src/accumulator/proof.rs:109-110 and
130-134 (`ry` is drawn only for a hidden message). -/
@[ext] structure MemRand (F : Type) where
  sigma : F
  rho : F
  ry : F
  rSigma : F
  rRho : F
  rDeltaSigma : F
  rDeltaRho : F

/-- `MembershipProofCommitting`, src/accumulator/proof.rs:77-96. -/
structure MemCommitting (F G1 GT : Type) where
  eC : G1
  tSigma : G1
  tRho : G1
  deltaSigma : F
  deltaRho : F
  blindingFactor : F
  rSigma : F
  rRho : F
  rDeltaSigma : F
  rDeltaRho : F
  sigma : F
  rho : F
  capRSigma : G1
  capRRho : G1
  capRDeltaSigma : G1
  capRDeltaRho : G1
  capRE : GT
  witnessValue : F

/-- `MembershipProof`, src/accumulator/proof.rs:230-239. -/
@[ext] structure MemProof (F G1 : Type) where
  eC : G1
  tSigma : G1
  tRho : G1
  sSigma : F
  sRho : F
  sDeltaSigma : F
  sDeltaRho : F
  sY : F

/-- `MembershipProofFinal`, src/accumulator/proof.rs:363-372. -/
@[ext] structure MemFinal (G1 GT : Type) where
  eC : G1
  tSigma : G1
  tRho : G1
  capRE : GT
  capRSigma : G1
  capRRho : G1
  capRDeltaSigma : G1
  capRDeltaRho : G1

/-- The random values drawn in `NonMembershipProofCommitting::new`, src/accumulator/proof.rs:436-437,
457-463, 478-479 and 494-496. -/
@[ext] structure NonRand (F : Type) where
  sigma : F
  rho : F
  ry : F
  rSigma : F
  rRho : F
  rDeltaSigma : F
  rDeltaRho : F
  tau : F
  pi : F
  rU : F
  rV : F
  rW : F

/-- `NonMembershipProofCommitting`, src/accumulator/proof.rs:392-421. -/
structure NonCommitting (F G1 GT : Type) where
  eC : G1
  eD : G1
  eDm1 : G1
  tSigma : G1
  tRho : G1
  deltaSigma : F
  deltaRho : F
  blindingFactor : F
  rU : F
  rV : F
  rW : F
  rSigma : F
  rRho : F
  rDeltaSigma : F
  rDeltaRho : F
  sigma : F
  rho : F
  tau : F
  pi : F
  capRA : G1
  capRB : G1
  capRSigma : G1
  capRRho : G1
  capRDeltaSigma : G1
  capRDeltaRho : G1
  capRE : GT
  witnessD : F
  witnessValue : F

/-- `NonMembershipProof`, src/accumulator/proof.rs:617-631. -/
@[ext] structure NonProof (F G1 : Type) where
  eC : G1
  eD : G1
  eDm1 : G1
  tSigma : G1
  tRho : G1
  sSigma : F
  sRho : F
  sDeltaSigma : F
  sDeltaRho : F
  sU : F
  sV : F
  sW : F
  sY : F

/-- `NonMembershipProofFinal`, src/accumulator/proof.rs:751-764. -/
@[ext] structure NonFinal (G1 GT : Type) where
  eC : G1
  eD : G1
  eDm1 : G1
  tSigma : G1
  tRho : G1
  capRA : G1
  capRB : G1
  capRE : GT
  capRSigma : G1
  capRRho : G1
  capRDeltaSigma : G1
  capRDeltaRho : G1

section
variable {F G1 G2 GT : Type} [Field F] [DecidableEq F] [AddCommGroup G1] [Module F G1]
  [AddCommGroup G2] [Module F G2] [AddCommGroup GT] [Module F GT]

/-- `cap_r`, src/accumulator/proof.rs:784-786: `sum_of_products(bases, scalars)` (always called with
vectors of equal length). -/
def capR (bases : List G1) (scalars : List F) : G1 :=
  (List.zipWith (fun b s => s • b) bases scalars).sum

/-- `MembershipProofCommitting::new`, src/accumulator/proof.rs:100-185. -/
def MemCommitting.new (E : Pairing F G1 G2 GT) (y : ProofMessage F) (witness : G1)
    (params : ProofParams G1) (pubkey : G2) (rand : MemRand F) : MemCommitting F G1 GT :=
  let message := y.getMessage
  let sigma := rand.sigma
  let rho := rand.rho
  let eC := (sigma + rho) • params.z + witness
  let tSigma := sigma • params.x
  let tRho := rho • params.y
  let deltaSigma := message * sigma
  let deltaRho := message * rho
  let rY := y.getBlinder rand.ry
  let rSigma := rand.rSigma
  let rRho := rand.rRho
  let rDeltaSigma := rand.rDeltaSigma
  let rDeltaRho := rand.rDeltaRho
  let capRSigma := rSigma • params.x
  let capRRho := rRho • params.y
  let capRDeltaSigma := capR [tSigma, -params.x] [rY, rDeltaSigma]
  let capRDeltaRho := capR [tRho, -params.y] [rY, rDeltaRho]
  let g2 := E.g2
  let exp := -(rDeltaSigma + rDeltaRho)
  let lhs := rY • eC
  let z := exp • params.z
  let lhs := lhs + z
  let capRE := pair E lhs g2
  let exp := -(rSigma + rRho)
  let capRE := capRE + pairingExp E params.z pubkey exp
  { eC, tSigma, tRho, deltaSigma, deltaRho, blindingFactor := rY, rSigma, rRho, rDeltaSigma, rDeltaRho,
    sigma, rho, capRSigma, capRRho, capRDeltaSigma, capRDeltaRho, capRE, witnessValue := message }

/-- The eight messages appended by both membership `get_bytes_for_challenge` functions,
src/accumulator/proof.rs:190-199 and 376-385 (identical lists). -/
def memBytes (enc : Enc G1 G2 GT) (eC tSigma tRho : G1) (capRE : GT)
    (capRSigma capRRho capRDeltaSigma capRDeltaRho : G1) (t : Transcript) : Transcript :=
  (((((((t.append "Ec" (enc.g1 eC)).append "T_sigma" (enc.g1 tSigma)).append "T_rho" (enc.g1 tRho)).append
    "R_E" (enc.gt capRE)).append "R_sigma" (enc.g1 capRSigma)).append "R_rho" (enc.g1 capRRho)).append
    "R_delta_sigma" (enc.g1 capRDeltaSigma)).append "R_delta_rho" (enc.g1 capRDeltaRho)

/-- `MembershipProofCommitting::get_bytes_for_challenge`, src/accumulator/proof.rs:190-199. -/
def MemCommitting.getBytesForChallenge (enc : Enc G1 G2 GT) (c : MemCommitting F G1 GT) (t : Transcript) :
    Transcript :=
  memBytes enc c.eC c.tSigma c.tRho c.capRE c.capRSigma c.capRRho c.capRDeltaSigma c.capRDeltaRho t

/-- `MembershipProofFinal::get_bytes_for_challenge`, src/accumulator/proof.rs:376-385. -/
def MemFinal.getBytesForChallenge (enc : Enc G1 G2 GT) (c : MemFinal G1 GT) (t : Transcript) :
    Transcript :=
  memBytes enc c.eC c.tSigma c.tRho c.capRE c.capRSigma c.capRRho c.capRDeltaSigma c.capRDeltaRho t

/-- `MembershipProofCommitting::gen_proof`, src/accumulator/proof.rs:203-225. -/
def MemCommitting.genProof (c : MemCommitting F G1 GT) (challenge : F) : MemProof F G1 :=
  { eC := c.eC
    tSigma := c.tSigma
    tRho := c.tRho
    sY := schnorr c.blindingFactor c.witnessValue challenge
    sSigma := schnorr c.rSigma c.sigma challenge
    sRho := schnorr c.rRho c.rho challenge
    sDeltaSigma := schnorr c.rDeltaSigma c.deltaSigma challenge
    sDeltaRho := schnorr c.rDeltaRho c.deltaRho challenge }

/-- `MembershipProof::finalize`, src/accumulator/proof.rs:254-330. -/
def MemProof.finalize (E : Pairing F G1 G2 GT) (self : MemProof F G1) (accumulator : G1)
    (params : ProofParams G1) (pubkey : G2) (challenge : F) : MemFinal G1 GT :=
  let capRSigma := capR [params.x, -self.tSigma] [self.sSigma, challenge]
  let capRRho := capR [params.y, -self.tRho] [self.sRho, challenge]
  let capRDeltaSigma := capR [self.tSigma, -params.x] [self.sY, self.sDeltaSigma]
  let capRDeltaRho := capR [self.tRho, -params.y] [self.sY, self.sDeltaRho]
  let g2 := E.g2
  let lhs := self.sY • self.eC
  let exp := -(self.sDeltaSigma + self.sDeltaRho)
  let rhs := exp • params.z
  let lhs := lhs + rhs
  let exp := -challenge
  let rhs := exp • accumulator
  let lhs := lhs + rhs
  let capRE := pair E lhs g2
  let exp := -(self.sSigma + self.sRho)
  let lhs := exp • params.z
  let rhs := challenge • self.eC
  let lhs := lhs + rhs
  let capRE := capRE + pair E lhs pubkey
  { eC := self.eC, tSigma := self.tSigma, tRho := self.tRho, capRE, capRSigma, capRRho, capRDeltaSigma,
    capRDeltaRho }

/-- `NonMembershipProofCommitting::new`, src/accumulator/proof.rs:425-556. `blinding` is the argument
`blinding_factor`. Panics when `witness.d` has no inverse (line 490). -/
def NonCommitting.new (E : Pairing F G1 G2 GT) (y : F) (witness : NonMembershipWitness F G1)
    (params : ProofParams G1) (pubkey : G2) (blinding : Option F) (rand : NonRand F) :
    Rust (NonCommitting F G1 GT) := do
  let sigma := rand.sigma
  let rho := rand.rho
  let eC := (sigma + rho) • params.z + witness.c
  let tSigma := sigma • params.x
  let tRho := rho • params.y
  let deltaSigma := y * sigma
  let deltaRho := y * rho
  let rY := blinding.getD rand.ry
  let rSigma := rand.rSigma
  let rRho := rand.rRho
  let rDeltaSigma := rand.rDeltaSigma
  let rDeltaRho := rand.rDeltaRho
  let capRSigma := rSigma • params.x
  let capRRho := rRho • params.y
  let capRDeltaSigma := capR [tSigma, -params.x] [rY, rDeltaSigma]
  let capRDeltaRho := capR [tRho, -params.y] [rY, rDeltaRho]
  let tau := rand.tau
  let pi := rand.pi
  let eD := capR [E.g1, params.k] [witness.d, tau]
  let dInv ← inv! witness.d
  let eDm1 := capR [E.g1, params.k] [dInv, pi]
  let rU := rand.rU
  let rV := rand.rV
  let rW := rand.rW
  let capRA := capR [E.g1, params.k] [rU, rV]
  let capRB := capR [eDm1, params.k] [rU, rW]
  let g2 := E.g2
  let exp := -(rDeltaSigma + rDeltaRho)
  let lhs := rY • eC
  let z := exp • params.z
  let lhs := lhs + z
  let k := (-rV) • params.k
  let lhs := lhs + k
  let capRE := pair E lhs g2
  let exp := -(rSigma + rRho)
  let capRE := capRE + pairingExp E params.z pubkey exp
  pure { eC, eD, eDm1, tSigma, tRho, deltaSigma, deltaRho, blindingFactor := rY, sigma, rho, tau, pi,
         rU, rV, rW, rSigma, rRho, rDeltaSigma, rDeltaRho, capRA, capRB, capRE, capRDeltaRho,
         capRDeltaSigma, capRRho, capRSigma, witnessD := witness.d, witnessValue := y }

/-- The messages appended by both non-membership `get_bytes_for_challenge` functions,
src/accumulator/proof.rs:561-574 and 768-781 (identical lists). -/
def nonBytes (enc : Enc G1 G2 GT) (eC eD eDm1 tSigma tRho : G1) (capRE : GT) (capRA capRB : G1)
    (capRSigma capRRho capRDeltaSigma capRDeltaRho : G1) (t : Transcript) : Transcript :=
  (((((((((((t.append "Ec" (enc.g1 eC)).append "Ed" (enc.g1 eD)).append "Edm1" (enc.g1 eDm1)).append
    "T_sigma" (enc.g1 tSigma)).append "T_rho" (enc.g1 tRho)).append "R_E" (enc.gt capRE)).append
    "R_A" (enc.g1 capRA)).append "R_B" (enc.g1 capRB)).append "R_sigma" (enc.g1 capRSigma)).append
    "R_rho" (enc.g1 capRRho)).append "R_delta_sigma" (enc.g1 capRDeltaSigma)).append
    "R_delta_rho" (enc.g1 capRDeltaRho)

/-- `NonMembershipProofCommitting::get_bytes_for_challenge`, src/accumulator/proof.rs:561-574. -/
def NonCommitting.getBytesForChallenge (enc : Enc G1 G2 GT) (c : NonCommitting F G1 GT) (t : Transcript) :
    Transcript :=
  nonBytes enc c.eC c.eD c.eDm1 c.tSigma c.tRho c.capRE c.capRA c.capRB c.capRSigma c.capRRho
    c.capRDeltaSigma c.capRDeltaRho t

/-- `NonMembershipProofFinal::get_bytes_for_challenge`, src/accumulator/proof.rs:768-781. -/
def NonFinal.getBytesForChallenge (enc : Enc G1 G2 GT) (c : NonFinal G1 GT) (t : Transcript) :
    Transcript :=
  nonBytes enc c.eC c.eD c.eDm1 c.tSigma c.tRho c.capRE c.capRA c.capRB c.capRSigma c.capRRho
    c.capRDeltaSigma c.capRDeltaRho t

/-- `NonMembershipProofCommitting::gen_proof`, src/accumulator/proof.rs:578-612. -/
def NonCommitting.genProof (c : NonCommitting F G1 GT) (challenge : F) : NonProof F G1 :=
  let sY := schnorr c.blindingFactor c.witnessValue challenge
  let sSigma := schnorr c.rSigma c.sigma challenge
  let sRho := schnorr c.rRho c.rho challenge
  let sDeltaSigma := schnorr c.rDeltaSigma c.deltaSigma challenge
  let sDeltaRho := schnorr c.rDeltaRho c.deltaRho challenge
  let sU := schnorr c.rU c.witnessD challenge
  let sV := schnorr c.rV c.tau challenge
  let pi := -(c.pi * c.witnessD)
  let sW := schnorr c.rW pi challenge
  { eC := c.eC, eD := c.eD, eDm1 := c.eDm1, tSigma := c.tSigma, tRho := c.tRho, sSigma, sRho, sDeltaSigma,
    sDeltaRho, sY, sU, sV, sW }

/-- `NonMembershipProof::finalize`, src/accumulator/proof.rs:636-739. -/
def NonProof.finalize (E : Pairing F G1 G2 GT) (self : NonProof F G1) (accumulator : G1)
    (params : ProofParams G1) (pubkey : G2) (challenge : F) : NonFinal G1 GT :=
  let capRSigma := capR [params.x, -self.tSigma] [self.sSigma, challenge]
  let capRRho := capR [params.y, -self.tRho] [self.sRho, challenge]
  let capRDeltaSigma := capR [self.tSigma, -params.x] [self.sY, self.sDeltaSigma]
  let capRDeltaRho := capR [self.tRho, -params.y] [self.sY, self.sDeltaRho]
  let g2 := E.g2
  let lhs := self.sY • self.eC
  let exp := -(self.sDeltaSigma + self.sDeltaRho)
  let rhs := exp • params.z
  let lhs := lhs + rhs
  let exp := -challenge
  let rhs := exp • accumulator
  let lhs := lhs + rhs
  let exp := -self.sV
  let rhs := exp • params.k
  let lhs := lhs + rhs
  let exp := challenge
  let rhs := exp • self.eD
  let lhs := lhs + rhs
  let capRE := pair E lhs g2
  let exp := -(self.sSigma + self.sRho)
  let lhs := exp • params.z
  let rhs := challenge • self.eC
  let lhs := lhs + rhs
  let capRE := capRE + pair E lhs pubkey
  let g1 := E.g1
  let capRA := capR [g1, params.k, self.eD] [self.sU, self.sV, -challenge]
  let capRB := capR [params.k, self.eDm1, g1] [self.sW, self.sU, -challenge]
  { eC := self.eC, eD := self.eD, eDm1 := self.eDm1, tSigma := self.tSigma, tRho := self.tRho, capRA, capRB,
    capRE, capRSigma, capRRho, capRDeltaSigma, capRDeltaRho }

end
end Allo
