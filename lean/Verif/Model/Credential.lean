import Verif.Model.Transcript
import Verif.Model.Key

/-!
# Model of `src/witness.rs` (the ALLOSAUR credential and its membership proof)

The byte encoding of the proof is in `Verif.Model.Codec`. Random values are arguments (`ProofRand`).
-/

namespace Allo

/-- `accumulator::proof::pair`, src/accumulator/proof.rs:788-790. -/
def pair {F G1 G2 GT : Type} [Field F] [AddCommGroup G1] [Module F G1]
    [AddCommGroup G2] [Module F G2] [AddCommGroup GT] [Module F GT]
    (E : Pairing F G1 G2 GT) (g1 : G1) (g2 : G2) : GT := E.e g1 g2

/-- `accumulator::proof::pairing`, src/accumulator/proof.rs:792-795. -/
def pairingExp {F G1 G2 GT : Type} [Field F] [AddCommGroup G1] [Module F G1]
    [AddCommGroup G2] [Module F G2] [AddCommGroup GT] [Module F GT]
    (E : Pairing F G1 G2 GT) (g1 : G1) (g2 : G2) (exp : F) : GT := E.e (exp • g1) g2

/-- `accumulator::proof::schnorr`, src/accumulator/proof.rs:797-799. -/
def schnorr {F : Type} [Field F] (r v challenge : F) : F := v * challenge + r

/-- `Witness`, src/witness.rs:15-22. -/
structure Witness (F G1 : Type) where
  secretKey : F
  witness : G1
  signature : G1

/-- The random values drawn in `MembershipProofCommitting::new`, src/witness.rs:178-192. -/
@[ext] structure ProofRand (F : Type) where
  r0 : F
  r1 : F
  r2 : F
  k0 : F
  k1 : F
  k2 : F
  k3 : F
  k4 : F
  k5 : F
  k6 : F
  k7 : F

/-- `MembershipProofCommitting`, src/witness.rs:160-170 (`r`, `k` are in `rand`). -/
structure Committing (F G1 GT : Type) where
  rand : ProofRand F
  u1 : G1
  u2 : G1
  rPoint : G1
  t1 : G1
  t2 : G1
  pi1 : GT
  pi2 : GT

/-- `MembershipProof`, src/witness.rs:293-306. -/
@[ext] structure CredProof (F G1 : Type) where
  u1 : G1
  u2 : G1
  r : G1
  challenge : F
  s0 : F
  s1 : F
  s2 : F
  s3 : F
  s4 : F
  s5 : F
  s6 : F
  s7 : F

section
variable {F G1 G2 GT : Type} [Field F] [DecidableEq F] [AddCommGroup G1] [Module F G1]
  [AddCommGroup G2] [Module F G2] [AddCommGroup GT] [Module F GT]

/-- `Witness::verify`, src/witness.rs:26-83. -/
def credVerify [DecidableEq GT] (E : Pairing F G1 G2 GT) (accumulator : G1)
    (publicKeys : PublicKeys G2) (params : AccParams G1 G2) (y : F) (w : Witness F G1) :
    Except String Unit :=
  let firstCheck := decide (E.e w.witness (y • params.p2 + publicKeys.witnessKey)
      + E.e accumulator (-params.p2) = 0)
  let secondCheck := decide (E.e w.signature (y • params.k2 + publicKeys.signKey)
      + E.e (w.secretKey • params.k1 + params.k0) (-params.k2) = 0)
  if firstCheck && secondCheck then .ok () else .error "failed"

/-- `MembershipProofCommitting::new`, src/witness.rs:175-235. -/
def Committing.new (E : Pairing F G1 G2 GT) (w : Witness F G1) (params : AccParams G1 G2)
    (publicKeys : PublicKeys G2) (rand : ProofRand F) : Committing F G1 GT :=
  let u1 := w.signature + rand.r0 • params.z1
  let u2 := w.witness + rand.r1 • params.z1
  let rPoint := rand.r0 • params.x1 + rand.r1 • params.y1 + rand.r2 • params.z1
  let t1 := rand.k1 • params.x1 + rand.k2 • params.y1 + rand.k3 • params.z1
  let t2 := rand.k4 • params.x1 + rand.k5 • params.y1 + rand.k6 • params.z1 - rand.k7 • rPoint
  let pi1 := pair E (rand.k0 • params.k1 - rand.k7 • u1) params.k2
    + pair E params.z1 (rand.k4 • params.k2 + rand.k1 • publicKeys.signKey)
  let pi2 := pair E (rand.k5 • params.z1 - rand.k7 • u2) params.p2
    + pair E params.z1 (rand.k2 • publicKeys.witnessKey)
  { rand, u1, u2, rPoint, t1, t2, pi1, pi2 }

/-- The seven messages appended by both `get_bytes_for_challenge` functions,
src/witness.rs:240-248 and 403-409. -/
def appendCommitments (enc : Enc G1 G2 GT) (u1 u2 r t1 t2 : G1) (pi1 pi2 : GT) (t : Transcript) :
    Transcript :=
  ((((((t.append "U_1" (enc.g1 u1)).append "U_2" (enc.g1 u2)).append "R" (enc.g1 r)).append
    "T_1" (enc.g1 t1)).append "T_2" (enc.g1 t2)).append "Pi_1" (enc.gt pi1)).append
    "Pi_2" (enc.gt pi2)

/-- `MembershipProofCommitting::get_bytes_for_challenge`, src/witness.rs:240-248. -/
def Committing.getBytesForChallenge (enc : Enc G1 G2 GT) (c : Committing F G1 GT) (t : Transcript) :
    Transcript :=
  appendCommitments enc c.u1 c.u2 c.rPoint c.t1 c.t2 c.pi1 c.pi2 t

/-- `MembershipProofCommitting::gen_proof`, src/witness.rs:253-284. -/
def Committing.genProof (c : Committing F G1 GT) (w : Witness F G1) (userId challenge : F) :
    CredProof F G1 :=
  { u1 := c.u1
    u2 := c.u2
    r := c.rPoint
    challenge := challenge
    s0 := schnorr c.rand.k0 w.secretKey challenge
    s1 := schnorr c.rand.k1 c.rand.r0 challenge
    s2 := schnorr c.rand.k2 c.rand.r1 challenge
    s3 := schnorr c.rand.k3 c.rand.r2 challenge
    s4 := schnorr c.rand.k4 (c.rand.r0 * userId) challenge
    s5 := schnorr c.rand.k5 (c.rand.r1 * userId) challenge
    s6 := schnorr c.rand.k6 (c.rand.r2 * userId) challenge
    s7 := schnorr c.rand.k7 userId challenge }

/-- The common start of the transcripts in `make_membership_proof` (src/witness.rs:103-113) and
`check_membership_proof` (src/witness.rs:135-145). -/
def credTranscript (enc : Enc G1 G2 GT) (params : AccParams G1 G2) (publicKeys : PublicKeys G2)
    (accumulator : G1) : Transcript :=
  let t := Transcript.new "basic_membership_proof"
  let t := t.append "Signature Public Key" (enc.g2 publicKeys.witnessKey)
  let t := t.append "Witness Public Key" (enc.g2 publicKeys.signKey)
  let t := t.append "Accumulator" (enc.g1 accumulator)
  params.addToTranscript enc t

/-- `Witness::make_membership_proof`, src/witness.rs:88-124. -/
def makeProof [DecidableEq GT] (E : Pairing F G1 G2 GT) (H : Oracle F) (enc : Enc G1 G2 GT)
    (w : Witness F G1) (userId : F) (accumulator : G1) (params : AccParams G1 G2)
    (publicKeys : PublicKeys G2) (ephemeral : Bytes) (rand : ProofRand F) :
    Option (CredProof F G1) :=
  match credVerify E accumulator publicKeys params userId w with
  | .error _ => none
  | .ok () =>
    let mpc := Committing.new E w params publicKeys rand
    let t := credTranscript enc params publicKeys accumulator
    let t := mpc.getBytesForChallenge enc t
    let t := t.append "Ephemeral challenge" ephemeral
    let challenge := H t "challenge"
    some (mpc.genProof w userId challenge)

/-- `t_1` as recomputed by the verifier, src/witness.rs:381-383. -/
def CredProof.t1 (p : CredProof F G1) (params : AccParams G1 G2) : G1 :=
  p.s1 • params.x1 + p.s2 • params.y1 + p.s3 • params.z1 - p.challenge • p.r

/-- `t_2`, src/witness.rs:384-386. -/
def CredProof.t2 (p : CredProof F G1) (params : AccParams G1 G2) : G1 :=
  p.s4 • params.x1 + p.s5 • params.y1 + p.s6 • params.z1 - p.s7 • p.r

/-- `pi_1`, src/witness.rs:387-395. -/
def CredProof.pi1 (E : Pairing F G1 G2 GT) (p : CredProof F G1) (params : AccParams G1 G2)
    (publicKeys : PublicKeys G2) : GT :=
  pair E (p.s0 • params.k1 - p.s7 • p.u1 + p.s4 • params.z1 + p.challenge • params.k0) params.k2
    + pair E (p.s1 • params.z1 - p.challenge • p.u1) publicKeys.signKey

/-- `pi_2`, src/witness.rs:396-402. -/
def CredProof.pi2 (E : Pairing F G1 G2 GT) (p : CredProof F G1) (params : AccParams G1 G2)
    (publicKeys : PublicKeys G2) (accumulator : G1) : GT :=
  pair E (p.s7 • (-p.u2) + p.s5 • params.z1 + p.challenge • accumulator) params.p2
    + pair E (p.s2 • params.z1 - p.challenge • p.u2) publicKeys.witnessKey

/-- `MembershipProof::get_bytes_for_challenge`, src/witness.rs:374-410. -/
def CredProof.getBytesForChallenge (E : Pairing F G1 G2 GT) (enc : Enc G1 G2 GT)
    (p : CredProof F G1) (params : AccParams G1 G2) (publicKeys : PublicKeys G2) (accumulator : G1)
    (t : Transcript) : Transcript :=
  appendCommitments enc p.u1 p.u2 p.r (p.t1 params) (p.t2 params) (p.pi1 E params publicKeys)
    (p.pi2 E params publicKeys accumulator) t

/-- The complete transcript the verifier hashes, src/witness.rs:135-149. -/
def checkTranscript (E : Pairing F G1 G2 GT) (enc : Enc G1 G2 GT)
    (proof : CredProof F G1) (params : AccParams G1 G2) (publicKeys : PublicKeys G2)
    (accumulator : G1) (ephemeral : Bytes) : Transcript :=
  let t := credTranscript enc params publicKeys accumulator
  let t := proof.getBytesForChallenge E enc params publicKeys accumulator t
  t.append "Ephemeral challenge" ephemeral

/-- `Witness::check_membership_proof`, src/witness.rs:127-153. -/
def checkProof (E : Pairing F G1 G2 GT) (H : Oracle F) (enc : Enc G1 G2 GT)
    (proof : CredProof F G1) (params : AccParams G1 G2) (publicKeys : PublicKeys G2)
    (accumulator : G1) (ephemeral : Bytes) : Bool :=
  let t := checkTranscript E enc proof params publicKeys accumulator ephemeral
  let challenge := H t "challenge"
  decide (challenge = proof.challenge)

end
end Allo
