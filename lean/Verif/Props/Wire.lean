import Verif.Props.AccBinding
import Verif.Props.Enrol

/-!
# C98: the exact messages that are hashed, and who else's proofs are accepted

What another implementation has to hash and to send in order to talk to this one: the protocol labels, the message
labels, their order, and the points. The specification below lists them literally, without the functions of the
model.
-/

set_option linter.unusedSectionVars false
set_option linter.unusedVariables false
set_option linter.unusedSimpArgs false
namespace Allo
open Spec

/-! ## Specification -/
namespace WireSpec
variable {F G1 G2 GT : Type}

/-- what is hashed for a presentation -/
def presentation (enc : Enc G1 G2 GT) (params : AccParams G1 G2) (witnessKey signKey : G2) (accumulator : G1)
    (U1 U2 R T1 T2 : G1) (Pi1 Pi2 : GT) (ephemeral : Bytes) : Transcript :=
  { proto := "basic_membership_proof"
    msgs := [
      ("Signature Public Key", enc.g2 witnessKey), ("Witness Public Key", enc.g2 signKey),
      ("Accumulator", enc.g1 accumulator),
      ("Proof Param K", enc.g1 params.k1), ("Proof Param X", enc.g1 params.x1),
      ("Proof Param Y", enc.g1 params.y1), ("Proof Param Z", enc.g1 params.z1),
      ("U_1", enc.g1 U1), ("U_2", enc.g1 U2), ("R", enc.g1 R), ("T_1", enc.g1 T1), ("T_2", enc.g1 T2),
      ("Pi_1", enc.gt Pi1), ("Pi_2", enc.gt Pi2), ("Ephemeral challenge", ephemeral)] }

/-- what is hashed for an enrolment -/
def enrolment (enc : Enc G1 G2 GT) (publicKey commitment : G1) : Transcript :=
  { proto := "user_signature_proof", msgs := [("user_pub_key", enc.g1 publicKey), ("commitment", enc.g1 commitment)] }

/-- what a membership proof of the `accumulator` module appends to the transcript of the application -/
def membership (enc : Enc G1 G2 GT) (Ec Tσ Tρ : G1) (RE : GT) (Rσ Rρ Rδσ Rδρ : G1) : List (String × Bytes) :=
  [("Ec", enc.g1 Ec), ("T_sigma", enc.g1 Tσ), ("T_rho", enc.g1 Tρ), ("R_E", enc.gt RE), ("R_sigma", enc.g1 Rσ),
   ("R_rho", enc.g1 Rρ), ("R_delta_sigma", enc.g1 Rδσ), ("R_delta_rho", enc.g1 Rδρ)]

/-- the same for a non-membership proof -/
def nonMembership (enc : Enc G1 G2 GT) (Ec Ed Edm1 Tσ Tρ : G1) (RE : GT) (RA RB Rσ Rρ Rδσ Rδρ : G1) :
    List (String × Bytes) :=
  [("Ec", enc.g1 Ec), ("Ed", enc.g1 Ed), ("Edm1", enc.g1 Edm1), ("T_sigma", enc.g1 Tσ), ("T_rho", enc.g1 Tρ),
   ("R_E", enc.gt RE), ("R_A", enc.g1 RA), ("R_B", enc.g1 RB), ("R_sigma", enc.g1 Rσ),
   ("R_rho", enc.g1 Rρ), ("R_delta_sigma", enc.g1 Rδσ), ("R_delta_rho", enc.g1 Rδρ)]

end WireSpec
open WireSpec

section
variable {F G1 G2 GT : Type} [Field F] [DecidableEq F] [AddCommGroup G1] [Module F G1] [DecidableEq G1]
  [AddCommGroup G2] [Module F G2] [AddCommGroup GT] [Module F GT] [DecidableEq GT]

/-- **C98** (checking a presentation). `check_membership_proof` accepts `(U₁, U₂, R, c, s₀ … s₇)` exactly if `c` is the
hash of the transcript with these commitments:
`T₁ = s₁X + s₂Y + s₃Z - cR`, `T₂ = s₄X + s₅Y + s₆Z - s₇R`,
`Π₁ = e(s₀K + s₄Z - s₇U₁ + cK₀, K̃) + e(s₁Z - cU₁, sign key)`, `Π₂ = e(s₅Z - s₇U₂ + cV, P̃) + e(s₂Z - cU₂, witness key)`.
-/
theorem C98_check (E : Pairing F G1 G2 GT) (H : Oracle F) (enc : Enc G1 G2 GT) (params : AccParams G1 G2)
    (pk : PublicKeys G2) (V : G1) (eph : Bytes) (p : CredProof F G1) :
    checkProof E H enc p params pk V eph = true ↔
      p.challenge = H (presentation enc params pk.witnessKey pk.signKey V p.u1 p.u2 p.r
        (p.s1 • params.x1 + p.s2 • params.y1 + p.s3 • params.z1 - p.challenge • p.r)
        (p.s4 • params.x1 + p.s5 • params.y1 + p.s6 • params.z1 - p.s7 • p.r)
        (E.e (p.s0 • params.k1 + p.s4 • params.z1 - p.s7 • p.u1 + p.challenge • params.k0) params.k2
          + E.e (p.s1 • params.z1 - p.challenge • p.u1) pk.signKey)
        (E.e (p.s5 • params.z1 - p.s7 • p.u2 + p.challenge • V) params.p2
          + E.e (p.s2 • params.z1 - p.challenge • p.u2) pk.witnessKey) eph) "challenge" := by
  have h1 : p.pi1 E params pk = E.e (p.s0 • params.k1 + p.s4 • params.z1 - p.s7 • p.u1 + p.challenge • params.k0) params.k2
      + E.e (p.s1 • params.z1 - p.challenge • p.u1) pk.signKey := by
    simp only [CredProof.pi1, pair]
    congr 3; abel
  have h2 : p.pi2 E params pk V = E.e (p.s5 • params.z1 - p.s7 • p.u2 + p.challenge • V) params.p2
      + E.e (p.s2 • params.z1 - p.challenge • p.u2) pk.witnessKey := by
    simp only [CredProof.pi2, pair]
    congr 3; rw [smul_neg]; abel
  rw [checkProof, checkTranscript, CredProof.getBytesForChallenge, h1, h2, decide_eq_true_iff, eq_comm]
  rfl

/-- **C98** (making a presentation). With a credential that passes `Witness::verify`, `make_membership_proof` sends
`U₁ = S + r₀Z`, `U₂ = C + r₁Z`, `R = r₀X + r₁Y + r₂Z`, the hash `c` of the transcript with
`T₁ = k₁X + k₂Y + k₃Z`, `T₂ = k₄X + k₅Y + k₆Z - k₇R`, `Π₁ = e(k₀K + k₄Z - k₇U₁, K̃) + e(k₁Z, sign key)`,
`Π₂ = e(k₅Z - k₇U₂, P̃) + e(k₂Z, witness key)`, and `sᵢ = kᵢ + c·(x, r₀, r₁, r₂, r₀y, r₁y, r₂y, y)`; with another one
nothing. -/
theorem C98_make (E : Pairing F G1 G2 GT) (H : Oracle F) (enc : Enc G1 G2 GT) (params : AccParams G1 G2)
    (pk : PublicKeys G2) (V : G1) (eph : Bytes) (w : Witness F G1) (y : F) (r : ProofRand F) :
    (credVerify E V pk params y w ≠ .ok () → makeProof E H enc w y V params pk eph r = none) ∧
    (credVerify E V pk params y w = .ok () →
      let U1 := w.signature + r.r0 • params.z1
      let U2 := w.witness + r.r1 • params.z1
      let R := r.r0 • params.x1 + r.r1 • params.y1 + r.r2 • params.z1
      let c := H (presentation enc params pk.witnessKey pk.signKey V U1 U2 R
        (r.k1 • params.x1 + r.k2 • params.y1 + r.k3 • params.z1)
        (r.k4 • params.x1 + r.k5 • params.y1 + r.k6 • params.z1 - r.k7 • R)
        (E.e (r.k0 • params.k1 + r.k4 • params.z1 - r.k7 • U1) params.k2 + E.e (r.k1 • params.z1) pk.signKey)
        (E.e (r.k5 • params.z1 - r.k7 • U2) params.p2 + E.e (r.k2 • params.z1) pk.witnessKey) eph) "challenge"
      makeProof E H enc w y V params pk eph r = some
        { u1 := U1, u2 := U2, r := R, challenge := c, s0 := r.k0 + c * w.secretKey, s1 := r.k1 + c * r.r0,
          s2 := r.k2 + c * r.r1, s3 := r.k3 + c * r.r2, s4 := r.k4 + c * (r.r0 * y), s5 := r.k5 + c * (r.r1 * y),
          s6 := r.k6 + c * (r.r2 * y), s7 := r.k7 + c * y }) := by
  constructor
  · intro h
    rw [makeProof]
    cases hc : credVerify E V pk params y w with
    | error e => rfl
    | ok x => exact absurd hc (by cases x; exact h)
  · intro h U1 U2 R c
    have h1 : (Committing.new E w params pk r).pi1
        = E.e (r.k0 • params.k1 + r.k4 • params.z1 - r.k7 • U1) params.k2 + E.e (r.k1 • params.z1) pk.signKey := by
      simp only [Committing.new, pair, map_add, map_sub, map_smul, LinearMap.add_apply, LinearMap.sub_apply,
        LinearMap.smul_apply, U1]
      abel
    have h2 : (Committing.new E w params pk r).pi2
        = E.e (r.k5 • params.z1 - r.k7 • U2) params.p2 + E.e (r.k2 • params.z1) pk.witnessKey := by
      simp only [Committing.new, pair, map_add, map_sub, map_smul, LinearMap.add_apply, LinearMap.sub_apply,
        LinearMap.smul_apply, U2]
    have hc : H (((Committing.new E w params pk r).getBytesForChallenge enc (credTranscript enc params pk V)).append
        "Ephemeral challenge" eph) "challenge" = c := by
      rw [Committing.getBytesForChallenge, h1, h2]
      rfl
    rw [makeProof, h]
    simp only [hc]
    simp only [Committing.genProof, schnorr, Committing.new, mul_comm _ c, add_comm _ (r.k0), add_comm _ (r.k1),
      add_comm _ (r.k2), add_comm _ (r.k3), add_comm _ (r.k4), add_comm _ (r.k5), add_comm _ (r.k6), add_comm _ (r.k7)]
    rfl

/-- **C98** (enrolment). The server answers a request `(y, c, z, Q)` exactly if `y` is a member and `c` is the hash of
the transcript with the commitment `zK + cQ`; `create_witness` with the key `x` and the nonce `k` sends
`Q = xK`, the hash `c` of the transcript with the commitment `kK`, and `z = k - cx`. -/
theorem C98_enrol (H : Oracle F) (enc : Enc G1 G2 GT) (params : AccParams G1 G2) (srv : Server F G1 G2) :
    (∀ (y c z : F) (Q : G1) (r : Option (G1 × G1)), srv.witness H enc params y c z Q = .ok r →
      (r.isSome ↔ y ∈ srv.ids ∧ c = H (enrolment enc Q (z • params.k1 + c • Q)) "challenge")) ∧
    (∀ (u u' : User F G1 G2) (x k : F), u.createWitness H enc params srv x k = .ok u' →
      let Q := x • params.k1
      let c := H (enrolment enc Q (k • params.k1)) "challenge"
      ∃ r, srv.witness H enc params u.id c (k - c * x) Q = .ok r ∧
        (r = none → u' = u) ∧
        ∀ C S, r = some (C, S) → ∃ V, srv.getAccumulator = .ok V ∧
          u' = { u with witness := some ⟨x, C, S⟩, epoch := srv.getEpoch, accumulator := V }) := by
  constructor
  · intro y c z Q r h
    have hm : mapContains srv.allWitnesses y = true ↔ y ∈ srv.ids := mapContains_iff
    rw [Server.witness] at h
    by_cases hy : mapContains srv.allWitnesses y = true
    · simp only [hy, Bool.not_true, Bool.false_eq_true, if_false] at h
      change (if H (enrolment enc Q (z • params.k1 + c • Q)) "challenge" ≠ c then _ else _) = _ at h
      by_cases hc : H (enrolment enc Q (z • params.k1 + c • Q)) "challenge" = c
      · rw [if_neg (fun hne => hne hc)] at h
        have : r.isSome = true := by
          revert h
          cases unwrap (mapGet srv.allWitnesses y) with
          | error e => intro h; cases h
          | ok a =>
            cases inv! (y + srv.signSecretKey) with
            | error e => intro h; cases h
            | ok b => intro h; cases h; rfl
        simp only [this, true_iff]
        exact ⟨hm.1 hy, hc.symm⟩
      · rw [if_pos hc] at h
        cases h
        simp only [Option.isSome_none, Bool.false_eq_true, false_iff]
        exact fun h => hc h.2.symm
    · simp only [Bool.not_eq_true] at hy
      simp only [hy, Bool.not_false, if_true] at h
      cases h
      simp only [Option.isSome_none, Bool.false_eq_true, false_iff]
      intro h
      rw [hm.2 h.1] at hy
      cases hy
  · intro u u' x k h Q c
    rw [User.createWitness] at h
    change (srv.witness H enc params u.id c (k - c * x) Q >>= _) = _ at h
    cases hr : srv.witness H enc params u.id c (k - c * x) Q with
    | error e => rw [hr] at h; cases h
    | ok r =>
      rw [hr] at h
      refine ⟨r, rfl, ?_, ?_⟩
      · rintro rfl
        cases h; rfl
      · rintro C S rfl
        cases hV : srv.getAccumulator with
        | error e => simp only [bind, Except.bind, hV] at h; cases h
        | ok V =>
          simp only [bind, Except.bind, hV, pure, Except.pure] at h
          exact ⟨V, rfl, (Except.ok.inj h).symm⟩

/-- **C98** (checking a membership proof of the `accumulator` module). After `finalize` with the challenge `c`, what is
appended to the transcript of the application is `E_C, T_σ, T_ρ` from the proof and
`R_E = e(s_y E_C - (s_δσ + s_δρ)Z - cV, G̃) + e(cE_C - (s_σ + s_ρ)Z, key)`, `R_σ = s_σX - cT_σ`, `R_ρ = s_ρY - cT_ρ`,
`R_δσ = s_yT_σ - s_δσX`, `R_δρ = s_yT_ρ - s_δρY`. -/
theorem C98_membership_check (E : Pairing F G1 G2 GT) (enc : Enc G1 G2 GT) (params : ProofParams G1) (pk : G2) (V : G1)
    (c : F) (p : MemProof F G1) (t : Transcript) :
    (p.finalize E V params pk c).getBytesForChallenge enc t = ⟨t.proto, t.msgs ++
      membership enc p.eC p.tSigma p.tRho
        (E.e (p.sY • p.eC - (p.sDeltaSigma + p.sDeltaRho) • params.z - c • V) E.g2
          + E.e (c • p.eC - (p.sSigma + p.sRho) • params.z) pk)
        (p.sSigma • params.x - c • p.tSigma) (p.sRho • params.y - c • p.tRho)
        (p.sY • p.tSigma - p.sDeltaSigma • params.x) (p.sY • p.tRho - p.sDeltaRho • params.y)⟩ := by
  have h1 : p.sY • p.eC + -(p.sDeltaSigma + p.sDeltaRho) • params.z + -c • V
      = p.sY • p.eC - (p.sDeltaSigma + p.sDeltaRho) • params.z - c • V := by
    rw [neg_smul, neg_smul, sub_eq_add_neg, sub_eq_add_neg]
  have h2 : -(p.sSigma + p.sRho) • params.z + c • p.eC = c • p.eC - (p.sSigma + p.sRho) • params.z := by
    rw [neg_smul, sub_eq_add_neg, add_comm]
  simp only [MemProof.finalize, MemFinal.getBytesForChallenge, memBytes, Transcript.append, capR, List.zipWith,
    List.sum_cons, List.sum_nil, add_zero, smul_neg, ← sub_eq_add_neg, pair, h1, h2, List.append_assoc, membership,
    List.cons_append, List.nil_append]

/-- **C98** (making a membership proof). What the prover with the element `y`, the witness `C` and the random values
`σ, ρ, r_y, …` appends, and what it sends for the challenge `c`. For a shared message `r_y` is the shared blinder. -/
theorem C98_membership_make (E : Pairing F G1 G2 GT) (enc : Enc G1 G2 GT) (params : ProofParams G1) (pk : G2)
    (m : ProofMessage F) (C : G1) (r : MemRand F) (t : Transcript) (c : F) (y ry : F)
    (hm : m = .hidden y ∧ ry = r.ry ∨ m = .sharedBlinding y ry) :
    let Ec := C + (r.sigma + r.rho) • params.z
    let Tσ := r.sigma • params.x
    let Tρ := r.rho • params.y
    (MemCommitting.new E m C params pk r).getBytesForChallenge enc t = ⟨t.proto, t.msgs ++
      membership enc Ec Tσ Tρ
        (E.e (ry • Ec - (r.rDeltaSigma + r.rDeltaRho) • params.z) E.g2 - (r.rSigma + r.rRho) • E.e params.z pk)
        (r.rSigma • params.x) (r.rRho • params.y)
        (ry • Tσ - r.rDeltaSigma • params.x) (ry • Tρ - r.rDeltaRho • params.y)⟩ ∧
    (MemCommitting.new E m C params pk r).genProof c =
      { eC := Ec, tSigma := Tσ, tRho := Tρ, sSigma := r.rSigma + c * r.sigma, sRho := r.rRho + c * r.rho,
        sDeltaSigma := r.rDeltaSigma + c * (y * r.sigma), sDeltaRho := r.rDeltaRho + c * (y * r.rho),
        sY := ry + c * y } := by
  intro Ec Tσ Tρ
  have e1 : m.getMessage = y := by rcases hm with ⟨rfl, rfl⟩ | rfl <;> rfl
  have e2 : m.getBlinder r.ry = ry := by rcases hm with ⟨rfl, rfl⟩ | rfl <;> rfl
  have e3 : (r.sigma + r.rho) • params.z + C = Ec := add_comm _ _
  constructor
  · have h1 : ry • Ec + -(r.rDeltaSigma + r.rDeltaRho) • params.z = ry • Ec - (r.rDeltaSigma + r.rDeltaRho) • params.z := by
      rw [neg_smul, sub_eq_add_neg]
    have h2 : ∀ X : GT, X + E.e (-(r.rSigma + r.rRho) • params.z) pk = X - (r.rSigma + r.rRho) • E.e params.z pk := by
      intro X
      rw [neg_smul, map_neg, LinearMap.neg_apply, map_smul, LinearMap.smul_apply, sub_eq_add_neg]
    simp only [MemCommitting.new, MemCommitting.getBytesForChallenge, memBytes, Transcript.append, capR, List.zipWith,
      List.sum_cons, List.sum_nil, add_zero, smul_neg, ← sub_eq_add_neg, pair, pairingExp, e1, e2, e3, h1, h2,
      List.append_assoc, membership, List.cons_append, List.nil_append, Tσ, Tρ]
  · simp only [MemCommitting.new, MemCommitting.genProof, schnorr, e1, e2, e3]
    ext <;> simp only [] <;> first | rfl | ring

/-- **C98** (checking a non-membership proof): the same with `E_D, E_D⁻¹` and
`R_E = e(s_y E_C - (s_δσ + s_δρ)Z - cV - s_vK + cE_D, G̃) + e(cE_C - (s_σ + s_ρ)Z, key)`, `R_A = s_uG + s_vK - cE_D`,
`R_B = s_wK + s_uE_D⁻¹ - cG`. -/
theorem C98_nonmembership_check (E : Pairing F G1 G2 GT) (enc : Enc G1 G2 GT) (params : ProofParams G1) (pk : G2)
    (V : G1) (c : F) (p : NonProof F G1) (t : Transcript) :
    (p.finalize E V params pk c).getBytesForChallenge enc t = ⟨t.proto, t.msgs ++
      nonMembership enc p.eC p.eD p.eDm1 p.tSigma p.tRho
        (E.e (p.sY • p.eC - (p.sDeltaSigma + p.sDeltaRho) • params.z - c • V - p.sV • params.k + c • p.eD) E.g2
          + E.e (c • p.eC - (p.sSigma + p.sRho) • params.z) pk)
        (p.sU • E.g1 + p.sV • params.k - c • p.eD) (p.sU • p.eDm1 + p.sW • params.k - c • E.g1)
        (p.sSigma • params.x - c • p.tSigma) (p.sRho • params.y - c • p.tRho)
        (p.sY • p.tSigma - p.sDeltaSigma • params.x) (p.sY • p.tRho - p.sDeltaRho • params.y)⟩ := by
  have h1 : p.sY • p.eC + -(p.sDeltaSigma + p.sDeltaRho) • params.z + -c • V + -p.sV • params.k + c • p.eD
      = p.sY • p.eC - (p.sDeltaSigma + p.sDeltaRho) • params.z - c • V - p.sV • params.k + c • p.eD := by
    rw [neg_smul, neg_smul, neg_smul, sub_eq_add_neg, sub_eq_add_neg, sub_eq_add_neg]
  have h2 : -(p.sSigma + p.sRho) • params.z + c • p.eC = c • p.eC - (p.sSigma + p.sRho) • params.z := by
    rw [neg_smul, sub_eq_add_neg, add_comm]
  have h3 : p.sU • E.g1 + (p.sV • params.k + -c • p.eD) = p.sU • E.g1 + p.sV • params.k - c • p.eD := by
    rw [neg_smul]; abel
  have h4 : p.sW • params.k + (p.sU • p.eDm1 + -c • E.g1) = p.sU • p.eDm1 + p.sW • params.k - c • E.g1 := by
    rw [neg_smul]; abel
  simp only [NonProof.finalize, NonFinal.getBytesForChallenge, nonBytes, Transcript.append, capR, List.zipWith,
    List.sum_cons, List.sum_nil, add_zero, smul_neg, pair, h1, h2, h3, h4]
  simp only [← sub_eq_add_neg, List.append_assoc, nonMembership, List.cons_append, List.nil_append]

/-- **C98** (making a non-membership proof) for the element `y` and the witness `(C, d)`, `d ≠ 0`. -/
theorem C98_nonmembership_make (E : Pairing F G1 G2 GT) (enc : Enc G1 G2 GT) (params : ProofParams G1) (pk : G2)
    (y : F) (w : NonMembershipWitness F G1) (hd : w.d ≠ 0) (blinding : Option F) (r : NonRand F) (t : Transcript) (c : F) :
    let ry := blinding.getD r.ry
    let Ec := w.c + (r.sigma + r.rho) • params.z
    let Ed := w.d • E.g1 + r.tau • params.k
    let Edm1 := w.d⁻¹ • E.g1 + r.pi • params.k
    let Tσ := r.sigma • params.x
    let Tρ := r.rho • params.y
    ∃ nc, NonCommitting.new E y w params pk blinding r = .ok nc ∧
    nc.getBytesForChallenge enc t = ⟨t.proto, t.msgs ++
      nonMembership enc Ec Ed Edm1 Tσ Tρ
        (E.e (ry • Ec - (r.rDeltaSigma + r.rDeltaRho) • params.z - r.rV • params.k) E.g2
          - (r.rSigma + r.rRho) • E.e params.z pk)
        (r.rU • E.g1 + r.rV • params.k) (r.rU • Edm1 + r.rW • params.k)
        (r.rSigma • params.x) (r.rRho • params.y)
        (ry • Tσ - r.rDeltaSigma • params.x) (ry • Tρ - r.rDeltaRho • params.y)⟩ ∧
    nc.genProof c =
      { eC := Ec, eD := Ed, eDm1 := Edm1, tSigma := Tσ, tRho := Tρ, sSigma := r.rSigma + c * r.sigma,
        sRho := r.rRho + c * r.rho, sDeltaSigma := r.rDeltaSigma + c * (y * r.sigma),
        sDeltaRho := r.rDeltaRho + c * (y * r.rho), sU := r.rU + c * w.d, sV := r.rV + c * r.tau,
        sW := r.rW - c * (r.pi * w.d), sY := ry + c * y } := by
  intro ry Ec Ed Edm1 Tσ Tρ
  have e3 : (r.sigma + r.rho) • params.z + w.c = Ec := add_comm _ _
  have h1 : ry • Ec + -(r.rDeltaSigma + r.rDeltaRho) • params.z + -r.rV • params.k
      = ry • Ec - (r.rDeltaSigma + r.rDeltaRho) • params.z - r.rV • params.k := by
    rw [neg_smul, neg_smul, sub_eq_add_neg, sub_eq_add_neg]
  have h2 : ∀ X : GT, X + E.e (-(r.rSigma + r.rRho) • params.z) pk = X - (r.rSigma + r.rRho) • E.e params.z pk := by
    intro X
    rw [neg_smul, map_neg, LinearMap.neg_apply, map_smul, LinearMap.smul_apply, sub_eq_add_neg]
  have hi : inv! w.d = (.ok w.d⁻¹ : Rust F) := by simp [inv!, invert?, hd]; rfl
  rw [NonCommitting.new]
  simp only [hi, bind, Except.bind, pure, Except.pure]
  refine ⟨_, rfl, ?_, ?_⟩
  · simp only [NonCommitting.getBytesForChallenge, nonBytes, Transcript.append, capR, List.zipWith,
      List.sum_cons, List.sum_nil, add_zero, pair, pairingExp, e3, h2]
    simp only [show blinding.getD r.ry = ry from rfl, h1, smul_neg, ← sub_eq_add_neg, List.append_assoc, nonMembership,
      List.cons_append, List.nil_append, Tσ, Tρ, Ed, Edm1]
  · simp only [NonCommitting.genProof, schnorr, e3, capR, List.zipWith, List.sum_cons, List.sum_nil, add_zero]
    ext <;> simp only [] <;> first | rfl | ring

/-- **C98** (parameters): what `ProofParams::add_to_transcript` and `AccParams::add_to_transcript` append. -/
theorem C98_params (enc : Enc G1 G2 GT) (t : Transcript) :
    (∀ p : ProofParams G1, p.addToTranscript enc t = ⟨t.proto, t.msgs ++ [("Proof Param K", enc.g1 p.k),
      ("Proof Param X", enc.g1 p.x), ("Proof Param Y", enc.g1 p.y), ("Proof Param Z", enc.g1 p.z)]⟩) ∧
    (∀ p : AccParams G1 G2, p.addToTranscript enc t = ⟨t.proto, t.msgs ++ [("Proof Param K", enc.g1 p.k1),
      ("Proof Param X", enc.g1 p.x1), ("Proof Param Y", enc.g1 p.y1), ("Proof Param Z", enc.g1 p.z1)]⟩) := by
  constructor <;> intro p <;>
    simp only [ProofParams.addToTranscript, AccParams.addToTranscript, Transcript.append, List.append_assoc,
      List.cons_append, List.nil_append]

/-- **C98** (domain separation). No transcript of an enrolment is that of a presentation, and none of a membership
proof that of a non-membership proof in the same application: what one of these functions accepts is never, by the
same hash value, something another one accepts. -/
theorem C98_separate (enc : Enc G1 G2 GT) :
    (∀ (params : AccParams G1 G2) (k₁ k₂ : G2) (V U1 U2 R T1 T2 : G1) (Pi1 Pi2 : GT) (eph : Bytes) (Q K : G1),
      presentation enc params k₁ k₂ V U1 U2 R T1 T2 Pi1 Pi2 eph ≠ enrolment enc Q K) ∧
    (∀ (pre : List (String × Bytes)) (a b c : G1) (d : GT) (e f g h : G1) (a' b' c' d' e' : G1) (f' : GT)
      (g' h' i' j' k' l' : G1), pre ++ membership enc a b c d e f g h
        ≠ pre ++ nonMembership enc a' b' c' d' e' f' g' h' i' j' k' l') := by
  constructor
  · intro params k₁ k₂ V U1 U2 R T1 T2 Pi1 Pi2 eph Q K h
    have := congrArg Transcript.proto h
    revert this
    simp only [presentation, enrolment]
    decide
  · intro pre a b c d e f g h a' b' c' d' e' f' g' h' i' j' k' l' hh
    have := congrArg List.length (List.append_cancel_left hh)
    simp [membership, nonMembership] at this

end
/-- A credential that meets the hypotheses of `C98_make`, and its presentation in full (hash value 1, all random values
1): sent are `U₁ = 32/11 + 11`, `U₂ = 12`, `R = 23`, and the responses. -/
example : makeProof (Pairing.field ℚ) (fun _ _ => 1) ⟨fun _ => [], fun _ => [], fun _ => []⟩ ⟨10, 1, 32 / 11⟩ 2 6
      ⟨1, 1, 2, 3, 1, 5, 7, 11⟩ ⟨4, 9⟩ [] ⟨1, 1, 1, 1, 1, 1, 1, 1, 1, 1, 1⟩
    = some ⟨32 / 11 + 11, 12, 23, 1, 11, 2, 2, 2, 3, 3, 3, 3⟩ := by
  have h : credVerify (Pairing.field ℚ) (6 : ℚ) ⟨4, 9⟩ ⟨1, 1, 2, 3, 1, 5, 7, 11⟩ 2 ⟨10, 1, 32 / 11⟩ = .ok () := by
    simp [credVerify, Pairing.field]; norm_num
  rw [(C98_make (Pairing.field ℚ) _ _ _ _ _ _ _ _ _).2 h]
  norm_num

end Allo
