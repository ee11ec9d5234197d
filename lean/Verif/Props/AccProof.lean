import Verif.Lemmas.Pairing
import Verif.Model.AccProof
import Mathlib.Tactic.LinearCombination
import Mathlib.Tactic.Module
import Mathlib.Tactic.FieldSimp
import Mathlib.Tactic.NormNum

/-!
# C46 – C51: the membership and non-membership proofs of `src/accumulator/proof.rs`
-/

set_option linter.unusedSectionVars false
set_option linter.unusedVariables false
set_option linter.unusedSimpArgs false
namespace Allo
open Spec

section
variable {F G1 G2 GT : Type} [Field F] [DecidableEq F] [AddCommGroup G1] [Module F G1]
  [AddCommGroup G2] [Module F G2] [AddCommGroup GT] [Module F GT] [DecidableEq GT]

/-- The equation tested by `MembershipWitness::verify`, for any public key point. -/
theorem mwVerify_pairing (E : Pairing F G1 G2 GT) (C V : G1) (y : F) (pk : G2) :
    mwVerify E C y pk V = true ↔ E.e C (y • E.g2 + pk) = E.e V E.g2 := by
  unfold mwVerify
  rw [decide_eq_true_eq, map_neg, ← sub_eq_add_neg, sub_eq_zero]

/-- The equation tested by `NonMembershipWitness::verify`, for any public key point. -/
theorem nmwVerify_pairing (E : Pairing F G1 G2 GT) (w : NonMembershipWitness F G1) (V : G1) (y : F) (pk : G2) :
    nmwVerify E w y pk V = true ↔ E.e w.c (y • E.g2 + pk) + E.e (w.d • E.g1) E.g2 = E.e V E.g2 := by
  unfold nmwVerify
  rw [decide_eq_true_eq, map_neg, ← sub_eq_add_neg, sub_eq_zero]

/-- The values the prover committed to, in the shape `finalize` returns them. -/
def MemCommitting.committed (c : MemCommitting F G1 GT) : MemFinal G1 GT :=
  ⟨c.eC, c.tSigma, c.tRho, c.capRE, c.capRSigma, c.capRRho, c.capRDeltaSigma, c.capRDeltaRho⟩

/-- The values the prover committed to, in the shape `finalize` returns them. -/
def NonCommitting.committed (c : NonCommitting F G1 GT) : NonFinal G1 GT :=
  ⟨c.eC, c.eD, c.eDm1, c.tSigma, c.tRho, c.capRA, c.capRB, c.capRE, c.capRSigma, c.capRRho,
    c.capRDeltaSigma, c.capRDeltaRho⟩

/-! ### C46 -/

/-- **C46** (completeness, and its converse). For every message kind, randomness, parameters, public key and
challenge: the verifier's `finalize` gives exactly the values the prover committed to if and only if the
challenge is zero or the witness verifies for the message and the accumulator. -/
theorem C46_finalize_iff (E : Pairing F G1 G2 GT) (y : ProofMessage F) (C V : G1) (params : ProofParams G1)
    (pk : G2) (rand : MemRand F) (c : F) :
    ((MemCommitting.new E y C params pk rand).genProof c).finalize E V params pk c
        = (MemCommitting.new E y C params pk rand).committed
      ↔ c = 0 ∨ mwVerify E C y.getMessage pk V = true := by
  rw [mwVerify_pairing, ← sub_eq_zero (a := E.e C _), MemFinal.ext_iff]
  have key : (((MemCommitting.new E y C params pk rand).genProof c).finalize E V params pk c).capRE
      - (MemCommitting.new E y C params pk rand).capRE
      = c • (E.e C (y.getMessage • E.g2 + pk) - E.e V E.g2) := by
    simp only [MemProof.finalize, MemCommitting.genProof, MemCommitting.new, schnorr, pair, pairingExp,
      map_add, map_smul, map_neg, LinearMap.add_apply, LinearMap.smul_apply, LinearMap.neg_apply]
    module
  constructor
  · rintro ⟨-, -, -, h, -⟩
    have h' : c • (E.e C (y.getMessage • E.g2 + pk) - E.e V E.g2) = 0 := by
      rw [← key, sub_eq_zero]; exact h
    rcases smul_eq_zero.1 h' with h | h
    · exact .inl h
    · exact .inr h
  · intro h
    refine ⟨rfl, rfl, rfl, ?_, ?_, ?_, ?_, ?_⟩
    · have : c • (E.e C (y.getMessage • E.g2 + pk) - E.e V E.g2) = 0 := by
        rw [smul_eq_zero]; exact h
      rw [← key, sub_eq_zero] at this
      exact this
    all_goals
      simp only [MemProof.finalize, MemCommitting.genProof, MemCommitting.new, MemCommitting.committed, schnorr,
        capR, List.zipWith_cons_cons, List.zipWith_nil_right, List.sum_cons, List.sum_nil]
      module

/-- **C46** (completeness as used): whatever the verifier and the prover have put in the transcript before
(the same on both sides), whatever the hash function, the challenge recomputed by the verifier from an
honest proof with a valid witness is the prover's. -/
theorem C46_complete (E : Pairing F G1 G2 GT) (H : Oracle F) (enc : Enc G1 G2 GT) (y : ProofMessage F)
    (C V : G1) (params : ProofParams G1) (pk : G2) (hv : mwVerify E C y.getMessage pk V = true)
    (rand : MemRand F) (t : Transcript) (label : String) :
    let mpc := MemCommitting.new E y C params pk rand
    let challenge := H (mpc.getBytesForChallenge enc t) label
    H (((mpc.genProof challenge).finalize E V params pk challenge).getBytesForChallenge enc t) label
      = challenge := by
  intro mpc challenge
  rw [show (mpc.genProof challenge).finalize E V params pk challenge = mpc.committed from
    (C46_finalize_iff E y C V params pk rand challenge).2 (.inr hv)]
  rfl

/-! ### C47 -/

/-- A response difference divided by the challenge difference. -/
def quot (s s' c c' : F) : F := (s - s') / (c - c')

theorem quot_spec {s s' c c' : F} (h : c ≠ c') : s = s' + quot s s' c c' * (c - c') := by
  have : c - c' ≠ 0 := sub_ne_zero.2 h
  unfold quot; field_simp; ring

/-- The element computed from two membership proofs. -/
def MemProof.extractElement (p p' : MemProof F G1) (c c' : F) : F := quot p.sY p'.sY c c'

/-- The witness computed from two membership proofs. -/
def MemProof.extractWitness (params : ProofParams G1) (p p' : MemProof F G1) (c c' : F) : G1 :=
  p.eC - (quot p.sSigma p'.sSigma c c' + quot p.sRho p'.sRho c c') • params.z

/-- **C47** (special soundness). If two proofs finalize to the same commitments under different challenges,
the element and witness computed from them pass `MembershipWitness::verify` for the accumulator.
`X` and `Y` must not be the identity. -/
theorem C47_special_sound (E : Pairing F G1 G2 GT) (params : ProofParams G1) (hx : params.x ≠ 0)
    (hy : params.y ≠ 0) (pk : G2) (V : G1) (p p' : MemProof F G1) (c c' : F) (hc : c ≠ c')
    (h : p.finalize E V params pk c = p'.finalize E V params pk c') :
    mwVerify E (p.extractWitness params p' c c') (p.extractElement p' c c') pk V = true := by
  have hd : c - c' ≠ 0 := sub_ne_zero.2 hc
  rw [MemFinal.ext_iff] at h
  obtain ⟨h1, h2, h3, h4, h5, h6, h7, h8⟩ := h
  simp only [MemProof.finalize, pair, capR, List.zipWith_cons_cons, List.zipWith_nil_right, List.sum_cons,
    List.sum_nil, map_add, map_smul, LinearMap.add_apply, LinearMap.smul_apply] at h1 h2 h3 h4 h5 h6 h7 h8
  have k1 := quot_spec (s := p.sY) (s' := p'.sY) hc
  have k2 := quot_spec (s := p.sSigma) (s' := p'.sSigma) hc
  have k3 := quot_spec (s := p.sRho) (s' := p'.sRho) hc
  have k4 := quot_spec (s := p.sDeltaSigma) (s' := p'.sDeltaSigma) hc
  have k5 := quot_spec (s := p.sDeltaRho) (s' := p'.sDeltaRho) hc
  have kc : c = c' + (c - c') := by ring
  rw [mwVerify_pairing, MemProof.extractElement, MemProof.extractWitness]
  generalize quot p.sY p'.sY c c' = m at *
  generalize quot p.sSigma p'.sSigma c c' = σ at *
  generalize quot p.sRho p'.sRho c c' = ρ at *
  generalize quot p.sDeltaSigma p'.sDeltaSigma c c' = δ at *
  generalize quot p.sDeltaRho p'.sDeltaRho c c' = ε at *
  generalize c - c' = D at *
  simp only [k1, k2, k3, k4, k5, kc, h1, h2, h3] at h4 h5 h6 h7 h8
  have cancelG1 : ∀ {a : G1}, D • a = 0 → a = 0 := fun h => (smul_eq_zero.1 h).resolve_left hd
  have cancelGT : ∀ {a : GT}, D • a = 0 → a = 0 := fun h => (smul_eq_zero.1 h).resolve_left hd
  have e1 : σ • params.x - p'.tSigma = 0 := by
    apply cancelG1; linear_combination (norm := module) h5
  have e2 : ρ • params.y - p'.tRho = 0 := by
    apply cancelG1; linear_combination (norm := module) h6
  have e3 : m • p'.tSigma - δ • params.x = 0 := by
    apply cancelG1; linear_combination (norm := module) h7
  have e4 : m • p'.tRho - ε • params.y = 0 := by
    apply cancelG1; linear_combination (norm := module) h8
  have f1 : δ = m * σ := by
    have : (m * σ - δ) • params.x = 0 := by linear_combination (norm := module) e3 + m • e1
    have := (smul_eq_zero.1 this).resolve_right hx
    linear_combination -this
  have f2 : ε = m * ρ := by
    have : (m * ρ - ε) • params.y = 0 := by linear_combination (norm := module) e4 + m • e2
    have := (smul_eq_zero.1 this).resolve_right hy
    linear_combination -this
  subst f1 f2
  rw [← sub_eq_zero]
  apply cancelGT
  simp only [h1, map_add, map_sub, map_smul, map_neg, LinearMap.add_apply, LinearMap.sub_apply,
    LinearMap.smul_apply, LinearMap.neg_apply]
  linear_combination (norm := module) h4

/-- Soundness with the right key: the computed witness is a membership witness in the sense of the
specification. -/
theorem C47_extracted_is_witness (E : Pairing F G1 G2 GT) (params : ProofParams G1) (hx : params.x ≠ 0)
    (hy : params.y ≠ 0) (α : F) (V : G1) (p p' : MemProof F G1) (c c' : F) (hc : c ≠ c')
    (h : p.finalize E V params (publicKey E α) c = p'.finalize E V params (publicKey E α) c') :
    IsWitness α V (p.extractElement p' c c') (p.extractWitness params p' c c') :=
  (mwVerify_iff E _ V _ α).1 (C47_special_sound E params hx hy _ V p p' c c' hc h)

/-- The hypotheses of C47 are met by every honest prover answering two challenges; what is computed is the
prover's element and witness. -/
theorem C47_extracts_prover (E : Pairing F G1 G2 GT) (y : ProofMessage F) (C V : G1) (params : ProofParams G1)
    (pk : G2) (hv : mwVerify E C y.getMessage pk V = true) (rand : MemRand F) (c c' : F) (hc : c ≠ c') :
    let mpc := MemCommitting.new E y C params pk rand
    (mpc.genProof c).finalize E V params pk c = (mpc.genProof c').finalize E V params pk c' ∧
    (mpc.genProof c).extractElement (mpc.genProof c') c c' = y.getMessage ∧
    (mpc.genProof c).extractWitness params (mpc.genProof c') c c' = C := by
  have hd : c - c' ≠ 0 := sub_ne_zero.2 hc
  have e : ∀ k v : F, (v * c + k - (v * c' + k)) / (c - c') = v := by
    intro k v; field_simp; ring
  refine ⟨?_, ?_, ?_⟩
  · rw [(C46_finalize_iff E y C V params pk rand c).2 (.inr hv),
      (C46_finalize_iff E y C V params pk rand c').2 (.inr hv)]
  · simp only [MemProof.extractElement, quot, MemCommitting.genProof, MemCommitting.new, schnorr, e]
  · simp only [MemProof.extractWitness, quot, MemCommitting.genProof, MemCommitting.new, schnorr, e]
    abel

/-! ### C48 -/

/-- **C48** (responses leak nothing): for a hidden message, fixed `σ, ρ` and challenge, each vector of
responses is the answer for exactly one choice of the blinding values, whatever the message and the
witness are. -/
theorem C48_responses (E : Pairing F G1 G2 GT) (m : F) (C : G1) (params : ProofParams G1) (pk : G2)
    (σ ρ c sSigma sRho sDeltaSigma sDeltaRho sY : F) :
    ∃! rand : MemRand F, rand.sigma = σ ∧ rand.rho = ρ ∧
      let p := (MemCommitting.new E (.hidden m) C params pk rand).genProof c
      p.sSigma = sSigma ∧ p.sRho = sRho ∧ p.sDeltaSigma = sDeltaSigma ∧ p.sDeltaRho = sDeltaRho ∧
      p.sY = sY := by
  refine ⟨⟨σ, ρ, sY - m * c, sSigma - σ * c, sRho - ρ * c, sDeltaSigma - m * σ * c, sDeltaRho - m * ρ * c⟩,
    ?_, ?_⟩
  · refine ⟨rfl, rfl, ?_⟩
    simp only [MemCommitting.genProof, MemCommitting.new, schnorr, ProofMessage.getMessage,
      ProofMessage.getBlinder]
    refine ⟨?_, ?_, ?_, ?_, ?_⟩ <;> ring
  · rintro ⟨σ', ρ', ry, r1, r2, r3, r4⟩ ⟨rfl, rfl, h1, h2, h3, h4, h5⟩
    simp only [MemCommitting.genProof, MemCommitting.new, schnorr, ProofMessage.getMessage,
      ProofMessage.getBlinder] at h1 h2 h3 h4 h5
    rw [← h1, ← h2, ← h3, ← h4, ← h5]
    ext <;> simp

/-- **C48** (two provers): if the first message of two honest provers with valid witnesses for the same
accumulator is the same, then for each randomness of the one there is exactly one of the other with
the same first message that gives the same whole proof, for every challenge; and the committed
values are then the same. -/
theorem C48_same_triple (E : Pairing F G1 G2 GT) (m m' : F) (C C' V : G1) (params : ProofParams G1) (pk : G2)
    (hv : mwVerify E C m pk V = true) (hv' : mwVerify E C' m' pk V = true) (σ' ρ' c : F) (rand : MemRand F)
    (hE : (rand.sigma + rand.rho) • params.z + C = (σ' + ρ') • params.z + C')
    (hT : rand.sigma • params.x = σ' • params.x) (hT' : rand.rho • params.y = ρ' • params.y) :
    ∃! rand' : MemRand F, rand'.sigma = σ' ∧ rand'.rho = ρ' ∧
      (MemCommitting.new E (.hidden m') C' params pk rand').genProof c
        = (MemCommitting.new E (.hidden m) C params pk rand).genProof c ∧
      (MemCommitting.new E (.hidden m') C' params pk rand').committed
        = (MemCommitting.new E (.hidden m) C params pk rand).committed := by
  set p := (MemCommitting.new E (.hidden m) C params pk rand).genProof c with hp
  obtain ⟨rand', ⟨h1, h2, h3⟩, huniq⟩ := C48_responses E m' C' params pk σ' ρ' c p.sSigma p.sRho p.sDeltaSigma
    p.sDeltaRho p.sY
  have hpr : (MemCommitting.new E (.hidden m') C' params pk rand').genProof c = p := by
    obtain ⟨g1, g2, g3, g4, g5⟩ := h3
    refine MemProof.ext ?_ ?_ ?_ g1 g2 g3 g4 g5
    · show (rand'.sigma + rand'.rho) • params.z + C' = (rand.sigma + rand.rho) • params.z + C
      rw [h1, h2, hE]
    · show rand'.sigma • params.x = rand.sigma • params.x
      rw [h1, hT]
    · show rand'.rho • params.y = rand.rho • params.y
      rw [h2, hT']
  refine ⟨rand', ⟨h1, h2, hpr, ?_⟩, ?_⟩
  · rw [← (C46_finalize_iff E (.hidden m') C' V params pk rand' c).2 (.inr hv'),
      ← (C46_finalize_iff E (.hidden m) C V params pk rand c).2 (.inr hv), hpr]
  · rintro r ⟨g1, g2, g3, -⟩
    apply huniq
    refine ⟨g1, g2, ?_⟩
    rw [g3]
    exact ⟨rfl, rfl, rfl, rfl, rfl⟩

/-- **C48** (every proof with that first message is honest): for each prover, each challenge and each proof
whose triple is the one the prover makes with `σ, ρ`, exactly one choice of the other random values makes
the prover produce that proof. So the responses can be chosen first, without knowing message or witness,
and the distribution is the honest one. -/
theorem C48_any_proof_is_honest (E : Pairing F G1 G2 GT) (m : F) (C : G1) (params : ProofParams G1) (pk : G2)
    (σ ρ c : F) (p : MemProof F G1) (h1 : p.eC = (σ + ρ) • params.z + C) (h2 : p.tSigma = σ • params.x)
    (h3 : p.tRho = ρ • params.y) :
    ∃! rand : MemRand F, rand.sigma = σ ∧ rand.rho = ρ ∧
      (MemCommitting.new E (.hidden m) C params pk rand).genProof c = p := by
  obtain ⟨r, ⟨hs, hr, g1, g2, g3, g4, g5⟩, hu⟩ := C48_responses E m C params pk σ ρ c p.sSigma p.sRho
    p.sDeltaSigma p.sDeltaRho p.sY
  refine ⟨r, ⟨hs, hr, ?_⟩, ?_⟩
  · refine MemProof.ext ?_ ?_ ?_ g1 g2 g3 g4 g5
    · show (r.sigma + r.rho) • params.z + C = p.eC
      rw [hs, hr, h1]
    · show r.sigma • params.x = p.tSigma
      rw [hs, h2]
    · show r.rho • params.y = p.tRho
      rw [hr, h3]
  · rintro r' ⟨hs', hr', h'⟩
    apply hu
    refine ⟨hs', hr', ?_⟩
    rw [h']
    exact ⟨rfl, rfl, rfl, rfl, rfl⟩

/-- **C48** (the limit of hiding): the triple `(E_C, T_σ, T_ρ)` of a proof determines the membership witness
point uniquely (`X, Y` not the identity); so two users' proofs never have the same triple unless they
have the same witness. Hiding is only computational. -/
theorem C48_triple_determines_witness (E : Pairing F G1 G2 GT) (y y' : ProofMessage F) (C C' : G1)
    (params : ProofParams G1) (hx : params.x ≠ 0) (hy : params.y ≠ 0) (pk : G2) (rand rand' : MemRand F)
    (c c' : F)
    (h : let p := (MemCommitting.new E y C params pk rand).genProof c
         let p' := (MemCommitting.new E y' C' params pk rand').genProof c'
         p.eC = p'.eC ∧ p.tSigma = p'.tSigma ∧ p.tRho = p'.tRho) : C = C' := by
  simp only [MemCommitting.genProof, MemCommitting.new] at h
  obtain ⟨h1, h2, h3⟩ := h
  rw [← sub_eq_zero, ← sub_smul] at h2 h3
  have h2 := sub_eq_zero.1 ((smul_eq_zero.1 h2).resolve_right hx)
  have h3 := sub_eq_zero.1 ((smul_eq_zero.1 h3).resolve_right hy)
  rw [h2, h3] at h1
  exact add_left_cancel h1

/-! ### C49 -/

/-- **C49** (committing). `NonMembershipProofCommitting::new` panics exactly when `d = 0`. -/
theorem C49_panics_iff (E : Pairing F G1 G2 GT) (y : F) (w : NonMembershipWitness F G1) (params : ProofParams G1)
    (pk : G2) (blinding : Option F) (rand : NonRand F) :
    (w.d = 0 → NonCommitting.new E y w params pk blinding rand = .error .unwrapNone) ∧
    (w.d ≠ 0 → ∃ nc, NonCommitting.new E y w params pk blinding rand = .ok nc) := by
  constructor
  · intro h
    simp only [NonCommitting.new, h, inv!_zero, bind, Except.bind]
  · intro h
    simp only [NonCommitting.new, inv!_ne h, bind, Except.bind, pure, Except.pure]
    exact ⟨_, rfl⟩

/-- **C49** (completeness, and its converse): when committing returns, `finalize` gives exactly the committed
values if and only if the challenge is zero or the witness verifies. -/
theorem C49_finalize_iff (E : Pairing F G1 G2 GT) (y : F) (w : NonMembershipWitness F G1) (V : G1)
    (params : ProofParams G1) (pk : G2) (blinding : Option F) (rand : NonRand F) (c : F)
    (nc : NonCommitting F G1 GT) (h : NonCommitting.new E y w params pk blinding rand = .ok nc) :
    (nc.genProof c).finalize E V params pk c = nc.committed ↔ c = 0 ∨ nmwVerify E w y pk V = true := by
  have hd : w.d ≠ 0 := by
    intro hd
    rw [(C49_panics_iff E y w params pk blinding rand).1 hd] at h
    cases h
  simp only [NonCommitting.new, inv!_ne hd, bind, Except.bind, pure, Except.pure, Except.ok.injEq] at h
  rw [nmwVerify_pairing, ← sub_eq_zero (b := E.e V _), NonFinal.ext_iff]
  have key : ((nc.genProof c).finalize E V params pk c).capRE - nc.capRE
      = c • (E.e w.c (y • E.g2 + pk) + E.e (w.d • E.g1) E.g2 - E.e V E.g2) := by
    rw [← h]
    simp only [NonProof.finalize, NonCommitting.genProof, schnorr, pair, pairingExp, capR,
      List.zipWith_cons_cons, List.zipWith_nil_right, List.sum_cons, List.sum_nil,
      map_add, map_smul, map_neg, map_zero, LinearMap.add_apply, LinearMap.smul_apply, LinearMap.neg_apply,
      LinearMap.zero_apply]
    module
  constructor
  · rintro ⟨-, -, -, -, -, -, -, h', -⟩
    have h'' : c • (E.e w.c (y • E.g2 + pk) + E.e (w.d • E.g1) E.g2 - E.e V E.g2) = 0 := by
      rw [← key, sub_eq_zero]; exact h'
    exact smul_eq_zero.1 h''
  · intro h'
    refine ⟨rfl, rfl, rfl, rfl, rfl, ?_, ?_, ?_, ?_, ?_, ?_, ?_⟩
    · rw [← h]
      simp only [NonProof.finalize, NonCommitting.genProof, NonCommitting.committed, schnorr, capR,
        List.zipWith_cons_cons, List.zipWith_nil_right, List.sum_cons, List.sum_nil]
      module
    · rw [← h]
      simp only [NonProof.finalize, NonCommitting.genProof, NonCommitting.committed, schnorr, capR,
        List.zipWith_cons_cons, List.zipWith_nil_right, List.sum_cons, List.sum_nil]
      have hdi : w.d * w.d⁻¹ = 1 := mul_inv_cancel₀ hd
      have hz : (c * (w.d * w.d⁻¹ - 1)) • E.g1 = 0 := by rw [hdi, sub_self, mul_zero, zero_smul]
      linear_combination (norm := module) hz
    · have : c • (E.e w.c (y • E.g2 + pk) + E.e (w.d • E.g1) E.g2 - E.e V E.g2) = 0 := by
        rw [smul_eq_zero]; exact h'
      rw [← key, sub_eq_zero] at this
      exact this
    all_goals
      rw [← h]
      simp only [NonProof.finalize, NonCommitting.genProof, NonCommitting.committed, schnorr,
        capR, List.zipWith_cons_cons, List.zipWith_nil_right, List.sum_cons, List.sum_nil]
      module

/-- **C49** (completeness as used): the challenge recomputed from an honest non-membership proof with a valid
witness is the prover's, whatever the shared transcript prefix, label and hash function are. -/
theorem C49_complete (E : Pairing F G1 G2 GT) (H : Oracle F) (enc : Enc G1 G2 GT) (y : F)
    (w : NonMembershipWitness F G1) (V : G1) (params : ProofParams G1) (pk : G2)
    (hv : nmwVerify E w y pk V = true) (hd : w.d ≠ 0) (blinding : Option F) (rand : NonRand F)
    (t : Transcript) (label : String) :
    ∃ nc, NonCommitting.new E y w params pk blinding rand = .ok nc ∧
      let challenge := H (nc.getBytesForChallenge enc t) label
      H (((nc.genProof challenge).finalize E V params pk challenge).getBytesForChallenge enc t) label
        = challenge := by
  obtain ⟨nc, h⟩ := (C49_panics_iff E y w params pk blinding rand).2 hd
  refine ⟨nc, h, ?_⟩
  intro challenge
  rw [show (nc.genProof challenge).finalize E V params pk challenge = nc.committed from
    (C49_finalize_iff E y w V params pk blinding rand challenge nc h).2 (.inr hv)]
  rfl

/-! ### C50 -/

/-- The element computed from two non-membership proofs. -/
def NonProof.extractElement (p p' : NonProof F G1) (c c' : F) : F := quot p.sY p'.sY c c'

/-- The witness computed from two non-membership proofs. -/
def NonProof.extractWitness (params : ProofParams G1) (p p' : NonProof F G1) (c c' : F) :
    NonMembershipWitness F G1 :=
  { c := p.eC - (quot p.sSigma p'.sSigma c c' + quot p.sRho p'.sRho c c') • params.z
    d := quot p.sU p'.sU c c' }

/-- **C50** (special soundness). If two proofs finalize to the same commitments under different challenges,
the element and non-membership witness computed from them pass `NonMembershipWitness::verify`; and either
the witness has `d ≠ 0`, or the two proofs reveal the discrete logarithm of the G1 generator to the base
`K`. -/
theorem C50_special_sound (E : Pairing F G1 G2 GT) (params : ProofParams G1) (hx : params.x ≠ 0)
    (hy : params.y ≠ 0) (pk : G2) (V : G1) (p p' : NonProof F G1) (c c' : F) (hc : c ≠ c')
    (h : p.finalize E V params pk c = p'.finalize E V params pk c') :
    nmwVerify E (p.extractWitness params p' c c') (p.extractElement p' c c') pk V = true ∧
    ((p.extractWitness params p' c c').d ≠ 0 ∨ E.g1 = quot p.sW p'.sW c c' • params.k) := by
  have hd : c - c' ≠ 0 := sub_ne_zero.2 hc
  rw [NonFinal.ext_iff] at h
  obtain ⟨h1, g1, g2, h2, h3, hA, hB, h4, h5, h6, h7, h8⟩ := h
  simp only [NonProof.finalize, pair, capR, List.zipWith_cons_cons, List.zipWith_nil_right, List.sum_cons,
    List.sum_nil, map_add, map_smul, LinearMap.add_apply, LinearMap.smul_apply] at h1 g1 g2 h2 h3 hA hB h4 h5 h6 h7 h8
  have k1 := quot_spec (s := p.sY) (s' := p'.sY) hc
  have k2 := quot_spec (s := p.sSigma) (s' := p'.sSigma) hc
  have k3 := quot_spec (s := p.sRho) (s' := p'.sRho) hc
  have k4 := quot_spec (s := p.sDeltaSigma) (s' := p'.sDeltaSigma) hc
  have k5 := quot_spec (s := p.sDeltaRho) (s' := p'.sDeltaRho) hc
  have k6 := quot_spec (s := p.sU) (s' := p'.sU) hc
  have k7 := quot_spec (s := p.sV) (s' := p'.sV) hc
  have k8 := quot_spec (s := p.sW) (s' := p'.sW) hc
  have kc : c = c' + (c - c') := by ring
  rw [nmwVerify_pairing, NonProof.extractElement, NonProof.extractWitness]
  generalize quot p.sY p'.sY c c' = m at *
  generalize quot p.sSigma p'.sSigma c c' = σ at *
  generalize quot p.sRho p'.sRho c c' = ρ at *
  generalize quot p.sDeltaSigma p'.sDeltaSigma c c' = δ at *
  generalize quot p.sDeltaRho p'.sDeltaRho c c' = ε at *
  generalize quot p.sU p'.sU c c' = d at *
  generalize quot p.sV p'.sV c c' = τ at *
  generalize quot p.sW p'.sW c c' = ω at *
  generalize c - c' = D at *
  simp only [k1, k2, k3, k4, k5, k6, k7, k8, kc, h1, g1, g2, h2, h3] at hA hB h4 h5 h6 h7 h8
  have cancelG1 : ∀ {a : G1}, D • a = 0 → a = 0 := fun h => (smul_eq_zero.1 h).resolve_left hd
  have cancelGT : ∀ {a : GT}, D • a = 0 → a = 0 := fun h => (smul_eq_zero.1 h).resolve_left hd
  have e1 : σ • params.x - p'.tSigma = 0 := by
    apply cancelG1; linear_combination (norm := module) h5
  have e2 : ρ • params.y - p'.tRho = 0 := by
    apply cancelG1; linear_combination (norm := module) h6
  have e3 : m • p'.tSigma - δ • params.x = 0 := by
    apply cancelG1; linear_combination (norm := module) h7
  have e4 : m • p'.tRho - ε • params.y = 0 := by
    apply cancelG1; linear_combination (norm := module) h8
  have e5 : d • E.g1 + τ • params.k - p'.eD = 0 := by
    apply cancelG1; linear_combination (norm := module) hA
  have e6 : ω • params.k + d • p'.eDm1 - E.g1 = 0 := by
    apply cancelG1; linear_combination (norm := module) hB
  have f1 : δ = m * σ := by
    have : (m * σ - δ) • params.x = 0 := by linear_combination (norm := module) e3 + m • e1
    have := (smul_eq_zero.1 this).resolve_right hx
    linear_combination -this
  have f2 : ε = m * ρ := by
    have : (m * ρ - ε) • params.y = 0 := by linear_combination (norm := module) e4 + m • e2
    have := (smul_eq_zero.1 this).resolve_right hy
    linear_combination -this
  subst f1 f2
  have f3 : p'.eD = d • E.g1 + τ • params.k := (sub_eq_zero.1 e5).symm
  rw [f3] at h4
  refine ⟨?_, ?_⟩
  · rw [← sub_eq_zero]
    apply cancelGT
    simp only [map_add, map_smul, LinearMap.add_apply, LinearMap.smul_apply] at h4
    simp only [h1, map_add, map_sub, map_smul, map_neg, LinearMap.add_apply, LinearMap.sub_apply,
      LinearMap.smul_apply, LinearMap.neg_apply]
    linear_combination (norm := module) h4
  · by_cases hz : d = 0
    · right
      subst hz
      linear_combination (norm := module) -e6
    · exact .inl hz

/-- Soundness with the right key: for a public key of secret key `α`, unless the discrete logarithm above is
revealed, what is computed is a non-membership witness in the sense of the specification. -/
theorem C50_extracted_is_witness (E : Pairing F G1 G2 GT) (params : ProofParams G1) (hx : params.x ≠ 0)
    (hy : params.y ≠ 0) (α : F) (V : G1) (p p' : NonProof F G1) (c c' : F) (hc : c ≠ c')
    (h : p.finalize E V params (publicKey E α) c = p'.finalize E V params (publicKey E α) c')
    (hk : E.g1 ≠ quot p.sW p'.sW c c' • params.k) :
    let w := p.extractWitness params p' c c'
    w.d ≠ 0 ∧ (p.extractElement p' c c' + α) • w.c + w.d • E.g1 = V := by
  obtain ⟨h1, h2⟩ := C50_special_sound E params hx hy _ V p p' c c' hc h
  exact ⟨h2.resolve_right hk, (nmwVerify_iff E _ V _ α).1 h1⟩

/-- The hypotheses of C50 are met by every honest prover answering two challenges; what is computed is the
prover's element and witness. -/
theorem C50_extracts_prover (E : Pairing F G1 G2 GT) (y : F) (w : NonMembershipWitness F G1) (V : G1)
    (params : ProofParams G1) (pk : G2) (hv : nmwVerify E w y pk V = true) (blinding : Option F)
    (rand : NonRand F) (nc : NonCommitting F G1 GT)
    (h : NonCommitting.new E y w params pk blinding rand = .ok nc) (c c' : F) (hc : c ≠ c') :
    (nc.genProof c).finalize E V params pk c = (nc.genProof c').finalize E V params pk c' ∧
    (nc.genProof c).extractElement (nc.genProof c') c c' = y ∧
    (nc.genProof c).extractWitness params (nc.genProof c') c c' = w := by
  have hd : c - c' ≠ 0 := sub_ne_zero.2 hc
  have e : ∀ k v : F, (v * c + k - (v * c' + k)) / (c - c') = v := by
    intro k v; field_simp; ring
  have hwd : w.d ≠ 0 := by
    intro hd
    rw [(C49_panics_iff E y w params pk blinding rand).1 hd] at h
    cases h
  refine ⟨?_, ?_, ?_⟩
  · rw [(C49_finalize_iff E y w V params pk blinding rand c nc h).2 (.inr hv),
      (C49_finalize_iff E y w V params pk blinding rand c' nc h).2 (.inr hv)]
  all_goals
    simp only [NonCommitting.new, inv!_ne hwd, bind, Except.bind, pure, Except.pure, Except.ok.injEq] at h
    rw [← h]
  · simp only [NonProof.extractElement, quot, NonCommitting.genProof, schnorr, e]
  · simp only [NonProof.extractWitness, quot, NonCommitting.genProof, schnorr, e]
    cases w
    congr 1
    simp only
    abel

/-! ### C51 -/

/-- **C51** (linking two membership proofs): two proofs made with the same blinder under the same challenge
have equal message responses exactly when the messages are equal (for a nonzero challenge). -/
theorem C51_mem_mem (E E' : Pairing F G1 G2 GT) (m m' b : F) (C C' : G1) (params params' : ProofParams G1)
    (pk pk' : G2) (rand rand' : MemRand F) (c : F) (hc : c ≠ 0) :
    ((MemCommitting.new E (.sharedBlinding m b) C params pk rand).genProof c).sY
        = ((MemCommitting.new E' (.sharedBlinding m' b) C' params' pk' rand').genProof c).sY ↔ m = m' := by
  simp only [MemCommitting.genProof, MemCommitting.new, schnorr, ProofMessage.getMessage,
    ProofMessage.getBlinder]
  rw [add_left_inj, mul_left_inj' hc]

/-- **C51** (linking a membership and a non-membership proof). -/
theorem C51_mem_non (E E' : Pairing F G1 G2 GT) (m m' b : F) (C : G1) (w : NonMembershipWitness F G1)
    (params params' : ProofParams G1) (pk pk' : G2) (rand : MemRand F) (rand' : NonRand F) (c : F) (hc : c ≠ 0)
    (nc : NonCommitting F G1 GT) (h : NonCommitting.new E' m' w params' pk' (some b) rand' = .ok nc) :
    ((MemCommitting.new E (.sharedBlinding m b) C params pk rand).genProof c).sY = (nc.genProof c).sY
      ↔ m = m' := by
  have hwd : w.d ≠ 0 := by
    intro hd
    rw [(C49_panics_iff E' m' w params' pk' (some b) rand').1 hd] at h
    cases h
  simp only [NonCommitting.new, inv!_ne hwd, bind, Except.bind, pure, Except.pure, Except.ok.injEq] at h
  rw [← h]
  simp only [MemCommitting.genProof, MemCommitting.new, NonCommitting.genProof, schnorr,
    ProofMessage.getMessage, ProofMessage.getBlinder, Option.getD_some]
  rw [add_left_inj, mul_left_inj' hc]

/-- **C51** (linking is sound, two memberships). A prover able to answer two challenges, both times with a proof for
the accumulator `V` under `pk` and a proof for `V'` under `pk'` whose message responses are equal, knows one
element and a witness for it in each of the two accumulators. -/
theorem C51_linked_mem_mem (E : Pairing F G1 G2 GT) (params params' : ProofParams G1) (hx : params.x ≠ 0)
    (hy : params.y ≠ 0) (hx' : params'.x ≠ 0) (hy' : params'.y ≠ 0) (pk pk' : G2) (V V' : G1)
    (p₁ p₂ q₁ q₂ : MemProof F G1) (c₁ c₂ : F) (hc : c₁ ≠ c₂)
    (hp : p₁.finalize E V params pk c₁ = p₂.finalize E V params pk c₂)
    (hq : q₁.finalize E V' params' pk' c₁ = q₂.finalize E V' params' pk' c₂)
    (h₁ : p₁.sY = q₁.sY) (h₂ : p₂.sY = q₂.sY) :
    mwVerify E (p₁.extractWitness params p₂ c₁ c₂) (p₁.extractElement p₂ c₁ c₂) pk V = true ∧
    mwVerify E (q₁.extractWitness params' q₂ c₁ c₂) (p₁.extractElement p₂ c₁ c₂) pk' V' = true := by
  refine ⟨C47_special_sound E params hx hy pk V p₁ p₂ c₁ c₂ hc hp, ?_⟩
  have := C47_special_sound E params' hx' hy' pk' V' q₁ q₂ c₁ c₂ hc hq
  rwa [MemProof.extractElement, ← h₁, ← h₂] at this

/-- **C51** (linking is sound, a membership and a non-membership). The prover knows one element, a membership
witness for it in `V` and a non-membership witness in `V'` — with `d ≠ 0`, unless the discrete logarithm
of the generator to the base `K` comes out. -/
theorem C51_linked_mem_non (E : Pairing F G1 G2 GT) (params params' : ProofParams G1) (hx : params.x ≠ 0)
    (hy : params.y ≠ 0) (hx' : params'.x ≠ 0) (hy' : params'.y ≠ 0) (pk pk' : G2) (V V' : G1)
    (p₁ p₂ : MemProof F G1) (q₁ q₂ : NonProof F G1) (c₁ c₂ : F) (hc : c₁ ≠ c₂)
    (hp : p₁.finalize E V params pk c₁ = p₂.finalize E V params pk c₂)
    (hq : q₁.finalize E V' params' pk' c₁ = q₂.finalize E V' params' pk' c₂)
    (h₁ : p₁.sY = q₁.sY) (h₂ : p₂.sY = q₂.sY) :
    mwVerify E (p₁.extractWitness params p₂ c₁ c₂) (p₁.extractElement p₂ c₁ c₂) pk V = true ∧
    nmwVerify E (q₁.extractWitness params' q₂ c₁ c₂) (p₁.extractElement p₂ c₁ c₂) pk' V' = true ∧
    ((q₁.extractWitness params' q₂ c₁ c₂).d ≠ 0 ∨ E.g1 = quot q₁.sW q₂.sW c₁ c₂ • params'.k) := by
  refine ⟨C47_special_sound E params hx hy pk V p₁ p₂ c₁ c₂ hc hp, ?_⟩
  have := C50_special_sound E params' hx' hy' pk' V' q₁ q₂ c₁ c₂ hc hq
  rwa [NonProof.extractElement, ← h₁, ← h₂] at this

/-- **C51** (hidden messages are not linked): with fresh blinders, any two messages can give equal or different
responses: for each response there is a blinder of each. -/
theorem C51_hidden_unlinked (E : Pairing F G1 G2 GT) (m s : F) (C : G1) (params : ProofParams G1) (pk : G2)
    (rand : MemRand F) (c : F) :
    ∃! ry : F,
      ((MemCommitting.new E (.hidden m) C params pk { rand with ry := ry }).genProof c).sY = s := by
  refine ⟨s - m * c, ?_, ?_⟩
  · simp only [MemCommitting.genProof, MemCommitting.new, schnorr, ProofMessage.getMessage,
      ProofMessage.getBlinder]
    ring
  · intro r hr
    simp only [MemCommitting.genProof, MemCommitting.new, schnorr, ProofMessage.getMessage,
      ProofMessage.getBlinder] at hr
    rw [← hr]; ring

/-- **C51** (reuse): two proofs with the same blinder and message under different challenges reveal the
message. -/
theorem C51_reuse_reveals (E E' : Pairing F G1 G2 GT) (m b : F) (C C' : G1) (params params' : ProofParams G1)
    (pk pk' : G2) (rand rand' : MemRand F) (c c' : F) (hc : c ≠ c') :
    (((MemCommitting.new E (.sharedBlinding m b) C params pk rand).genProof c).sY
        - ((MemCommitting.new E' (.sharedBlinding m b) C' params' pk' rand').genProof c').sY) / (c - c') = m := by
  have hd : c - c' ≠ 0 := sub_ne_zero.2 hc
  simp only [MemCommitting.genProof, MemCommitting.new, schnorr, ProofMessage.getMessage,
    ProofMessage.getBlinder]
  field_simp
  ring

end

/-! ### Concrete cases -/

/-- Proof parameters over ℚ. -/
def exProofParams : ProofParams ℚ := ⟨2, 3, 5, 7⟩

/-- C46, C47: a valid witness exists: key `4`, accumulator `18`, element `2`, witness `3`. -/
example : mwVerify (Pairing.field ℚ) (3 : ℚ) (ProofMessage.hidden 2).getMessage (publicKey (Pairing.field ℚ) 4) 18 = true := by
  decide +kernel

/-- C49, C50: a valid non-membership witness with `d ≠ 0`: `(2 + 4) * 3 + 1 = 19`. -/
example : nmwVerify (Pairing.field ℚ) (⟨3, 1⟩ : NonMembershipWitness ℚ ℚ) 2 (publicKey (Pairing.field ℚ) 4) 19 = true
    ∧ (⟨3, 1⟩ : NonMembershipWitness ℚ ℚ).d ≠ 0 := by
  decide +kernel

/-- C50: honest proofs for two challenges finalize to equal values; the parameters are not the identity. -/
example : exProofParams.x ≠ 0 ∧ exProofParams.y ≠ 0 ∧
    ∀ c c' : ℚ, c ≠ c' → ∃ p p' : NonProof ℚ ℚ,
      p.finalize (Pairing.field ℚ) 19 exProofParams (publicKey (Pairing.field ℚ) 4) c
        = p'.finalize (Pairing.field ℚ) 19 exProofParams (publicKey (Pairing.field ℚ) 4) c' ∧
      p.extractElement p' c c' = 2 := by
  refine ⟨by norm_num [exProofParams], by norm_num [exProofParams], ?_⟩
  intro c c' hc
  obtain ⟨nc, h⟩ := (C49_panics_iff (Pairing.field ℚ) 2 (⟨3, 1⟩ : NonMembershipWitness ℚ ℚ) exProofParams
    (publicKey (Pairing.field ℚ) 4) none ⟨1, 2, 3, 4, 5, 6, 7, 8, 9, 10, 11, 12⟩).2 (by norm_num)
  obtain ⟨h1, h2, -⟩ := C50_extracts_prover (Pairing.field ℚ) 2 (⟨3, 1⟩ : NonMembershipWitness ℚ ℚ) 19
    exProofParams (publicKey (Pairing.field ℚ) 4) (by decide +kernel) none _ nc h c c' hc
  exact ⟨_, _, h1, h2⟩

/-- C51: an honest prover with one blinder and element `2` in the accumulators `18` and `24` meets the hypotheses of
`C51_linked_mem_mem` for every two challenges. -/
example (rand rand' : MemRand ℚ) (c₁ c₂ : ℚ) (hc : c₁ ≠ c₂) :
    let E := Pairing.field ℚ
    let pk := publicKey E 4
    let a := MemCommitting.new E (.sharedBlinding 2 9) (3 : ℚ) exProofParams pk rand
    let b := MemCommitting.new E (.sharedBlinding 2 9) (4 : ℚ) exProofParams pk rand'
    (a.genProof c₁).finalize E 18 exProofParams pk c₁ = (a.genProof c₂).finalize E 18 exProofParams pk c₂ ∧
    (b.genProof c₁).finalize E 24 exProofParams pk c₁ = (b.genProof c₂).finalize E 24 exProofParams pk c₂ ∧
    (a.genProof c₁).sY = (b.genProof c₁).sY ∧ (a.genProof c₂).sY = (b.genProof c₂).sY := by
  refine ⟨(C47_extracts_prover _ (.sharedBlinding 2 9) 3 18 exProofParams _ ?_ rand c₁ c₂ hc).1,
    (C47_extracts_prover _ (.sharedBlinding 2 9) 4 24 exProofParams _ ?_ rand' c₁ c₂ hc).1, rfl, rfl⟩
  all_goals decide +kernel

end Allo
