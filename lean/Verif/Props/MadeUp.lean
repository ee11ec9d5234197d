import Verif.Props.WireProof
import Verif.Props.Rom

/-!
# C118: made-up proofs, placeholder proofs, and the responses of non-membership proofs
-/

set_option linter.unusedSectionVars false
set_option linter.unusedVariables false
namespace Allo
open Spec

section
variable {F G1 G2 GT : Type} [Field F] [DecidableEq F] [AddCommGroup G1] [Module F G1] [AddCommGroup G2] [Module F G2]
  [AddCommGroup GT] [Module F GT] [DecidableEq GT]

/-! ### non-membership proofs -/

theorem NonCommitting.new_ok (E : Pairing F G1 G2 GT) (y : F) (w : NonMembershipWitness F G1) (params : ProofParams G1)
    (pk : G2) (bl : Option F) (rand : NonRand F) (nc : NonCommitting F G1 GT)
    (h : NonCommitting.new E y w params pk bl rand = .ok nc) (c : F) : w.d ≠ 0 ∧
    (nc.genProof c).eC = (rand.sigma + rand.rho) • params.z + w.c ∧
    (nc.genProof c).tSigma = rand.sigma • params.x ∧ (nc.genProof c).tRho = rand.rho • params.y ∧
    (nc.genProof c).eDm1 = w.d⁻¹ • E.g1 + rand.pi • params.k := by
  have hd : w.d ≠ 0 := by
    intro h0
    rw [(C49_panics_iff E y w params pk bl rand).1 h0] at h
    cases h
  simp only [NonCommitting.new, inv!_ne hd, bind, Except.bind, pure, Except.pure, Except.ok.injEq] at h
  rw [← h]
  refine ⟨hd, rfl, rfl, rfl, ?_⟩
  simp [NonCommitting.genProof, capR]

/-- **C118** (responses of a non-membership proof). A proof that finalizes to the same values as the proof of an honest
prover, for the same challenge, is that proof, or gives with the differences of the responses a linear relation between
the generator and `K` and one between the generator and the witness point, neither of them trivial. -/
theorem C118_non_unique (E : Pairing F G1 G2 GT) (y : F) (w : NonMembershipWitness F G1) (V : G1)
    (params : ProofParams G1) (hx : params.x ≠ 0) (hy : params.y ≠ 0) (hk : params.k ≠ 0) (pk : G2) (hC : w.c ≠ 0)
    (bl : Option F) (rand : NonRand F) (nc : NonCommitting F G1 GT)
    (hnc : NonCommitting.new E y w params pk bl rand = .ok nc) (c : F) (p : NonProof F G1)
    (h : p.finalize E V params pk c = (nc.genProof c).finalize E V params pk c) :
    p = nc.genProof c ∨
      (p.sU ≠ (nc.genProof c).sU ∧ p.sV ≠ (nc.genProof c).sV ∧ p.sY ≠ (nc.genProof c).sY ∧
        (p.sU - (nc.genProof c).sU) • E.g1 + (p.sV - (nc.genProof c).sV) • params.k = 0 ∧
        (p.sU - (nc.genProof c).sU) • E.g1 + (p.sY - (nc.genProof c).sY) • w.c = 0) := by
  obtain ⟨hd, q1, q2, q3, q4⟩ := NonCommitting.new_ok E y w params pk bl rand nc hnc c
  set q := nc.genProof c with hq
  have e1 : p.eC = q.eC := congrArg NonFinal.eC h
  have e2 : p.tSigma = q.tSigma := congrArg NonFinal.tSigma h
  have e3 : p.tRho = q.tRho := congrArg NonFinal.tRho h
  have e4 : p.eD = q.eD := congrArg NonFinal.eD h
  have e5 : p.eDm1 = q.eDm1 := congrArg NonFinal.eDm1 h
  have r1 := congrArg NonFinal.capRSigma h
  have r2 := congrArg NonFinal.capRRho h
  have r3 := congrArg NonFinal.capRDeltaSigma h
  have r4 := congrArg NonFinal.capRDeltaRho h
  have r5 := congrArg NonFinal.capRE h
  have r6 := congrArg NonFinal.capRA h
  have r7 := congrArg NonFinal.capRB h
  simp only [NonProof.finalize, e1, e2, e3, e4, e5, capR, List.zipWith_cons_cons, List.zipWith_nil_right, List.sum_cons,
    List.sum_nil, add_zero, add_left_inj] at r1 r2 r3 r4 r5 r6 r7
  have s1 : p.sSigma = q.sSigma := smul_cancel_pt hx r1
  have s2 : p.sRho = q.sRho := smul_cancel_pt hy r2
  have s3 : p.sDeltaSigma = q.sDeltaSigma + (p.sY - q.sY) * rand.sigma := by
    apply smul_cancel_pt hx
    rw [q2] at r3
    linear_combination (norm := module) -r3
  have s4 : p.sDeltaRho = q.sDeltaRho + (p.sY - q.sY) * rand.rho := by
    apply smul_cancel_pt hy
    rw [q3] at r4
    linear_combination (norm := module) -r4
  have a1 : (p.sU - q.sU) • E.g1 + (p.sV - q.sV) • params.k = 0 := by
    linear_combination (norm := module) r6
  have a2 : (p.sY - q.sY) • w.c - (p.sV - q.sV) • params.k = 0 := by
    have : E.e ((p.sY - q.sY) • w.c - (p.sV - q.sV) • params.k) E.g2 = 0 := by
      simp only [pair, s1, s2, s3, s4, q1, map_add, map_smul, map_neg, map_sub, LinearMap.add_apply,
        LinearMap.smul_apply, LinearMap.neg_apply, LinearMap.sub_apply] at r5 ⊢
      linear_combination (norm := module) r5
    exact (E.eq_zero_iff E.g2_ne).1 this
  have a3 : (p.sW - q.sW) • params.k + (p.sU - q.sU) • q.eDm1 = 0 := by
    linear_combination (norm := module) r7
  by_cases hv : p.sV = q.sV
  · left
    have hu : p.sU = q.sU := by
      rw [hv, sub_self, zero_smul, add_zero, smul_eq_zero] at a1
      exact sub_eq_zero.1 (a1.resolve_right E.g1_ne)
    have hyy : p.sY = q.sY := by
      rw [hv, sub_self, zero_smul, sub_zero, smul_eq_zero] at a2
      exact sub_eq_zero.1 (a2.resolve_right hC)
    have hw : p.sW = q.sW := by
      rw [hu, sub_self, zero_smul, add_zero, smul_eq_zero] at a3
      exact sub_eq_zero.1 (a3.resolve_right hk)
    rw [hyy, sub_self, zero_mul, add_zero] at s3 s4
    apply NonProof.ext <;> assumption
  · right
    have hv' : (p.sV - q.sV) • params.k ≠ 0 := smul_ne_zero (sub_ne_zero.2 hv) hk
    refine ⟨fun hu => ?_, hv, fun hyy => ?_, a1, ?_⟩
    · rw [hu, sub_self, zero_smul, zero_add] at a1
      exact hv' a1
    · rw [hyy, sub_self, zero_smul, zero_sub, neg_eq_zero] at a2
      exact hv' a2
    · linear_combination (norm := module) a1 + a2

/-- **C118** (and that case does exist). Whoever knows the logarithms of `K` and of the witness point to the base of the
generator can answer the same challenge in as many ways as there are scalars. So the responses of a non-membership proof
are unique only as long as these logarithms are hard to find; those of a membership proof are unique outright
(`C116_vb_unique`). -/
theorem C118_non_second (E : Pairing F G1 G2 GT) (y : F) (w : NonMembershipWitness F G1) (V : G1)
    (params : ProofParams G1) (pk : G2) (κ γ : F) (hκ : params.k = κ • E.g1) (hκ0 : κ ≠ 0) (hγ : w.c = γ • E.g1)
    (hγ0 : γ ≠ 0) (bl : Option F) (rand : NonRand F) (nc : NonCommitting F G1 GT)
    (hnc : NonCommitting.new E y w params pk bl rand = .ok nc) (c δ : F) :
    ∃ p : NonProof F G1, p.finalize E V params pk c = (nc.genProof c).finalize E V params pk c ∧
      p.sV = (nc.genProof c).sV + δ := by
  obtain ⟨hd, q1, q2, q3, q4⟩ := NonCommitting.new_ok E y w params pk bl rand nc hnc c
  set q := nc.genProof c with hq
  refine ⟨
    { q with
      sV := q.sV + δ
      sU := q.sU - κ * δ
      sY := q.sY + δ * κ / γ
      sDeltaSigma := q.sDeltaSigma + δ * κ / γ * rand.sigma
      sDeltaRho := q.sDeltaRho + δ * κ / γ * rand.rho
      sW := q.sW + δ * (w.d⁻¹ + rand.pi * κ) }, ?_, rfl⟩
  apply NonFinal.ext
  · rfl
  · rfl
  · rfl
  · rfl
  · rfl
  · simp only [NonProof.finalize, capR, List.zipWith_cons_cons, List.zipWith_nil_right, List.sum_cons, List.sum_nil, hκ]
    module
  · simp only [NonProof.finalize, capR, List.zipWith_cons_cons, List.zipWith_nil_right, List.sum_cons, List.sum_nil, q4,
      hκ]
    module
  · have : ∀ z : F, δ * κ / γ * (γ * z) = δ * κ * z := by intro z; field_simp
    have e : ((q.sY + δ * κ / γ) • q.eC + (-(q.sDeltaSigma + δ * κ / γ * rand.sigma + (q.sDeltaRho + δ * κ / γ * rand.rho))) • params.z + (-c) • V + (-(q.sV + δ)) • params.k + c • q.eD)
        = (q.sY • q.eC + (-(q.sDeltaSigma + q.sDeltaRho)) • params.z + (-c) • V + (-q.sV) • params.k + c • q.eD) := by
      rw [q1, hγ, hκ]
      match_scalars <;> field_simp <;> ring
    simp only [NonProof.finalize]
    rw [e]
  · rfl
  · rfl
  · simp only [NonProof.finalize, capR, List.zipWith_cons_cons, List.zipWith_nil_right, List.sum_cons, List.sum_nil, q2]
    module
  · simp only [NonProof.finalize, capR, List.zipWith_cons_cons, List.zipWith_nil_right, List.sum_cons, List.sum_nil, q3]
    module

/-- **C118** (non-malleability of non-membership proofs). Whoever turns what a prover sent (the proof and the challenge)
into anything else that is accepted for the same accumulator, parameters and key made the verifier hash something else,
or knows the logarithms of `K` and of the witness point. -/
theorem C118_non_nonmalleable (E : Pairing F G1 G2 GT) (H : Oracle F) (enc : Enc G1 G2 GT)
    (h1 : Function.Injective enc.g1) (h3 : Function.Injective enc.gt)
    (y : F) (w : NonMembershipWitness F G1) (V : G1) (params : ProofParams G1) (hx : params.x ≠ 0) (hy : params.y ≠ 0)
    (hk : params.k ≠ 0) (pk : G2) (hC : w.c ≠ 0) (hv : nmwVerify E w y pk V = true) (bl : Option F) (rand : NonRand F)
    (nc : NonCommitting F G1 GT) (hnc : NonCommitting.new E y w params pk bl rand = .ok nc)
    (t t' : Transcript) (label label' : String) (p' : NonProof F G1) (c' : F)
    (hacc : nonAccepts E H enc p' V params pk c' t' label')
    (c : F) (hc : c = H (nc.getBytesForChallenge enc t) label)
    (hne : (p', c', t', label') ≠ (nc.genProof c, c, t, label)) :
    ((p'.finalize E V params pk c').getBytesForChallenge enc t', label')
        ≠ (((nc.genProof c).finalize E V params pk c).getBytesForChallenge enc t, label) ∨
      ((p'.sU - (nc.genProof c).sU) • E.g1 + (p'.sV - (nc.genProof c).sV) • params.k = 0 ∧
        (p'.sU - (nc.genProof c).sU) • E.g1 + (p'.sY - (nc.genProof c).sY) • w.c = 0 ∧
        p'.sU ≠ (nc.genProof c).sU ∧ p'.sV ≠ (nc.genProof c).sV ∧ p'.sY ≠ (nc.genProof c).sY) := by
  by_cases hq : ((p'.finalize E V params pk c').getBytesForChallenge enc t', label')
        = (((nc.genProof c).finalize E V params pk c).getBytesForChallenge enc t, label)
  · right
    obtain ⟨hT, rfl⟩ := Prod.mk.inj hq
    have hacc' : nonAccepts E H enc (nc.genProof c) V params pk c t label' := by
      unfold nonAccepts
      rw [(C49_finalize_iff E y w V params pk bl rand c nc hnc).2 (.inr hv)]
      exact hc.symm
    have hcc : c' = c := by
      unfold nonAccepts at hacc hacc'
      rw [← hacc, hT, hacc']
    obtain ⟨rfl, hf⟩ := NonFinal.bytes_inj' enc h1 h3 _ _ _ _ hT
    rw [hcc] at hf
    rcases C118_non_unique E y w V params hx hy hk pk hC bl rand nc hnc c p' hf with h | ⟨a, b, d, e, f⟩
    · exact absurd (by rw [h, hcc]) hne
    · exact ⟨e, f, a, b, d⟩
  · exact .inl hq

/-! ### made-up credential proofs -/

/-- All twelve components of a proof. -/
def CredProof.equivProd : CredProof F G1 ≃ G1 × G1 × G1 × F × F × F × F × F × F × F × F × F where
  toFun p := ⟨p.u1, p.u2, p.r, p.challenge, p.s0, p.s1, p.s2, p.s3, p.s4, p.s5, p.s6, p.s7⟩
  invFun x := ⟨x.1, x.2.1, x.2.2.1, x.2.2.2.1, x.2.2.2.2.1, x.2.2.2.2.2.1, x.2.2.2.2.2.2.1, x.2.2.2.2.2.2.2.1,
    x.2.2.2.2.2.2.2.2.1, x.2.2.2.2.2.2.2.2.2.1, x.2.2.2.2.2.2.2.2.2.2.1, x.2.2.2.2.2.2.2.2.2.2.2⟩
  left_inv _ := rfl
  right_inv _ := rfl

theorem exists_credential (E : Pairing F G1 G2 GT) (params : AccParams G1 G2) (α sM : F) (V : G1) (y : F)
    (h1 : y ≠ -α) (h2 : y ≠ -sM) :
    credVerify E V ⟨α • params.p2, sM • params.k2⟩ params y ⟨0, (y + α)⁻¹ • V, (y + sM)⁻¹ • params.k0⟩ = .ok () := by
  have a : y + α ≠ 0 := fun h => h1 (eq_neg_of_add_eq_zero_left h)
  have b : y + sM ≠ 0 := fun h => h2 (eq_neg_of_add_eq_zero_left h)
  simp only [credVerify, ← add_smul, map_smul, LinearMap.smul_apply, map_neg, smul_smul, zero_smul, zero_add]
  simp [a, b]

/-- **C118** (made-up proofs). For every hash function, accumulator, pair of keys and ephemeral challenge: of all
conceivable proofs (three points, a challenge and eight responses) `check_membership_proof` accepts exactly one in `r`,
`r` the number of scalars. So a proof chosen without looking at the hash function is accepted with probability `1/r`. -/
theorem C118_made_up [Finite F] (E : Pairing F G1 G2 GT) (H : Oracle F) (enc : Enc G1 G2 GT) (params : AccParams G1 G2)
    (hz : params.z1 ≠ 0) (α sM : F) (V : G1) (eph : Bytes) (hF : 2 < Nat.card F) :
    Nat.card {p : CredProof F G1 // checkProof E H enc p params ⟨α • params.p2, sM • params.k2⟩ V eph = true}
      = Nat.card F ^ 11 ∧
    Nat.card (CredProof F G1) = Nat.card F ^ 12 := by
  constructor
  · obtain ⟨y, hy1, hy2⟩ : ∃ y : F, y ≠ -α ∧ y ≠ -sM := by
      by_contra hcon
      push Not at hcon
      have := Fintype.ofFinite F
      have hsub : (Finset.univ : Finset F) ⊆ {-α, -sM} := by
        intro y _
        by_cases h : y = -α
        · simp [h]
        · simp [hcon y h]
      have := (Finset.card_le_card hsub).trans Finset.card_le_two
      rw [Finset.card_univ, ← Nat.card_eq_fintype_card] at this
      omega
    have h := exists_credential E params α sM V y hy1 hy2
    set w : Witness F G1 := ⟨0, (y + α)⁻¹ • V, (y + sM)⁻¹ • params.k0⟩
    set pk : PublicKeys G2 := ⟨α • params.p2, sM • params.k2⟩
    have hmk : ∀ rand, ∃ p : {p : CredProof F G1 // checkProof E H enc p params pk V eph = true},
        makeProof E H enc w y V params pk eph rand = some p.1 := by
      intro rand
      obtain ⟨p, hp⟩ := (C42_complete E H enc w y V params pk eph rand).1.2 h
      exact ⟨⟨p, (C42_complete E H enc w y V params pk eph rand).2 p hp⟩, hp⟩
    choose f hf using hmk
    have hbij : Function.Bijective f := by
      constructor
      · intro r r' e
        have h2 := hf r'
        rw [← e] at h2
        exact ((C44_accepted_iff E H enc params hz pk V eph y w h _).1 (f r).2).unique (hf r) h2
      · intro p
        obtain ⟨r, hr, -⟩ := (C44_accepted_iff E H enc params hz pk V eph y w h p.1).1 p.2
        exact ⟨r, Subtype.ext (Option.some.inj ((hf r).symm.trans hr))⟩
    rw [← Nat.card_congr (Equiv.ofBijective f hbij), Nat.card_congr (ProofRand.equiv (F := F))]
    simp only [Nat.card_prod]
    ring
  · have e : Nat.card G1 = Nat.card F := by
      refine (Nat.card_congr (Equiv.ofBijective (fun r : F => r • E.g1) ⟨fun a b h => smul_cancel_pt E.g1_ne h, ?_⟩)).symm
      intro P
      obtain ⟨r, hr⟩ := E.g1_gen P
      exact ⟨r, hr.symm⟩
    rw [Nat.card_congr CredProof.equivProd]
    simp only [Nat.card_prod, e]
    ring

/-! ### placeholder proofs -/

/-- `MembershipProof::default()` (derived), src/witness.rs:292. -/
def CredProof.default : CredProof F G1 := ⟨0, 0, 0, 0, 0, 0, 0, 0, 0, 0, 0, 0⟩

/-- `MembershipProof::default()` (derived), src/accumulator/proof.rs:229. -/
def MemProof.default : MemProof F G1 :=
  { eC := 0, tSigma := 0, tRho := 0, sSigma := 0, sRho := 0, sDeltaSigma := 0, sDeltaRho := 0, sY := 0 }

/-- `NonMembershipProof::default()` (derived), src/accumulator/proof.rs:616. -/
def NonProof.default : NonProof F G1 :=
  { eC := 0, eD := 0, eDm1 := 0, tSigma := 0, tRho := 0, sSigma := 0, sRho := 0, sDeltaSigma := 0, sDeltaRho := 0,
    sU := 0, sV := 0, sW := 0, sY := 0 }

/-- **C118** (the placeholder credential proof). `MembershipProof::default()` is accepted only if the hash of one fixed
transcript (identity points after the public context) is the scalar 0. -/
theorem C118_default (E : Pairing F G1 G2 GT) (H : Oracle F) (enc : Enc G1 G2 GT) (params : AccParams G1 G2)
    (pk : PublicKeys G2) (V : G1) (eph : Bytes) :
    checkProof E H enc CredProof.default params pk V eph = true ↔
      H ⟨"basic_membership_proof",
        [("Signature Public Key", enc.g2 pk.witnessKey), ("Witness Public Key", enc.g2 pk.signKey),
         ("Accumulator", enc.g1 V), ("Proof Param K", enc.g1 params.k1), ("Proof Param X", enc.g1 params.x1),
         ("Proof Param Y", enc.g1 params.y1), ("Proof Param Z", enc.g1 params.z1), ("U_1", enc.g1 0), ("U_2", enc.g1 0),
         ("R", enc.g1 0), ("T_1", enc.g1 0), ("T_2", enc.g1 0), ("Pi_1", enc.gt 0), ("Pi_2", enc.gt 0),
         ("Ephemeral challenge", eph)]⟩ "challenge" = 0 := by
  simp only [checkProof, checkTranscript, credTranscript, CredProof.getBytesForChallenge, appendCommitments,
    AccParams.addToTranscript, Transcript.append, Transcript.new, CredProof.default, CredProof.t1, CredProof.t2,
    CredProof.pi1, CredProof.pi2, pair, decide_eq_true_eq, zero_smul, smul_zero, add_zero, sub_zero, neg_zero, map_zero,
    LinearMap.zero_apply, List.nil_append, List.cons_append]

/-- **C118** (placeholder accumulator proofs). Finalized with a challenge `c`, the default membership proof gives identity
points and `e(-c V, P~)`, the default non-membership proof the same and `-c P` for `R_B`. -/
theorem C118_default_vb (E : Pairing F G1 G2 GT) (params : ProofParams G1) (pk : G2) (V : G1) (c : F) :
    (MemProof.default : MemProof F G1).finalize E V params pk c =
      { eC := 0, tSigma := 0, tRho := 0, capRE := E.e (-(c • V)) E.g2, capRSigma := 0, capRRho := 0, capRDeltaSigma := 0,
        capRDeltaRho := 0 } ∧
    (NonProof.default : NonProof F G1).finalize E V params pk c =
      { eC := 0, eD := 0, eDm1 := 0, tSigma := 0, tRho := 0, capRA := 0, capRB := -(c • E.g1),
        capRE := E.e (-(c • V)) E.g2, capRSigma := 0, capRRho := 0, capRDeltaSigma := 0, capRDeltaRho := 0 } := by
  constructor
  · simp [MemProof.finalize, MemProof.default, capR, pair]
  · simp [NonProof.finalize, NonProof.default, capR, pair]

end

/-! ### concrete cases -/

local instance madeUp_prime7 : Fact (Nat.Prime 7) := ⟨by decide⟩

/-- Parameters, a verifying non-membership witness and a prover who commits: the hypotheses of the statements about
non-membership proofs. -/
example : ∃ nc : NonCommitting (ZMod 7) (ZMod 7) (ZMod 7),
    NonCommitting.new (Pairing.field (ZMod 7)) 1 ⟨1, 1⟩ ⟨1, 2, 3, 4⟩ 2 none ⟨1, 2, 3, 4, 5, 6, 1, 2, 3, 4, 5, 6⟩ = .ok nc ∧
    nmwVerify (Pairing.field (ZMod 7)) (⟨1, 1⟩ : NonMembershipWitness (ZMod 7) (ZMod 7)) 1 2 4 = true :=
  ⟨_, rfl, by with_unfolding_all rfl⟩

/-- `C118_non_second` there, with `K = 4 g` and the witness point `g`: seven answers to one challenge. -/
example (c δ : ZMod 7) (nc : NonCommitting (ZMod 7) (ZMod 7) (ZMod 7))
    (h : NonCommitting.new (Pairing.field (ZMod 7)) 1 ⟨1, 1⟩ ⟨1, 2, 3, 4⟩ 2 none ⟨1, 2, 3, 4, 5, 6, 1, 2, 3, 4, 5, 6⟩
      = .ok nc) :
    ∃ p : NonProof (ZMod 7) (ZMod 7), p.finalize (Pairing.field (ZMod 7)) 4 ⟨1, 2, 3, 4⟩ 2 c
      = (nc.genProof c).finalize (Pairing.field (ZMod 7)) 4 ⟨1, 2, 3, 4⟩ 2 c ∧ p.sV = (nc.genProof c).sV + δ := by
  exact C118_non_second (Pairing.field (ZMod 7)) 1 ⟨1, 1⟩ 4 _ 2 4 1 (by with_unfolding_all rfl) (by decide)
    (by with_unfolding_all rfl) (by decide) none _ nc h c δ

/-- seven scalars: one in seven of the `7 ^ 12` proofs is accepted, with any hash function -/
example (H : Oracle (ZMod 7)) (enc : Enc (ZMod 7) (ZMod 7) (ZMod 7)) (V : ZMod 7) (eph : Bytes) :
    Nat.card {p : CredProof (ZMod 7) (ZMod 7) // checkProof (Pairing.field (ZMod 7)) H enc p ⟨1, 1, 2, 3, 1, 5, 6, 1⟩
      ⟨(2 : ZMod 7) • 1, (3 : ZMod 7) • 1⟩ V eph = true} = Nat.card (ZMod 7) ^ 11 :=
  (C118_made_up (Pairing.field (ZMod 7)) H enc ⟨1, 1, 2, 3, 1, 5, 6, 1⟩ (by decide) 2 3 V eph
    (by rw [Nat.card_zmod]; decide)).1

end Allo
