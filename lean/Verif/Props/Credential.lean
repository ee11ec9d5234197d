import Verif.Lemmas.Pairing
import Verif.Model.User
import Mathlib.Tactic.LinearCombination
import Mathlib.Tactic.Module
import Mathlib.Tactic.FieldSimp

/-!
# C42 – C45: the credential membership proof (`src/witness.rs`)
-/

set_option linter.unusedSectionVars false
set_option linter.unusedVariables false
namespace Allo
open Spec

section
variable {F G1 G2 GT : Type} [Field F] [DecidableEq F] [AddCommGroup G1] [Module F G1]
  [AddCommGroup G2] [Module F G2] [AddCommGroup GT] [Module F GT] [DecidableEq GT]

/-- The two pairing equations of `Witness::verify`. -/
theorem credVerify_pairing (E : Pairing F G1 G2 GT) (V : G1) (pk : PublicKeys G2)
    (params : AccParams G1 G2) (y : F) (w : Witness F G1) :
    credVerify E V pk params y w = .ok () ↔
      E.e w.witness (y • params.p2 + pk.witnessKey) = E.e V params.p2 ∧
      E.e w.signature (y • params.k2 + pk.signKey)
        = E.e (w.secretKey • params.k1 + params.k0) params.k2 := by
  unfold credVerify
  simp only [map_neg, Bool.and_eq_true, decide_eq_true_eq, ← sub_eq_add_neg, sub_eq_zero]
  split <;> simp_all

/-- What the prover committed to is what the verifier recomputes. -/
theorem recompute (E : Pairing F G1 G2 GT) (V : G1) (pk : PublicKeys G2)
    (params : AccParams G1 G2) (y : F) (w : Witness F G1)
    (h : credVerify E V pk params y w = .ok ()) (rand : ProofRand F) (c : F) :
    let mpc := Committing.new E w params pk rand
    let p := mpc.genProof w y c
    p.u1 = mpc.u1 ∧ p.u2 = mpc.u2 ∧ p.r = mpc.rPoint ∧ p.t1 params = mpc.t1 ∧
      p.t2 params = mpc.t2 ∧ p.pi1 E params pk = mpc.pi1 ∧ p.pi2 E params pk V = mpc.pi2 := by
  obtain ⟨h1, h2⟩ := (credVerify_pairing E V pk params y w).1 h
  simp only [map_add, map_smul, LinearMap.add_apply, LinearMap.smul_apply] at h1 h2
  refine ⟨rfl, rfl, rfl, ?_, ?_, ?_, ?_⟩
  · simp only [CredProof.t1, Committing.genProof, Committing.new, schnorr]
    module
  · simp only [CredProof.t2, Committing.genProof, Committing.new, schnorr]
    module
  · simp only [CredProof.pi1, Committing.genProof, Committing.new, schnorr, pair, map_add, map_sub,
      map_smul, LinearMap.add_apply, LinearMap.sub_apply, LinearMap.smul_apply]
    linear_combination (norm := module) (-c) • h2
  · simp only [CredProof.pi2, Committing.genProof, Committing.new, schnorr, pair, map_add, map_sub,
      map_smul, map_neg, LinearMap.add_apply, LinearMap.sub_apply, LinearMap.smul_apply,
      LinearMap.neg_apply]
    linear_combination (norm := module) (-c) • h1

theorem getBytes_eq (E : Pairing F G1 G2 GT) (enc : Enc G1 G2 GT) (V : G1) (pk : PublicKeys G2)
    (params : AccParams G1 G2) (y : F) (w : Witness F G1)
    (h : credVerify E V pk params y w = .ok ()) (rand : ProofRand F) (c : F) (t : Transcript) :
    ((Committing.new E w params pk rand).genProof w y c).getBytesForChallenge E enc params pk V t
      = (Committing.new E w params pk rand).getBytesForChallenge enc t := by
  obtain ⟨h1, h2, h3, h4, h5, h6, h7⟩ := recompute E V pk params y w h rand c
  simp only [CredProof.getBytesForChallenge, Committing.getBytesForChallenge, h1, h2, h3, h4, h5, h6, h7]

/-- The challenge of a proof made by `make_membership_proof`. -/
def proofChallenge (E : Pairing F G1 G2 GT) (H : Oracle F) (enc : Enc G1 G2 GT) (w : Witness F G1)
    (V : G1) (params : AccParams G1 G2) (pk : PublicKeys G2) (eph : Bytes) (rand : ProofRand F) : F :=
  H (((Committing.new E w params pk rand).getBytesForChallenge enc
    (credTranscript enc params pk V)).append "Ephemeral challenge" eph) "challenge"

theorem makeProof_eq (E : Pairing F G1 G2 GT) (H : Oracle F) (enc : Enc G1 G2 GT) (w : Witness F G1)
    (y : F) (V : G1) (params : AccParams G1 G2) (pk : PublicKeys G2) (eph : Bytes) (rand : ProofRand F)
    (h : credVerify E V pk params y w = .ok ()) :
    makeProof E H enc w y V params pk eph rand
      = some ((Committing.new E w params pk rand).genProof w y
          (proofChallenge E H enc w V params pk eph rand)) := by
  unfold makeProof; rw [h]; rfl

/-- **C42** (completeness). For every pairing, hash function, encoding, parameters, keys (well formed or
not), ephemeral challenge and randomness: `make_membership_proof` returns a proof exactly when the
witness verifies for the id and the accumulator, and every proof it returns is accepted by
`check_membership_proof` with the same parameters, keys, accumulator and ephemeral challenge. -/
theorem C42_complete (E : Pairing F G1 G2 GT) (H : Oracle F) (enc : Enc G1 G2 GT) (w : Witness F G1)
    (y : F) (V : G1) (params : AccParams G1 G2) (pk : PublicKeys G2) (eph : Bytes)
    (rand : ProofRand F) :
    ((∃ p, makeProof E H enc w y V params pk eph rand = some p) ↔
        credVerify E V pk params y w = .ok ()) ∧
      ∀ p, makeProof E H enc w y V params pk eph rand = some p →
        checkProof E H enc p params pk V eph = true := by
  by_cases h : credVerify E V pk params y w = .ok ()
  · have hm := makeProof_eq E H enc w y V params pk eph rand h
    refine ⟨⟨fun _ => h, fun _ => ⟨_, hm⟩⟩, ?_⟩
    intro p hp
    rw [hm] at hp
    obtain rfl := Option.some.inj hp
    unfold checkProof checkTranscript
    simp only [getBytes_eq E enc V pk params y w h]
    simp only [decide_eq_true_eq]
    rfl
  · have hm : makeProof E H enc w y V params pk eph rand = none := by
      unfold makeProof
      split
      · rfl
      · next hh => exact absurd hh h
    rw [hm]
    simp [h]

/-- **C42** at the level of `User`: a user whose stored witness passes `check_witness` for the
accumulator it has recorded makes a proof, and everyone checking it against that accumulator accepts;
a user with no witness, or a stale one, makes none. -/
theorem C42_user (E : Pairing F G1 G2 GT) [DecidableEq G1] (H : Oracle F) (enc : Enc G1 G2 GT)
    (u : User F G1 G2) (params : AccParams G1 G2) (eph : Bytes) (rand : ProofRand F) :
    (u.checkWitness E params u.accumulator = .ok () →
      ∃ p, u.makeMembershipProof E H enc params u.publicKeys eph rand = some p ∧
        checkProof E H enc p params u.publicKeys u.accumulator eph = true) ∧
    (u.checkWitness E params u.accumulator ≠ .ok () →
      u.makeMembershipProof E H enc params u.publicKeys eph rand = none) := by
  unfold User.checkWitness User.makeMembershipProof
  cases u.witness with
  | none => simp
  | some w =>
    simp only
    obtain ⟨h1, h2⟩ := C42_complete E H enc w u.id u.accumulator params u.publicKeys eph rand
    constructor
    · intro h
      obtain ⟨p, hp⟩ := h1.2 h
      exact ⟨p, hp, h2 p hp⟩
    · intro h
      rw [Ne, ← h1] at h
      cases hm : makeProof E H enc w u.id u.accumulator params u.publicKeys eph rand with
      | none => rfl
      | some p => exact absurd ⟨p, hm⟩ h

/-- **C42** at the level of `User`, for whatever public keys are given (the user's own stored keys play no part): the
user makes a proof exactly when it has a witness that `Witness::verify` accepts for these keys, its id and its recorded
accumulator, and every proof it makes is accepted under these keys. -/
theorem C42_user_keys (E : Pairing F G1 G2 GT) [DecidableEq G1] (H : Oracle F) (enc : Enc G1 G2 GT)
    (u : User F G1 G2) (params : AccParams G1 G2) (pk : PublicKeys G2) (eph : Bytes) (rand : ProofRand F) :
    ((∃ p, u.makeMembershipProof E H enc params pk eph rand = some p) ↔
      ∃ w, u.witness = some w ∧ credVerify E u.accumulator pk params u.id w = .ok ()) ∧
    ∀ p, u.makeMembershipProof E H enc params pk eph rand = some p →
      checkProof E H enc p params pk u.accumulator eph = true := by
  unfold User.makeMembershipProof
  cases u.witness with
  | none => simp
  | some w =>
    obtain ⟨h1, h2⟩ := C42_complete E H enc w u.id u.accumulator params pk eph rand
    exact ⟨by simpa using h1, h2⟩

/-! ### Special soundness -/

/-- `(a - b) / (c - c')`: a response difference divided by the challenge difference. -/
def slope (p p' : CredProof F G1) (s : CredProof F G1 → F) : F :=
  (s p - s p') / (p.challenge - p'.challenge)

/-- The id computed from two proofs. -/
def extractId (p p' : CredProof F G1) : F := slope p p' (·.s7)

/-- The credential computed from two proofs (no secret is used). -/
def extractWitness (params : AccParams G1 G2) (p p' : CredProof F G1) : Witness F G1 :=
  ⟨slope p p' (·.s0), p.u2 - slope p p' (·.s2) • params.z1, p.u1 - slope p p' (·.s1) • params.z1⟩

/-- The linear relation computed from two proofs. -/
def extractRelation (p p' : CredProof F G1) : F × F × F :=
  (slope p p' (·.s4) - slope p p' (·.s7) * slope p p' (·.s1),
   slope p p' (·.s5) - slope p p' (·.s7) * slope p p' (·.s2),
   slope p p' (·.s6) - slope p p' (·.s7) * slope p p' (·.s3))

/-- Both proofs start from the same commitments (what is hashed before the challenge is known). -/
def SameCommitments (E : Pairing F G1 G2 GT) (params : AccParams G1 G2) (pk : PublicKeys G2) (V : G1)
    (p p' : CredProof F G1) : Prop :=
  p.u1 = p'.u1 ∧ p.u2 = p'.u2 ∧ p.r = p'.r ∧ p.t1 params = p'.t1 params ∧ p.t2 params = p'.t2 params ∧
    p.pi1 E params pk = p'.pi1 E params pk ∧ p.pi2 E params pk V = p'.pi2 E params pk V

/-- **C43** (special soundness). From two proofs with the same commitments and different challenges,
the credential computed by `extractId`/`extractWitness` passes `Witness::verify`, or the coefficients
computed by `extractRelation` are a non-trivial linear relation between `X`, `Y` and `Z`.
(No assumption on keys, parameters or on the hash function.) -/
theorem C43_special_sound (E : Pairing F G1 G2 GT) (params : AccParams G1 G2) (pk : PublicKeys G2)
    (V : G1) (p p' : CredProof F G1) (h : SameCommitments E params pk V p p')
    (hc : p.challenge ≠ p'.challenge) :
    credVerify E V pk params (extractId p p') (extractWitness params p p') = .ok () ∨
      (extractRelation p p' ≠ (0, 0, 0) ∧
        (extractRelation p p').1 • params.x1 + (extractRelation p p').2.1 • params.y1
          + (extractRelation p p').2.2 • params.z1 = 0) := by
  obtain ⟨hu1, hu2, hr, ht1, ht2, hp1, hp2⟩ := h
  have hd : p.challenge - p'.challenge ≠ 0 := sub_ne_zero.2 hc
  have key : ∀ s : CredProof F G1 → F, s p = s p' + slope p p' s * (p.challenge - p'.challenge) := by
    intro s; unfold slope; field_simp; ring
  have k0 := key (·.s0)
  have k1 := key (·.s1)
  have k2 := key (·.s2)
  have k3 := key (·.s3)
  have k4 := key (·.s4)
  have k5 := key (·.s5)
  have k6 := key (·.s6)
  have k7 := key (·.s7)
  have kc : p.challenge = p'.challenge + (p.challenge - p'.challenge) := by ring
  beta_reduce at k0 k1 k2 k3 k4 k5 k6 k7
  simp only [extractId, extractWitness, extractRelation]
  generalize slope p p' (·.s0) = q0 at *
  generalize slope p p' (·.s1) = q1 at *
  generalize slope p p' (·.s2) = q2 at *
  generalize slope p p' (·.s3) = q3 at *
  generalize slope p p' (·.s4) = q4 at *
  generalize slope p p' (·.s5) = q5 at *
  generalize slope p p' (·.s6) = q6 at *
  generalize slope p p' (·.s7) = q7 at *
  generalize p.challenge - p'.challenge = D at *
  clear key hc
  simp only [CredProof.t1, CredProof.t2, CredProof.pi1, CredProof.pi2, pair, map_add, map_sub, map_smul,
    map_neg, LinearMap.add_apply, LinearMap.sub_apply, LinearMap.smul_apply, LinearMap.neg_apply,
    k0, k1, k2, k3, k4, k5, k6, k7, kc, hu1, hu2, hr] at ht1 ht2 hp1 hp2
  have cancelG1 : ∀ {a : G1}, D • a = 0 → a = 0 := fun h => (smul_eq_zero.1 h).resolve_left hd
  have cancelGT : ∀ {a : GT}, D • a = 0 → a = 0 := fun h => (smul_eq_zero.1 h).resolve_left hd
  have hR : q1 • params.x1 + q2 • params.y1 + q3 • params.z1 - p'.r = 0 := by
    apply cancelG1
    linear_combination (norm := module) ht1
  have hR2 : q4 • params.x1 + q5 • params.y1 + q6 • params.z1 - q7 • p'.r = 0 := by
    apply cancelG1
    linear_combination (norm := module) ht2
  have hrel : (q4 - q7 * q1) • params.x1 + (q5 - q7 * q2) • params.y1 + (q6 - q7 * q3) • params.z1 = 0 := by
    linear_combination (norm := module) hR2 - q7 • hR
  by_cases h0 : q4 - q7 * q1 = 0 ∧ q5 - q7 * q2 = 0 ∧ q6 - q7 * q3 = 0
  · left
    obtain ⟨h4, h5, -⟩ := h0
    have h4 : q4 = q7 * q1 := by linear_combination h4
    have h5 : q5 = q7 * q2 := by linear_combination h5
    subst h4; subst h5
    rw [credVerify_pairing]
    simp only [map_add, map_sub, map_smul, LinearMap.add_apply, LinearMap.sub_apply,
      LinearMap.smul_apply, hu1, hu2]
    constructor
    · rw [← sub_eq_zero]
      apply cancelGT
      linear_combination (norm := module) -hp2
    · rw [← sub_eq_zero]
      apply cancelGT
      linear_combination (norm := module) -hp1
  · right
    refine ⟨?_, hrel⟩
    rintro h
    simp only [Prod.mk.injEq] at h
    exact h0 h

/-! ### Anonymity -/

/-- **C44** (simulation). For a fixed challenge, every choice of points `U_1, U_2, R` and responses
`s_0 … s_7` is what exactly one randomness of the prover gives, whatever the id and credential
(even an invalid one). `Z` must not be the identity. -/
theorem C44_simulation (E : Pairing F G1 G2 GT) (params : AccParams G1 G2) (hz : params.z1 ≠ 0)
    (pk : PublicKeys G2) (y : F) (w : Witness F G1) (p : CredProof F G1) :
    ∃! rand : ProofRand F,
      (Committing.new E w params pk rand).genProof w y p.challenge = p := by
  have gen : ∀ Q : G1, ∃ r : F, Q = r • params.z1 := by
    intro Q
    obtain ⟨a, ha⟩ := E.g1_gen Q
    obtain ⟨b, hb⟩ := E.g1_gen params.z1
    have hb0 : b ≠ 0 := by rintro rfl; rw [zero_smul] at hb; exact hz hb
    exact ⟨a * b⁻¹, by rw [hb, smul_smul, inv_mul_cancel_right₀ hb0, ha]⟩
  have inj : ∀ {a b : F}, a • params.z1 = b • params.z1 → a = b := by
    intro a b h
    rw [← sub_eq_zero, ← sub_smul, smul_eq_zero] at h
    exact sub_eq_zero.1 (h.resolve_right hz)
  obtain ⟨a0, h0⟩ := gen (p.u1 - w.signature)
  obtain ⟨a1, h1⟩ := gen (p.u2 - w.witness)
  obtain ⟨a2, h2⟩ := gen (p.r - (a0 • params.x1 + a1 • params.y1))
  refine ⟨⟨a0, a1, a2, p.s0 - w.secretKey * p.challenge, p.s1 - a0 * p.challenge,
    p.s2 - a1 * p.challenge, p.s3 - a2 * p.challenge, p.s4 - a0 * y * p.challenge,
    p.s5 - a1 * y * p.challenge, p.s6 - a2 * y * p.challenge, p.s7 - y * p.challenge⟩, ?_, ?_⟩
  · ext <;> simp only [Committing.new, Committing.genProof, schnorr]
    · rw [← h0]; abel
    · rw [← h1]; abel
    · rw [← h2]; abel
    all_goals ring
  · rintro ⟨r0, r1, r2, k0, k1, k2, k3, k4, k5, k6, k7⟩ h
    have hp := h
    simp only [Committing.new, Committing.genProof, schnorr, CredProof.ext_iff] at hp
    obtain ⟨e1, e2, e3, -, f0, f1, f2, f3, f4, f5, f6, f7⟩ := hp
    have g0 : r0 = a0 := inj (by rw [← h0, ← e1]; abel)
    have g1 : r1 = a1 := inj (by rw [← h1, ← e2]; abel)
    subst g0 g1
    have g2 : r2 = a2 := inj (by rw [← h2, ← e3]; abel)
    subst g2
    rw [← f0, ← f1, ← f2, ← f3, ← f4, ← f5, ← f6, ← f7]
    ext <;> simp

/-- **C44** (main statement). A holder of a valid credential can output exactly the proofs that
`check_membership_proof` accepts, each with exactly one choice of randomness: the set of possible
proofs, and the number of random choices giving each of them, do not depend on who the prover is. -/
theorem C44_accepted_iff (E : Pairing F G1 G2 GT) (H : Oracle F) (enc : Enc G1 G2 GT)
    (params : AccParams G1 G2) (hz : params.z1 ≠ 0) (pk : PublicKeys G2) (V : G1) (eph : Bytes)
    (y : F) (w : Witness F G1) (h : credVerify E V pk params y w = .ok ()) (p : CredProof F G1) :
    (checkProof E H enc p params pk V eph = true →
      ∃! rand, makeProof E H enc w y V params pk eph rand = some p) ∧
    (checkProof E H enc p params pk V eph = false →
      ∀ rand, makeProof E H enc w y V params pk eph rand ≠ some p) := by
  constructor
  · intro hp
    obtain ⟨rand, hr, huniq⟩ := C44_simulation E params hz pk y w p
    refine ⟨rand, ?_, ?_⟩
    · dsimp only
      rw [makeProof_eq E H enc w y V params pk eph rand h]
      suffices hch : proofChallenge E H enc w V params pk eph rand = p.challenge by rw [hch, hr]
      unfold checkProof checkTranscript at hp
      simp only [decide_eq_true_eq] at hp
      rw [← hp]
      unfold proofChallenge
      rw [← getBytes_eq E enc V pk params y w h rand p.challenge, hr]
    · intro rand' hr'
      apply huniq
      rw [makeProof_eq E H enc w y V params pk eph rand' h] at hr'
      have := Option.some.inj hr'
      have hc : proofChallenge E H enc w V params pk eph rand' = p.challenge := by
        conv_rhs => rw [← this]
        rfl
      rw [← hc]; exact this
  · intro hp rand hr
    rw [(C42_complete E H enc w y V params pk eph rand).2 p hr] at hp
    exact absurd hp (by simp)

/-- **C44** (two users). For every proof one user outputs there is exactly one randomness with which any
other user holding a valid credential for the same accumulator outputs the same proof. -/
theorem C44_anonymous (E : Pairing F G1 G2 GT) (H : Oracle F) (enc : Enc G1 G2 GT)
    (params : AccParams G1 G2) (hz : params.z1 ≠ 0) (pk : PublicKeys G2) (V : G1) (eph : Bytes)
    (y y' : F) (w w' : Witness F G1) (h : credVerify E V pk params y w = .ok ())
    (h' : credVerify E V pk params y' w' = .ok ()) (rand : ProofRand F) :
    ∃! rand', makeProof E H enc w' y' V params pk eph rand' = makeProof E H enc w y V params pk eph rand := by
  obtain ⟨p, hp⟩ := (C42_complete E H enc w y V params pk eph rand).1.2 h
  rw [hp]
  exact (C44_accepted_iff E H enc params hz pk V eph y' w' h' p).1
    ((C42_complete E H enc w y V params pk eph rand).2 p hp)

/-- **C44** (many presentations). Any family of presentations (any index type `ι`), each with its own
accumulator value and verifier challenge and any two holders of valid credentials for it. A bijection of the
random choices of all presentations together turns the whole family of proofs of `(y, w)` into the whole
family of proofs of `(y', w')`: presentations of one user (`y`, `w` constant, or `w` as updated) cannot be
told from presentations of unrelated users. -/
theorem C44_sessions {ι : Type} (E : Pairing F G1 G2 GT) (H : Oracle F) (enc : Enc G1 G2 GT)
    (params : AccParams G1 G2) (hz : params.z1 ≠ 0) (pk : PublicKeys G2) (V : ι → G1) (eph : ι → Bytes)
    (y y' : ι → F) (w w' : ι → Witness F G1) (h : ∀ s, credVerify E (V s) pk params (y s) (w s) = .ok ())
    (h' : ∀ s, credVerify E (V s) pk params (y' s) (w' s) = .ok ()) :
    ∃ φ : Equiv.Perm (ι → ProofRand F), ∀ (rand : ι → ProofRand F) (s : ι),
      makeProof E H enc (w' s) (y' s) (V s) params pk (eph s) (φ rand s)
        = makeProof E H enc (w s) (y s) (V s) params pk (eph s) (rand s) := by
  choose f hf _ using fun s r =>
    C44_anonymous E H enc params hz pk (V s) (eph s) (y s) (y' s) (w s) (w' s) (h s) (h' s) r
  choose g hg _ using fun s r =>
    C44_anonymous E H enc params hz pk (V s) (eph s) (y' s) (y s) (w' s) (w s) (h' s) (h s) r
  have inj : ∀ s r r', makeProof E H enc (w s) (y s) (V s) params pk (eph s) r
      = makeProof E H enc (w s) (y s) (V s) params pk (eph s) r' → r = r' := fun s r r' e =>
    (C44_anonymous E H enc params hz pk (V s) (eph s) (y s) (y s) (w s) (w s) (h s) (h s) r').unique e rfl
  have inj' : ∀ s r r', makeProof E H enc (w' s) (y' s) (V s) params pk (eph s) r
      = makeProof E H enc (w' s) (y' s) (V s) params pk (eph s) r' → r = r' := fun s r r' e =>
    (C44_anonymous E H enc params hz pk (V s) (eph s) (y' s) (y' s) (w' s) (w' s) (h' s) (h' s) r').unique e rfl
  refine ⟨⟨fun r s => f s (r s), fun r s => g s (r s), fun r => ?_, fun r => ?_⟩, fun r s => hf s (r s)⟩
  · funext s
    exact inj s _ _ ((hg s _).trans (hf s _))
  · funext s
    exact inj' s _ _ ((hf s _).trans (hg s _))

/-! ### Binding -/

/-- What a verifier is given besides the proof. -/
structure ProofContext (G1 G2 : Type) where
  params : AccParams G1 G2
  keys : PublicKeys G2
  accumulator : G1
  ephemeral : Bytes

/-- **C45** (binding). If one proof is accepted in two contexts that differ in the accumulator, a public
key, the ephemeral challenge, one of `K_1, X, Y, Z`, or (for a non-zero challenge) only in `K_0`,
then the two transcripts hashed by the verifiers are different and have the same hash: an explicit
collision of the Fiat-Shamir hash. -/
theorem C45_binding (E : Pairing F G1 G2 GT) (H : Oracle F) (enc : Enc G1 G2 GT)
    (h1 : Function.Injective enc.g1) (h2 : Function.Injective enc.g2) (h3 : Function.Injective enc.gt)
    (p : CredProof F G1) (a b : ProofContext G1 G2)
    (ha : checkProof E H enc p a.params a.keys a.accumulator a.ephemeral = true)
    (hb : checkProof E H enc p b.params b.keys b.accumulator b.ephemeral = true)
    (hd : a.accumulator ≠ b.accumulator ∨ a.keys ≠ b.keys ∨ a.ephemeral ≠ b.ephemeral ∨
      a.params.k1 ≠ b.params.k1 ∨ a.params.x1 ≠ b.params.x1 ∨ a.params.y1 ≠ b.params.y1 ∨
      a.params.z1 ≠ b.params.z1 ∨
      (p.challenge ≠ 0 ∧ a.params.k2 ≠ 0 ∧ a.params.k2 = b.params.k2 ∧ a.params.k0 ≠ b.params.k0)) :
    let t := checkTranscript E enc p a.params a.keys a.accumulator a.ephemeral
    let t' := checkTranscript E enc p b.params b.keys b.accumulator b.ephemeral
    t ≠ t' ∧ H t "challenge" = H t' "challenge" := by
  refine ⟨?_, ?_⟩
  · intro ht
    simp only [checkTranscript, CredProof.getBytesForChallenge, appendCommitments, credTranscript,
      AccParams.addToTranscript, Transcript.append, Transcript.new, List.nil_append,
      List.cons_append, Transcript.mk.injEq, List.cons.injEq, Prod.mk.injEq, true_and, and_true,
      h1.eq_iff, h2.eq_iff, h3.eq_iff] at ht
    obtain ⟨e1, e2, e3, e4, e5, e6, e7, -, -, e8, e9, e10⟩ := ht
    rcases hd with hd | hd | hd | hd | hd | hd | hd | hd
    · exact hd e3
    · apply hd
      cases hka : a.keys; cases hkb : b.keys
      simp_all
    · exact hd e10
    · exact hd e4
    · exact hd e5
    · exact hd e6
    · exact hd e7
    · obtain ⟨hc, hk2, hk, hk0⟩ := hd
      simp only [CredProof.pi1, pair, e2, e4, e7, ← hk] at e8
      apply hk0
      have : p.challenge • E.e (a.params.k0 - b.params.k0) a.params.k2 = 0 := by
        simp only [map_add, map_sub, map_smul, LinearMap.add_apply, LinearMap.sub_apply,
          LinearMap.smul_apply] at e8 ⊢
        linear_combination (norm := module) e8
      rw [smul_eq_zero, E.eq_zero_iff hk2, sub_eq_zero] at this
      exact this.resolve_left hc
  · unfold checkProof at ha hb
    simp only [decide_eq_true_eq] at ha hb
    rw [ha, hb]

/-! ### The hypotheses can be met -/

/-- A concrete encoding of `ℚ` (injective on the integers used below) is not needed: the theorems hold for
every encoding. Parameters, keys and a valid credential over the pairing `ℚ × ℚ → ℚ`. -/
example : credVerify (Pairing.field ℚ) (6 : ℚ) ⟨4, 9⟩ ⟨1, 1, 2, 3, 1, 5, 7, 11⟩ 2 ⟨10, 1, 32 / 11⟩ = .ok () ∧
    credVerify (Pairing.field ℚ) (6 : ℚ) ⟨4, 9⟩ ⟨1, 1, 2, 3, 1, 5, 7, 11⟩ 8 ⟨5, 1 / 2, 1⟩ = .ok () := by
  constructor <;> rw [credVerify_pairing] <;> simp [Pairing.field] <;> norm_num

/-- Two proofs with the same commitments and different challenges exist (same prover randomness, two
challenges), and the extractor returns the prover's credential. -/
theorem C43_extracts_prover (E : Pairing F G1 G2 GT) (params : AccParams G1 G2) (pk : PublicKeys G2)
    (V : G1) (y : F) (w : Witness F G1) (h : credVerify E V pk params y w = .ok ()) (rand : ProofRand F)
    (c c' : F) (hc : c ≠ c') :
    let p := (Committing.new E w params pk rand).genProof w y c
    let p' := (Committing.new E w params pk rand).genProof w y c'
    SameCommitments E params pk V p p' ∧ p.challenge ≠ p'.challenge ∧
      extractId p p' = y ∧ extractWitness params p p' = w ∧ extractRelation p p' = (0, 0, 0) := by
  have hd : c - c' ≠ 0 := sub_ne_zero.2 hc
  have e : ∀ k v : F, (v * c + k - (v * c' + k)) / (c - c') = v := by
    intro k v; field_simp; ring
  obtain ⟨a1, a2, a3, a4, a5, a6, a7⟩ := recompute E V pk params y w h rand c
  obtain ⟨b1, b2, b3, b4, b5, b6, b7⟩ := recompute E V pk params y w h rand c'
  refine ⟨⟨rfl, rfl, rfl, a4.trans b4.symm, a5.trans b5.symm, a6.trans b6.symm, a7.trans b7.symm⟩, hc, ?_, ?_, ?_⟩
  · simp only [extractId, slope, Committing.genProof, schnorr, e]
  · simp only [extractWitness, slope, Committing.genProof, schnorr, Committing.new, e]
    cases w; simp
  · simp only [extractRelation, slope, Committing.genProof, schnorr, e, Prod.mk.injEq]
    refine ⟨?_, ?_, ?_⟩ <;> ring

end
end Allo
