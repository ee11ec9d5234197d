import Verif.Lemmas.Dlin
import Verif.Props.NonMalleable
import Verif.Props.AccBinding

/-!
# C87: accumulator proofs are zero knowledge under the decision linear assumption

C48 and C65 show that the triple `(E_C, T_σ, T_ρ)` of a proof determines the witness, and that nothing else in the proof
depends on it. Here: whoever learns anything from any number of proofs, chosen adaptively, solves the decision linear
problem for the parameters `X, Y, Z`: it tells `(σX, ρY, (σ+ρ)Z)` from `(σX, ρY, W)`.
-/

set_option linter.unusedSectionVars false
set_option linter.unusedVariables false
set_option linter.unusedSimpArgs false
namespace Allo
open Spec Rom

section
variable {F G1 G2 GT : Type} [Field F] [DecidableEq F] [Fintype F] [AddCommGroup G1] [Module F G1] [Fintype G1]
  [AddCommGroup G2] [Module F G2] [AddCommGroup GT] [Module F GT] [DecidableEq GT]

/-- The accumulator and key a prover's witness is for, and where its proofs are used: the transcript before the proof and
the label of the challenge are the adversary's choice. -/
abbrev VbContext (ι : Type) := ι × Transcript × String

/-- The query of a verifier, given accumulator and key: `finalize`, then `get_bytes_for_challenge`. -/
def memShown {ι : Type} (E : Pairing F G1 G2 GT) (enc : Enc G1 G2 GT) (params : ProofParams G1) (pub : ι → G1 × G2)
    (c : VbContext ι) (p : MemProof F G1 × F) : Query :=
  ((p.1.finalize E (pub c.1).1 params (pub c.1).2 p.2).getBytesForChallenge enc c.2.1, c.2.2)

/-- The owner of a membership witness. -/
structure VbMember (F G1 G2 : Type) where
  element : F
  witness : G1
  accumulator : G1
  key : G2

/-- The honest provers: `MembershipProofCommitting::new`, `get_bytes_for_challenge`, the hash, `gen_proof`
(src/accumulator/proof.rs:100-225). The proof comes with the challenge. -/
def memProver {ι : Type} (E : Pairing F G1 G2 GT) (enc : Enc G1 G2 GT) (params : ProofParams G1)
    (members : ι → VbMember F G1 G2) : Prover Query F (VbContext ι) (MemProof F G1 × F) (MemRand F) where
  commit c rand := ((MemCommitting.new E (.hidden (members c.1).element) (members c.1).witness params (members c.1).key
    rand).getBytesForChallenge enc c.2.1, c.2.2)
  respond c rand ch := ((MemCommitting.new E (.hidden (members c.1).element) (members c.1).witness params
    (members c.1).key rand).genProof ch, ch)
  query := memShown E enc params (fun i => ((members i).accumulator, (members i).key))
  challenge p := p.2

/-- A membership proof made from a triple and numbers: responses and challenge. -/
def memMake (t : G1 × G1 × G1) (s : F × F × F × F × F × F) : MemProof F G1 × F :=
  (⟨t.2.2, t.1, t.2.1, s.1, s.2.1, s.2.2.1, s.2.2.2.1, s.2.2.2.2.1⟩, s.2.2.2.2.2)

def MemRand.equiv : MemRand F ≃ F × F × F × F × F × F × F where
  toFun p := ⟨p.sigma, p.rho, p.ry, p.rSigma, p.rRho, p.rDeltaSigma, p.rDeltaRho⟩
  invFun x := ⟨x.1, x.2.1, x.2.2.1, x.2.2.2.1, x.2.2.2.2.1, x.2.2.2.2.2.1, x.2.2.2.2.2.2⟩
  left_inv _ := rfl
  right_inv _ := rfl

instance : Fintype (MemRand F) := Fintype.ofEquiv _ MemRand.equiv.symm
instance : Inhabited (MemRand F) := ⟨⟨0, 0, 0, 0, 0, 0, 0⟩⟩

variable {ι : Type}

theorem smul_inj {x : G1} (hx : x ≠ 0) {a b : F} (h : a • x = b • x) : a = b := by
  rw [← sub_eq_zero, ← sub_smul, smul_eq_zero] at h
  exact sub_eq_zero.1 (h.resolve_right hx)

theorem card_guess {X : Type} [Fintype X] [Nonempty X] (A : X → Prop) (k : Nat) (φ : {p // A p} × (Fin k → F) → X)
    (hφ : Function.Injective φ) : prob A ≤ 1 / (Nat.card F : ℚ) ^ k := by
  have hcard := Nat.card_le_card_of_injective φ hφ
  rw [Nat.card_prod, Nat.card_fun, Nat.card_fin] at hcard
  unfold prob
  have hF : (0 : ℚ) < Nat.card F := by exact_mod_cast Nat.card_pos
  have hP : (0 : ℚ) < Nat.card X := by exact_mod_cast Nat.card_pos
  rw [div_le_div_iff₀ hP (by positivity), one_mul]
  exact_mod_cast hcard

theorem mem_guess (E : Pairing F G1 G2 GT) (enc : Enc G1 G2 GT) (h1 : Function.Injective enc.g1)
    (h3 : Function.Injective enc.gt) (params : ProofParams G1) (hx : params.x ≠ 0) (hy : params.y ≠ 0)
    (pub : ι → G1 × G2) (offset : VbContext ι → G1) (c : VbContext ι) (q : Query) :
    prob (fun p : (F × F) × (F × F × F × F × F × F) => memShown E enc params pub c
      (memMake (addTo (offset c) (dlin params.x params.y params.z p.1)) p.2) = q) ≤ 1 / (Nat.card F : ℚ) ^ 6 := by
  refine card_guess (F := F) _ 6 (fun x => ((x.1.1.1.1 + x.2 0, x.1.1.1.2 + x.2 1),
    (x.1.1.2.1 + x.2 2, x.1.1.2.2.1 + x.2 3, x.1.1.2.2.2.1 + x.2 4, x.1.1.2.2.2.2.1 + x.2 5, x.1.1.2.2.2.2.2.1,
      x.1.1.2.2.2.2.2.2))) ?_
  rintro ⟨⟨⟨⟨σ, ρ⟩, s1, s2, s3, s4, s5, ch⟩, hp⟩, a⟩ ⟨⟨⟨⟨σ', ρ'⟩, s1', s2', s3', s4', s5', ch'⟩, hp'⟩, b⟩ h
  simp only [Prod.mk.injEq] at h
  obtain ⟨⟨e1, e2⟩, e3, e4, e5, e6, rfl, rfl⟩ := h
  have hq := (Prod.mk.inj (hp.trans hp'.symm)).1
  obtain ⟨-, hf⟩ := MemFinal.bytes_inj' enc h1 h3 _ _ _ _ hq
  have t1 := congrArg MemFinal.tSigma hf
  have t2 := congrArg MemFinal.tRho hf
  have r1 := congrArg MemFinal.capRSigma hf
  have r2 := congrArg MemFinal.capRRho hf
  have r3 := congrArg MemFinal.capRDeltaSigma hf
  have r4 := congrArg MemFinal.capRDeltaRho hf
  simp only [MemProof.finalize, memMake, addTo, dlin] at t1 t2
  obtain rfl := smul_inj hx t1
  obtain rfl := smul_inj hy t2
  simp only [MemProof.finalize, memMake, addTo, dlin, capR, List.zipWith_cons_cons, List.zipWith_nil_right, List.sum_cons,
    List.sum_nil, add_zero, add_left_inj, add_right_inj, smul_neg, neg_inj] at r1 r2 r3 r4
  obtain rfl := smul_inj hx r1
  obtain rfl := smul_inj hy r2
  obtain rfl := smul_inj hx r3
  obtain rfl := smul_inj hy r4
  have : a = b := by
    funext i
    fin_cases i
    exacts [add_left_cancel e1, add_left_cancel e2, add_left_cancel e3, add_left_cancel e4, add_left_cancel e5,
      add_left_cancel e6]
  rw [this]

/-- The witnesses are valid. -/
def ValidMembers (E : Pairing F G1 G2 GT) (members : ι → VbMember F G1 G2) : Prop :=
  ∀ i, mwVerify E (members i).witness (members i).element (members i).key (members i).accumulator = true

/-- The prover in the form of `Lemmas/Dlin`. -/
def memTriple (E : Pairing F G1 G2 GT) (enc : Enc G1 G2 GT) (h1 : Function.Injective enc.g1)
    (h3 : Function.Injective enc.gt) (params : ProofParams G1) (hx : params.x ≠ 0) (hy : params.y ≠ 0)
    (members : ι → VbMember F G1 G2) (hv : ValidMembers E members) :
    TripleProver (memProver E enc params members) params.x params.y params.z (fun c => (members c.1).witness) memMake
      (1 / (Nat.card F : ℚ) ^ 6) where
  chal s := s.2.2.2.2.2
  ext c x :=
    let p := (MemCommitting.new E (.hidden (members c.1).element) (members c.1).witness params (members c.1).key
      x.1).genProof x.2
    ((x.1.sigma, x.1.rho), p.sSigma, p.sRho, p.sDeltaSigma, p.sDeltaRho, p.sY, x.2)
  bij c := by
    constructor
    · rintro ⟨r, ch⟩ ⟨r', ch'⟩ h
      simp only [Prod.mk.injEq] at h
      obtain ⟨⟨e1, e2⟩, e3, e4, e5, e6, e7, rfl⟩ := h
      have := (C48_responses E (members c.1).element (members c.1).witness params (members c.1).key r'.sigma r'.rho ch
        _ _ _ _ _).unique ⟨e1, e2, e3, e4, e5, e6, e7⟩ ⟨rfl, rfl, rfl, rfl, rfl, rfl, rfl⟩
      rw [this]
    · rintro ⟨⟨σ, ρ⟩, s1, s2, s3, s4, s5, ch⟩
      obtain ⟨r, ⟨e1, e2, e3, e4, e5, e6, e7⟩, -⟩ := C48_responses E (members c.1).element (members c.1).witness params
        (members c.1).key σ ρ ch s1 s2 s3 s4 s5
      refine ⟨(r, ch), ?_⟩
      simp only [e1, e2, e3, e4, e5, e6, e7]
  respond c w r := rfl
  challenge t s := rfl
  challenge_ext c w r := rfl
  query c w r := by
    simp only [memProver, memShown]
    rw [(C46_finalize_iff E (.hidden (members c.1).element) (members c.1).witness (members c.1).accumulator params
      (members c.1).key w r).2 (.inr (hv c.1))]
    rfl
  guess c q := mem_guess E enc h1 h3 params hx hy (fun i => ((members i).accumulator, (members i).key))
    (fun c => (members c.1).witness) c q

variable {Ω : Type} [Fintype Ω]

/-- **C87** (membership proofs). Any number of provers with valid membership witnesses. An adversary with any output asks
the Fiat-Shamir hash at most `m` times, and at most `n` times asks a prover of its choice for a proof in a transcript of its
choice, in any order and depending on all it has seen. For every event about its output: the probability differs from that in
the simulation, where there are no provers (proofs are random points and numbers, the hash is programmed to fit; only
accumulators and keys are used), by at most `n(m+n)/|F|^6` plus the sum of the advantages of `n` explicit distinguishers,
each of which runs the adversary once, in the decision linear problem for `X, Y, Z`. -/
theorem C87_membership [Nonempty Ω] {α : Type} (E : Pairing F G1 G2 GT) (enc : Enc G1 G2 GT)
    (h1 : Function.Injective enc.g1) (h3 : Function.Injective enc.gt) (params : ProofParams G1) (hx : params.x ≠ 0)
    (hy : params.y ≠ 0) (members : ι → VbMember F G1 G2) (hv : ValidMembers E members) (pub : ι → G1 × G2)
    (hpub : ∀ i, pub i = ((members i).accumulator, (members i).key))
    (adv : Ω → ProverProg Query F (VbContext ι) (MemProof F G1 × F) α) (m n : Nat) (hb : ∀ ω, (adv ω).Bound m n)
    (S : Finset Query) (hS : ∀ ω, (adv ω).QueriesIn (memProver E enc params members) (· ∈ S)) (ev : α → Prop) :
    |prob (fun x : Ω × (S → F) × (Fin n → MemRand F) =>
        ev ((adv x.1).real (memProver E enc params members) (oracle S 0 x.2.1) (pad x.2.2) []).1)
      - prob (fun x : Ω × (S → F) × (Fin n → (F × F) × G1) × (Fin n → F × F × F × F × F × F) =>
        ev (((adv x.1).feed (memShown E enc params pub) (·.2) [] (fun i _ =>
          memMake (dlinRandom params.x params.y (pad x.2.2.1 i)) (pad x.2.2.2 i))).eval (oracle S 0 x.2.1)))|
      ≤ (∑ j : Fin n, dlinAdvantage F params.x params.y params.z (distinguisher (n := n) (memShown E enc params pub) (·.2)
          params.x params.y params.z (fun c => (members c.1).witness) memMake adv S ev j))
        + n * (m + n) * (1 / (Nat.card F : ℚ) ^ 6) := by
  obtain rfl : pub = fun i => ((members i).accumulator, (members i).key) := funext hpub
  exact dlin_close S (memProver E enc params members) _ _ _ _ _ _ (by positivity)
    (memTriple E enc h1 h3 params hx hy members hv) adv m n hb hS ev

/-- **C87** (unlinkability of membership proofs). Two worlds with the same accumulators and keys but other members behind the
proofs (other elements, the same one twice or two different ones): whoever tells them apart solves the decision linear
problem. -/
theorem C87_membership_worlds [Nonempty Ω] {α : Type} (E : Pairing F G1 G2 GT) (enc : Enc G1 G2 GT)
    (h1 : Function.Injective enc.g1) (h3 : Function.Injective enc.gt) (params : ProofParams G1) (hx : params.x ≠ 0)
    (hy : params.y ≠ 0) (members members' : ι → VbMember F G1 G2) (hv : ValidMembers E members)
    (hv' : ValidMembers E members') (pub : ι → G1 × G2) (hpub : ∀ i, pub i = ((members i).accumulator, (members i).key))
    (hpub' : ∀ i, pub i = ((members' i).accumulator, (members' i).key))
    (adv : Ω → ProverProg Query F (VbContext ι) (MemProof F G1 × F) α) (m n : Nat) (hb : ∀ ω, (adv ω).Bound m n)
    (S : Finset Query) (hS : ∀ ω, (adv ω).QueriesIn (memProver E enc params members) (· ∈ S))
    (hS' : ∀ ω, (adv ω).QueriesIn (memProver E enc params members') (· ∈ S)) (ev : α → Prop) :
    |prob (fun x : Ω × (S → F) × (Fin n → MemRand F) =>
        ev ((adv x.1).real (memProver E enc params members) (oracle S 0 x.2.1) (pad x.2.2) []).1)
      - prob (fun x : Ω × (S → F) × (Fin n → MemRand F) =>
        ev ((adv x.1).real (memProver E enc params members') (oracle S 0 x.2.1) (pad x.2.2) []).1)|
      ≤ (∑ j : Fin n, dlinAdvantage F params.x params.y params.z (distinguisher (n := n) (memShown E enc params pub) (·.2)
          params.x params.y params.z (fun c => (members c.1).witness) memMake adv S ev j))
        + (∑ j : Fin n, dlinAdvantage F params.x params.y params.z (distinguisher (n := n) (memShown E enc params pub) (·.2)
          params.x params.y params.z (fun c => (members' c.1).witness) memMake adv S ev j))
        + 2 * n * (m + n) * (1 / (Nat.card F : ℚ) ^ 6) := by
  have k := C87_membership E enc h1 h3 params hx hy members hv pub hpub adv m n hb S hS ev
  have k' := C87_membership E enc h1 h3 params hx hy members' hv' pub hpub' adv m n hb S hS' ev
  rw [abs_sub_comm] at k'
  refine le_trans (abs_sub_le _ _ _) (le_trans (add_le_add k k') (le_of_eq ?_))
  ring

/-! ### Non-membership -/

/-- The query of a verifier, given accumulator and key. -/
def nonShown {ι : Type} (E : Pairing F G1 G2 GT) (enc : Enc G1 G2 GT) (params : ProofParams G1) (pub : ι → G1 × G2)
    (c : VbContext ι) (p : NonProof F G1 × F) : Query :=
  ((p.1.finalize E (pub c.1).1 params (pub c.1).2 p.2).getBytesForChallenge enc c.2.1, c.2.2)

/-- The owner of a non-membership witness. -/
structure VbNonMember (F G1 G2 : Type) where
  element : F
  witness : NonMembershipWitness F G1
  accumulator : G1
  key : G2

/-- `NonMembershipProofCommitting::new` without a given blinding factor. -/
def VbNonMember.committing (E : Pairing F G1 G2 GT) (params : ProofParams G1) (u : VbNonMember F G1 G2) (rand : NonRand F) :
    Rust (NonCommitting F G1 GT) := NonCommitting.new E u.element u.witness params u.key none rand

/-- The honest provers: `NonMembershipProofCommitting::new`, `get_bytes_for_challenge`, the hash, `gen_proof`
(src/accumulator/proof.rs:425-612); the values for a panic are never used. -/
def nonProver {ι : Type} (E : Pairing F G1 G2 GT) (enc : Enc G1 G2 GT) (params : ProofParams G1)
    (us : ι → VbNonMember F G1 G2) : Prover Query F (VbContext ι) (NonProof F G1 × F) (NonRand F) where
  commit c rand :=
    match (us c.1).committing E params rand with
    | .ok nc => (nc.getBytesForChallenge enc c.2.1, c.2.2)
    | .error _ => (c.2.1, c.2.2)
  respond c rand ch :=
    match (us c.1).committing E params rand with
    | .ok nc => (nc.genProof ch, ch)
    | .error _ => (⟨0, 0, 0, 0, 0, 0, 0, 0, 0, 0, 0, 0, 0⟩, ch)
  query := nonShown E enc params (fun i => ((us i).accumulator, (us i).key))
  challenge p := p.2

/-- The non-membership witnesses are valid and have `d ≠ 0` (as all that are issued, C08). -/
def ValidNonMembers (E : Pairing F G1 G2 GT) (us : ι → VbNonMember F G1 G2) : Prop :=
  ∀ i, nmwVerify E (us i).witness (us i).element (us i).key (us i).accumulator = true ∧ (us i).witness.d ≠ 0

/-- A non-membership proof made from a triple, two points and numbers: responses and challenge. -/
def nonMake (t : G1 × G1 × G1) (s : G1 × G1 × F × F × F × F × F × F × F × F × F) : NonProof F G1 × F :=
  (⟨t.2.2, s.1, s.2.1, t.1, t.2.1, s.2.2.1, s.2.2.2.1, s.2.2.2.2.1, s.2.2.2.2.2.1, s.2.2.2.2.2.2.1, s.2.2.2.2.2.2.2.1,
    s.2.2.2.2.2.2.2.2.1, s.2.2.2.2.2.2.2.2.2.1⟩, s.2.2.2.2.2.2.2.2.2.2)

def NonRand.equiv : NonRand F ≃ F × F × F × F × F × F × F × F × F × F × F × F where
  toFun p := ⟨p.sigma, p.rho, p.ry, p.rSigma, p.rRho, p.rDeltaSigma, p.rDeltaRho, p.tau, p.pi, p.rU, p.rV, p.rW⟩
  invFun x := ⟨x.1, x.2.1, x.2.2.1, x.2.2.2.1, x.2.2.2.2.1, x.2.2.2.2.2.1, x.2.2.2.2.2.2.1, x.2.2.2.2.2.2.2.1,
    x.2.2.2.2.2.2.2.2.1, x.2.2.2.2.2.2.2.2.2.1, x.2.2.2.2.2.2.2.2.2.2.1, x.2.2.2.2.2.2.2.2.2.2.2⟩
  left_inv _ := rfl
  right_inv _ := rfl

instance : Fintype (NonRand F) := Fintype.ofEquiv _ NonRand.equiv.symm
instance : Inhabited (NonRand F) := ⟨⟨0, 0, 0, 0, 0, 0, 0, 0, 0, 0, 0, 0⟩⟩

theorem non_guess (E : Pairing F G1 G2 GT) (enc : Enc G1 G2 GT) (h1 : Function.Injective enc.g1)
    (h3 : Function.Injective enc.gt) (params : ProofParams G1) (hx : params.x ≠ 0) (hy : params.y ≠ 0) (hk : params.k ≠ 0)
    (pub : ι → G1 × G2) (offset : VbContext ι → G1) (c : VbContext ι) (q : Query) :
    prob (fun p : (F × F) × (G1 × G1 × F × F × F × F × F × F × F × F × F) => nonShown E enc params pub c
      (nonMake (addTo (offset c) (dlin params.x params.y params.z p.1)) p.2) = q) ≤ 1 / (Nat.card F : ℚ) ^ 10 := by
  refine card_guess (F := F) _ 10 (fun x => ((x.1.1.1.1 + x.2 0, x.1.1.1.2 + x.2 1),
    (x.1.1.2.1 + x.2 2 • params.k, x.1.1.2.2.1 + x.2 3 • params.k,
      x.1.1.2.2.2.1 + x.2 4, x.1.1.2.2.2.2.1 + x.2 5, x.1.1.2.2.2.2.2.1 + x.2 6, x.1.1.2.2.2.2.2.2.1 + x.2 7,
      x.1.1.2.2.2.2.2.2.2.1, x.1.1.2.2.2.2.2.2.2.2.1 + x.2 8, x.1.1.2.2.2.2.2.2.2.2.2.1 + x.2 9,
      x.1.1.2.2.2.2.2.2.2.2.2.2.1, x.1.1.2.2.2.2.2.2.2.2.2.2.2))) ?_
  rintro ⟨⟨⟨⟨σ, ρ⟩, d, d', s1, s2, s3, s4, u, v, w, s5, ch⟩, hp⟩, a⟩
    ⟨⟨⟨⟨σ', ρ'⟩, d0, d0', s1', s2', s3', s4', u', v', w', s5', ch'⟩, hp'⟩, b⟩ h
  simp only [Prod.mk.injEq] at h
  obtain ⟨⟨e1, e2⟩, f1, f2, e3, e4, e5, e6, rfl, f3, f4, rfl, rfl⟩ := h
  have hq := (Prod.mk.inj (hp.trans hp'.symm)).1
  obtain ⟨-, hf⟩ := NonFinal.bytes_inj' enc h1 h3 _ _ _ _ hq
  have t1 := congrArg NonFinal.tSigma hf
  have t2 := congrArg NonFinal.tRho hf
  have t3 := congrArg NonFinal.eD hf
  have t4 := congrArg NonFinal.eDm1 hf
  have r1 := congrArg NonFinal.capRSigma hf
  have r2 := congrArg NonFinal.capRRho hf
  have r3 := congrArg NonFinal.capRDeltaSigma hf
  have r4 := congrArg NonFinal.capRDeltaRho hf
  have r5 := congrArg NonFinal.capRA hf
  have r6 := congrArg NonFinal.capRB hf
  simp only [NonProof.finalize, nonMake, addTo, dlin] at t1 t2 t3 t4
  subst t3 t4
  obtain rfl := smul_inj hx t1
  obtain rfl := smul_inj hy t2
  simp only [NonProof.finalize, nonMake, addTo, dlin, capR, List.zipWith_cons_cons, List.zipWith_nil_right, List.sum_cons,
    List.sum_nil, add_zero, add_left_inj, add_right_inj, smul_neg, neg_inj] at r1 r2 r3 r4 r5 r6
  obtain rfl := smul_inj hx r1
  obtain rfl := smul_inj hy r2
  obtain rfl := smul_inj hx r3
  obtain rfl := smul_inj hy r4
  obtain rfl := smul_inj hk r5
  obtain rfl := smul_inj hk r6
  have : a = b := by
    funext i
    fin_cases i
    exacts [add_left_cancel e1, add_left_cancel e2, smul_inj hk (add_left_cancel f1), smul_inj hk (add_left_cancel f2),
      add_left_cancel e3, add_left_cancel e4, add_left_cancel e5, add_left_cancel e6, add_left_cancel f3,
      add_left_cancel f4]
  rw [this]

theorem committing_ok (E : Pairing F G1 G2 GT) (params : ProofParams G1) (u : VbNonMember F G1 G2) (hd : u.witness.d ≠ 0)
    (rand : NonRand F) : ∃ nc, u.committing E params rand = .ok nc :=
  (C49_panics_iff E u.element u.witness params u.key none rand).2 hd

/-- The prover in the form of `Lemmas/Dlin`. -/
def nonTriple (E : Pairing F G1 G2 GT) (enc : Enc G1 G2 GT) (h1 : Function.Injective enc.g1)
    (h3 : Function.Injective enc.gt) (params : ProofParams G1) (hx : params.x ≠ 0) (hy : params.y ≠ 0) (hk : params.k ≠ 0)
    (us : ι → VbNonMember F G1 G2) (hv : ValidNonMembers E us) :
    TripleProver (nonProver E enc params us) params.x params.y params.z (fun c => (us c.1).witness.c) nonMake
      (1 / (Nat.card F : ℚ) ^ 10) where
  chal s := s.2.2.2.2.2.2.2.2.2.2
  ext c x :=
    let p := ((nonProver E enc params us).respond c x.1 x.2).1
    ((x.1.sigma, x.1.rho), p.eD, p.eDm1, p.sSigma, p.sRho, p.sDeltaSigma, p.sDeltaRho, p.sU, p.sV, p.sW, p.sY, x.2)
  bij c := by
    have hd := (hv c.1).2
    constructor
    · rintro ⟨r, ch⟩ ⟨r', ch'⟩ h
      obtain ⟨nc, hnc⟩ := committing_ok E params (us c.1) hd r
      obtain ⟨nc', hnc'⟩ := committing_ok E params (us c.1) hd r'
      simp only [nonProver, hnc, hnc', Prod.mk.injEq] at h
      obtain ⟨⟨e1, e2⟩, e3, e4, e5, e6, e7, e8, e9, e10, e11, e12, rfl⟩ := h
      have k := hnc
      have k' := hnc'
      simp only [VbNonMember.committing, NonCommitting.new, inv!_ne hd, bind, Except.bind, pure, Except.pure,
        Except.ok.injEq] at k k'
      have q1 : (nc.genProof ch).eC = (r'.sigma + r'.rho) • params.z + (us c.1).witness.c := by
        rw [← k, ← e1, ← e2]; rfl
      have q2 : (nc.genProof ch).tSigma = r'.sigma • params.x := by rw [← k, ← e1]; rfl
      have q3 : (nc.genProof ch).tRho = r'.rho • params.y := by rw [← k, ← e2]; rfl
      have same : nc'.genProof ch = nc.genProof ch := by
        refine NonProof.ext ?_ e3.symm e4.symm ?_ ?_ e5.symm e6.symm e7.symm e8.symm e9.symm e10.symm e11.symm e12.symm
        · rw [q1, ← k']; rfl
        · rw [q2, ← k']; rfl
        · rw [q3, ← k']; rfl
      have := (C65_responses E (us c.1).element (us c.1).witness hd params hk (us c.1).key ch r'.sigma r'.rho
        (nc.genProof ch) q1 q2 q3).unique ⟨e1, e2, nc, hnc, rfl⟩ ⟨rfl, rfl, nc', hnc', same⟩
      rw [this]
    · rintro ⟨⟨σ, ρ⟩, d, d', s1, s2, s3, s4, u, v, w, s5, ch⟩
      obtain ⟨r, ⟨e1, e2, nc, hnc, e3⟩, -⟩ := C65_responses E (us c.1).element (us c.1).witness hd params hk (us c.1).key ch
        σ ρ ⟨(σ + ρ) • params.z + (us c.1).witness.c, d, d', σ • params.x, ρ • params.y, s1, s2, s3, s4, u, v, w, s5⟩
        rfl rfl rfl
      have hnc : (us c.1).committing E params r = .ok nc := hnc
      refine ⟨(r, ch), ?_⟩
      simp only [nonProver, hnc, e1, e2, e3]
  respond c r ch := by
    have hd := (hv c.1).2
    obtain ⟨nc, hnc⟩ := committing_ok E params (us c.1) hd r
    have k := hnc
    simp only [VbNonMember.committing, NonCommitting.new, inv!_ne hd, bind, Except.bind, pure, Except.pure,
      Except.ok.injEq] at k
    simp only [nonProver, hnc]
    refine Prod.ext (NonProof.ext ?_ rfl rfl ?_ ?_ rfl rfl rfl rfl rfl rfl rfl rfl) rfl
    · rw [← k]; rfl
    · rw [← k]; rfl
    · rw [← k]; rfl
  challenge t s := rfl
  challenge_ext c w r := rfl
  query c r ch := by
    obtain ⟨hv, hd⟩ := hv c.1
    obtain ⟨nc, hnc⟩ := committing_ok E params (us c.1) hd r
    simp only [nonProver, nonShown, hnc]
    rw [(C49_finalize_iff E (us c.1).element (us c.1).witness (us c.1).accumulator params (us c.1).key none r ch nc hnc).2
      (.inr hv)]
    rfl
  guess c q := non_guess E enc h1 h3 params hx hy hk (fun i => ((us i).accumulator, (us i).key))
    (fun c => (us c.1).witness.c) c q

/-- **C87** (non-membership proofs). The same for non-membership proofs: nothing about the element, the witness point or `d`
is learned without solving the decision linear problem. -/
theorem C87_nonmembership [Nonempty Ω] {α : Type} (E : Pairing F G1 G2 GT) (enc : Enc G1 G2 GT)
    (h1 : Function.Injective enc.g1) (h3 : Function.Injective enc.gt) (params : ProofParams G1) (hx : params.x ≠ 0)
    (hy : params.y ≠ 0) (hk : params.k ≠ 0) (us : ι → VbNonMember F G1 G2) (hv : ValidNonMembers E us) (pub : ι → G1 × G2)
    (hpub : ∀ i, pub i = ((us i).accumulator, (us i).key))
    (adv : Ω → ProverProg Query F (VbContext ι) (NonProof F G1 × F) α) (m n : Nat) (hb : ∀ ω, (adv ω).Bound m n)
    (S : Finset Query) (hS : ∀ ω, (adv ω).QueriesIn (nonProver E enc params us) (· ∈ S)) (ev : α → Prop) :
    |prob (fun x : Ω × (S → F) × (Fin n → NonRand F) =>
        ev ((adv x.1).real (nonProver E enc params us) (oracle S 0 x.2.1) (pad x.2.2) []).1)
      - prob (fun x : Ω × (S → F) × (Fin n → (F × F) × G1) × (Fin n → G1 × G1 × F × F × F × F × F × F × F × F × F) =>
        ev (((adv x.1).feed (nonShown E enc params pub) (·.2) [] (fun i _ =>
          nonMake (dlinRandom params.x params.y (pad x.2.2.1 i)) (pad x.2.2.2 i))).eval (oracle S 0 x.2.1)))|
      ≤ (∑ j : Fin n, dlinAdvantage F params.x params.y params.z (distinguisher (n := n) (nonShown E enc params pub) (·.2)
          params.x params.y params.z (fun c => (us c.1).witness.c) nonMake adv S ev j))
        + n * (m + n) * (1 / (Nat.card F : ℚ) ^ 10) := by
  obtain rfl : pub = fun i => ((us i).accumulator, (us i).key) := funext hpub
  exact dlin_close S (nonProver E enc params us) _ _ _ _ _ _ (by positivity)
    (nonTriple E enc h1 h3 params hx hy hk us hv) adv m n hb hS ev

/-- **C87** (unlinkability of non-membership proofs). -/
theorem C87_nonmembership_worlds [Nonempty Ω] {α : Type} (E : Pairing F G1 G2 GT) (enc : Enc G1 G2 GT)
    (h1 : Function.Injective enc.g1) (h3 : Function.Injective enc.gt) (params : ProofParams G1) (hx : params.x ≠ 0)
    (hy : params.y ≠ 0) (hk : params.k ≠ 0) (us us' : ι → VbNonMember F G1 G2) (hv : ValidNonMembers E us)
    (hv' : ValidNonMembers E us') (pub : ι → G1 × G2) (hpub : ∀ i, pub i = ((us i).accumulator, (us i).key))
    (hpub' : ∀ i, pub i = ((us' i).accumulator, (us' i).key))
    (adv : Ω → ProverProg Query F (VbContext ι) (NonProof F G1 × F) α) (m n : Nat) (hb : ∀ ω, (adv ω).Bound m n)
    (S : Finset Query) (hS : ∀ ω, (adv ω).QueriesIn (nonProver E enc params us) (· ∈ S))
    (hS' : ∀ ω, (adv ω).QueriesIn (nonProver E enc params us') (· ∈ S)) (ev : α → Prop) :
    |prob (fun x : Ω × (S → F) × (Fin n → NonRand F) =>
        ev ((adv x.1).real (nonProver E enc params us) (oracle S 0 x.2.1) (pad x.2.2) []).1)
      - prob (fun x : Ω × (S → F) × (Fin n → NonRand F) =>
        ev ((adv x.1).real (nonProver E enc params us') (oracle S 0 x.2.1) (pad x.2.2) []).1)|
      ≤ (∑ j : Fin n, dlinAdvantage F params.x params.y params.z (distinguisher (n := n) (nonShown E enc params pub) (·.2)
          params.x params.y params.z (fun c => (us c.1).witness.c) nonMake adv S ev j))
        + (∑ j : Fin n, dlinAdvantage F params.x params.y params.z (distinguisher (n := n) (nonShown E enc params pub) (·.2)
          params.x params.y params.z (fun c => (us' c.1).witness.c) nonMake adv S ev j))
        + 2 * n * (m + n) * (1 / (Nat.card F : ℚ) ^ 10) := by
  have k := C87_nonmembership E enc h1 h3 params hx hy hk us hv pub hpub adv m n hb S hS ev
  have k' := C87_nonmembership E enc h1 h3 params hx hy hk us' hv' pub hpub' adv m n hb S hS' ev
  rw [abs_sub_comm] at k'
  refine le_trans (abs_sub_le _ _ _) (le_trans (add_le_add k k') (le_of_eq ?_))
  ring

/-- **C87** (who the prover is). With a valid witness with `d ≠ 0` the prover of the game is the code's: it does not panic,
hashes what `get_bytes_for_challenge` appends and sends what `gen_proof` returns. -/
theorem C87_prover (E : Pairing F G1 G2 GT) (enc : Enc G1 G2 GT) (params : ProofParams G1) (us : ι → VbNonMember F G1 G2)
    (c : VbContext ι) (hd : (us c.1).witness.d ≠ 0) (rand : NonRand F) :
    ∃ nc, NonCommitting.new E (us c.1).element (us c.1).witness params (us c.1).key none rand = .ok nc ∧
      (nonProver E enc params us).commit c rand = (nc.getBytesForChallenge enc c.2.1, c.2.2) ∧
      ∀ ch, (nonProver E enc params us).respond c rand ch = (nc.genProof ch, ch) := by
  obtain ⟨nc, hnc⟩ := committing_ok E params (us c.1) hd rand
  exact ⟨nc, hnc, by simp only [nonProver, hnc], fun ch => by simp only [nonProver, hnc]⟩

/-- A finite set with all queries of a program, for two provers at once. -/
theorem querySet_two {C P W α : Type} [Fintype W] [Inhabited W] [Fintype P] [Inhabited P] (pv pv' : Prover Query F C P W)
    (adv : Ω → ProverProg Query F C P α) :
    ∃ S : Finset Query, ∀ ω, (adv ω).QueriesIn pv (· ∈ S) ∧ (adv ω).QueriesIn pv' (· ∈ S) := by
  have mono : ∀ (pv : Prover Query F C P W) (S T : Finset Query), S ⊆ T → ∀ p : ProverProg Query F C P α,
      p.QueriesIn pv (· ∈ S) → p.QueriesIn pv (· ∈ T) := by
    intro pv S T hST p
    induction p with
    | done a => intro _; trivial
    | hash q k ih => rintro ⟨h1, h2⟩; exact ⟨hST h1, fun r => ih r (h2 r)⟩
    | prove c k ih => rintro ⟨h1, h2⟩; exact ⟨fun w => hST (h1 w), fun r => ih r (h2 r)⟩
  choose T hT using fun ω => ProverProg.exists_querySet pv (adv ω)
  choose T' hT' using fun ω => ProverProg.exists_querySet pv' (adv ω)
  refine ⟨Finset.univ.biUnion T ∪ Finset.univ.biUnion T', fun ω => ⟨mono _ _ _ ?_ _ (hT ω), mono _ _ _ ?_ _ (hT' ω)⟩⟩
  · exact fun x hx => Finset.mem_union_left _ (Finset.mem_biUnion.2 ⟨ω, Finset.mem_univ ω, hx⟩)
  · exact fun x hx => Finset.mem_union_right _ (Finset.mem_biUnion.2 ⟨ω, Finset.mem_univ ω, hx⟩)

def MemProof.equiv : MemProof F G1 ≃ G1 × G1 × G1 × F × F × F × F × F where
  toFun p := ⟨p.eC, p.tSigma, p.tRho, p.sSigma, p.sRho, p.sDeltaSigma, p.sDeltaRho, p.sY⟩
  invFun x := ⟨x.1, x.2.1, x.2.2.1, x.2.2.2.1, x.2.2.2.2.1, x.2.2.2.2.2.1, x.2.2.2.2.2.2.1, x.2.2.2.2.2.2.2⟩
  left_inv _ := rfl
  right_inv _ := rfl

instance : Fintype (MemProof F G1) := Fintype.ofEquiv _ MemProof.equiv.symm

instance : Inhabited (MemProof F G1 × F) := ⟨⟨0, 0, 0, 0, 0, 0, 0, 0⟩, 0⟩

/-- **C87** (the set of queries). The finite set `S` exists for every adversary and every two families of provers. -/
theorem C87_query_set {α : Type} (E : Pairing F G1 G2 GT) (enc : Enc G1 G2 GT) (params : ProofParams G1)
    (members members' : ι → VbMember F G1 G2) (adv : Ω → ProverProg Query F (VbContext ι) (MemProof F G1 × F) α) :
    ∃ S : Finset Query, ∀ ω, (adv ω).QueriesIn (memProver E enc params members) (· ∈ S) ∧
      (adv ω).QueriesIn (memProver E enc params members') (· ∈ S) :=
  querySet_two _ _ adv

end

/-! ### A concrete case: an adversary that computes discrete logarithms -/

section

/-- Two members of the accumulator 2 with secret 1: element 1 with witness 1, element 2 with witness 3. -/
def ex87 (b : Bool) (_ : Unit) : VbMember (ZMod 7) (ZMod 7) (ZMod 7) := if b then ⟨1, 1, 2, 1⟩ else ⟨2, 3, 2, 1⟩

def ex87Params : ProofParams (ZMod 7) := ⟨1, 1, 1, 1⟩

theorem ex87_valid (b : Bool) : ValidMembers (Pairing.field (ZMod 7)) (ex87 b) := by
  intro i
  cases b <;> (revert i; decide +kernel)

/-- It gets one proof and removes the blinding from the witness (in this toy group `T_σ = σX` reveals `σ`). -/
def ex87Adv (_ : Unit) : ProverProg Query (ZMod 7) (VbContext Unit) (MemProof (ZMod 7) (ZMod 7) × ZMod 7) (ZMod 7) :=
  .prove ((), Transcript.new "app", "challenge") (fun p => .done (p.1.eC - p.1.tSigma - p.1.tRho))

/-- C87 applies, and the bound is not trivial: this adversary tells the two members apart with certainty, so its
distinguishers do solve the decision linear problem (their advantages add up to at least `1 - 2/7^6`). -/
theorem C87_example : ∃ S : Finset Query,
    1 ≤ (∑ j : Fin 1, dlinAdvantage (ZMod 7) (1 : ZMod 7) 1 1 (distinguisher (n := 1)
          (memShown (Pairing.field (ZMod 7)) enc7 ex87Params (fun _ => (2, 1))) (·.2) 1 1 1
          (fun c => (ex87 true c.1).witness) memMake ex87Adv S (· = 1) j))
        + (∑ j : Fin 1, dlinAdvantage (ZMod 7) (1 : ZMod 7) 1 1 (distinguisher (n := 1)
          (memShown (Pairing.field (ZMod 7)) enc7 ex87Params (fun _ => (2, 1))) (·.2) 1 1 1
          (fun c => (ex87 false c.1).witness) memMake ex87Adv S (· = 1) j))
        + 2 / 7 ^ 6 := by
  obtain ⟨S, hS⟩ := C87_query_set (Ω := Unit) (Pairing.field (ZMod 7)) enc7 ex87Params (ex87 true) (ex87 false) ex87Adv
  refine ⟨S, ?_⟩
  have k := C87_membership_worlds (Ω := Unit) (Pairing.field (ZMod 7)) enc7 enc7_inj enc7_inj ex87Params (by decide +kernel)
    (by decide +kernel) (ex87 true) (ex87 false) (ex87_valid true) (ex87_valid false) (fun _ => (2, 1))
    (fun _ => rfl) (fun _ => rfl) ex87Adv 0 1 (fun _ _ => trivial) S (fun ω => (hS ω).1) (fun ω => (hS ω).2) (· = 1)
  have run : ∀ b (O : Query → ZMod 7) (v : Fin 1 → MemRand (ZMod 7)),
      ((ex87Adv ()).real (memProver (Pairing.field (ZMod 7)) enc7 ex87Params (ex87 b)) O (pad v) []).1
        = (ex87 b ()).witness := by
    intro b O v
    simp only [ex87Adv, ProverProg.real, memProver, MemCommitting.new, MemCommitting.genProof, ex87Params, smul_eq_mul]
    ring
  have e1 : prob (fun x : Unit × (S → ZMod 7) × (Fin 1 → MemRand (ZMod 7)) =>
      ((ex87Adv x.1).real (memProver (Pairing.field (ZMod 7)) enc7 ex87Params (ex87 true)) (oracle S 0 x.2.1)
        (pad x.2.2) []).1 = 1) = 1 := prob_one (fun x => run true _ _)
  have e2 : prob (fun x : Unit × (S → ZMod 7) × (Fin 1 → MemRand (ZMod 7)) =>
      ((ex87Adv x.1).real (memProver (Pairing.field (ZMod 7)) enc7 ex87Params (ex87 false)) (oracle S 0 x.2.1)
        (pad x.2.2) []).1 = 1) = 0 := by
    unfold prob
    have : IsEmpty {x : Unit × (S → ZMod 7) × (Fin 1 → MemRand (ZMod 7)) //
        ((ex87Adv x.1).real (memProver (Pairing.field (ZMod 7)) enc7 ex87Params (ex87 false)) (oracle S 0 x.2.1)
          (pad x.2.2) []).1 = 1} := by
      refine ⟨fun ⟨x, hx⟩ => ?_⟩
      rw [run] at hx
      exact absurd hx (by decide +kernel)
    rw [Nat.card_of_isEmpty, Nat.cast_zero, zero_div]
  rw [e1, e2] at k
  refine le_trans (by norm_num) (le_trans k (add_le_add le_rfl ?_))
  rw [Nat.card_eq_fintype_card, ZMod.card]
  norm_num

end
end Allo
