import Verif.Props.Generators

/-!
# C105: unforgeability from discrete logarithms and SDH alone

C88 leaves two exceptional cases that are not computational problems by themselves: a linear relation between the fixed points
`X`, `Y`, `Z`, and the discrete logarithm of `K₀` to the base `K₁`, which the simulator of C88 has chosen itself. Here the five
points are hashed (random, as in C104), and both cases are turned into solvers for the discrete logarithm problem. What
remains is the credential of a corrupted user, SDH and discrete logarithms.
-/

set_option linter.unusedSectionVars false
set_option linter.unusedVariables false
namespace Allo
open Spec Server Rom

/-! ### The simulator of C88 with two lists of points instead of the exponents of `K₁` and `K₀` -/

section sim
variable {F G1 G2 GT α : Type} [Field F] [DecidableEq F] [AddCommGroup G1] [Module F G1]
  [AddCommGroup G2] [Module F G2] [AddCommGroup GT] [Module F GT] [DecidableEq GT]

/-- The answer to an enrolment. -/
def pointsEnrol (pts spts₁ spts₀ : List G1) (l : List F) (m : Sim F G2) (y c x r : F) : Option (G1 × G1) :=
  if r = c then
    (mapGet m.wits y).map (fun cs =>
      (comb pts cs, x • comb spts₁ (coeffs (l.erase y)) + comb spts₀ (coeffs (l.erase y))))
  else none

/-- The adversary against the simulator that is given the points `spts₁`, `spts₀` (powers of `s`, times `B₁` and `B₀`). -/
def FullProg.simulatePoints (enc : Enc G1 G2 GT) (params : AccParams G1 G2) (pts spts₁ spts₀ : List G1) (l : List F)
    (hs : List F) : FullProg F G1 G2 α → Sim F G2 →
      ProverProg Query F ((G1 × PublicKeys G2) × Bytes) (CredProof F G1) (α × Sim F G2)
  | .done o, m => .done (o, m)
  | .hash q k, m => .hash q (fun r => (k r).simulatePoints enc params pts spts₁ spts₀ l hs m)
  | .call op k, m =>
    if allowed m.ids m.left op then
      (k ((m.step op).2.map (comb pts)) ((m.step op).1.fullView pts)).simulatePoints enc params pts spts₁ spts₀ l hs
        (m.step op).1
    else (k none (m.fullView pts)).simulatePoints enc params pts spts₁ spts₀ l hs m
  | .enrol y c z x k, m =>
    if y ∈ l then
      .hash (issueQuery enc params c z (x • params.k1)) (fun r =>
        (k (pointsEnrol pts spts₁ spts₀ l m y c x r)).simulatePoints enc params pts spts₁ spts₀ l hs m)
    else (k none).simulatePoints enc params pts spts₁ spts₀ l hs m
  | .prove i eph k, m =>
    match hs[i]? with
    | none => (k none).simulatePoints enc params pts spts₁ spts₀ l hs m
    | some y =>
      if y ∈ m.ids then
        .prove ((comb pts (m.accs.getLast?.getD []), m.keys), eph)
          (fun p => (k (some p)).simulatePoints enc params pts spts₁ spts₀ l hs m)
      else (k none).simulatePoints enc params pts spts₁ spts₀ l hs m

/-- The parameters with `K₁` and `K₀` computed from the points. -/
def pointsParams (params : AccParams G1 G2) (spts₁ spts₀ : List G1) (l : List F) : AccParams G1 G2 :=
  params.withK (comb spts₁ (coeffs l)) (comb spts₀ (coeffs l))

/-- The simulation without honest users: their proofs are the values `ps`. -/
def pointsAlone (E : Pairing F G1 G2 GT) (enc : Enc G1 G2 GT) (params : AccParams G1 G2) (pts spts₁ spts₀ : List G1)
    (keys : PublicKeys G2) (U l ids : List F) {n : Nat}
    (adv : AccParams G1 G2 → FullView F G1 G2 → FullProg F G1 G2 (Presentation F G1 G2)) (ps : Fin n → CredProof F G1) :
    OracleProg Query F (Presentation F G1 G2 × Sim F G2) :=
  let P := pointsParams params spts₁ spts₀ l
  let m : Sim F G2 := startSim keys 0 U
  (((adv P (m.fullView pts)).simulatePoints enc P pts spts₁ spts₀ l ids m).simulate
    (fun c p => (shown id c p).query E enc P) (·.challenge) [] (pad ps) []).map (·.1)

theorem comb_smul (k : F) (pts : List G1) (c : List F) : comb (pts.map (k • ·)) c = k • comb pts c := by
  unfold comb
  induction c generalizing pts with
  | nil => simp
  | cons x c ih =>
    cases pts with
    | nil => simp
    | cons p pts =>
      simp only [List.map_cons, List.zipWith_cons_cons, List.sum_cons, smul_add, ih]
      rw [smul_comm]

theorem powers_smul (s k : F) (B : G1) (n : Nat) : powers s (k • B) n = (powers s B n).map (k • ·) := by
  unfold powers
  rw [List.map_map]
  refine List.map_congr_left (fun i _ => ?_)
  show s ^ i • k • B = k • s ^ i • B
  rw [smul_comm]

theorem pointsEnrol_eq (pts spts : List G1) (a b : F) (l : List F) (m : Sim F G2) (y c x r : F) :
    pointsEnrol pts (spts.map (a • ·)) (spts.map (b • ·)) l m y c x r = fullEnrol pts spts a b l m y c x r := by
  unfold pointsEnrol fullEnrol
  simp only [comb_smul, smul_smul, ← add_smul]

theorem simulatePoints_eq (enc : Enc G1 G2 GT) (params : AccParams G1 G2) (pts spts : List G1) (a b : F) (l hs : List F) :
    ∀ (prog : FullProg F G1 G2 α) (m : Sim F G2),
      prog.simulatePoints enc params pts (spts.map (a • ·)) (spts.map (b • ·)) l hs m
        = prog.simulate enc params pts spts a b l hs m
  | .done o, m => rfl
  | .hash q k, m => by
    rw [FullProg.simulatePoints, FullProg.simulate]
    congr 1
    funext r
    exact simulatePoints_eq enc params pts spts a b l hs (k r) m
  | .call op k, m => by
    rw [FullProg.simulatePoints, FullProg.simulate]
    split
    · exact simulatePoints_eq enc params pts spts a b l hs _ _
    · exact simulatePoints_eq enc params pts spts a b l hs _ _
  | .enrol y c z x k, m => by
    rw [FullProg.simulatePoints, FullProg.simulate]
    split
    · congr 1
      funext r
      rw [pointsEnrol_eq]
      exact simulatePoints_eq enc params pts spts a b l hs _ _
    · exact simulatePoints_eq enc params pts spts a b l hs _ _
  | .prove i eph k, m => by
    rw [FullProg.simulatePoints, FullProg.simulate]
    rcases h : hs[i]? with _ | y
    · exact simulatePoints_eq enc params pts spts a b l hs _ _
    · dsimp only
      split
      · congr 1
        funext p
        exact simulatePoints_eq enc params pts spts a b l hs _ _
      · exact simulatePoints_eq enc params pts spts a b l hs _ _

theorem pointsParams_eq (params : AccParams G1 G2) (s a b : F) (B : G1) (n : Nat) (l : List F) :
    pointsParams params (powers s (a • B) n) (powers s (b • B) n) l = simParams params (powers s B n) a b l := by
  unfold pointsParams simParams
  rw [powers_smul, powers_smul, comb_smul, comb_smul]

theorem pointsAlone_eq (E : Pairing F G1 G2 GT) (enc : Enc G1 G2 GT) (params : AccParams G1 G2) (pts : List G1) (s a b : F)
    (B : G1) (k : Nat) (keys : PublicKeys G2) (U l ids : List F) {n : Nat}
    (adv : AccParams G1 G2 → FullView F G1 G2 → FullProg F G1 G2 (Presentation F G1 G2)) (ps : Fin n → CredProof F G1) :
    pointsAlone E enc params pts (powers s (a • B) k) (powers s (b • B) k) keys U l ids adv ps
      = fullAlone E enc params pts (powers s B k) keys U l ids a b adv ps := by
  unfold pointsAlone fullAlone runFullSim
  rw [pointsParams_eq, powers_smul, powers_smul]
  simp only [simulatePoints_eq]

end sim

/-! ### Averaging a bound of the forking kind -/

section jensen
variable {F : Type} [Field F] [Fintype F] [DecidableEq F]

theorem avg_mul {X : Type} [Fintype X] (c : ℚ) (f : X → ℚ) : avg (fun x => c * f x) = c * avg f := by
  simp only [avg, ← Finset.mul_sum]
  ring

/-- If every experiment `x` satisfies the bound of the forking lemma, the average over `x` does. -/
theorem fork_average {X : Type} [Fintype X] [Nonempty X] (m : Nat) (t R : X → ℚ)
    (h : ∀ x, 0 ≤ t x → t x * (t x / (m + 1) - 1 / Nat.card F) ≤ R x) (hR : ∀ x, 0 ≤ R x) (a : ℚ) (ha : 0 ≤ a)
    (hle : a ≤ avg t) : a * (a / (m + 1) - 1 / Nat.card F) ≤ avg R := by
  refine fork_mono (F := F) m ha hle (avg_nonneg hR) ?_
  set τ := avg t with hτ
  have hτ0 : 0 ≤ τ := le_trans ha hle
  have hm : (0 : ℚ) < m + 1 := by positivity
  set c : ℚ := 1 / Nat.card F with hc
  by_cases hd : 2 * τ / (m + 1) - c ≤ 0
  · refine le_trans (mul_nonpos_of_nonneg_of_nonpos hτ0 ?_) (avg_nonneg hR)
    have : τ / (m + 1) ≤ 2 * τ / (m + 1) := by gcongr; linarith
    linarith
  push Not at hd
  have tangent : ∀ x, τ * (τ / (m + 1) - c) + (2 * τ / (m + 1) - c) * (t x - τ) ≤ R x := by
    intro x
    by_cases hx : 0 ≤ t x
    · refine le_trans ?_ (h x hx)
      have : t x * (t x / (m + 1) - c) - (τ * (τ / (m + 1) - c) + (2 * τ / (m + 1) - c) * (t x - τ))
          = (t x - τ) ^ 2 / (m + 1) := by field_simp; ring
      have h2 : 0 ≤ (t x - τ) ^ 2 / ((m : ℚ) + 1) := by positivity
      linarith
    · refine le_trans ?_ (hR x)
      push Not at hx
      have e1 : (2 * τ / (m + 1) - c) * (t x - τ) ≤ (2 * τ / (m + 1) - c) * (0 - τ) :=
        mul_le_mul_of_nonneg_left (by linarith) hd.le
      have e2 : τ * (τ / (m + 1) - c) + (2 * τ / (m + 1) - c) * (0 - τ) = -(τ ^ 2 / (m + 1)) := by field_simp; ring
      have e3 : 0 ≤ τ ^ 2 / ((m : ℚ) + 1) := by positivity
      linarith
  have := avg_mono tangent
  rw [← avg_add (fun _ => τ * (τ / (m + 1) - c)) (fun x => (2 * τ / (m + 1) - c) * (t x - τ)), avg_const, avg_mul,
    ← avg_sub, avg_const, ← hτ, sub_self, mul_zero, add_zero] at this
  exact this

theorem prob_prod {X Y : Type} [Fintype X] [Fintype Y] (P : X → Y → Prop) :
    prob (fun x : X × Y => P x.1 x.2) = avg (fun x => prob (P x)) := by
  rw [prob_eq_avg, avg_prod]
  exact avg_congr (fun x => (prob_eq_avg _).symm)
end jensen

/-! ### The game with hashed points -/

section prob
variable {F G1 G2 GT : Type} [Field F] [DecidableEq F] [Fintype F] [AddCommGroup G1] [Module F G1]
  [AddCommGroup G2] [Module F G2] [AddCommGroup GT] [Module F GT] [DecidableEq GT]
variable {Ω : Type} [Fintype Ω] [Nonempty Ω]

/-- An adversary of C88: it is given the parameters and sees the server. -/
abbrev FullAdv (F G1 G2 : Type) := AccParams G1 G2 → FullView F G1 G2 → FullProg F G1 G2 (Presentation F G1 G2)

/-- The adversary wins the game of C88 with parameters `P`: its presentation is accepted, for the server's current accumulator
and keys, and its transcript is none of those of the proofs it got. -/
def PlayWins (E : Pairing F G1 G2 GT) (enc : Enc G1 G2 GT) (P : AccParams G1 G2) (U l : List F) (hs : List (F × F))
    (adv : FullAdv F G1 G2) (α v s : F) (O : Query → F) (rand : Nat → ProofRand F) : Prop :=
  let out := (runFull E enc P α s v U l hs adv).real (credProver E enc P holderOf) O rand []
  ∃ p g, out.1 = .ok (p, g) ∧ p.accepted E (asHash O) enc P ∧
    g.server.getAccumulator = .ok p.accumulator ∧ p.keys = g.server.getPublicKeys ∧
    ∀ z ∈ out.2, (shown (publicOf holderOf) z.1 z.2).query E enc P ≠ p.query E enc P

/-- Parameters with given `X`, `Y`, `Z`, without `K₁` and `K₀`. -/
def pointParams (E : Pairing F G1 G2 GT) (K2 : G2) (t : Fin 3 → G1) : AccParams G1 G2 :=
  ⟨E.g1, E.g2, 0, 0, K2, t 0, t 1, t 2⟩

/-- The parameters of the simulation: `K₁` and `K₀` are computed from `b 0` and `b 1`. -/
def hashedSim (E : Pairing F G1 G2 GT) (K2 : G2) (l : List F) (t : Fin 3 → G1) (b : Fin 2 → G1) (s : F) : AccParams G1 G2 :=
  pointsParams (pointParams E K2 t) (powers s (b 0) l.length) (powers s (b 1) l.length) l

/-- The two runs of the simulation, with the proofs `ps` in place of those of the honest users: the second run is with the
hash changed from the query of the first output on. -/
def simRuns (E : Pairing F G1 G2 GT) (enc : Enc G1 G2 GT) (K2 : G2) (U l ids : List F) (adv : FullAdv F G1 G2)
    (S : Finset Query) {n : Nat} (α v s : F) (ps : Fin n → CredProof F G1) (t : Fin 3 → G1) (b : Fin 2 → G1)
    (H G : S → F) : (Presentation F G1 G2 × Sim F G2) × (Presentation F G1 G2 × Sim F G2) :=
  let prog := pointsAlone E enc (pointParams E K2 t) (powers α (v • E.g1) U.length) (powers s (b 0) l.length)
    (powers s (b 1) l.length) ⟨α • E.g2, s • K2⟩ U l ids adv ps
  (prog.eval (oracle S 0 H), rerun S prog (fun o => o.1.query E enc (hashedSim E K2 l t b s)) H G)

/-- The points for `K₁`, `K₀` when the simulator chooses their exponents. -/
def Secrets.points (E : Pairing F G1 G2 GT) (x : Secrets Ω F) : Fin 2 → G1 := ![x.κ₁ • E.g1, x.κ₀ • E.g1]

/-- The extractor gets a credential of a corrupted user, who is a member or can still be added. -/
def GivesCredential (E : Pairing F G1 G2 GT) (enc : Enc G1 G2 GT) (K2 : G2) (U l ids : List F) (adv : Ω → FullAdv F G1 G2)
    (S : Finset Query) {n : Nat} (t : Fin 3 → G1) (r : Secrets Ω F) (ps : Fin n → CredProof F G1) (H G : S → F) : Prop :=
  let outs := simRuns E enc K2 U l ids (adv r.ω) S r.α r.v r.s ps t (r.points E) H G
  let P := hashedSim E K2 l t (r.points E) r.s
  let y := extractId outs.1.1.proof outs.2.1.proof
  let w := extractWitness P outs.1.1.proof outs.2.1.proof
  y ∈ l ∧ (y ∈ outs.1.2.ids ∨ y ∈ outs.1.2.left) ∧
    credVerify E outs.1.1.accumulator ⟨r.α • E.g2, r.s • K2⟩ P y w = .ok ()

/-- The extractor solves the SDH problem for `α`, given its powers times a point. -/
def SolvesAlpha (E : Pairing F G1 G2 GT) (enc : Enc G1 G2 GT) (K2 : G2) (U l ids : List F) (adv : Ω → FullAdv F G1 G2)
    (S : Finset Query) {n : Nat} (t : Fin 3 → G1) (r : Secrets Ω F) (ps : Fin n → CredProof F G1) (H G : S → F) : Prop :=
  let outs := simRuns E enc K2 U l ids (adv r.ω) S r.α r.v r.s ps t (r.points E) H G
  let y := extractId outs.1.1.proof outs.2.1.proof
  let w := extractWitness (hashedSim E K2 l t (r.points E) r.s) outs.1.1.proof outs.2.1.proof
  SolvesSdh r.α (r.v • E.g1) y (sdhCandidate (powers r.α (r.v • E.g1) U.length) outs.1.2 y w.witness)

/-- The extractor solves the SDH problem for `s`, given its powers times the generator. -/
def SolvesSign (E : Pairing F G1 G2 GT) (enc : Enc G1 G2 GT) (K2 : G2) (U l ids : List F) (adv : Ω → FullAdv F G1 G2)
    (S : Finset Query) {n : Nat} (t : Fin 3 → G1) (r : Secrets Ω F) (ps : Fin n → CredProof F G1) (H G : S → F) : Prop :=
  let outs := simRuns E enc K2 U l ids (adv r.ω) S r.α r.v r.s ps t (r.points E) H G
  let y := extractId outs.1.1.proof outs.2.1.proof
  let w := extractWitness (hashedSim E K2 l t (r.points E) r.s) outs.1.1.proof outs.2.1.proof
  SolvesSdh r.s E.g1 y (signCandidate (powers r.s E.g1 l.length) r.κ₁ r.κ₀ l y w)

/-- The extractor gets the discrete logarithm of `K₀` to the base `K₁`. -/
def KeyRelation (E : Pairing F G1 G2 GT) (enc : Enc G1 G2 GT) (K2 : G2) (U l ids : List F) (adv : Ω → FullAdv F G1 G2)
    (S : Finset Query) {n : Nat} (t : Fin 3 → G1) (r : Secrets Ω F) (ps : Fin n → CredProof F G1) (H G : S → F) : Prop :=
  let outs := simRuns E enc K2 U l ids (adv r.ω) S r.α r.v r.s ps t (r.points E) H G
  let P := hashedSim E K2 l t (r.points E) r.s
  P.k0 = (-(extractWitness P outs.1.1.proof outs.2.1.proof).secretKey) • P.k1

/-- The extractor gets a relation between `X`, `Y` and `Z`. -/
def XyzRelation (E : Pairing F G1 G2 GT) (enc : Enc G1 G2 GT) (K2 : G2) (U l ids : List F) (adv : Ω → FullAdv F G1 G2)
    (S : Finset Query) {n : Nat} (t : Fin 3 → G1) (r : Secrets Ω F) (ps : Fin n → CredProof F G1) (H G : S → F) : Prop :=
  let outs := simRuns E enc K2 U l ids (adv r.ω) S r.α r.v r.s ps t (r.points E) H G
  let rel := extractRelation outs.1.1.proof outs.2.1.proof
  rel ≠ (0, 0, 0) ∧ rel.1 • t 0 + rel.2.1 • t 1 + rel.2.2 • t 2 = 0

/-- The first solver of the discrete logarithm problem for `X`: it takes the points `aᵢ g + bᵢ X` for the points `X`, `Y`, `Z`
of the parameters. -/
def logFromXYZ (E : Pairing F G1 G2 GT) (enc : Enc G1 G2 GT) (K2 : G2) (U l ids : List F) (adv : Ω → FullAdv F G1 G2)
    (S : Finset Query) {n : Nat} (X : G1) (x : Secrets Ω F) (ps : Fin n → CredProof F G1) (a b : Fin 3 → F)
    (H G : S → F) : F :=
  let outs := simRuns E enc K2 U l ids (adv x.ω) S x.α x.v x.s ps (maskedPoints E.g1 X a b) (x.points E) H G
  logOf a b (threePoints 0 1 2 (extractRelation outs.1.1.proof outs.2.1.proof))

/-- The second solver: it takes the points `aᵢ g + bᵢ X` for `K₁` and `K₀` (up to a common factor), and the points `t` for
`X`, `Y`, `Z`. -/
def logFromK (E : Pairing F G1 G2 GT) (enc : Enc G1 G2 GT) (K2 : G2) (U l ids : List F) (adv : FullAdv F G1 G2)
    (S : Finset Query) {n : Nat} (X : G1) (α v s : F) (ps : Fin n → CredProof F G1) (t : Fin 3 → G1) (a b : Fin 2 → F)
    (H G : S → F) : F :=
  let B := maskedPoints E.g1 X a b
  let outs := simRuns E enc K2 U l ids adv S α v s ps t B H G
  logOf a b (0, ![(extractWitness (hashedSim E K2 l t B s) outs.1.1.proof outs.2.1.proof).secretKey, 1])

/-- multiples of the generator -/
noncomputable def genEquiv (E : Pairing F G1 G2 GT) : F ≃ G1 := Equiv.ofBijective (fun a => a • E.g1) ⟨by
    intro a b hab
    by_contra hne
    have h0 : (a - b) • E.g1 = 0 := by rw [sub_smul, sub_eq_zero]; exact hab
    rcases smul_eq_zero.1 h0 with h | h
    · exact hne (sub_eq_zero.1 h)
    · exact E.g1_ne h, fun P => by
    obtain ⟨r, hr⟩ := E.g1_gen P
    exact ⟨r, hr.symm⟩⟩

theorem genEquiv_apply (E : Pairing F G1 G2 GT) (a : F) : genEquiv E a = a • E.g1 := rfl

/-- `K₁` and `K₀` by their exponents -/
noncomputable def gameEquiv (E : Pairing F G1 G2 GT) (Y : Type) :
    (Fin 3 → G1) × (Secrets Ω F × Y) ≃ (Fin 5 → G1) × ((Ω × F × F × F) × Y) where
  toFun x := (![genEquiv E x.2.1.κ₀, genEquiv E x.2.1.κ₁, x.1 0, x.1 1, x.1 2], ((x.2.1.ω, x.2.1.α, x.2.1.v, x.2.1.s), x.2.2))
  invFun x := (![x.1 2, x.1 3, x.1 4],
    ⟨x.2.1.1, x.2.1.2.1, x.2.1.2.2.1, x.2.1.2.2.2, (genEquiv E).symm (x.1 1), (genEquiv E).symm (x.1 0)⟩, x.2.2)
  left_inv x := by
    obtain ⟨t, x, y⟩ := x
    refine Prod.ext (funext fun i => ?_) ?_
    · fin_cases i <;> rfl
    · simp
  right_inv x := by
    obtain ⟨p, x, y⟩ := x
    refine Prod.ext (funext fun i => ?_) rfl
    fin_cases i <;> simp

/-- The game with hashed points is the game of C88, with random exponents for `K₁` and `K₀`, on average over `X`, `Y`, `Z`. -/
theorem hashed_game [Fintype G1] (E : Pairing F G1 G2 GT) (h2 : Bytes → Bytes → G2)
    (T : Finset (Bytes × Bytes)) (hT : ∀ n : UInt8, 250 ≤ n → genString n ∈ T) {Y : Type} [Fintype Y]
    (W : AccParams G1 G2 → (Ω × F × F × F) → Y → Prop) :
    prob (fun x : (T → G1) × ((Ω × F × F × F) × Y) => W (hashedParams E h2 T x.1) x.2.1 x.2.2) =
    avg (fun t : Fin 3 → G1 => prob (fun x : Secrets Ω F × Y =>
      W (x.1.params (pointParams E (hashedK2 h2) t) E.g1) (x.1.ω, x.1.α, x.1.v, x.1.s) x.2)) := by
  classical
  rw [← prob_prod (fun (t : Fin 3 → G1) (x : Secrets Ω F × Y) =>
      W (x.1.params (pointParams E (hashedK2 h2) t) E.g1) (x.1.ω, x.1.α, x.1.v, x.1.s) x.2)]
  refine Eq.trans ?_ (Eq.trans (prob_equiv (gameEquiv E Y) (fun x : (Fin 5 → G1) × ((Ω × F × F × F) × Y) =>
    W { p1 := E.g1, p2 := E.g2, k2 := hashedK2 h2,
        k0 := x.1 0, k1 := x.1 1, x1 := x.1 2, y1 := x.1 3, z1 := x.1 4 } x.2.1 x.2.2)).symm ?_)
  · rw [prob_eq_avg, prob_eq_avg, avg_prod, avg_prod, avg_comm, avg_comm (X := Fin 5 → G1)]
    refine avg_congr fun y => ?_
    have := hashed_uniform E h2 T hT (fun P => W P y.1 y.2)
    rw [prob_eq_avg, prob_eq_avg] at this
    exact this
  · rfl

theorem hashedSim_points (E : Pairing F G1 G2 GT) (K2 : G2) (l : List F) (t : Fin 3 → G1) (x : Secrets Ω F) :
    hashedSim E K2 l t (x.points E) x.s
      = simParams (pointParams E K2 t) (powers x.s E.g1 l.length) x.κ₁ x.κ₀ l :=
  pointsParams_eq _ _ _ _ _ _ _

theorem simRuns_points (E : Pairing F G1 G2 GT) (enc : Enc G1 G2 GT) (K2 : G2) (U l ids : List F) (adv : FullAdv F G1 G2)
    (S : Finset Query) {n : Nat} (x : Secrets Ω F) (ps : Fin n → CredProof F G1) (t : Fin 3 → G1) (H G : S → F) :
    let prog := fullAlone E enc (pointParams E K2 t) (powers x.α (x.v • E.g1) U.length) (powers x.s E.g1 l.length)
      ⟨x.α • E.g2, x.s • K2⟩ U l ids x.κ₁ x.κ₀ adv ps
    simRuns E enc K2 U l ids adv S x.α x.v x.s ps t (x.points E) H G =
      (prog.eval (oracle S 0 H), rerun S prog (fun o => o.1.query E enc
        (simParams (pointParams E K2 t) (powers x.s E.g1 l.length) x.κ₁ x.κ₀ l)) H G) := by
  intro prog
  have e : pointsAlone E enc (pointParams E K2 t) (powers x.α (x.v • E.g1) U.length) (powers x.s (x.points E 0) l.length)
    (powers x.s (x.points E 1) l.length) ⟨x.α • E.g2, x.s • K2⟩ U l ids adv ps = prog :=
    pointsAlone_eq _ _ _ _ _ _ _ _ _ _ _ _ _ _ _
  unfold simRuns
  rw [e, hashedSim_points]

theorem one_sub_pos : (0 : ℚ) < 1 - 1 / Nat.card F := by
  have h : (1 : ℚ) < Nat.card F := by
    rw [Nat.card_eq_fintype_card]; exact_mod_cast Fintype.one_lt_card
  have : 1 / (Nat.card F : ℚ) < 1 := by rw [div_lt_one (by linarith)]; exact h
  linarith

/-- A relation between `X`, `Y` and `Z` is a discrete logarithm. -/
theorem hashed_xyz [Fintype G1] (E : Pairing F G1 G2 GT) (enc : Enc G1 G2 GT) (K2 : G2) (U l ids : List F)
    (adv : Ω → FullAdv F G1 G2) (S : Finset Query) (n : Nat) (X : G1) :
    prob (fun x : (Fin 3 → G1) × (Secrets Ω F × (Fin n → CredProof F G1)) × (S → F) × (S → F) =>
      XyzRelation E enc K2 U l ids adv S x.1 x.2.1.1 x.2.1.2 x.2.2.1 x.2.2.2) ≤
    prob (fun x : (Secrets Ω F × (Fin n → CredProof F G1)) × ((Fin 3 → F) × (Fin 3 → F)) × (S → F) × (S → F) =>
      logFromXYZ E enc K2 U l ids adv S X x.1.1 x.1.2 x.2.1.1 x.2.1.2 x.2.2.1 x.2.2.2 • E.g1 = X) / (1 - 1 / Nat.card F) := by
  rw [le_div_iff₀ one_sub_pos]
  have main := C104_discrete_log (ι := Fin 3) (Ω := (Secrets Ω F × (Fin n → CredProof F G1)) × (S → F) × (S → F)) E (fun ω t =>
    let outs := simRuns E enc K2 U l ids (adv ω.1.1.ω) S ω.1.1.α ω.1.1.v ω.1.1.s ω.1.2 t (ω.1.1.points E) ω.2.1 ω.2.2
    threePoints 0 1 2 (extractRelation outs.1.1.proof outs.2.1.proof)) X
  have e1 := prob_equiv
    (⟨fun x => ((x.1, x.2.2), x.2.1), fun x => (x.1.1, x.2, x.1.2), fun _ => rfl, fun _ => rfl⟩ :
      (Secrets Ω F × (Fin n → CredProof F G1)) × ((Fin 3 → F) × (Fin 3 → F)) × (S → F) × (S → F) ≃
      ((Secrets Ω F × (Fin n → CredProof F G1)) × (S → F) × (S → F)) × ((Fin 3 → F) × (Fin 3 → F)))
    (fun x => logFromXYZ E enc K2 U l ids adv S X x.1.1.1 x.1.1.2 x.2.1 x.2.2 x.1.2.1 x.1.2.2 • E.g1 = X)
  refine le_trans ?_ (le_trans main (le_of_eq e1.symm))
  refine mul_le_mul_of_nonneg_right ?_ one_sub_pos.le
  rw [← prob_equiv (Equiv.prodComm _ _)]
  refine prob_mono ?_
  rintro ⟨t, ω⟩ ⟨h1, h2⟩
  exact threePoints_rel _ _ _ _ _ (by decide) (by decide) (by decide) _ h1 h2

/-- The discrete logarithm of `K₀` to the base `K₁` is a discrete logarithm to the base of the generator. -/
theorem hashed_key [Fintype G1] (E : Pairing F G1 G2 GT) (enc : Enc G1 G2 GT) (K2 : G2) (U l ids : List F)
    (adv : Ω → FullAdv F G1 G2) (S : Finset Query) (n : Nat) (X : G1) :
    prob (fun x : (Fin 3 → G1) × (Secrets Ω F × (Fin n → CredProof F G1)) × (S → F) × (S → F) =>
      KeyRelation E enc K2 U l ids adv S x.1 x.2.1.1 x.2.1.2 x.2.2.1 x.2.2.2) ≤
    prob (fun x : ((Ω × F × F × F) × (Fin n → CredProof F G1) × (Fin 3 → G1)) × ((Fin 2 → F) × (Fin 2 → F)) ×
        (S → F) × (S → F) =>
      logFromK E enc K2 U l ids (adv x.1.1.1) S X x.1.1.2.1 x.1.1.2.2.1 x.1.1.2.2.2 x.1.2.1 x.1.2.2 x.2.1.1 x.2.1.2
        x.2.2.1 x.2.2.2 • E.g1 = X) / (1 - 1 / Nat.card F) + l.length / Nat.card F := by
  have main := C104_discrete_log (ι := Fin 2)
    (Ω := ((Ω × F × F × F) × (Fin n → CredProof F G1) × (Fin 3 → G1)) × (S → F) × (S → F)) E (fun ω B =>
    let outs := simRuns E enc K2 U l ids (adv ω.1.1.1) S ω.1.1.2.1 ω.1.1.2.2.1 ω.1.1.2.2.2 ω.1.2.1 ω.1.2.2 B ω.2.1 ω.2.2
    (0, ![(extractWitness (hashedSim E K2 l ω.1.2.2 B ω.1.1.2.2.2) outs.1.1.proof outs.2.1.proof).secretKey, 1])) X
  have e1 := prob_equiv
    (⟨fun x => ((x.1, x.2.2), x.2.1), fun x => (x.1.1, x.2, x.1.2), fun _ => rfl, fun _ => rfl⟩ :
      ((Ω × F × F × F) × (Fin n → CredProof F G1) × (Fin 3 → G1)) × ((Fin 2 → F) × (Fin 2 → F)) × (S → F) × (S → F) ≃
      (((Ω × F × F × F) × (Fin n → CredProof F G1) × (Fin 3 → G1)) × (S → F) × (S → F)) × ((Fin 2 → F) × (Fin 2 → F)))
    (fun x => logFromK E enc K2 U l ids (adv x.1.1.1.1) S X x.1.1.1.2.1 x.1.1.1.2.2.1 x.1.1.1.2.2.2 x.1.1.2.1 x.1.1.2.2
      x.2.1 x.2.2 x.1.2.1 x.1.2.2 • E.g1 = X)
  let e2 : (Fin 3 → G1) × (Secrets Ω F × (Fin n → CredProof F G1)) × (S → F) × (S → F) ≃
      (((Ω × F × F × F) × (Fin n → CredProof F G1) × (Fin 3 → G1)) × (S → F) × (S → F)) × (Fin 2 → G1) :=
    ⟨fun x => ((((x.2.1.1.ω, x.2.1.1.α, x.2.1.1.v, x.2.1.1.s), x.2.1.2, x.1), x.2.2),
        ![genEquiv E x.2.1.1.κ₁, genEquiv E x.2.1.1.κ₀]),
      fun x => (x.1.1.2.2, (⟨x.1.1.1.1, x.1.1.1.2.1, x.1.1.1.2.2.1, x.1.1.1.2.2.2, (genEquiv E).symm (x.2 0),
        (genEquiv E).symm (x.2 1)⟩, x.1.1.2.1), x.1.2), fun x => by simp, fun x => by
        refine Prod.ext rfl (funext fun i => ?_)
        fin_cases i <;> simp⟩
  rw [← prob_equiv e2] at main
  have bad : prob (fun x : (Fin 3 → G1) × (Secrets Ω F × (Fin n → CredProof F G1)) × (S → F) × (S → F) =>
      prodPlus x.2.1.1.s l = 0) ≤ l.length / Nat.card F := by
    refine le_trans (le_of_eq ?_) (prob_zero_le l)
    rw [prob_snd (X := Fin 3 → G1)
      (fun x : (Secrets Ω F × (Fin n → CredProof F G1)) × (S → F) × (S → F) => prodPlus x.1.1.s l = 0),
      prob_fst (Y := (S → F) × (S → F)) (fun x : Secrets Ω F × (Fin n → CredProof F G1) => prodPlus x.1.s l = 0)]
    exact (prob_coord (Ω := Ω) (Y := Fin n → CredProof F G1) (fun s : F => prodPlus s l = 0)).2.2
  refine le_trans (prob_le_add (B := fun x => PointRelation E.g1 (e2 x).2
    ((fun (ω : ((Ω × F × F × F) × (Fin n → CredProof F G1) × (Fin 3 → G1)) × (S → F) × (S → F)) (B : Fin 2 → G1) =>
      let outs := simRuns E enc K2 U l ids (adv ω.1.1.1) S ω.1.1.2.1 ω.1.1.2.2.1 ω.1.1.2.2.2 ω.1.2.1 ω.1.2.2 B ω.2.1 ω.2.2
      ((0 : F), ![(extractWitness (hashedSim E K2 l ω.1.2.2 B ω.1.1.2.2.2) outs.1.1.proof outs.2.1.proof).secretKey, 1]))
      (e2 x).1 (e2 x).2)) (C := fun x => prodPlus x.2.1.1.s l = 0) ?_) (add_le_add ?_ bad)
  · rintro ⟨t, ⟨x, ps⟩, H, G⟩ h
    by_cases h0 : prodPlus x.s l = 0
    · exact .inr h0
    refine .inl ⟨fun h => one_ne_zero (congrFun h 1), ?_⟩
    have hk : ∀ b : Fin 2 → G1, (hashedSim E K2 l t b x.s).k1 = prodPlus x.s l • b 0 ∧
        (hashedSim E K2 l t b x.s).k0 = prodPlus x.s l • b 1 := by
      intro b
      constructor
      · show comb (powers x.s (b 0) l.length) (coeffs l) = _
        rw [comb_powers _ _ _ _ (by rw [coeffs_length]), coeffs_val]
      · show comb (powers x.s (b 1) l.length) (coeffs l) = _
        rw [comb_powers _ _ _ _ (by rw [coeffs_length]), coeffs_val]
    rw [Fin.sum_univ_two]
    have h' : (hashedSim E K2 l t (x.points E) x.s).k0 = (-(extractWitness (hashedSim E K2 l t (x.points E) x.s)
      (simRuns E enc K2 U l ids (adv x.ω) S x.α x.v x.s ps t (x.points E) H G).1.1.proof
      (simRuns E enc K2 U l ids (adv x.ω) S x.α x.v x.s ps t (x.points E) H G).2.1.proof).secretKey) •
        (hashedSim E K2 l t (x.points E) x.s).k1 := h
    show (0 : F) • E.g1 + ((extractWitness (hashedSim E K2 l t (x.points E) x.s)
      (simRuns E enc K2 U l ids (adv x.ω) S x.α x.v x.s ps t (x.points E) H G).1.1.proof
      (simRuns E enc K2 U l ids (adv x.ω) S x.α x.v x.s ps t (x.points E) H G).2.1.proof).secretKey • x.points E 0
        + (1 : F) • x.points E 1) = 0
    generalize (extractWitness (hashedSim E K2 l t (x.points E) x.s)
      (simRuns E enc K2 U l ids (adv x.ω) S x.α x.v x.s ps t (x.points E) H G).1.1.proof
      (simRuns E enc K2 U l ids (adv x.ω) S x.α x.v x.s ps t (x.points E) H G).2.1.proof).secretKey = sk at h' ⊢
    rw [(hk _).1, (hk _).2, smul_comm] at h'
    have h3 : x.points E 1 = -sk • x.points E 0 := by
      have := congrArg ((prodPlus x.s l)⁻¹ • ·) h'
      simpa only [smul_smul, inv_mul_cancel₀ h0, inv_mul_cancel_left₀ h0, one_smul] using this
    rw [h3, zero_smul, one_smul, neg_smul, zero_add, add_neg_cancel]
  · rw [le_div_iff₀ one_sub_pos]
    exact le_trans main (le_of_eq e1.symm)

/-- C88 for given points `X`, `Y`, `Z`. -/
theorem hashed_point [Fintype G1] (E : Pairing F G1 G2 GT) (enc : Enc G1 G2 GT) (he1 : Function.Injective enc.g1)
    (he2 : Function.Injective enc.g2) (he3 : Function.Injective enc.gt) (K2 : G2) (hK : K2 ≠ 0) (U l : List F)
    (hs : List (F × F)) (adv : Ω → FullAdv F G1 G2) (m n : Nat) (hb : ∀ ω P v, (adv ω P v).Bound m n) (t : Fin 3 → G1) :
    ∃ S₀ : Finset Query, ∀ S, S₀ ⊆ S → t 2 ≠ 0 →
    let a := prob (fun x : Secrets Ω F × (S → F) × (Fin n → ProofRand F) =>
      FullWins E enc (pointParams E K2 t) E.g1 U l hs adv x.1 (oracle S 0 x.2.1) (pad x.2.2))
    let a' := a - ((U.length : ℚ) + 1 + l.length + hs.length) / Nat.card F - n * (m + 1 + n) * (1 / (Nat.card F : ℚ) ^ 5)
    0 ≤ a' →
    a' * (a' / (m + 1) - 1 / Nat.card F) ≤
      prob (fun x : (Secrets Ω F × (Fin n → CredProof F G1)) × (S → F) × (S → F) =>
        GivesCredential E enc K2 U l (hs.map (·.1)) adv S t x.1.1 x.1.2 x.2.1 x.2.2 ∨
        KeyRelation E enc K2 U l (hs.map (·.1)) adv S t x.1.1 x.1.2 x.2.1 x.2.2 ∨
        XyzRelation E enc K2 U l (hs.map (·.1)) adv S t x.1.1 x.1.2 x.2.1 x.2.2 ∨
        SolvesAlpha E enc K2 U l (hs.map (·.1)) adv S t x.1.1 x.1.2 x.2.1 x.2.2 ∨
        SolvesSign E enc K2 U l (hs.map (·.1)) adv S t x.1.1 x.1.2 x.2.1 x.2.2) := by
  by_cases hz : t 2 = 0
  · exact ⟨∅, fun S _ h => absurd hz h⟩
  obtain ⟨S₀, h⟩ := C88_unforgeable E enc he1 he2 he3 (pointParams E K2 t) E.g1_ne E.g2_ne hK hz E.g1 E.g1_ne
    U l hs adv m n hb
  refine ⟨S₀, fun S hS _ => ?_⟩
  intro a a' ha'
  refine le_trans (h S hS ha') (prob_mono ?_)
  rintro ⟨⟨r, ps⟩, H, G⟩ hx
  unfold GivesCredential KeyRelation XyzRelation SolvesAlpha SolvesSign
  rw [simRuns_points, hashedSim_points]
  exact hx

/-- **C105** (main statement). The hash to `G1` is a random table on `T`, the parameters are `AccParams::default()` with it,
and the secrets `α`, `v`, `s` are random. Whatever ids `U` can be added, whatever users are corrupted (ids `l`) and whoever
the honest users are (`hs`, ids and secret keys): let an adversary, which makes at most `m` hash queries and enrolments and
gets at most `n` proofs of the honest users, win the game of C88 with probability `a`. For
`a' = a - (|U|+1+|l|+|hs|)/|F| - n(m+1+n)/|F|^5 - 1/|F|`, if not negative, and every point `X`, the number
`a' (a'/(m+1) - 1/|F|)` is at most the sum of the probabilities that the simulation, which runs the adversary twice without
the honest users, gives

* a credential, accepted for the adversary's accumulator, of a corrupted user that is a member or can still be added,
* a solution of the SDH problem for `α` (from the powers of `α` times a point),
* a solution of the SDH problem for `s` (from the powers of `s` times the generator),
* the discrete logarithm of `X`, by one of two solvers (times `1/(1 - 1/|F|)`),

and of `|l|/|F|`. All of this holds for every sufficiently large finite set `S` of queries on which the Fiat-Shamir hash is
random. -/
theorem C105_unforgeable [Fintype G1] (E : Pairing F G1 G2 GT) (enc : Enc G1 G2 GT) (he1 : Function.Injective enc.g1)
    (he2 : Function.Injective enc.g2) (he3 : Function.Injective enc.gt) (h2 : Bytes → Bytes → G2) (hK : hashedK2 h2 ≠ 0)
    (T : Finset (Bytes × Bytes)) (hT : ∀ n : UInt8, 250 ≤ n → genString n ∈ T) (U l : List F) (hs : List (F × F))
    (adv : Ω → FullAdv F G1 G2) (m n : Nat) (hb : ∀ ω P v, (adv ω P v).Bound m n) :
    ∃ S₀ : Finset Query, ∀ S, S₀ ⊆ S → ∀ X : G1,
    let ids := hs.map (·.1)
    let K2 := hashedK2 h2
    let a := prob (fun x : (T → G1) × ((Ω × F × F × F) × (S → F) × (Fin n → ProofRand F)) =>
      PlayWins E enc (hashedParams E h2 T x.1) U l hs (adv x.2.1.1) x.2.1.2.1 x.2.1.2.2.1 x.2.1.2.2.2
        (oracle S 0 x.2.2.1) (pad x.2.2.2))
    let a' := a - ((U.length : ℚ) + 1 + l.length + hs.length) / Nat.card F - n * (m + 1 + n) * (1 / (Nat.card F : ℚ) ^ 5)
      - 1 / Nat.card F
    0 ≤ a' →
    a' * (a' / (m + 1) - 1 / Nat.card F) ≤
      prob (fun x : (Fin 3 → G1) × (Secrets Ω F × (Fin n → CredProof F G1)) × (S → F) × (S → F) =>
        GivesCredential E enc K2 U l ids adv S x.1 x.2.1.1 x.2.1.2 x.2.2.1 x.2.2.2) +
      prob (fun x : (Fin 3 → G1) × (Secrets Ω F × (Fin n → CredProof F G1)) × (S → F) × (S → F) =>
        SolvesAlpha E enc K2 U l ids adv S x.1 x.2.1.1 x.2.1.2 x.2.2.1 x.2.2.2) +
      prob (fun x : (Fin 3 → G1) × (Secrets Ω F × (Fin n → CredProof F G1)) × (S → F) × (S → F) =>
        SolvesSign E enc K2 U l ids adv S x.1 x.2.1.1 x.2.1.2 x.2.2.1 x.2.2.2) +
      prob (fun x : (Secrets Ω F × (Fin n → CredProof F G1)) × ((Fin 3 → F) × (Fin 3 → F)) × (S → F) × (S → F) =>
        logFromXYZ E enc K2 U l ids adv S X x.1.1 x.1.2 x.2.1.1 x.2.1.2 x.2.2.1 x.2.2.2 • E.g1 = X) / (1 - 1 / Nat.card F) +
      prob (fun x : ((Ω × F × F × F) × (Fin n → CredProof F G1) × (Fin 3 → G1)) × ((Fin 2 → F) × (Fin 2 → F)) ×
          (S → F) × (S → F) =>
        logFromK E enc K2 U l ids (adv x.1.1.1) S X x.1.1.2.1 x.1.1.2.2.1 x.1.1.2.2.2 x.1.2.1 x.1.2.2 x.2.1.1 x.2.1.2
          x.2.2.1 x.2.2.2 • E.g1 = X) / (1 - 1 / Nat.card F) +
      l.length / Nat.card F := by
  classical
  choose S₀ hS₀ using hashed_point E enc he1 he2 he3 (hashedK2 h2) hK U l hs adv m n hb
  refine ⟨Finset.univ.biUnion S₀, ?_⟩
  intro S hS X ids K2 a a' ha'
  have hC := fun t => hS₀ t S (fun q hq => hS (Finset.mem_biUnion.2 ⟨t, Finset.mem_univ t, hq⟩))
  set δ : ℚ := ((U.length : ℚ) + 1 + l.length + hs.length) / Nat.card F + n * (m + 1 + n) * (1 / (Nat.card F : ℚ) ^ 5)
    with hδ
  have hδ0 : 0 ≤ δ := by positivity
  let aT : (Fin 3 → G1) → ℚ := fun t => prob (fun x : Secrets Ω F × (S → F) × (Fin n → ProofRand F) =>
      FullWins E enc (pointParams E K2 t) E.g1 U l hs adv x.1 (oracle S 0 x.2.1) (pad x.2.2))
  have ha : a = avg aT := hashed_game E h2 T hT (Y := (S → F) × (Fin n → ProofRand F))
    (fun P c y => PlayWins E enc P U l hs (adv c.1) c.2.1 c.2.2.1 c.2.2.2 (oracle S 0 y.1) (pad y.2))
  have hone : ∀ t, aT t ≤ 1 := fun t => by
    simp only [aT]
    rw [prob_eq_avg]
    exact avg_le_one (fun x => by split <;> norm_num)
  have hz : avg (fun t : Fin 3 → G1 => if t 2 = 0 then (1 : ℚ) else 0) = 1 / Nat.card F := by
    rw [← prob_point_zero E (2 : Fin 3), prob_eq_avg]
  have hle : a' ≤ avg (fun t => (if t 2 ≠ 0 then aT t else 0) - δ) := by
    have h1 : ∀ t : Fin 3 → G1, aT t - (if t 2 = 0 then (1 : ℚ) else 0) - δ ≤ (if t 2 ≠ 0 then aT t else 0) - δ := by
      intro t
      by_cases h : t 2 = 0
      · simp only [h, if_true, ne_eq, not_true, if_false]; linarith [hone t]
      · simp only [h, if_false, ne_eq, not_false_iff, if_true]; linarith
    refine le_trans (le_of_eq ?_) (avg_mono h1)
    rw [← avg_sub (fun t => aT t - (if t 2 = 0 then (1 : ℚ) else 0)) (fun _ => δ), ← avg_sub, avg_const, hz, ← ha]
    simp only [a', hδ, ← sub_sub]
    ring
  let ev : (Fin 3 → G1) → (Secrets Ω F × (Fin n → CredProof F G1)) × (S → F) × (S → F) → Prop := fun t x =>
        GivesCredential E enc K2 U l ids adv S t x.1.1 x.1.2 x.2.1 x.2.2 ∨
        KeyRelation E enc K2 U l ids adv S t x.1.1 x.1.2 x.2.1 x.2.2 ∨
        XyzRelation E enc K2 U l ids adv S t x.1.1 x.1.2 x.2.1 x.2.2 ∨
        SolvesAlpha E enc K2 U l ids adv S t x.1.1 x.1.2 x.2.1 x.2.2 ∨
        SolvesSign E enc K2 U l ids adv S t x.1.1 x.1.2 x.2.1 x.2.2
  have main := fork_average (F := F) m (fun t : Fin 3 → G1 => (if t 2 ≠ 0 then aT t else 0) - δ) (fun t => prob (ev t)) (by
    intro t ht
    by_cases h : t 2 = 0
    · simp only [h, ne_eq, not_true, if_false] at ht ⊢
      have : 0 - δ = 0 := by linarith
      rw [this, zero_mul]
      exact prob_nonneg _
    · simp only [h, ne_eq, not_false_iff, if_true] at ht ⊢
      have := hC t h
      simp only [sub_sub, ← hδ] at this
      exact this ht) (fun t => prob_nonneg _) a' ha' hle
  refine le_trans main ?_
  rw [← prob_prod]
  refine le_trans (prob_le_add (B := fun x => GivesCredential E enc K2 U l ids adv S x.1 x.2.1.1 x.2.1.2 x.2.2.1 x.2.2.2)
    (fun x h => h)) ?_
  have k1 := hashed_key E enc K2 U l ids adv S n X
  have k2 := hashed_xyz E enc K2 U l ids adv S n X
  have u1 := prob_le_add (X := (Fin 3 → G1) × (Secrets Ω F × (Fin n → CredProof F G1)) × (S → F) × (S → F))
    (B := fun x => KeyRelation E enc K2 U l ids adv S x.1 x.2.1.1 x.2.1.2 x.2.2.1 x.2.2.2)
    (C := fun x => XyzRelation E enc K2 U l ids adv S x.1 x.2.1.1 x.2.1.2 x.2.2.1 x.2.2.2 ∨
        SolvesAlpha E enc K2 U l ids adv S x.1 x.2.1.1 x.2.1.2 x.2.2.1 x.2.2.2 ∨
        SolvesSign E enc K2 U l ids adv S x.1 x.2.1.1 x.2.1.2 x.2.2.1 x.2.2.2) (fun x h => h)
  have u2 := prob_le_add (X := (Fin 3 → G1) × (Secrets Ω F × (Fin n → CredProof F G1)) × (S → F) × (S → F))
    (B := fun x => XyzRelation E enc K2 U l ids adv S x.1 x.2.1.1 x.2.1.2 x.2.2.1 x.2.2.2)
    (C := fun x => SolvesAlpha E enc K2 U l ids adv S x.1 x.2.1.1 x.2.1.2 x.2.2.1 x.2.2.2 ∨
        SolvesSign E enc K2 U l ids adv S x.1 x.2.1.1 x.2.1.2 x.2.2.1 x.2.2.2) (fun x h => h)
  have u3 := prob_le_add (X := (Fin 3 → G1) × (Secrets Ω F × (Fin n → CredProof F G1)) × (S → F) × (S → F))
    (B := fun x => SolvesAlpha E enc K2 U l ids adv S x.1 x.2.1.1 x.2.1.2 x.2.2.1 x.2.2.2)
    (C := fun x => SolvesSign E enc K2 U l ids adv S x.1 x.2.1.1 x.2.1.2 x.2.2.1 x.2.2.2) (fun x h => h)
  linarith

/-! ### The hypotheses are met: a corrupted user -/

/-- A corrupted user: its id `y` is added, it enrols with the secret key `x`, and it proves its membership. -/
def corrupted (E : Pairing F G1 G2 GT) (enc : Enc G1 G2 GT) (y x k : F) (eph : Bytes) (rand : ProofRand F) :
    FullAdv F G1 G2 := fun P _ =>
  .call (.add y) fun _ v => .hash (issueQuery enc P 0 k (x • P.k1)) fun c => .enrol y c (k - c * x) x fun o =>
    let w : Witness F G1 := ⟨x, (o.getD 0).1, (o.getD 0).2⟩
    let V := v.accumulators.getLast?.getD 0
    let mpc := Committing.new E w P v.publicKeys rand
    .hash ((mpc.getBytesForChallenge enc (credTranscript enc P v.publicKeys V)).append "Ephemeral challenge" eph,
      "challenge") fun c => .done ⟨mpc.genProof w y c, v.publicKeys, V, eph⟩

theorem corrupted_bound (E : Pairing F G1 G2 GT) (enc : Enc G1 G2 GT) (y x k : F) (eph : Bytes) (rand : ProofRand F) :
    ∀ P v, (corrupted E enc y x k eph rand P v).Bound 3 0 := fun _ _ _ _ _ _ _ => trivial

theorem corrupted_wins (E : Pairing F G1 G2 GT) (enc : Enc G1 G2 GT) (y x k : F) (eph : Bytes) (rand : ProofRand F)
    (P : AccParams G1 G2) (hP : P.p2 ≠ 0) (hK : P.k2 ≠ 0) (α v s : F) (hα : y + α ≠ 0) (hs : y + s ≠ 0) (O : Query → F)
    (rand' : Nat → ProofRand F) :
    PlayWins E enc P [y] [y] [] (corrupted E enc y x k eph rand) α v s O rand' := by
  classical
  let V : G1 := v • P.p1
  let C : G1 := (y + α)⁻¹ • V
  let R : G1 := (y + s)⁻¹ • (x • P.k1 + P.k0)
  let keys : PublicKeys G2 := ⟨α • P.p2, s • P.k2⟩
  let s' : Server F G1 G2 := { Server.new P α s v with allUsers := [y], allWitnesses := [(y, C)] }
  let w : Witness F G1 := ⟨x, C, R⟩
  have hv : credVerify E V keys P y w = .ok () :=
    (credVerify_iff E P hP hK α s V y w).2 ⟨smul_inv_smul₀ hα V, smul_inv_smul₀ hs _⟩
  have hadd : (Server.new P α s v).step (.add y) = .ok (s', some C) := by
    show Server.add _ _ = _
    simp only [Server.add, Server.new, mapContains, mapGet, List.find?_nil, setInsert, mapInsert, List.getLast?_singleton,
      unwrap, inv!_ne hα]
    rfl
  have hwit : ∀ r c z, r = c → s'.witness (fun _ _ => r) enc P y c z (x • P.k1) = .ok (some (C, R)) := by
    rintro r c z rfl
    obtain ⟨C', R', e1, e2, e3⟩ := ((C21_witness (fun _ _ => r) enc P s' y r z (x • P.k1)).2.2 (by simp [s', ids]) rfl).1 hs
    rw [e1]
    have e4 : C = C' := by simpa [s', mapGet] using e2
    have e5 : R' = R := by
      have : (y + s) • R' = x • P.k1 + P.k0 := e3
      simp only [R, ← this, inv_smul_smul₀ hs]
    rw [e5, e4]
  let mpc := Committing.new E w P keys rand
  let c := O ((mpc.getBytesForChallenge enc (credTranscript enc P keys V)).append "Ephemeral challenge" eph, "challenge")
  let p : Presentation F G1 G2 := ⟨mpc.genProof w y c, keys, V, eph⟩
  have hq : issueQuery enc P 0 k (x • P.k1)
      = issueQuery enc P (O (issueQuery enc P 0 k (x • P.k1))) (k - O (issueQuery enc P 0 k (x • P.k1)) * x) (x • P.k1) := by
    generalize O (issueQuery enc P 0 k (x • P.k1)) = r
    unfold issueQuery
    rw [show (k - r * x) • P.k1 + r • x • P.k1 = k • P.k1 + (0 : F) • x • P.k1 by module]
  have hout : (runFull E enc P α s v [y] [y] [] (corrupted E enc y x k eph rand)).real (credProver E enc P holderOf) O rand' []
      = (.ok (p, ⟨s', [], [.add y]⟩), []) := by
    unfold runFull corrupted
    rw [FullProg.play, if_pos (by simp [allowed])]
    simp only [hadd, FullProg.play, ProverProg.real, List.mem_singleton, if_true]
    rw [hwit _ _ _ (by rw [← hq])]
    simp only [FullProg.play, ProverProg.real]
    have hl : leftAfter (Server.new P α s v).ids [y] (.add y) = [] := by simp [leftAfter, ids, Server.new]
    rw [hl]
    rfl
  refine ⟨p, _, by rw [hout], ?_, rfl, rfl, by rw [hout]; simp⟩
  exact (C42_complete E (asHash O) enc w y V P keys eph rand).2 _
      (honestProver_eval E enc P keys V eph y w rand hv O).symm

/-- **C105** is not empty: a corrupted user wins with probability at least `1 - 2/|F|`. -/
theorem C105_corrupted [Fintype G1] (E : Pairing F G1 G2 GT) (enc : Enc G1 G2 GT) (h2 : Bytes → Bytes → G2)
    (hK : hashedK2 h2 ≠ 0) (T : Finset (Bytes × Bytes)) (y x k : F) (eph : Bytes) (rand : ProofRand F) (S : Finset Query) :
    (∀ P v, (corrupted E enc y x k eph rand P v).Bound 3 0) ∧
    1 - 2 / Nat.card F ≤ prob (fun z : (T → G1) × ((Unit × F × F × F) × (S → F) × (Fin 0 → ProofRand F)) =>
      PlayWins E enc (hashedParams E h2 T z.1) [y] [y] [] (corrupted E enc y x k eph rand) z.2.1.2.1 z.2.1.2.2.1 z.2.1.2.2.2
        (oracle S 0 z.2.2.1) (pad z.2.2.2)) := by
  refine ⟨corrupted_bound E enc y x k eph rand, ?_⟩
  let Z := (T → G1) × ((Unit × F × F × F) × (S → F) × (Fin 0 → ProofRand F))
  have one : prob (fun _ : Z => True) = 1 := prob_one (fun _ => trivial)
  have h1 := prob_le_add (X := Z) (A := fun _ => True) (B := fun z => PlayWins E enc (hashedParams E h2 T z.1) [y] [y] []
      (corrupted E enc y x k eph rand) z.2.1.2.1 z.2.1.2.2.1 z.2.1.2.2.2 (oracle S 0 z.2.2.1) (pad z.2.2.2))
    (C := fun z => z.2.1.2.1 + y = 0 ∨ z.2.1.2.2.2 + y = 0) (fun z _ => by
      by_cases ha : z.2.1.2.1 + y = 0
      · exact .inr (.inl ha)
      by_cases hs : z.2.1.2.2.2 + y = 0
      · exact .inr (.inr hs)
      exact .inl (corrupted_wins E enc y x k eph rand _ E.g2_ne hK _ _ _ (by rwa [add_comm]) (by rwa [add_comm]) _ _))
  have h2 := prob_le_add (X := Z) (A := fun z => z.2.1.2.1 + y = 0 ∨ z.2.1.2.2.2 + y = 0)
    (B := fun z => z.2.1.2.1 + y = 0) (C := fun z => z.2.1.2.2.2 + y = 0) (fun z h => h)
  have hy : prob (fun a : F => a + y = 0) = 1 / Nat.card F := by
    rw [← prob_eq_zero (F := F)]
    exact prob_equiv (Equiv.addRight y) (fun a : F => a = 0)
  have e1 : prob (fun z : Z => z.2.1.2.1 + y = 0) = 1 / Nat.card F := by
    rw [← hy, prob_snd (X := T → G1) (fun z : (Unit × F × F × F) × (S → F) × (Fin 0 → ProofRand F) => z.1.2.1 + y = 0),
      prob_fst (Y := (S → F) × (Fin 0 → ProofRand F)) (fun z : Unit × F × F × F => z.2.1 + y = 0),
      prob_snd (X := Unit) (fun z : F × F × F => z.1 + y = 0), prob_fst (Y := F × F) (fun z : F => z + y = 0)]
  have e2 : prob (fun z : Z => z.2.1.2.2.2 + y = 0) = 1 / Nat.card F := by
    rw [← hy, prob_snd (X := T → G1) (fun z : (Unit × F × F × F) × (S → F) × (Fin 0 → ProofRand F) => z.1.2.2.2 + y = 0),
      prob_fst (Y := (S → F) × (Fin 0 → ProofRand F)) (fun z : Unit × F × F × F => z.2.2.2 + y = 0),
      prob_snd (X := Unit) (fun z : F × F × F => z.2.2 + y = 0), prob_snd (X := F) (fun z : F × F => z.2 + y = 0),
      prob_snd (X := F) (fun z : F => z + y = 0)]
  rw [one] at h1
  rw [e1, e2] at h2
  have : (2 : ℚ) / Nat.card F = 1 / Nat.card F + 1 / Nat.card F := by ring
  linarith

/-- **C105** without corrupted users: what is left is SDH and discrete logarithms. -/
theorem C105_outsider [Fintype G1] (E : Pairing F G1 G2 GT) (enc : Enc G1 G2 GT) (he1 : Function.Injective enc.g1)
    (he2 : Function.Injective enc.g2) (he3 : Function.Injective enc.gt) (h2 : Bytes → Bytes → G2) (hK : hashedK2 h2 ≠ 0)
    (T : Finset (Bytes × Bytes)) (hT : ∀ n : UInt8, 250 ≤ n → genString n ∈ T) (U : List F) (hs : List (F × F))
    (adv : Ω → FullAdv F G1 G2) (m n : Nat) (hb : ∀ ω P v, (adv ω P v).Bound m n) :
    ∃ S₀ : Finset Query, ∀ S, S₀ ⊆ S → ∀ X : G1,
    let ids := hs.map (·.1)
    let K2 := hashedK2 h2
    let a := prob (fun x : (T → G1) × ((Ω × F × F × F) × (S → F) × (Fin n → ProofRand F)) =>
      PlayWins E enc (hashedParams E h2 T x.1) U [] hs (adv x.2.1.1) x.2.1.2.1 x.2.1.2.2.1 x.2.1.2.2.2
        (oracle S 0 x.2.2.1) (pad x.2.2.2))
    let a' := a - ((U.length : ℚ) + 2 + hs.length) / Nat.card F - n * (m + 1 + n) * (1 / (Nat.card F : ℚ) ^ 5)
    0 ≤ a' →
    a' * (a' / (m + 1) - 1 / Nat.card F) ≤
      prob (fun x : (Fin 3 → G1) × (Secrets Ω F × (Fin n → CredProof F G1)) × (S → F) × (S → F) =>
        SolvesAlpha E enc K2 U [] ids adv S x.1 x.2.1.1 x.2.1.2 x.2.2.1 x.2.2.2) +
      prob (fun x : (Fin 3 → G1) × (Secrets Ω F × (Fin n → CredProof F G1)) × (S → F) × (S → F) =>
        SolvesSign E enc K2 U [] ids adv S x.1 x.2.1.1 x.2.1.2 x.2.2.1 x.2.2.2) +
      prob (fun x : (Secrets Ω F × (Fin n → CredProof F G1)) × ((Fin 3 → F) × (Fin 3 → F)) × (S → F) × (S → F) =>
        logFromXYZ E enc K2 U [] ids adv S X x.1.1 x.1.2 x.2.1.1 x.2.1.2 x.2.2.1 x.2.2.2 • E.g1 = X) / (1 - 1 / Nat.card F) +
      prob (fun x : ((Ω × F × F × F) × (Fin n → CredProof F G1) × (Fin 3 → G1)) × ((Fin 2 → F) × (Fin 2 → F)) ×
          (S → F) × (S → F) =>
        logFromK E enc K2 U [] ids (adv x.1.1.1) S X x.1.1.2.1 x.1.1.2.2.1 x.1.1.2.2.2 x.1.2.1 x.1.2.2 x.2.1.1 x.2.1.2
          x.2.2.1 x.2.2.2 • E.g1 = X) / (1 - 1 / Nat.card F) := by
  obtain ⟨S₀, h⟩ := C105_unforgeable E enc he1 he2 he3 h2 hK T hT U [] hs adv m n hb
  refine ⟨S₀, fun S hS X => ?_⟩
  intro ids K2 a a' ha'
  have h' := h S hS X
  have e0 : prob (fun x : (Fin 3 → G1) × (Secrets Ω F × (Fin n → CredProof F G1)) × (S → F) × (S → F) =>
      GivesCredential E enc K2 U [] ids adv S x.1 x.2.1.1 x.2.1.2 x.2.2.1 x.2.2.2) = 0 :=
    prob_false_of (fun x hx => by simpa using hx.1)
  have e1 : a - ((U.length : ℚ) + 1 + ([] : List F).length + hs.length) / Nat.card F
      - n * (m + 1 + n) * (1 / (Nat.card F : ℚ) ^ 5) - 1 / Nat.card F = a' := by
    simp only [a', List.length_nil, Nat.cast_zero]
    ring
  simp only at h'
  rw [e1] at h'
  have h'' := h' ha'
  rw [e0] at h''
  simp only [List.length_nil, Nat.cast_zero, zero_div, zero_add, add_zero] at h''
  exact h''

end prob

/-! ### A concrete case -/

section
local instance : Fact (Nat.Prime 101) := ⟨by norm_num⟩

def enc101 : Enc (ZMod 101) (ZMod 101) (ZMod 101) :=
  let f : ZMod 101 → Bytes := fun x => [UInt8.ofNat x.val]
  ⟨f, f, f⟩

theorem enc101_inj : Function.Injective enc101.g1 := by decide +kernel

/-- Over the field with 101 elements, the corrupted user with id 1 has `a' ≥ 95/101`, and the sum of the probabilities is at
least `95/101 (95/404 - 1/101)`. -/
example (X : ZMod 101) : ∃ S : Finset Query,
    let E := Pairing.field (ZMod 101)
    let adv : Unit → FullAdv (ZMod 101) (ZMod 101) (ZMod 101) :=
      fun _ => corrupted E enc101 1 2 3 [1] ⟨1, 2, 3, 4, 5, 6, 0, 1, 2, 3, 4⟩
    let a := prob (fun z : (exStrings → ZMod 101) × ((Unit × ZMod 101 × ZMod 101 × ZMod 101) × (S → ZMod 101) ×
        (Fin 0 → ProofRand (ZMod 101))) =>
      PlayWins E enc101 (hashedParams E (fun _ _ => 1) exStrings z.1) [1] [1] [] (adv z.2.1.1) z.2.1.2.1 z.2.1.2.2.1
        z.2.1.2.2.2 (oracle S 0 z.2.2.1) (pad z.2.2.2))
    95 / 101 ≤ a - 4 / 101 ∧
    95 / 101 * (95 / 404 - 1 / 101) ≤
      prob (fun x : (Fin 3 → ZMod 101) × (Secrets Unit (ZMod 101) × (Fin 0 → CredProof (ZMod 101) (ZMod 101))) ×
          (S → ZMod 101) × (S → ZMod 101) =>
        GivesCredential E enc101 1 [1] [1] [] adv S x.1 x.2.1.1 x.2.1.2 x.2.2.1 x.2.2.2) +
      prob (fun x : (Fin 3 → ZMod 101) × (Secrets Unit (ZMod 101) × (Fin 0 → CredProof (ZMod 101) (ZMod 101))) ×
          (S → ZMod 101) × (S → ZMod 101) =>
        SolvesAlpha E enc101 1 [1] [1] [] adv S x.1 x.2.1.1 x.2.1.2 x.2.2.1 x.2.2.2) +
      prob (fun x : (Fin 3 → ZMod 101) × (Secrets Unit (ZMod 101) × (Fin 0 → CredProof (ZMod 101) (ZMod 101))) ×
          (S → ZMod 101) × (S → ZMod 101) =>
        SolvesSign E enc101 1 [1] [1] [] adv S x.1 x.2.1.1 x.2.1.2 x.2.2.1 x.2.2.2) +
      prob (fun x : (Secrets Unit (ZMod 101) × (Fin 0 → CredProof (ZMod 101) (ZMod 101))) ×
          ((Fin 3 → ZMod 101) × (Fin 3 → ZMod 101)) × (S → ZMod 101) × (S → ZMod 101) =>
        logFromXYZ E enc101 1 [1] [1] [] adv S X x.1.1 x.1.2 x.2.1.1 x.2.1.2 x.2.2.1 x.2.2.2 • E.g1 = X)
          / (1 - 1 / Nat.card (ZMod 101)) +
      prob (fun x : ((Unit × ZMod 101 × ZMod 101 × ZMod 101) × (Fin 0 → CredProof (ZMod 101) (ZMod 101)) ×
          (Fin 3 → ZMod 101)) × ((Fin 2 → ZMod 101) × (Fin 2 → ZMod 101)) × (S → ZMod 101) × (S → ZMod 101) =>
        logFromK E enc101 1 [1] [1] [] (adv x.1.1.1) S X x.1.1.2.1 x.1.1.2.2.1 x.1.1.2.2.2 x.1.2.1 x.1.2.2 x.2.1.1 x.2.1.2
          x.2.2.1 x.2.2.2 • E.g1 = X) / (1 - 1 / Nat.card (ZMod 101)) + 1 / 101 := by
  let E := Pairing.field (ZMod 101)
  have hK : hashedK2 (fun _ _ => (1 : ZMod 101)) ≠ 0 := by unfold hashedK2; decide
  obtain ⟨S, h⟩ := C105_unforgeable (Ω := Unit) E enc101 enc101_inj enc101_inj enc101_inj (fun _ _ => 1) hK exStrings
    exStrings_mem [1] [1] [] (fun _ => corrupted E enc101 1 2 3 [1] ⟨1, 2, 3, 4, 5, 6, 0, 1, 2, 3, 4⟩) 3 0
    (fun _ => corrupted_bound E enc101 1 2 3 [1] ⟨1, 2, 3, 4, 5, 6, 0, 1, 2, 3, 4⟩)
  have hc := (C105_corrupted E enc101 (fun _ _ => 1) hK exStrings 1 2 3 [1] ⟨1, 2, 3, 4, 5, 6, 0, 1, 2, 3, 4⟩ S).2
  have h := h S (Finset.Subset.refl S) X
  have hN : ((Nat.card (ZMod 101) : ℕ) : ℚ) = 101 := by rw [Nat.card_eq_fintype_card, ZMod.card]; norm_num
  refine ⟨S, ?_⟩
  intro E' adv a
  have ha : 99 / 101 ≤ a := by
    refine le_trans (le_of_eq ?_) hc
    rw [hN]; norm_num
  refine ⟨by linarith, ?_⟩
  simp only at h
  have e1 : a - (((([1] : List (ZMod 101)).length : ℚ) + 1 + ([1] : List (ZMod 101)).length
      + ([] : List (ZMod 101 × ZMod 101)).length) / Nat.card (ZMod 101))
      - ((0 : ℕ) : ℚ) * (((3 : ℕ) : ℚ) + 1 + ((0 : ℕ) : ℚ)) * (1 / (Nat.card (ZMod 101) : ℚ) ^ 5) - 1 / Nat.card (ZMod 101)
      = a - 4 / 101 := by
    rw [hN]; norm_num; ring
  have h := h (by rw [e1]; linarith)
  have hlast : ((([1] : List (ZMod 101)).length : ℕ) : ℚ) / Nat.card (ZMod 101) = 1 / 101 := by rw [hN]; norm_num
  rw [hlast, e1] at h
  refine le_trans ?_ h
  rw [hN]
  have : (95 : ℚ) / 101 ≤ a - 4 / 101 := by linarith
  push_cast
  have h2 : (95 : ℚ) / 404 - 1 / 101 ≤ (a - 4 / 101) / (3 + 1) - 1 / 101 := by linarith
  exact mul_le_mul this h2 (by norm_num) (by linarith)

end
end Allo
