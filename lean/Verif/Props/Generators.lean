import Verif.Props.Rom
import Verif.Props.NonMalleable
import Verif.Props.Hashing
import Verif.Props.Full
import Mathlib.Algebra.BigOperators.Fin
import Mathlib.Tactic.IntervalCases

/-!
# C104: the hashed generators have no trapdoor

`AccParams::default` and `ProofParams::new` compute their points by hashing strings to the curve. Here that hash is a
uniformly random function `h` on a finite set `T` of (tag, message) pairs, and adversaries are given the whole table `h`
(more than the parameters). The exceptional cases "a linear relation between `X`, `Y` and `Z`" of C43, C70 and "the discrete
logarithm of the generator to the base `K`" of C50, C71 are then solutions of the discrete logarithm problem: a solver that
plays the hash function itself, with points `aᵢ g + bᵢ X`, finds the discrete logarithm of any given point `X`.
-/

set_option linter.unusedSectionVars false
set_option linter.unusedVariables false
namespace Allo
open Spec Rom

/-! ### Relations between random points -/

section
variable {F G1 G2 GT : Type} [Field F] [DecidableEq F] [Fintype F] [AddCommGroup G1] [Module F G1] [Fintype G1]
  [AddCommGroup G2] [Module F G2] [AddCommGroup GT] [Module F GT] [DecidableEq GT]
variable {Ω ι : Type} [Fintype Ω] [Nonempty Ω] [Fintype ι] [DecidableEq ι]

/-- A relation `c₀ g + Σ cᵢ Pᵢ = 0` in which some point `Pᵢ` occurs. -/
def PointRelation (g : G1) (pts : ι → G1) (c : F × (ι → F)) : Prop :=
  c.2 ≠ 0 ∧ c.1 • g + ∑ i, c.2 i • pts i = 0

/-- The points the solver hands out: `aᵢ g + bᵢ X`. -/
def maskedPoints (g X : G1) (a b : ι → F) : ι → G1 := fun i => a i • g + b i • X

/-- What the solver computes from a relation. -/
def logOf (a b : ι → F) (c : F × (ι → F)) : F := -(c.1 + ∑ i, c.2 i * a i) / ∑ i, c.2 i * b i

theorem logOf_spec (g X : G1) (a b : ι → F) (c : F × (ι → F)) (h : PointRelation g (maskedPoints g X a b) c)
    (hb : ∑ i, c.2 i * b i ≠ 0) : logOf a b c • g = X := by
  have h2 := h.2
  simp only [maskedPoints, smul_add, smul_smul, Finset.sum_add_distrib, ← Finset.sum_smul] at h2
  have : X = (∑ i, c.2 i * b i)⁻¹ • ((∑ i, c.2 i * b i) • X) := by rw [smul_smul, inv_mul_cancel₀ hb, one_smul]
  rw [this, show (∑ i, c.2 i * b i) • X = -(c.1 • g + (∑ i, c.2 i * a i) • g) by
    rw [eq_neg_iff_add_eq_zero, ← h2]; abel]
  unfold logOf
  rw [← add_smul, ← neg_smul, smul_smul]
  congr 1
  ring

/-- A random vector is not orthogonal to a given one. -/
theorem prob_orthogonal (c : ι → F) (hc : c ≠ 0) :
    avg (fun b : ι → F => if ∑ i, c i * b i ≠ 0 then (1 : ℚ) else 0) = 1 - 1 / Nat.card F := by
  obtain ⟨j, hj⟩ : ∃ j, c j ≠ 0 := by
    by_contra h; push Not at h; exact hc (funext h)
  rw [avg_update j]
  have : ∀ b : ι → F, avg (fun y : F => if ∑ i, c i * Function.update b j y i ≠ 0 then (1 : ℚ) else 0)
      = 1 - 1 / Nat.card F := by
    intro b
    have e : ∀ y, ∑ i, c i * Function.update b j y i = c j * y + ∑ i ∈ Finset.univ.erase j, c i * b i := by
      intro y
      rw [← Finset.add_sum_erase _ _ (Finset.mem_univ j), Function.update_self]
      congr 1
      refine Finset.sum_congr rfl (fun i hi => ?_)
      rw [Function.update_of_ne (Finset.ne_of_mem_erase hi)]
    simp only [e]
    set z : F := -(∑ i ∈ Finset.univ.erase j, c i * b i) / c j with hz
    have e2 : ∀ y : F, (if c j * y + ∑ i ∈ Finset.univ.erase j, c i * b i ≠ 0 then (1 : ℚ) else 0)
        = 1 - (if y = z then 1 else 0) := by
      intro y
      have : c j * y + ∑ i ∈ Finset.univ.erase j, c i * b i = 0 ↔ y = z := by
        rw [hz, eq_div_iff hj, eq_neg_iff_add_eq_zero, mul_comm]
      by_cases h : y = z
      · rw [if_neg (not_not.2 (this.2 h)), if_pos h, sub_self]
      · rw [if_pos (mt this.1 h), if_neg h, sub_zero]
    rw [avg_congr e2, ← avg_sub, avg_const]
    congr 1
    simp [avg, Nat.card_eq_fintype_card]
  rw [avg_comm, avg_congr this, avg_const]

theorem prob_scale (g : G1) (hg : ∀ P : G1, ∃ r : F, P = r • g) (hg0 : g ≠ 0) (off : ι → G1) (f : (ι → G1) → ℚ) :
    avg (fun a : ι → F => f (fun i => a i • g + off i)) = avg f := by
  refine avg_bij (fun (a : ι → F) i => a i • g + off i) ⟨?_, ?_⟩ f
  · intro a a' h
    funext i
    have := congrFun h i
    simp only [add_left_inj] at this
    by_contra hne
    have h0 : (a i - a' i) • g = 0 := by rw [sub_smul, this, sub_self]
    rcases smul_eq_zero.1 h0 with h | h
    · exact hne (sub_eq_zero.1 h)
    · exact hg0 h
  · intro P
    choose r hr using fun i => hg (P i - off i)
    exact ⟨r, funext fun i => by show r i • g + off i = P i; rw [← hr i, sub_add_cancel]⟩

/-- **C104** (discrete logarithms). Let a program `A`, given random points, find with probability `p` a relation between the
generator and the points. Then for every point `X` the solver, which runs `A` once on the points `aᵢ g + bᵢ X`, finds the
discrete logarithm of `X` with probability at least `p (1 - 1/|F|)`. -/
theorem C104_discrete_log (E : Pairing F G1 G2 GT) (A : Ω → (ι → G1) → F × (ι → F)) (X : G1) :
    prob (fun x : Ω × (ι → G1) => PointRelation E.g1 x.2 (A x.1 x.2)) * (1 - 1 / Nat.card F) ≤
      prob (fun x : Ω × (ι → F) × (ι → F) =>
        logOf x.2.1 x.2.2 (A x.1 (maskedPoints E.g1 X x.2.1 x.2.2)) • E.g1 = X) := by
  classical
  have step : prob (fun x : Ω × (ι → F) × (ι → F) =>
      PointRelation E.g1 (maskedPoints E.g1 X x.2.1 x.2.2) (A x.1 (maskedPoints E.g1 X x.2.1 x.2.2)) ∧
      ∑ i, (A x.1 (maskedPoints E.g1 X x.2.1 x.2.2)).2 i * x.2.2 i ≠ 0) ≤
      prob (fun x : Ω × (ι → F) × (ι → F) =>
        logOf x.2.1 x.2.2 (A x.1 (maskedPoints E.g1 X x.2.1 x.2.2)) • E.g1 = X) :=
    prob_mono (fun x h => logOf_spec _ _ _ _ _ h.1 h.2)
  refine le_trans (le_of_eq ?_) step
  rw [prob_eq_avg, prob_eq_avg, avg_prod, avg_prod]
  have inner : ∀ ω : Ω, avg (fun y : (ι → F) × (ι → F) =>
      if PointRelation E.g1 (maskedPoints E.g1 X y.1 y.2) (A ω (maskedPoints E.g1 X y.1 y.2)) ∧
        ∑ i, (A ω (maskedPoints E.g1 X y.1 y.2)).2 i * y.2 i ≠ 0 then (1 : ℚ) else 0)
      = avg (fun P : ι → G1 => if PointRelation E.g1 P (A ω P) then (1 : ℚ) else 0) * (1 - 1 / Nat.card F) := by
    intro ω
    rw [avg_prod, avg_comm]
    have h1 : ∀ b : ι → F, avg (fun a : ι → F =>
        if PointRelation E.g1 (maskedPoints E.g1 X a b) (A ω (maskedPoints E.g1 X a b)) ∧
          ∑ i, (A ω (maskedPoints E.g1 X a b)).2 i * b i ≠ 0 then (1 : ℚ) else 0)
        = avg (fun P : ι → G1 => if PointRelation E.g1 P (A ω P) ∧ ∑ i, (A ω P).2 i * b i ≠ 0 then (1 : ℚ) else 0) :=
      fun b => prob_scale E.g1 E.g1_gen E.g1_ne (fun i => b i • X)
        (fun P => if PointRelation E.g1 P (A ω P) ∧ ∑ i, (A ω P).2 i * b i ≠ 0 then (1 : ℚ) else 0)
    rw [avg_congr h1, avg_comm]
    have h2 : ∀ P : ι → G1, avg (fun b : ι → F =>
        if PointRelation E.g1 P (A ω P) ∧ ∑ i, (A ω P).2 i * b i ≠ 0 then (1 : ℚ) else 0)
        = (if PointRelation E.g1 P (A ω P) then (1 : ℚ) else 0) * (1 - 1 / Nat.card F) := by
      intro P
      by_cases h : PointRelation E.g1 P (A ω P)
      · simp only [h, true_and, if_true, one_mul]
        exact prob_orthogonal _ h.1
      · simp only [h, false_and, if_false, zero_mul, avg_const]
    rw [avg_congr h2]
    simp only [avg, ← Finset.sum_mul]
    ring
  trans avg (fun ω => avg (fun P : ι → G1 => if PointRelation E.g1 P (A ω P) then (1 : ℚ) else 0) * (1 - 1 / Nat.card F))
  · simp only [avg, ← Finset.sum_mul]
    ring
  · rw [← avg_congr inner]
    refine avg_congr fun x => avg_congr fun y => ?_
    congr

/-- A relation between three of the points. -/
def threePoints (i j k : ι) (r : F × F × F) : F × (ι → F) :=
  (0, fun l => (if l = i then r.1 else 0) + (if l = j then r.2.1 else 0) + (if l = k then r.2.2 else 0))

theorem threePoints_rel (g : G1) (pts : ι → G1) (i j k : ι) (hij : i ≠ j) (hik : i ≠ k) (hjk : j ≠ k) (r : F × F × F)
    (hr : r ≠ (0, 0, 0)) (h : r.1 • pts i + r.2.1 • pts j + r.2.2 • pts k = 0) :
    PointRelation g pts (threePoints i j k r) := by
  constructor
  · intro h0
    apply hr
    have e1 := congrFun h0 i
    have e2 := congrFun h0 j
    have e3 := congrFun h0 k
    simp only [threePoints, hij, hik, hjk, hij.symm, hik.symm, hjk.symm, if_true, if_false, add_zero, zero_add,
      Pi.zero_apply] at e1 e2 e3
    exact Prod.ext e1 (Prod.ext e2 e3)
  · rw [← h]
    simp only [threePoints, zero_smul, zero_add, add_smul, ite_smul, Finset.sum_add_distrib, Finset.sum_ite_eq',
      Finset.mem_univ, if_true]
end

/-! ### The parameters -/

section
variable {F G1 G2 GT : Type} [Field F] [DecidableEq F] [Fintype F] [AddCommGroup G1] [Module F G1] [Fintype G1]
  [AddCommGroup G2] [Module F G2] [AddCommGroup GT] [Module F GT] [DecidableEq GT]
variable {Ω : Type} [Fintype Ω] [Nonempty Ω]

/-- The (tag, message) pair hashed to `K₀` (`first = 255`), `K₁` (`254`), `X` (`252`), `Y` (`251`), `Z` (`250`); see
`C54_exact`. -/
def genString (first : UInt8) : Bytes × Bytes :=
  (ascii "BLS12381G1_XMD:SHA-256_SSWU_RO_", first :: List.replicate 31 255)

theorem genString_inj {a b : UInt8} (h : a ≠ b) : genString a ≠ genString b := by
  intro e
  exact h (List.cons.inj (Prod.mk.inj e).2).1

/-- `AccParams::default()` when the hash to `G1` is the table `h`. -/
def hashedParams (E : Pairing F G1 G2 GT) (h2 : Bytes → Bytes → G2) (T : Finset (Bytes × Bytes)) (h : T → G1) :
    AccParams G1 G2 :=
  AccParams.default (fun tag msg => oracle T 0 h (tag, msg)) h2 E.g1 E.g2

theorem hashedParams_eq (E : Pairing F G1 G2 GT) (h2 : Bytes → Bytes → G2) (T : Finset (Bytes × Bytes)) (h : T → G1) :
    (hashedParams E h2 T h).k0 = oracle T 0 h (genString 255) ∧ (hashedParams E h2 T h).k1 = oracle T 0 h (genString 254) ∧
    (hashedParams E h2 T h).x1 = oracle T 0 h (genString 252) ∧ (hashedParams E h2 T h).y1 = oracle T 0 h (genString 251) ∧
    (hashedParams E h2 T h).z1 = oracle T 0 h (genString 250) :=
  ⟨rfl, rfl, rfl, rfl, rfl⟩

/-- The forking argument of C70 for parameters that depend on the coins. -/
theorem knowledge_params (E : Pairing F G1 G2 GT) (enc : Enc G1 G2 GT) (h1 : Function.Injective enc.g1)
    (h2 : Function.Injective enc.g2) (h3 : Function.Injective enc.gt) (params : Ω → AccParams G1 G2)
    (adv : Ω → OracleProg Query F (Presentation F G1 G2)) (q : Nat) (hq : ∀ ω, (adv ω).QueryBound q)
    (S : Finset Query) (hS : ∀ ω (H : S → F), ((adv ω).eval (oracle S 0 H)).query E enc (params ω) ∈ S)
    (P : Ω → Presentation F G1 G2 → Prop) :
    let a := prob (fun x : Ω × (S → F) =>
      ((adv x.1).eval (oracle S 0 x.2)).accepted E (asHash (oracle S 0 x.2)) enc (params x.1) ∧
      P x.1 ((adv x.1).eval (oracle S 0 x.2)))
    a * (a / (q + 1) - 1 / Nat.card F) ≤ prob (fun x : Ω × (S → F) × (S → F) =>
      let out := (adv x.1).eval (oracle S 0 x.2.1)
      let out' := rerun S (adv x.1) (Presentation.query E enc (params x.1)) x.2.1 x.2.2
      P x.1 out ∧ P x.1 out' ∧ Extracts E (params x.1) out out') := by
  have fk := forking (0 : F) S adv q hq (fun ω x => x.query E enc (params ω)) hS
    (fun ω x c => c = x.proof.challenge ∧ P ω x)
  intro a
  have ha : a = prob (fun x : Ω × (S → F) => (oracle S 0 x.2)
      (((adv x.1).eval (oracle S 0 x.2)).query E enc (params x.1)) = ((adv x.1).eval (oracle S 0 x.2)).proof.challenge ∧
      P x.1 ((adv x.1).eval (oracle S 0 x.2))) := by
    simp only [a, Presentation.accepted, checkProof, decide_eq_true_eq]
    rfl
  rw [ha]
  refine le_trans fk (prob_mono ?_)
  rintro ⟨ω, H, G⟩ ⟨⟨e1, p1⟩, ⟨e2, p2⟩, e3, e4⟩
  obtain ⟨k1, k2, k3, hc⟩ := query_inj E enc h1 h2 h3 (params ω) _ _ e3
  refine ⟨p1, p2, C43_special_sound E (params ω) _ _ _ _ hc ?_⟩
  intro hcc
  apply e4
  rw [e3] at e2
  rw [e2, e1]
  exact hcc.symm

/-- An adversary against presentations, given its coins and the table of the hash to `G1`. -/
abbrev TableAdv (Ω F G1 G2 : Type) (T : Finset (Bytes × Bytes)) :=
  Ω → (T → G1) → OracleProg Query F (Presentation F G1 G2)

/-- The two outputs from which the extractor computes: of the first run, and of the second, in which the Fiat-Shamir hash is
changed from the query of the first output on. -/
def twoRuns (E : Pairing F G1 G2 GT) (enc : Enc G1 G2 GT) (h2 : Bytes → Bytes → G2) (T : Finset (Bytes × Bytes))
    (S : Finset Query) (adv : TableAdv Ω F G1 G2 T) (ω : Ω) (h : T → G1) (H G : S → F) :
    Presentation F G1 G2 × Presentation F G1 G2 :=
  ((adv ω h).eval (oracle S 0 H), rerun S (adv ω h) (Presentation.query E enc (hashedParams E h2 T h)) H G)

/-- The solver of the discrete logarithm problem for `X`: it runs the adversary twice on the table of the points
`aᵢ g + bᵢ X`, takes the differences of the responses as a relation between the points hashed to `X`, `Y`, `Z`, and solves
for the discrete logarithm. -/
def solveLog (E : Pairing F G1 G2 GT) (enc : Enc G1 G2 GT) (h2 : Bytes → Bytes → G2) (T : Finset (Bytes × Bytes))
    (hT : ∀ n : UInt8, 250 ≤ n → genString n ∈ T)
    (S : Finset Query) (adv : TableAdv Ω F G1 G2 T) (X : G1) (ω : Ω) (a b : T → F) (H G : S → F) : F :=
  let outs := twoRuns E enc h2 T S adv ω (maskedPoints E.g1 X a b) H G
  logOf a b (threePoints ⟨genString 252, hT 252 (by decide)⟩ ⟨genString 251, hT 251 (by decide)⟩
    ⟨genString 250, hT 250 (by decide)⟩ (extractRelation outs.1.proof outs.2.proof))

/-- The linear relations of C43 and C70, for the default parameters, are discrete logarithms. -/
theorem relation_log (E : Pairing F G1 G2 GT) (enc : Enc G1 G2 GT) (h2 : Bytes → Bytes → G2) (T : Finset (Bytes × Bytes))
    (hT : ∀ n : UInt8, 250 ≤ n → genString n ∈ T)
    (S : Finset Query) (adv : TableAdv Ω F G1 G2 T) (X : G1) :
    prob (fun x : (Ω × (T → G1)) × (S → F) × (S → F) =>
      let outs := twoRuns E enc h2 T S adv x.1.1 x.1.2 x.2.1 x.2.2
      IsRelation (hashedParams E h2 T x.1.2) (extractRelation outs.1.proof outs.2.proof)) * (1 - 1 / Nat.card F) ≤
    prob (fun x : Ω × ((T → F) × (T → F)) × (S → F) × (S → F) =>
      solveLog E enc h2 T hT S adv X x.1 x.2.1.1 x.2.1.2 x.2.2.1 x.2.2.2 • E.g1 = X) := by
  have main := C104_discrete_log (ι := T) (Ω := Ω × (S → F) × (S → F)) E (fun ω h =>
    let outs := twoRuns E enc h2 T S adv ω.1 h ω.2.1 ω.2.2
    threePoints ⟨genString 252, hT 252 (by decide)⟩ ⟨genString 251, hT 251 (by decide)⟩
      ⟨genString 250, hT 250 (by decide)⟩ (extractRelation outs.1.proof outs.2.proof)) X
  let e1 : (Ω × (T → G1)) × (S → F) × (S → F) ≃ (Ω × (S → F) × (S → F)) × (T → G1) :=
    ⟨fun x => ((x.1.1, x.2), x.1.2), fun x => ((x.1.1, x.2), x.1.2), fun _ => rfl, fun _ => rfl⟩
  let e2 : Ω × ((T → F) × (T → F)) × (S → F) × (S → F) ≃ (Ω × (S → F) × (S → F)) × (T → F) × (T → F) :=
    ⟨fun x => ((x.1, x.2.2), x.2.1), fun x => (x.1.1, x.2, x.1.2), fun _ => rfl, fun _ => rfl⟩
  rw [← prob_equiv e1, ← prob_equiv e2] at main
  refine le_trans (mul_le_mul_of_nonneg_right (prob_mono ?_) ?_) main
  · rintro ⟨⟨ω, h⟩, H, G⟩ hr
    refine threePoints_rel _ _ _ _ _ ?_ ?_ ?_ _ hr.1 ?_
    · exact fun e => genString_inj (by decide) (Subtype.mk.inj e)
    · exact fun e => genString_inj (by decide) (Subtype.mk.inj e)
    · exact fun e => genString_inj (by decide) (Subtype.mk.inj e)
    · have := hr.2
      obtain ⟨-, -, ex, ey, ez⟩ := hashedParams_eq E h2 T h
      rw [ex, ey, ez] at this
      simp only [oracle, hT 252 (by decide), hT 251 (by decide), hT 250 (by decide), dif_pos] at this
      exact this
  · have : (1 : ℚ) ≤ Nat.card F := by
      rw [Nat.card_eq_fintype_card]; exact_mod_cast Fintype.card_pos
    have : 1 / (Nat.card F : ℚ) ≤ 1 := by rw [div_le_one (by linarith)]; exact this
    linarith

/-- **C104** (presentations). The hash to `G1` is a random function of which the adversary knows the whole table. If it makes,
with probability `a` and at most `q` Fiat-Shamir hash queries, presentations that are accepted under `AccParams::default()`
and satisfy `P`, then `a (a/(q+1) - 1/|F|) (1 - 1/|F|)` is at most the probability that the extractor computes an id and a
credential which pass `Witness::verify` for the accumulator and keys of the adversary's presentation, plus the probability that
the solver finds the discrete logarithm of a given point `X`. Nothing is assumed about the generators. -/
theorem C104_presentations (E : Pairing F G1 G2 GT) (enc : Enc G1 G2 GT) (he1 : Function.Injective enc.g1)
    (he2 : Function.Injective enc.g2) (he3 : Function.Injective enc.gt) (h2 : Bytes → Bytes → G2)
    (T : Finset (Bytes × Bytes)) (hT : ∀ n : UInt8, 250 ≤ n → genString n ∈ T)
    (adv : TableAdv Ω F G1 G2 T) (q : Nat) (hq : ∀ ω h, (adv ω h).QueryBound q) (S : Finset Query)
    (hS : ∀ ω h (H : S → F), ((adv ω h).eval (oracle S 0 H)).query E enc (hashedParams E h2 T h) ∈ S)
    (P : AccParams G1 G2 → Presentation F G1 G2 → Prop) (X : G1) :
    let a := prob (fun x : (Ω × (T → G1)) × (S → F) =>
      let params := hashedParams E h2 T x.1.2
      let out := (adv x.1.1 x.1.2).eval (oracle S 0 x.2)
      out.accepted E (asHash (oracle S 0 x.2)) enc params ∧ P params out)
    a * (a / (q + 1) - 1 / Nat.card F) * (1 - 1 / Nat.card F) ≤
      prob (fun x : (Ω × (T → G1)) × (S → F) × (S → F) =>
        let params := hashedParams E h2 T x.1.2
        let outs := twoRuns E enc h2 T S adv x.1.1 x.1.2 x.2.1 x.2.2
        P params outs.1 ∧ credVerify E outs.1.accumulator outs.1.keys params (extractId outs.1.proof outs.2.proof)
          (extractWitness params outs.1.proof outs.2.proof) = .ok ()) +
      prob (fun x : Ω × ((T → F) × (T → F)) × (S → F) × (S → F) =>
        solveLog E enc h2 T hT S adv X x.1 x.2.1.1 x.2.1.2 x.2.2.1 x.2.2.2 • E.g1 = X) := by
  intro a
  have kn := knowledge_params (Ω := Ω × (T → G1)) E enc he1 he2 he3 (fun ω => hashedParams E h2 T ω.2)
    (fun ω => adv ω.1 ω.2) q (fun ω => hq _ _) S (fun ω => hS _ _) (fun ω => P (hashedParams E h2 T ω.2))
  have hN : (1 : ℚ) ≤ Nat.card F := by
    rw [Nat.card_eq_fintype_card]; exact_mod_cast Fintype.card_pos
  have h1N : 0 ≤ 1 / (Nat.card F : ℚ) := by positivity
  have hN1 : 0 ≤ 1 - 1 / (Nat.card F : ℚ) := by
    have : 1 / (Nat.card F : ℚ) ≤ 1 := by rw [div_le_one (by linarith)]; exact hN
    linarith
  refine le_trans (mul_le_mul_of_nonneg_right kn hN1) ?_
  refine le_trans (mul_le_mul_of_nonneg_right (prob_le_add (B := fun x : (Ω × (T → G1)) × (S → F) × (S → F) =>
        let params := hashedParams E h2 T x.1.2
        let outs := twoRuns E enc h2 T S adv x.1.1 x.1.2 x.2.1 x.2.2
        P params outs.1 ∧ credVerify E outs.1.accumulator outs.1.keys params (extractId outs.1.proof outs.2.proof)
          (extractWitness params outs.1.proof outs.2.proof) = .ok ())
      (C := fun x : (Ω × (T → G1)) × (S → F) × (S → F) =>
        let outs := twoRuns E enc h2 T S adv x.1.1 x.1.2 x.2.1 x.2.2
        IsRelation (hashedParams E h2 T x.1.2) (extractRelation outs.1.proof outs.2.proof)) ?_) hN1) ?_
  · rintro ⟨⟨ω, h⟩, H, G⟩ ⟨p1, p2, hx | hx⟩
    · exact .inl ⟨p1, hx⟩
    · exact .inr hx
  · rw [add_mul]
    refine add_le_add ?_ (relation_log E enc h2 T hT S adv X)
    refine mul_le_of_le_one_right ?_ (by linarith)
    unfold prob; positivity

/-- **C104** (revoked users). For every `add`/`delete` history `ops` there are public coefficients such that for all secrets:
if an adversary, which knows the whole table of the hash to `G1` and the state of the server, makes with probability `a` and
at most `q` hash queries presentations that are accepted under `AccParams::default()` for the current accumulator and keys,
then `a (a/(q+1) - 1/|F|) (1 - 1/|F|)` is at most the sum of the probabilities that

* the extractor computes a credential of a current member that passes `Witness::verify`,
* it computes a solution `(y+α)⁻¹ B` of the SDH problem,
* the solver computes the discrete logarithm of a given point `X`.

(The server does not depend on the table: it uses the generators and `K₂` only, see the last hypothesis before `∀ V`.) -/
theorem C104_revocation [DecidableEq G1] (ops : List (Server.Op F)) (hops : ∀ op ∈ ops, op.isQuick = false) :
    ∃ (quo : F → List F) (r : F → F), (∀ y, (quo y).length ≤ ops.countP isAdd + 1) ∧
      ∀ (E : Pairing F G1 G2 GT) (enc : Enc G1 G2 GT) (he1 : Function.Injective enc.g1)
        (he2 : Function.Injective enc.g2) (he3 : Function.Injective enc.gt) (h2 : Bytes → Bytes → G2)
        (T : Finset (Bytes × Bytes)) (hT : ∀ n : UInt8, 250 ≤ n → genString n ∈ T) (α sM v : F) (s : Server F G1 G2),
        v ≠ 0 → (∀ h : T → G1, (hashedParams E h2 T h).k2 ≠ 0) →
        (∀ h : T → G1, (Server.new (hashedParams E h2 T h) α sM v).run ops = .ok s) →
        ∃ B : G1, B ≠ 0 ∧ ∀ V, s.getAccumulator = .ok V →
        ∀ (adv : TableAdv Ω F G1 G2 T) (q : Nat) (hq : ∀ ω h, (adv ω h).QueryBound q) (S : Finset Query)
          (hS : ∀ ω h (H : S → F), ((adv ω h).eval (oracle S 0 H)).query E enc (hashedParams E h2 T h) ∈ S) (X : G1),
        let a := prob (fun x : (Ω × (T → G1)) × (S → F) =>
          let out := (adv x.1.1 x.1.2).eval (oracle S 0 x.2)
          out.accepted E (asHash (oracle S 0 x.2)) enc (hashedParams E h2 T x.1.2) ∧ out.accumulator = V ∧
            out.keys = s.getPublicKeys)
        a * (a / (q + 1) - 1 / Nat.card F) * (1 - 1 / Nat.card F) ≤
          prob (fun x : (Ω × (T → G1)) × (S → F) × (S → F) =>
            let params := hashedParams E h2 T x.1.2
            let outs := twoRuns E enc h2 T S adv x.1.1 x.1.2 x.2.1 x.2.2
            let y := extractId outs.1.proof outs.2.proof
            y ∈ (regRun ops).members ∧ credVerify E V s.getPublicKeys params y
              (extractWitness params outs.1.proof outs.2.proof) = .ok ()) +
          prob (fun x : (Ω × (T → G1)) × (S → F) × (S → F) =>
            let outs := twoRuns E enc h2 T S adv x.1.1 x.1.2 x.2.1 x.2.2
            let y := extractId outs.1.proof outs.2.proof
            let w := extractWitness (hashedParams E h2 T x.1.2) outs.1.proof outs.2.proof
            (y + α) • ((r y)⁻¹ • (w.witness - fromPowers α B (quo y))) = B) +
          prob (fun x : Ω × ((T → F) × (T → F)) × (S → F) × (S → F) =>
            solveLog E enc h2 T hT S adv X x.1 x.2.1.1 x.2.1.2 x.2.2.1 x.2.2.2 • E.g1 = X) := by
  obtain ⟨accC, witC, quo, r, -, -, hquo, -, main⟩ :=
    revocation_base (F := F) (G1 := G1) (G2 := G2) (GT := GT) ops hops
  refine ⟨quo, r, hquo, ?_⟩
  intro E enc he1 he2 he3 h2 T hT α sM v s hv hk hs
  refine ⟨revBase E.g1 ops α v, (main _ α sM v s (hs (fun _ => 0))).1 (smul_ne_zero hv E.g1_ne), ?_⟩
  intro V hV adv q hq S hS X a
  have pres := C104_presentations E enc he1 he2 he3 h2 T hT adv q hq S hS
    (fun _ out => out.accumulator = V ∧ out.keys = s.getPublicKeys) X
  refine le_trans pres ?_
  refine add_le_add_left (prob_le_add ?_) _
  rintro ⟨⟨ω, h⟩, H, G⟩ ⟨⟨pV, pk⟩, hx⟩
  rw [pV, pk] at hx
  by_cases hm : extractId (twoRuns E enc h2 T S adv ω h H G).1.proof (twoRuns E enc h2 T S adv ω h H G).2.proof
      ∈ (regRun ops).members
  · exact .inl ⟨hm, hx⟩
  · exact .inr ((main _ α sM v s (hs h)).2.2 E E.g2_ne (hk h) V hV _ hm _ hx)

/-- **C104** (`K₀` and `K₁`). The exceptional case of C61 and C70, a secret key `x` with `K₀ = -x K₁`, is a discrete
logarithm as well: a program which is given the whole table and finds such an `x` with probability `p` gives a solver that
finds the discrete logarithm of any given point with probability at least `p (1 - 1/|F|)`. -/
theorem C104_key_relation (E : Pairing F G1 G2 GT) (h2 : Bytes → Bytes → G2)
    (T : Finset (Bytes × Bytes)) (hT : ∀ n : UInt8, 250 ≤ n → genString n ∈ T) (A : Ω → (T → G1) → F) :
    ∃ rel : F → F × (T → F), ∀ X : G1,
    prob (fun x : Ω × (T → G1) =>
      (hashedParams E h2 T x.2).k0 = (-(A x.1 x.2)) • (hashedParams E h2 T x.2).k1) * (1 - 1 / Nat.card F) ≤
    prob (fun x : Ω × (T → F) × (T → F) =>
      logOf x.2.1 x.2.2 (rel (A x.1 (maskedPoints E.g1 X x.2.1 x.2.2))) • E.g1 = X) := by
  let i : T := ⟨genString 255, hT 255 (by decide)⟩
  let j : T := ⟨genString 254, hT 254 (by decide)⟩
  let k : T := ⟨genString 250, hT 250 (by decide)⟩
  refine ⟨fun x => threePoints i j k (1, x, 0), fun X => ?_⟩
  refine le_trans (mul_le_mul_of_nonneg_right (prob_mono ?_) ?_)
    (C104_discrete_log E (fun ω h => threePoints i j k (1, A ω h, 0)) X)
  · rintro ⟨ω, h⟩ hr
    refine threePoints_rel _ _ _ _ _ ?_ ?_ ?_ _ ?_ ?_
    · exact fun e => genString_inj (by decide) (Subtype.mk.inj e)
    · exact fun e => genString_inj (by decide) (Subtype.mk.inj e)
    · exact fun e => genString_inj (by decide) (Subtype.mk.inj e)
    · exact fun e => one_ne_zero (Prod.mk.inj e).1
    · obtain ⟨e0, e1, -, -, -⟩ := hashedParams_eq E h2 T h
      rw [e0, e1] at hr
      simp only [oracle, hT 255 (by decide), hT 254 (by decide), dif_pos] at hr
      simp only [one_smul, zero_smul, add_zero]
      show h i + A ω h • h j = 0
      rw [show h i = -A ω h • h j from hr, neg_smul, neg_add_cancel]
  · have : (1 : ℚ) ≤ Nat.card F := by
      rw [Nat.card_eq_fintype_card]; exact_mod_cast Fintype.card_pos
    have : 1 / (Nat.card F : ℚ) ≤ 1 := by rw [div_le_one (by linarith)]; exact this
    linarith

/-! ### The distribution of the parameters -/

/-- The values of a random function at different places are independent and uniform. -/
theorem avg_restrict {X Y κ : Type} [Fintype X] [DecidableEq X] [Fintype Y] [Nonempty Y] [Fintype κ] [DecidableEq κ]
    (e : κ → X) (he : Function.Injective e) (f : (κ → Y) → ℚ) :
    avg (fun h : X → Y => f (fun i => h (e i))) = avg f := by
  classical
  let e1 := Equiv.piEquivPiSubtypeProd (fun x => x ∈ Set.range e) (fun _ : X => Y)
  let e2 : κ ≃ {x // x ∈ Set.range e} := Equiv.ofInjective e he
  have h1 := avg_bij e1 e1.bijective
    (fun y : ({x // x ∈ Set.range e} → Y) × ({x // x ∉ Set.range e} → Y) => f (fun i => y.1 (e2 i)))
  have h2 := avg_bij (fun g : {x // x ∈ Set.range e} → Y => fun i => g (e2 i))
    (Equiv.arrowCongr e2.symm (Equiv.refl Y)).bijective f
  rw [avg_prod] at h1
  simp only [avg_const] at h1
  exact h1.trans h2

theorem prob_restrict {X Y κ : Type} [Fintype X] [DecidableEq X] [Fintype Y] [Nonempty Y] [Fintype κ] [DecidableEq κ]
    (e : κ → X) (he : Function.Injective e) (Q : (κ → Y) → Prop) :
    prob (fun h : X → Y => Q (fun i => h (e i))) = prob Q := by
  rw [prob_eq_avg, prob_eq_avg]
  exact avg_restrict e he (fun p => by classical exact if Q p then 1 else 0)

/-- The point `K₂` of the default parameters. -/
def hashedK2 (h2 : Bytes → Bytes → G2) : G2 :=
  h2 (ascii "BLS12381G2_XMD:SHA-256_SSWU_RO_") (253 :: List.replicate 31 255)

theorem hashed_uniform (E : Pairing F G1 G2 GT) (h2 : Bytes → Bytes → G2)
    (T : Finset (Bytes × Bytes)) (hT : ∀ n : UInt8, 250 ≤ n → genString n ∈ T) (Q : AccParams G1 G2 → Prop) :
      prob (fun h : T → G1 => Q (hashedParams E h2 T h)) =
      prob (fun p : Fin 5 → G1 => Q { p1 := E.g1, p2 := E.g2, k2 := hashedK2 h2,
                                      k0 := p 0, k1 := p 1, x1 := p 2, y1 := p 3, z1 := p 4 }) := by
  let e : Fin 5 → T := fun i => match i with
    | 0 => ⟨genString 255, hT 255 (by decide)⟩
    | 1 => ⟨genString 254, hT 254 (by decide)⟩
    | 2 => ⟨genString 252, hT 252 (by decide)⟩
    | 3 => ⟨genString 251, hT 251 (by decide)⟩
    | 4 => ⟨genString 250, hT 250 (by decide)⟩
  have he : Function.Injective e := by
    intro i j h
    have h' := Subtype.mk.inj h
    have h2 : ∀ a b : UInt8, genString a = genString b → a = b := fun a b h => by
      by_contra hne; exact genString_inj hne h
    fin_cases i <;> fin_cases j <;> first | rfl | (exact absurd (h2 _ _ h') (by decide))
  rw [← prob_restrict e he]
  congr 1
  funext h
  have : hashedParams E h2 T h = ⟨E.g1, E.g2, h (e 0), h (e 1),
      hashedK2 h2, h (e 2), h (e 3), h (e 4)⟩ := by
    have ho : ∀ i, oracle T 0 h (e i).1 = h (e i) := fun i => dif_pos (e i).2
    rw [← ho 0, ← ho 1, ← ho 2, ← ho 3, ← ho 4]
    rfl
  rw [this]

/-- **C104** (distribution). The five hashed points of `AccParams::default()` are independent and uniformly distributed,
and the other three do not depend on the hash to `G1`. -/
theorem C104_uniform (E : Pairing F G1 G2 GT) (h2 : Bytes → Bytes → G2)
    (T : Finset (Bytes × Bytes)) (hT : ∀ n : UInt8, 250 ≤ n → genString n ∈ T) :
    ∃ K2 : G2, ∀ Q : AccParams G1 G2 → Prop,
      prob (fun h : T → G1 => Q (hashedParams E h2 T h)) =
      prob (fun p : Fin 5 → G1 => Q { p1 := E.g1, p2 := E.g2, k2 := K2,
                                      k0 := p 0, k1 := p 1, x1 := p 2, y1 := p 3, z1 := p 4 }) :=
  ⟨hashedK2 h2, hashed_uniform E h2 T hT⟩

/-! ### Proofs about the Vitto-Biryukov accumulator -/

/-- The (tag, message) pair hashed to `Z` (`first = 255`), `Y` (`254`), `X` (`253`), `K` (`252`) of the proof parameters for a
public key and entropy; see `C54_exact`. -/
def proofString (pk : Bytes) (entropy : Option Bytes) (first : UInt8) : Bytes × Bytes :=
  (ascii "BLS12381G1_XMD:SHA256_SSWU_RO_VB_ACCUMULATOR:1_0_0", first :: (List.replicate 31 255 ++ entropy.getD [] ++ pk))

theorem proofString_inj {pk : Bytes} {entropy : Option Bytes} {a b : UInt8} (h : a ≠ b) :
    proofString pk entropy a ≠ proofString pk entropy b := by
  intro e
  exact h (List.cons.inj (Prod.mk.inj e).2).1

/-- `ProofParams::new(pk, entropy)` when the hash to `G1` is the table `h`. -/
def hashedProofParams (T : Finset (Bytes × Bytes)) (pk : Bytes) (entropy : Option Bytes) (h : T → G1) : ProofParams G1 :=
  ProofParams.new (fun tag msg => oracle T 0 h (tag, msg)) pk entropy

theorem hashedProofParams_eq (T : Finset (Bytes × Bytes)) (pk : Bytes) (entropy : Option Bytes) (h : T → G1) :
    (hashedProofParams T pk entropy h).x = oracle T 0 h (proofString pk entropy 253) ∧
    (hashedProofParams T pk entropy h).y = oracle T 0 h (proofString pk entropy 254) ∧
    (hashedProofParams T pk entropy h).z = oracle T 0 h (proofString pk entropy 255) ∧
    (hashedProofParams T pk entropy h).k = oracle T 0 h (proofString pk entropy 252) :=
  ⟨rfl, rfl, rfl, rfl⟩

/-- A random point is the identity with probability `1/|F|`. -/
theorem prob_point_zero (E : Pairing F G1 G2 GT) {κ : Type} [Fintype κ] [DecidableEq κ] (i : κ) :
    prob (fun h : κ → G1 => h i = 0) = 1 / (Nat.card F : ℚ) := by
  have h1 := prob_restrict (Y := G1) (fun _ : Unit => i) (fun _ _ _ => rfl) (fun p => p () = 0)
  rw [h1]
  let e : F ≃ (Unit → G1) := Equiv.ofBijective (fun a _ => a • E.g1) ⟨by
    intro a b hab
    have := congrFun hab ()
    by_contra hne
    have h0 : (a - b) • E.g1 = 0 := by rw [sub_smul, sub_eq_zero]; exact this
    rcases smul_eq_zero.1 h0 with h | h
    · exact hne (sub_eq_zero.1 h)
    · exact E.g1_ne h, fun P => by
    obtain ⟨r, hr⟩ := E.g1_gen (P ())
    exact ⟨r, funext fun _ => hr.symm⟩⟩
  rw [← prob_equiv e, ← prob_eq_zero (F := F)]
  congr 1
  funext a
  show (a • E.g1 = 0) = (a = 0)
  rw [smul_eq_zero, or_iff_left E.g1_ne]

/-- **C104** (proof parameters). The points `X`, `Y` of the proof parameters are not the identity (which is what C47 and C71
need), except with probability `2/|F|`. -/
theorem C104_proof_params_good (E : Pairing F G1 G2 GT) (T : Finset (Bytes × Bytes)) (pk : Bytes) (entropy : Option Bytes)
    (hT : ∀ n : UInt8, 252 ≤ n → proofString pk entropy n ∈ T) :
    prob (fun h : T → G1 => (hashedProofParams T pk entropy h).x = 0 ∨ (hashedProofParams T pk entropy h).y = 0)
      ≤ 2 / Nat.card F := by
  have h1 := prob_point_zero E (κ := T) ⟨_, hT 253 (by decide)⟩
  have h2 := prob_point_zero E (κ := T) ⟨_, hT 254 (by decide)⟩
  have : (2 : ℚ) / Nat.card F = 1 / Nat.card F + 1 / Nat.card F := by ring
  rw [this]
  nth_rewrite 1 [← h1]
  rw [← h2]
  refine prob_le_add (fun h hh => ?_)
  obtain ⟨ex, ey, -, -⟩ := hashedProofParams_eq T pk entropy h
  rw [ex, ey] at hh
  simpa only [oracle, hT 253 (by decide), hT 254 (by decide), dif_pos] using hh

theorem fork_mono {a p R : ℚ} (m : Nat) (ha : 0 ≤ a) (hle : a ≤ p) (hR : 0 ≤ R)
    (h : p * (p / (m + 1) - 1 / Nat.card F) ≤ R) : a * (a / (m + 1) - 1 / Nat.card F) ≤ R := by
  by_cases hneg : a / (m + 1) - 1 / (Nat.card F : ℚ) ≤ 0
  · exact le_trans (mul_nonpos_of_nonneg_of_nonpos ha hneg) hR
  · refine le_trans (mul_le_mul hle ?_ (le_of_not_ge hneg) (le_trans ha hle)) h
    have : a / (m + 1) ≤ p / (m + 1) := by gcongr
    linarith

theorem prob_nonneg {X : Type} (p : X → Prop) : 0 ≤ prob p := by unfold prob; positivity

/-- **C104** (membership proofs). The hash to `G1` is a random function of which the adversary knows the whole table. If it
shows accepted membership proofs satisfying `P` with probability `a`, then for `a' = a - 2/|F|`, if not negative, with probability at
least `a' (a'/(q+1) - 1/|F|)` the extractor computes an element and a witness that pass `MembershipWitness::verify`. -/
theorem C104_membership {I : Type} (E : Pairing F G1 G2 GT) (enc : Enc G1 G2 GT) (he1 : Function.Injective enc.g1)
    (he3 : Function.Injective enc.gt) (T : Finset (Bytes × Bytes)) (pk : Bytes) (entropy : Option Bytes)
    (hT : ∀ n : UInt8, 252 ≤ n → proofString pk entropy n ∈ T)
    (app : App I G1 G2) (hb : app.Binds) (label : String)
    (adv : Ω → (T → G1) → OracleProg Query F (Shown (MemProof F G1) F I)) (q : Nat) (hq : ∀ ω h, (adv ω h).QueryBound q)
    (S : Finset Query) (hS : ∀ ω h (H : S → F),
      memQuery E enc (hashedProofParams T pk entropy h) app label ((adv ω h).eval (oracle S 0 H)) ∈ S)
    (P : Shown (MemProof F G1) F I → Prop) :
    let a := prob (fun x : (Ω × (T → G1)) × (S → F) =>
      let out := (adv x.1.1 x.1.2).eval (oracle S 0 x.2)
      memAccepts E (asHash (oracle S 0 x.2)) enc out.proof (app.acc out.info) (hashedProofParams T pk entropy x.1.2)
        (app.key out.info) out.challenge (app.pre out.info) label ∧ P out)
    let a' := a - 2 / Nat.card F
    0 ≤ a' →
    a' * (a' / (q + 1) - 1 / Nat.card F) ≤ prob (fun x : (Ω × (T → G1)) × (S → F) × (S → F) =>
      let params := hashedProofParams T pk entropy x.1.2
      let out := (adv x.1.1 x.1.2).eval (oracle S 0 x.2.1)
      let out' := rerun S (adv x.1.1 x.1.2) (memQuery E enc params app label) x.2.1 x.2.2
      P out ∧ P out' ∧
      mwVerify E (out.proof.extractWitness params out'.proof out.challenge out'.challenge)
        (out.proof.extractElement out'.proof out.challenge out'.challenge) (app.key out.info) (app.acc out.info)
        = true) := by
  intro a a' ha'
  have fk := forking (0 : F) S (fun ω : Ω × (T → G1) => adv ω.1 ω.2) q (fun ω => hq _ _)
    (fun ω => memQuery E enc (hashedProofParams T pk entropy ω.2) app label) (fun ω => hS _ _)
    (fun ω x c => (c = x.challenge ∧ P x) ∧
      (hashedProofParams T pk entropy ω.2).x ≠ 0 ∧ (hashedProofParams T pk entropy ω.2).y ≠ 0)
  refine fork_mono q ha' ?_ (prob_nonneg _) (le_trans fk (prob_mono ?_))
  · have hbad : prob (fun x : (Ω × (T → G1)) × (S → F) => (hashedProofParams T pk entropy x.1.2).x = 0 ∨
        (hashedProofParams T pk entropy x.1.2).y = 0) ≤ 2 / Nat.card F := by
      rw [prob_fst (Y := S → F) (fun x : Ω × (T → G1) => (hashedProofParams T pk entropy x.2).x = 0 ∨
        (hashedProofParams T pk entropy x.2).y = 0), prob_snd (X := Ω) (fun h : T → G1 =>
          (hashedProofParams T pk entropy h).x = 0 ∨ (hashedProofParams T pk entropy h).y = 0)]
      exact C104_proof_params_good E T pk entropy hT
    have : a ≤ _ + _ := prob_le_add (B := fun x : (Ω × (T → G1)) × (S → F) =>
        let out := (adv x.1.1 x.1.2).eval (oracle S 0 x.2)
        (oracle S 0 x.2 (memQuery E enc (hashedProofParams T pk entropy x.1.2) app label out) = out.challenge ∧ P out) ∧
        (hashedProofParams T pk entropy x.1.2).x ≠ 0 ∧ (hashedProofParams T pk entropy x.1.2).y ≠ 0) (fun x hx => by
      by_cases h : (hashedProofParams T pk entropy x.1.2).x = 0 ∨ (hashedProofParams T pk entropy x.1.2).y = 0
      · exact .inr h
      · exact .inl ⟨hx, not_or.1 h⟩)
    simp only [a'] at *
    linarith
  rintro ⟨⟨ω, h⟩, H, G⟩ ⟨⟨⟨e1, p1⟩, hx, hy⟩, ⟨⟨e2, p2⟩, -⟩, e3, e4⟩
  have e3' := (Prod.mk.inj e3).1
  obtain ⟨ht, hf⟩ := MemFinal.bytes_inj' enc he1 he3 _ _ _ _ e3'
  obtain ⟨hV, hk⟩ := hb _ _ ht
  rw [hV, hk] at hf
  refine ⟨p1, p2, C47_special_sound E _ hx hy _ _ _ _ _ _ ?_ hf.symm⟩
  intro hcc
  apply e4
  rw [e3] at e2
  rw [e2, e1]
  exact hcc.symm

/-- The solver of the discrete logarithm problem for `X`: it runs the adversary twice on the table of the points
`aᵢ g + bᵢ X`; the quotient `s` of the differences of the responses for `w` gives the relation `g - s K = 0`. -/
def solveLogNon {I : Type} (E : Pairing F G1 G2 GT) (enc : Enc G1 G2 GT) (T : Finset (Bytes × Bytes)) (pk : Bytes)
    (entropy : Option Bytes) (hT : ∀ n : UInt8, 252 ≤ n → proofString pk entropy n ∈ T) (app : App I G1 G2) (label : String)
    (S : Finset Query) (adv : Ω → (T → G1) → OracleProg Query F (Shown (NonProof F G1) F I)) (X : G1) (ω : Ω) (a b : T → F)
    (H G : S → F) : F :=
  let h := maskedPoints E.g1 X a b
  let out := (adv ω h).eval (oracle S 0 H)
  let out' := rerun S (adv ω h) (nonQuery E enc (hashedProofParams T pk entropy h) app label) H G
  logOf a b (1, fun l => if l = ⟨proofString pk entropy 252, hT 252 (by decide)⟩ then
    -quot out.proof.sW out'.proof.sW out.challenge out'.challenge else 0)

/-- **C104** (non-membership proofs). The same for non-membership proofs: `a' (a'/(q+1) - 1/|F|) (1 - 1/|F|)` is at most
the probability that the extracted element and witness pass `NonMembershipWitness::verify` with `d ≠ 0`, plus the probability
that the solver finds the discrete logarithm of a given point `X`. -/
theorem C104_nonmembership {I : Type} (E : Pairing F G1 G2 GT) (enc : Enc G1 G2 GT) (he1 : Function.Injective enc.g1)
    (he3 : Function.Injective enc.gt) (T : Finset (Bytes × Bytes)) (pk : Bytes) (entropy : Option Bytes)
    (hT : ∀ n : UInt8, 252 ≤ n → proofString pk entropy n ∈ T)
    (app : App I G1 G2) (hb : app.Binds) (label : String)
    (adv : Ω → (T → G1) → OracleProg Query F (Shown (NonProof F G1) F I)) (q : Nat) (hq : ∀ ω h, (adv ω h).QueryBound q)
    (S : Finset Query) (hS : ∀ ω h (H : S → F),
      nonQuery E enc (hashedProofParams T pk entropy h) app label ((adv ω h).eval (oracle S 0 H)) ∈ S)
    (P : Shown (NonProof F G1) F I → Prop) (X : G1) :
    let a := prob (fun x : (Ω × (T → G1)) × (S → F) =>
      let out := (adv x.1.1 x.1.2).eval (oracle S 0 x.2)
      nonAccepts E (asHash (oracle S 0 x.2)) enc out.proof (app.acc out.info) (hashedProofParams T pk entropy x.1.2)
        (app.key out.info) out.challenge (app.pre out.info) label ∧ P out)
    let a' := a - 2 / Nat.card F
    0 ≤ a' →
    a' * (a' / (q + 1) - 1 / Nat.card F) * (1 - 1 / Nat.card F) ≤
      prob (fun x : (Ω × (T → G1)) × (S → F) × (S → F) =>
        let params := hashedProofParams T pk entropy x.1.2
        let out := (adv x.1.1 x.1.2).eval (oracle S 0 x.2.1)
        let out' := rerun S (adv x.1.1 x.1.2) (nonQuery E enc params app label) x.2.1 x.2.2
        let w := out.proof.extractWitness params out'.proof out.challenge out'.challenge
        P out ∧ P out' ∧ nmwVerify E w (out.proof.extractElement out'.proof out.challenge out'.challenge)
          (app.key out.info) (app.acc out.info) = true ∧ w.d ≠ 0) +
      prob (fun x : Ω × ((T → F) × (T → F)) × (S → F) × (S → F) =>
        solveLogNon E enc T pk entropy hT app label S adv X x.1 x.2.1.1 x.2.1.2 x.2.2.1 x.2.2.2 • E.g1 = X) := by
  intro a a' ha'
  have hN : (1 : ℚ) ≤ Nat.card F := by
    rw [Nat.card_eq_fintype_card]; exact_mod_cast Fintype.card_pos
  have h1N : 0 ≤ 1 / (Nat.card F : ℚ) := by positivity
  have hN1 : 0 ≤ 1 - 1 / (Nat.card F : ℚ) := by
    have : 1 / (Nat.card F : ℚ) ≤ 1 := by rw [div_le_one (by linarith)]; exact hN
    linarith
  have fk := forking (0 : F) S (fun ω : Ω × (T → G1) => adv ω.1 ω.2) q (fun ω => hq _ _)
    (fun ω => nonQuery E enc (hashedProofParams T pk entropy ω.2) app label) (fun ω => hS _ _)
    (fun ω x c => (c = x.challenge ∧ P x) ∧
      (hashedProofParams T pk entropy ω.2).x ≠ 0 ∧ (hashedProofParams T pk entropy ω.2).y ≠ 0)
  let Good : (Ω × (T → G1)) × (S → F) × (S → F) → Prop := fun x =>
        let params := hashedProofParams T pk entropy x.1.2
        let out := (adv x.1.1 x.1.2).eval (oracle S 0 x.2.1)
        let out' := rerun S (adv x.1.1 x.1.2) (nonQuery E enc params app label) x.2.1 x.2.2
        let w := out.proof.extractWitness params out'.proof out.challenge out'.challenge
        P out ∧ P out' ∧ nmwVerify E w (out.proof.extractElement out'.proof out.challenge out'.challenge)
          (app.key out.info) (app.acc out.info) = true ∧ w.d ≠ 0
  let Log : (Ω × (T → G1)) × (S → F) × (S → F) → Prop := fun x =>
        let params := hashedProofParams T pk entropy x.1.2
        let out := (adv x.1.1 x.1.2).eval (oracle S 0 x.2.1)
        let out' := rerun S (adv x.1.1 x.1.2) (nonQuery E enc params app label) x.2.1 x.2.2
        E.g1 = quot out.proof.sW out'.proof.sW out.challenge out'.challenge • params.k
  have key : a' * (a' / (q + 1) - 1 / Nat.card F) ≤ prob Good + prob Log := by
    refine fork_mono q ha' ?_ (add_nonneg (prob_nonneg _) (prob_nonneg _)) (le_trans fk (prob_le_add ?_))
    · have hbad : prob (fun x : (Ω × (T → G1)) × (S → F) => (hashedProofParams T pk entropy x.1.2).x = 0 ∨
          (hashedProofParams T pk entropy x.1.2).y = 0) ≤ 2 / Nat.card F := by
        rw [prob_fst (Y := S → F) (fun x : Ω × (T → G1) => (hashedProofParams T pk entropy x.2).x = 0 ∨
          (hashedProofParams T pk entropy x.2).y = 0), prob_snd (X := Ω) (fun h : T → G1 =>
            (hashedProofParams T pk entropy h).x = 0 ∨ (hashedProofParams T pk entropy h).y = 0)]
        exact C104_proof_params_good E T pk entropy hT
      have : a ≤ _ + _ := prob_le_add (B := fun x : (Ω × (T → G1)) × (S → F) =>
          let out := (adv x.1.1 x.1.2).eval (oracle S 0 x.2)
          (oracle S 0 x.2 (nonQuery E enc (hashedProofParams T pk entropy x.1.2) app label out) = out.challenge ∧ P out) ∧
          (hashedProofParams T pk entropy x.1.2).x ≠ 0 ∧ (hashedProofParams T pk entropy x.1.2).y ≠ 0) (fun x hx => by
        by_cases h : (hashedProofParams T pk entropy x.1.2).x = 0 ∨ (hashedProofParams T pk entropy x.1.2).y = 0
        · exact .inr h
        · exact .inl ⟨hx, not_or.1 h⟩)
      simp only [a'] at *
      linarith
    rintro ⟨⟨ω, h⟩, H, G⟩ ⟨⟨⟨e1, p1⟩, hx, hy⟩, ⟨⟨e2, p2⟩, -⟩, e3, e4⟩
    have e3' := (Prod.mk.inj e3).1
    obtain ⟨ht, hf⟩ := NonFinal.bytes_inj' enc he1 he3 _ _ _ _ e3'
    obtain ⟨hV, hk⟩ := hb _ _ ht
    rw [hV, hk] at hf
    obtain ⟨hv, hd⟩ := C50_special_sound E _ hx hy _ _ _ _ _ _ (fun hcc => by
      apply e4
      rw [e3] at e2
      rw [e2, e1]
      exact hcc.symm) hf.symm
    rcases hd with hd | hd
    · exact .inl ⟨p1, p2, hv, hd⟩
    · exact .inr hd
  refine le_trans (mul_le_mul_of_nonneg_right key hN1) ?_
  rw [add_mul]
  refine add_le_add (mul_le_of_le_one_right (prob_nonneg _) (by linarith)) ?_
  let k : T := ⟨proofString pk entropy 252, hT 252 (by decide)⟩
  have main := C104_discrete_log (ι := T) (Ω := Ω × (S → F) × (S → F)) E (fun ω h =>
    let out := (adv ω.1 h).eval (oracle S 0 ω.2.1)
    let out' := rerun S (adv ω.1 h) (nonQuery E enc (hashedProofParams T pk entropy h) app label) ω.2.1 ω.2.2
    (1, fun l => if l = k then -quot out.proof.sW out'.proof.sW out.challenge out'.challenge else 0)) X
  let e1 : (Ω × (T → G1)) × (S → F) × (S → F) ≃ (Ω × (S → F) × (S → F)) × (T → G1) :=
    ⟨fun x => ((x.1.1, x.2), x.1.2), fun x => ((x.1.1, x.2), x.1.2), fun _ => rfl, fun _ => rfl⟩
  let e2 : Ω × ((T → F) × (T → F)) × (S → F) × (S → F) ≃ (Ω × (S → F) × (S → F)) × (T → F) × (T → F) :=
    ⟨fun x => ((x.1, x.2.2), x.2.1), fun x => (x.1.1, x.2, x.1.2), fun _ => rfl, fun _ => rfl⟩
  rw [← prob_equiv e1, ← prob_equiv e2] at main
  refine le_trans (mul_le_mul_of_nonneg_right (prob_mono ?_) hN1) main
  rintro ⟨⟨ω, h⟩, H, G⟩ hr
  have hr' : E.g1 = quot ((adv ω h).eval (oracle S 0 H)).proof.sW
      (rerun S (adv ω h) (nonQuery E enc (hashedProofParams T pk entropy h) app label) H G).proof.sW
      ((adv ω h).eval (oracle S 0 H)).challenge
      (rerun S (adv ω h) (nonQuery E enc (hashedProofParams T pk entropy h) app label) H G).challenge • h k := by
    have e := (hashedProofParams_eq T pk entropy h).2.2.2
    simp only [oracle, hT 252 (by decide), dif_pos] at e
    exact e ▸ hr
  refine ⟨fun h0 => ?_, ?_⟩
  · have := congrFun h0 k
    simp only [if_true, Pi.zero_apply, neg_eq_zero] at this
    apply E.g1_ne
    rw [hr']
    exact smul_eq_zero_of_left this _
  · simp only [one_smul, ite_smul, zero_smul, Finset.sum_ite_eq', Finset.mem_univ, if_true]
    rw [neg_smul]
    exact add_neg_eq_zero.2 hr'

/-! ### The hypotheses can be met -/

/-- **C104** (the set of queries). There is a finite set of queries that contains all the adversary and the verifier can ask,
for all tables. -/
theorem C104_query_set {α Ω' : Type} [Fintype Ω'] (adv : Ω' → OracleProg Query F α) (q : Nat)
    (hq : ∀ ω, (adv ω).QueryBound q) (query : Ω' → α → Query) :
    ∃ S : Finset Query, ∀ ω, (adv ω).QueriesIn (· ∈ S) ∧ ∀ O : Query → F, query ω ((adv ω).eval O) ∈ S := by
  classical
  choose S h1 h2 using fun ω => C70_query_set (Ω := Unit) (F := F) (fun _ => adv ω) q (fun _ => hq ω) (query ω)
  have mono : ∀ (S T : Finset Query), S ⊆ T → ∀ p : OracleProg Query F α,
      p.QueriesIn (· ∈ S) → p.QueriesIn (· ∈ T) := by
    intro S T hST p
    induction p with
    | done a => intro _; trivial
    | ask q k ih => rintro ⟨h1, h2⟩; exact ⟨hST h1, fun r => ih r (h2 r)⟩
  have hsub : ∀ ω, S ω ⊆ Finset.univ.biUnion S := fun ω x hx => Finset.mem_biUnion.2 ⟨ω, Finset.mem_univ ω, hx⟩
  exact ⟨Finset.univ.biUnion S, fun ω => ⟨mono _ _ (hsub ω) _ (h1 ω ()), fun O => hsub ω (h2 ω () O)⟩⟩

/-- **C104** is not empty: somebody who has a valid credential under the parameters of every table is an adversary with
`a = 1` and one query. -/
theorem C104_honest (E : Pairing F G1 G2 GT) (enc : Enc G1 G2 GT) (he1 : Function.Injective enc.g1)
    (he2 : Function.Injective enc.g2) (he3 : Function.Injective enc.gt) (h2 : Bytes → Bytes → G2)
    (T : Finset (Bytes × Bytes)) (hT : ∀ n : UInt8, 250 ≤ n → genString n ∈ T)
    (keys : PublicKeys G2) (V : G1) (eph : Bytes) (y : F) (w : (T → G1) → Witness F G1)
    (hv : ∀ h, credVerify E V keys (hashedParams E h2 T h) y (w h) = .ok ()) (rand : ProofRand F) (X : G1) :
    let adv : TableAdv Unit F G1 G2 T := fun _ h =>
      honestProver E enc (hashedParams E h2 T h) keys V eph y (w h) rand
    (∀ ω h, (adv ω h).QueryBound 1) ∧
    ∃ S : Finset Query, (∀ ω h (H : S → F), ((adv ω h).eval (oracle S 0 H)).query E enc (hashedParams E h2 T h) ∈ S) ∧
      prob (fun x : (Unit × (T → G1)) × (S → F) =>
        ((adv x.1.1 x.1.2).eval (oracle S 0 x.2)).accepted E (asHash (oracle S 0 x.2)) enc
          (hashedParams E h2 T x.1.2)) = 1 ∧
      (1 / 2 - 1 / (Nat.card F : ℚ)) * (1 - 1 / Nat.card F) ≤
        prob (fun x : (Unit × (T → G1)) × (S → F) × (S → F) =>
          let params := hashedParams E h2 T x.1.2
          let outs := twoRuns E enc h2 T S adv x.1.1 x.1.2 x.2.1 x.2.2
          credVerify E outs.1.accumulator outs.1.keys params (extractId outs.1.proof outs.2.proof)
            (extractWitness params outs.1.proof outs.2.proof) = .ok ()) +
        prob (fun x : Unit × ((T → F) × (T → F)) × (S → F) × (S → F) =>
          solveLog E enc h2 T hT S adv X x.1 x.2.1.1 x.2.1.2 x.2.2.1 x.2.2.2 • E.g1 = X) := by
  intro adv
  have hb : ∀ ω h, (adv ω h).QueryBound 1 := fun _ _ _ => trivial
  obtain ⟨S, hS⟩ := C104_query_set (Ω' := Unit × (T → G1)) (fun ω => adv ω.1 ω.2) 1 (fun ω => hb ω.1 ω.2)
    (fun ω => Presentation.query E enc (hashedParams E h2 T ω.2))
  have hone : prob (fun x : (Unit × (T → G1)) × (S → F) =>
        ((adv x.1.1 x.1.2).eval (oracle S 0 x.2)).accepted E (asHash (oracle S 0 x.2)) enc
          (hashedParams E h2 T x.1.2)) = 1 := by
    refine prob_one (fun x => ?_)
    exact (C42_complete E (asHash (oracle S 0 x.2)) enc (w x.1.2) y V (hashedParams E h2 T x.1.2) keys eph rand).2 _
      (honestProver_eval E enc _ keys V eph y (w x.1.2) rand (hv _) (oracle S 0 x.2)).symm
  refine ⟨hb, S, fun ω h H => (hS (ω, h)).2 _, hone, ?_⟩
  have k := C104_presentations E enc he1 he2 he3 h2 T hT adv 1 hb S (fun ω h H => (hS (ω, h)).2 _) (fun _ _ => True) X
  simp only [and_true, true_and] at k
  rw [hone] at k
  refine le_trans (le_of_eq ?_) k
  norm_num

end

/-! ### Concrete cases over a field with 7 elements -/

section
local instance : Fact (Nat.Prime 7) := ⟨by norm_num⟩

/-- Two random points `P₀`, `P₁` and a program that finds the relation `-P₀ g + P₀ = 0`: the solver finds logarithms with
probability at least `6/7`. -/
example (X : ZMod 7) : 6 / 7 ≤ prob (fun x : Unit × (Fin 2 → ZMod 7) × (Fin 2 → ZMod 7) =>
    logOf x.2.1 x.2.2 (-(maskedPoints 1 X x.2.1 x.2.2 0), fun i => if i = 0 then 1 else 0) • (1 : ZMod 7) = X) := by
  have h := C104_discrete_log (Ω := Unit) (Pairing.field (ZMod 7))
    (fun _ (P : Fin 2 → ZMod 7) => (-(P 0), fun i => if i = 0 then 1 else 0)) X
  rw [prob_one] at h
  · refine le_trans (le_of_eq ?_) h
    rw [Nat.card_eq_fintype_card, ZMod.card]; norm_num
  · rintro ⟨-, P⟩
    refine ⟨fun h => ?_, ?_⟩
    · exact one_ne_zero (α := ZMod 7) (congrFun h 0)
    · show -(P 0) • (1 : ZMod 7) + _ = 0
      rw [Fin.sum_univ_succ]; simp

/-- The six strings. -/
def exStrings : Finset (Bytes × Bytes) := [250, 251, 252, 253, 254, 255].toFinset.image genString

theorem exStrings_mem : ∀ n : UInt8, 250 ≤ n → genString n ∈ exStrings := by
  intro n hn
  refine Finset.mem_image_of_mem _ ?_
  have h1 : 250 ≤ n.toNat := hn
  have h2 : n.toNat < 256 := n.toNat_lt
  have h3 : n = UInt8.ofNat n.toNat := (UInt8.ofNat_toNat).symm
  rw [h3]
  generalize n.toNat = k at h1 h2
  interval_cases k <;> decide

/-- The owner of the id `1` with secret key `1`, whose credential for the accumulator `2` and keys with secrets `1, 1` is
`2/(1+1)` and `(K₁ + K₀)/(1+1)`. -/
example (X : ZMod 7) : ∃ S : Finset Query, 15 / 49 ≤
    prob (fun x : (Unit × (exStrings → ZMod 7)) × (S → ZMod 7) × (S → ZMod 7) =>
      let E := Pairing.field (ZMod 7)
      let params := hashedParams E (fun _ _ => 1) exStrings x.1.2
      let outs := twoRuns E enc7 (fun _ _ => 1) exStrings S (fun _ h =>
        let params := hashedParams E (fun _ _ => 1) exStrings h
        honestProver E enc7 params ⟨1, 1⟩ 2 [] 1 ⟨1, 1, (params.k1 + params.k0) / 2⟩ ⟨1, 2, 3, 4, 5, 6, 0, 1, 2, 3, 4⟩)
        x.1.1 x.1.2 x.2.1 x.2.2
      credVerify E outs.1.accumulator outs.1.keys params (extractId outs.1.proof outs.2.proof)
        (extractWitness params outs.1.proof outs.2.proof) = .ok ()) +
    prob (fun x : Unit × ((exStrings → ZMod 7) × (exStrings → ZMod 7)) × (S → ZMod 7) × (S → ZMod 7) =>
      let E := Pairing.field (ZMod 7)
      solveLog E enc7 (fun _ _ => 1) exStrings exStrings_mem S (fun _ h =>
        let params := hashedParams E (fun _ _ => 1) exStrings h
        honestProver E enc7 params ⟨1, 1⟩ 2 [] 1 ⟨1, 1, (params.k1 + params.k0) / 2⟩ ⟨1, 2, 3, 4, 5, 6, 0, 1, 2, 3, 4⟩)
        X x.1 x.2.1.1 x.2.1.2 x.2.2.1 x.2.2.2 • E.g1 = X) := by
  obtain ⟨-, S, -, -, h⟩ := C104_honest (Pairing.field (ZMod 7)) enc7 enc7_inj enc7_inj enc7_inj (fun _ _ => 1) exStrings
    exStrings_mem ⟨1, 1⟩ 2 [] 1
    (fun h => ⟨1, 1, ((hashedParams (Pairing.field (ZMod 7)) (fun _ _ => 1) exStrings h).k1 +
      (hashedParams (Pairing.field (ZMod 7)) (fun _ _ => 1) exStrings h).k0) / 2⟩)
    (fun h => by
      refine (credVerify_iff (Pairing.field (ZMod 7)) (hashedParams (Pairing.field (ZMod 7)) (fun _ _ => 1) exStrings h)
        (show (1 : ZMod 7) ≠ 0 by decide) (show (1 : ZMod 7) ≠ 0 by decide) 1 1 2 1 _).2 ⟨?_, ?_⟩
      · show (1 + 1 : ZMod 7) • (1 : ZMod 7) = 2
        decide
      · simp only [smul_eq_mul, one_mul]
        rw [show (1 + 1 : ZMod 7) = 2 by decide]
        exact mul_div_cancel₀ _ (by decide)) ⟨1, 2, 3, 4, 5, 6, 0, 1, 2, 3, 4⟩ X
  refine ⟨S, le_trans (le_of_eq ?_) h⟩
  rw [Nat.card_eq_fintype_card, ZMod.card]; norm_num

end
end Allo
