import Verif.Lemmas.Simulation

/-!
# Simulation with a final query

Nothing here is about the crate. A program with access to a prover that makes one more query at the end, which none of the
proofs it got has made: it succeeds without the prover too, up to the simulation error.
-/

set_option linter.unusedSectionVars false
set_option linter.unusedVariables false
namespace Rom
variable {Q R C P W α : Type} [DecidableEq Q] [Fintype R] [Fintype W] [Fintype P] [Inhabited W] [Inhabited P]

/-- Averaging a bound. -/
theorem prob_avg_le {X Y Z : Type} [Fintype X] [Nonempty X] [Fintype Y] [Fintype Z] (A : X → Y → Prop) (B : X → Z → Prop)
    (δ : ℚ) (h : ∀ x, prob (A x) ≤ prob (B x) + δ) :
    prob (fun p : X × Y => A p.1 p.2) ≤ prob (fun p : X × Z => B p.1 p.2) + δ := by
  classical
  rw [prob_eq_avg, prob_eq_avg, avg_prod, avg_prod]
  calc _ ≤ avg (fun x => avg (fun z => if B x z then (1 : ℚ) else 0) + δ) := by
        refine avg_mono (fun x => ?_)
        have := h x
        rw [prob_eq_avg, prob_eq_avg] at this
        exact this
    _ = _ := by rw [← avg_add (fun x => avg (fun z => if B x z then (1 : ℚ) else 0)) (fun _ => δ), avg_const]

/-- The final query of a program is in the set of queries. -/
theorem simulate_target {pv : Prover Q R C P W} (S : Q → Prop) (target : α → Q) (O : Q → R) :
    ∀ (prog : ProverProg Q R C P α), (prog.andHash target).QueriesIn pv S → ∀ T ps l,
      S (target ((prog.simulate pv.query pv.challenge T ps l).eval O).1)
  | .done a, h, T, ps, l => h.1
  | .hash q k, h, T, ps, l => by
    unfold ProverProg.simulate
    cases T.lookup q with
    | some r => exact simulate_target S target O (k r) (h.2 r) T ps l
    | none => exact simulate_target S target O (k (O q)) (h.2 _) T ps l
  | .prove c k, h, T, ps, l => simulate_target S target O (k (ps 0)) (h.2 _) _ _ _

/-- A program that with the prover ends with an output that is `ok` for the hash of its `target`, where no proof it got has
made that query, ends so too without the prover. -/
theorem sim_fresh (r₀ : R) (S : Finset Q) (pv : Prover Q R C P W) (δ : ℚ) (hδ : 0 ≤ δ) (hs : pv.Simulatable δ)
    (prog : ProverProg Q R C P α) (m n : Nat) (hb : prog.Bound m n) (target : α → Q)
    (hS : (prog.andHash target).QueriesIn pv (· ∈ S)) (ok : α → R → Prop) :
    prob (fun x : (S → R) × (Fin n → W) =>
        let out := prog.real pv (oracle S r₀ x.1) (pad x.2) []
        ok out.1 (oracle S r₀ x.1 (target out.1)) ∧ ∀ z ∈ out.2, pv.query z.1 z.2 ≠ target out.1)
      ≤ prob (fun x : (S → R) × (Fin n → P) =>
        let out := (prog.simulate pv.query pv.challenge [] (pad x.2) []).eval (oracle S r₀ x.1)
        ok out.1 (oracle S r₀ x.1 (target out.1))) + n * (m + 1 + n) * δ := by
  have close := sim_close r₀ S pv δ hδ hs (fun _ : Unit => prog.andHash target) (m + 1) n
    (fun _ => hb.andHash _) (fun _ => hS)
    (fun y l => ok y.1 y.2 ∧ ∀ z ∈ l, pv.query z.1 z.2 ≠ target y.1)
  have hle := (abs_le.1 close).2
  have drop : ∀ {Y : Type} [Fintype Y] (p : Y → Prop), prob (fun x : Unit × Y => p x.2) = prob p := by
    intro Y _ p
    classical
    rw [prob_eq_avg, prob_eq_avg, avg_prod]
    exact avg_const (X := Unit) (avg (fun y => if p y then 1 else 0))
  rw [drop (fun x : (S → R) × (Fin n → W) =>
        let y := (prog.andHash target).real pv (oracle S r₀ x.1) (pad x.2) []
        ok y.1.1 y.1.2 ∧ ∀ z ∈ y.2, pv.query z.1 z.2 ≠ target y.1.1),
    drop (fun x : (S → R) × (Fin n → P) =>
        let y := ((prog.andHash target).simulate pv.query pv.challenge [] (pad x.2) []).eval (oracle S r₀ x.1)
        ok y.1.1 y.1.2 ∧ ∀ z ∈ y.2, pv.query z.1 z.2 ≠ target y.1.1)] at hle
  have e1 : prob (fun x : (S → R) × (Fin n → W) =>
        let out := prog.real pv (oracle S r₀ x.1) (pad x.2) []
        ok out.1 (oracle S r₀ x.1 (target out.1)) ∧ ∀ z ∈ out.2, pv.query z.1 z.2 ≠ target out.1)
      = prob (fun x : (S → R) × (Fin n → W) =>
        let y := (prog.andHash target).real pv (oracle S r₀ x.1) (pad x.2) []
        ok y.1.1 y.1.2 ∧ ∀ z ∈ y.2, pv.query z.1 z.2 ≠ target y.1.1) := by
    congr 1
    funext x
    simp only [ProverProg.real_andHash]
  have e2 : prob (fun x : (S → R) × (Fin n → P) =>
        let y := ((prog.andHash target).simulate pv.query pv.challenge [] (pad x.2) []).eval (oracle S r₀ x.1)
        ok y.1.1 y.1.2 ∧ ∀ z ∈ y.2, pv.query z.1 z.2 ≠ target y.1.1)
      ≤ prob (fun x : (S → R) × (Fin n → P) =>
        let out := (prog.simulate pv.query pv.challenge [] (pad x.2) []).eval (oracle S r₀ x.1)
        ok out.1 (oracle S r₀ x.1 (target out.1))) := by
    have mono : ∀ {Y : Type} [Fintype Y] {p p' : Y → Prop}, (∀ y, p y → p' y) → prob p ≤ prob p' := by
      intro Y _ p p' h
      classical
      rw [prob_eq_avg, prob_eq_avg]
      refine avg_mono (fun y => ?_)
      by_cases hp : p y
      · simp [hp, h y hp]
      · simp only [hp, if_false]; split <;> norm_num
    refine mono ?_
    rintro ⟨H, ps⟩ ⟨hx1, hx3⟩
    obtain ⟨s1, s2, s3⟩ := ProverProg.simulate_andHash pv (oracle S r₀ H) target prog [] (pad ps) [] (fun _ _ => rfl)
    simp only at hx1 hx3
    rw [s1] at hx1 hx3
    rw [s2] at hx3
    rw [s3 hx3] at hx1
    exact hx1
  rw [e1]
  push_cast at hle
  linarith

end Rom
