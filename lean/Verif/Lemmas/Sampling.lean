import Verif.Lemmas.Simulation

/-!
# Almost uniform samples

Nothing here is about the crate. `φ : B → R` makes values in `R` from uniform bytes in `B`. If every value is about
equally likely then `φ` can replace uniform values in `R`: in one sample, in several, and in the answers
of a random oracle that a program asks a bounded number of times.
-/

set_option linter.unusedSectionVars false
set_option linter.unusedVariables false
set_option linter.unusedSimpArgs false
namespace Rom
open Classical

variable {B R : Type} [Fintype B] [Fintype R]

/-- Averages of functions with values in `[0, 1]` change by at most `ε`. -/
def Near (φ : B → R) (ε : ℚ) : Prop :=
  ∀ g : R → ℚ, (∀ r, 0 ≤ g r ∧ g r ≤ 1) → |avg (fun b => g (φ b)) - avg g| ≤ ε

theorem avg_comp (φ : B → R) (g : R → ℚ) :
    avg (fun b => g (φ b)) = ∑ r, prob (fun b => φ b = r) * g r := by
  unfold avg prob
  rw [← Finset.sum_fiberwise Finset.univ φ (fun b => g (φ b)), Finset.sum_div]
  refine Finset.sum_congr rfl (fun r _ => ?_)
  rw [Finset.sum_congr rfl (g := fun _ => g r) (fun b hb => by rw [(Finset.mem_filter.1 hb).2]), Finset.sum_const,
    nsmul_eq_mul, Nat.card_eq_fintype_card, Nat.card_eq_fintype_card, Fintype.card_subtype]
  ring

theorem near_of_prob (φ : B → R) (δ : ℚ) (h : ∀ r, |prob (fun b => φ b = r) - 1 / Fintype.card R| ≤ δ) :
    Near φ (Fintype.card R * δ) := by
  intro g hg
  rw [avg_comp]
  have e : avg g = ∑ r, 1 / (Fintype.card R : ℚ) * g r := by
    unfold avg
    rw [← Finset.mul_sum]
    ring
  rw [e, ← Finset.sum_sub_distrib]
  refine le_trans (Finset.abs_sum_le_sum_abs _ _) ?_
  have : ∀ r ∈ Finset.univ, |prob (fun b => φ b = r) * g r - 1 / (Fintype.card R : ℚ) * g r| ≤ δ := by
    intro r _
    rw [← sub_mul, abs_mul, abs_of_nonneg (hg r).1]
    exact le_trans (mul_le_of_le_one_right (abs_nonneg _) (hg r).2) (h r)
  refine le_trans (Finset.sum_le_sum this) ?_
  rw [Finset.sum_const, nsmul_eq_mul, Finset.card_univ]

/-- Several independent samples. -/
theorem near_pi [Nonempty R] [Nonempty B] (φ : B → R) (ε : ℚ) (h : Near φ ε) (n : Nat) :
    Near (fun (v : Fin n → B) i => φ (v i)) (n * ε) := by
  induction n with
  | zero =>
    intro g hg
    have e : ∀ v : Fin 0 → B, (fun i => φ (v i)) = (default : Fin 0 → R) := fun v => Subsingleton.elim _ _
    have e' : ∀ v : Fin 0 → R, g v = g default := fun v => by rw [Subsingleton.elim v default]
    simp only [e]
    rw [avg_congr e', avg_const, avg_const]
    simp
  | succ n ih =>
    intro g hg
    have hε : 0 ≤ ε := le_trans (abs_nonneg _) (h (fun _ => 0) (fun _ => by norm_num))
    rw [avg_cons, avg_cons]
    set k : R → ℚ := fun r => avg (fun v : Fin n → R => g (Fin.cons r v)) with hk
    have hk01 : ∀ r, 0 ≤ k r ∧ k r ≤ 1 := fun r =>
      ⟨avg_nonneg (fun v => (hg _).1), avg_le_one (fun v => (hg _).2)⟩
    have h1 : |avg (fun b => avg (fun v : Fin n → B => g (fun i => φ ((Fin.cons b v : Fin (n + 1) → B) i))))
        - avg (fun b => k (φ b))| ≤ n * ε := by
      rw [avg_sub]
      refine le_trans (abs_avg_le _) (le_trans (avg_mono (g := fun _ => n * ε) (fun b => ?_)) (avg_const _).le)
      have := ih (fun v => g (Fin.cons (φ b) v)) (fun v => hg _)
      refine le_trans (le_of_eq ?_) this
      congr 2
      refine avg_congr (fun v => ?_)
      congr 1
      funext i
      refine Fin.cases ?_ (fun j => ?_) i <;> simp
    refine le_trans (abs_sub_le _ (avg (fun b => k (φ b))) _) (le_trans (add_le_add h1 (h k hk01)) (le_of_eq ?_))
    push_cast
    ring

/-! ### Oracles -/

variable {Q α : Type} [DecidableEq Q]

/-- Mean payoff with an oracle that answers new queries with `φ` of uniform bytes. -/
def lazyV (φ : B → R) (f : α → ℚ) : (T : List (Q × R)) → OracleProg Q R α → ℚ
  | _, .done a => f a
  | T, .ask q k =>
    match T.lookup q with
    | some r => lazyV φ f T (k r)
    | none => avg (fun b => lazyV φ f ((q, φ b) :: T) (k (φ b)))

theorem lazyV_mem [Nonempty B] (φ : B → R) (f : α → ℚ) (hf : ∀ a, 0 ≤ f a ∧ f a ≤ 1) :
    ∀ (prog : OracleProg Q R α) (T : List (Q × R)), 0 ≤ lazyV φ f T prog ∧ lazyV φ f T prog ≤ 1 := by
  intro prog
  induction prog with
  | done a => intro T; exact hf a
  | ask q k ih =>
    intro T
    simp only [lazyV]
    cases T.lookup q with
    | some r => exact ih r T
    | none => exact ⟨avg_nonneg (fun b => (ih _ _).1), avg_le_one (fun b => (ih _ _).2)⟩

theorem lazy_eager [Nonempty B] (r₀ : R) (S : Finset Q) (φ : B → R) (f : α → ℚ) :
    ∀ (prog : OracleProg Q R α), prog.QueriesIn (· ∈ S) → ∀ (T : List (Q × R)),
      avg (fun H : S → B => f (prog.eval (overlay T (oracle S r₀ (fun s => φ (H s)))))) = lazyV φ f T prog := by
  intro prog
  induction prog with
  | done a =>
    intro _ T
    simp only [OracleProg.eval, lazyV, avg_const]
  | ask q k ih =>
    intro hS T
    simp only [OracleProg.eval, lazyV]
    cases hT : T.lookup q with
    | some r =>
      simp only [overlay_some T q r hT]
      exact ih r (hS.2 r) T
    | none =>
      rw [avg_update ⟨q, hS.1⟩]
      refine avg_congr (fun b => ?_)
      have e : ∀ H : S → B, (fun s => φ (Function.update H ⟨q, hS.1⟩ b s))
          = Function.update (fun s => φ (H s)) ⟨q, hS.1⟩ (φ b) := by
        intro H
        funext s
        by_cases hs : s = ⟨q, hS.1⟩
        · subst hs; simp
        · simp [Function.update_apply, hs]
      simp only [e, overlay_update r₀ T q hS.1 hT, overlay_new (S := S) r₀]
      exact ih (φ b) (hS.2 _) _

theorem lazy_near [Nonempty B] [Nonempty R] (φ : B → R) (ε : ℚ) (h : Near φ ε) (f : α → ℚ)
    (hf : ∀ a, 0 ≤ f a ∧ f a ≤ 1) :
    ∀ (prog : OracleProg Q R α) (n : Nat), prog.QueryBound n → ∀ (T : List (Q × R)),
      |lazyV φ f T prog - lazyV (id : R → R) f T prog| ≤ n * ε := by
  have hε : 0 ≤ ε := le_trans (abs_nonneg _) (h (fun _ => 0) (fun _ => by norm_num))
  intro prog
  induction prog with
  | done a =>
    intro n _ T
    simp only [lazyV, sub_self, abs_zero]
    positivity
  | ask q k ih =>
    intro n hb T
    cases n with
    | zero => exact absurd hb id
    | succ n =>
    simp only [lazyV]
    cases T.lookup q with
    | some r =>
      refine le_trans (ih r n (hb r) T) ?_
      push_cast
      nlinarith
    | none =>
      simp only [id]
      set g : R → ℚ := fun r => lazyV (id : R → R) f ((q, r) :: T) (k r) with hg
      have h1 : |avg (fun b => lazyV φ f ((q, φ b) :: T) (k (φ b))) - avg (fun b => g (φ b))| ≤ n * ε := by
        rw [avg_sub]
        refine le_trans (abs_avg_le _) (le_trans (avg_mono (g := fun _ => n * ε) (fun b => ?_)) (avg_const _).le)
        exact ih (φ b) n (hb _) _
      have h2 := h g (fun r => lazyV_mem _ f hf _ _)
      refine le_trans (abs_sub_le _ (avg (fun b => g (φ b))) _) (le_trans (add_le_add h1 h2) (le_of_eq ?_))
      push_cast
      ring

/-- A program that asks an oracle at most `n` times: its output has almost the same distribution whether the answers
are uniform or are `φ` of uniform bytes. -/
theorem oracle_near {Ω : Type} [Fintype Ω] [Nonempty Ω] [Nonempty B] (r₀ : R) (S : Finset Q) (φ : B → R) (ε : ℚ)
    (h : Near φ ε) (adv : Ω → OracleProg Q R α) (n : Nat) (hb : ∀ ω, (adv ω).QueryBound n)
    (hS : ∀ ω, (adv ω).QueriesIn (· ∈ S)) (ev : Ω → α → Prop) :
    |prob (fun x : Ω × (S → B) => ev x.1 ((adv x.1).eval (oracle S r₀ (fun s => φ (x.2 s)))))
      - prob (fun x : Ω × (S → R) => ev x.1 ((adv x.1).eval (oracle S r₀ x.2)))| ≤ n * ε := by
  have : Nonempty R := ⟨r₀⟩
  rw [prob_eq_avg, prob_eq_avg, avg_prod, avg_prod, avg_sub]
  refine le_trans (abs_avg_le _) (le_trans (avg_mono (g := fun _ => n * ε) (fun ω => ?_)) (avg_const _).le)
  set f : α → ℚ := fun a => if ev ω a then 1 else 0 with hf
  have e1 := lazy_eager r₀ S φ f (adv ω) (hS ω) []
  have e2 := lazy_eager r₀ S (id : R → R) f (adv ω) (hS ω) []
  have hO : ∀ O : Q → R, overlay [] O = O := fun O => rfl
  simp only [hO, hf, id] at e1 e2
  rw [e1, e2]
  refine lazy_near φ ε h f (fun a => ?_) (adv ω) n (hb ω) []
  simp only [hf]
  split <;> norm_num

/-! ## Programs that see the bytes

A program may look at the bytes `b` behind the value `φ b`. Given the value, the bytes can be chosen afterwards, so
every such program has a counterpart which sees only values, and chooses the bytes itself. -/

/-- For every value, bytes that stand for it. -/
abbrev Choice (φ : B → R) := (r : R) → {b // φ b = r}

/-- The average over the bytes is the average over the values of the average over their bytes. -/
theorem avg_fibers (φ : B → R) (hφ : Function.Surjective φ) (g : B → ℚ) :
    avg g = avg (fun b => avg (fun c : {c // φ c = φ b} => g c)) := by
  rw [avg_comp φ (fun r => avg (fun c : {c // φ c = r} => g c))]
  unfold avg prob
  rw [← Finset.sum_fiberwise Finset.univ φ g, Finset.sum_div]
  refine Finset.sum_congr rfl (fun r _ => ?_)
  obtain ⟨b, hb⟩ := hφ r
  have hpos : (Fintype.card {c // φ c = r} : ℚ) ≠ 0 := by
    have : Nonempty {c // φ c = r} := ⟨⟨b, hb⟩⟩
    exact_mod_cast Fintype.card_ne_zero
  rw [Nat.card_eq_fintype_card, Nat.card_eq_fintype_card, div_mul_div_comm, mul_comm (Fintype.card B : ℚ),
    mul_div_mul_left _ _ hpos]
  congr 1
  rw [← Finset.sum_subtype (Finset.univ.filter (fun c => φ c = r)) (by simp) g]

/-- One coordinate of a random choice. -/
theorem avg_pi_apply {X : Type} [Fintype X] [DecidableEq X] {Y : X → Type} [∀ x, Fintype (Y x)] [∀ x, Nonempty (Y x)]
    (x : X) (g : Y x → ℚ) : avg (fun k : (x : X) → Y x => g (k x)) = avg g := by
  rw [← avg_bij _ (Equiv.piSplitAt x Y).symm.bijective, avg_prod]
  simp [avg_const]

theorem near_choice [Nonempty R] [Nonempty B] (φ : B → R) (hφ : Function.Surjective φ) (ε : ℚ) (h : Near φ ε) :
    Near (fun x : Choice φ × R => ((x.1 x.2).1 : B)) ε := by
  have hne : ∀ r, Nonempty {b // φ b = r} := fun r => ⟨⟨_, (hφ r).choose_spec⟩⟩
  intro g hg
  have hk : ∀ r, avg (fun k : Choice φ => g (k r).1) = avg (fun c : {c // φ c = r} => g c) := fun r =>
    avg_pi_apply (Y := fun r => {b // φ b = r}) r (fun c => g c.1)
  rw [avg_prod, avg_comm]
  simp only [hk]
  rw [avg_fibers φ hφ g, abs_sub_comm]
  refine h (fun r => avg (fun c : {c // φ c = r} => g c)) (fun r => ?_)
  exact ⟨avg_nonneg (fun c => (hg _).1), avg_le_one (fun c => (hg _).2)⟩

/-- The counterpart: it asks the same queries, gets values and goes on with the bytes chosen for them. -/
def OracleProg.onValues {Q α : Type} (k : Q → R → B) : OracleProg Q B α → OracleProg Q R α
  | .done a => .done a
  | .ask q f => .ask q (fun r => (f (k q r)).onValues k)

theorem OracleProg.onValues_bound {Q α : Type} (k : Q → R → B) : ∀ (p : OracleProg Q B α) (n : Nat),
    p.QueryBound n → (p.onValues k).QueryBound n
  | .done _, n, _ => by cases n <;> trivial
  | .ask q f, 0, h => h.elim
  | .ask q f, n + 1, h => fun r => OracleProg.onValues_bound k (f _) n (h _)

theorem OracleProg.onValues_in {Q α : Type} (k : Q → R → B) (S : Q → Prop) : ∀ (p : OracleProg Q B α),
    p.QueriesIn S → (p.onValues k).QueriesIn S
  | .done _, _ => trivial
  | .ask q f, h => ⟨h.1, fun r => OracleProg.onValues_in k S (f _) (h.2 _)⟩

theorem OracleProg.onValues_eval {Q α : Type} (k : Q → R → B) (H : Q → R) : ∀ (p : OracleProg Q B α),
    (p.onValues k).eval H = p.eval (fun q => k q (H q))
  | .done _ => rfl
  | .ask q f => OracleProg.onValues_eval k H (f _)

/-- Ask `target a` at the end and return the answer too. -/
def OracleProg.withAnswer {Q R α : Type} (target : α → Q) : OracleProg Q R α → OracleProg Q R (α × R)
  | .done a => .ask (target a) (fun r => .done (a, r))
  | .ask q k => .ask q (fun r => (k r).withAnswer target)

theorem OracleProg.withAnswer_eval {Q R α : Type} (target : α → Q) (H : Q → R) : ∀ p : OracleProg Q R α,
    (p.withAnswer target).eval H = (p.eval H, H (target (p.eval H)))
  | .done _ => rfl
  | .ask q k => OracleProg.withAnswer_eval target H (k (H q))

theorem OracleProg.withAnswer_bound {Q R α : Type} (target : α → Q) : ∀ (p : OracleProg Q R α) (n : Nat),
    p.QueryBound n → (p.withAnswer target).QueryBound (n + 1)
  | .done _, n, _ => fun r => by cases n <;> trivial
  | .ask q k, 0, h => h.elim
  | .ask q k, n + 1, h => fun r => OracleProg.withAnswer_bound target (k r) n (h r)

theorem OracleProg.withAnswer_in {Q R α : Type} (target : α → Q) (S : Q → Prop) (hS : ∀ a, S (target a)) :
    ∀ (p : OracleProg Q R α), p.QueriesIn S → (p.withAnswer target).QueriesIn S
  | .done a, _ => ⟨hS a, fun _ => trivial⟩
  | .ask q k, h => ⟨h.1, fun r => OracleProg.withAnswer_in target S hS (k r) (h.2 r)⟩

/-- The bytes chosen for the answers. -/
def chosen {Q : Type} [DecidableEq Q] (φ : B → R) (b₀ : B) (S : Finset Q) (k : S → Choice φ) (q : Q) (r : R) : B :=
  if h : q ∈ S then (k ⟨q, h⟩ r).1 else b₀

theorem chosen_value {Q : Type} [DecidableEq Q] (φ : B → R) (b₀ : B) (r₀ : R) (h0 : φ b₀ = r₀) (S : Finset Q)
    (k : S → Choice φ) (H : S → R) (q : Q) :
    φ (chosen φ b₀ S k q (oracle S r₀ H q)) = oracle S r₀ H q := by
  unfold chosen
  split
  · exact (k _ _).2
  · rename_i hq
    rw [h0]
    unfold oracle
    rw [dif_neg hq]

/-- A program that asks `n` times an oracle which answers with bytes, and its counterpart that gets values: their
outputs have almost the same distribution. -/
theorem bytes_near {Ω Q α : Type} [DecidableEq Q] [Fintype Ω] [Nonempty Ω] [Nonempty R] (φ : B → R) (b₀ : B) (r₀ : R)
    (S : Finset Q) (hφ : Function.Surjective φ) (ε : ℚ)
    (h : Near φ ε) (adv : Ω → OracleProg Q B α) (n : Nat) (hb : ∀ ω, (adv ω).QueryBound n)
    (hS : ∀ ω, (adv ω).QueriesIn (· ∈ S)) (ev : Ω → α → Prop) :
    |prob (fun x : Ω × (S → B) => ev x.1 ((adv x.1).eval (oracle S b₀ x.2)))
      - prob (fun x : (Ω × (S → Choice φ)) × (S → R) =>
          ev x.1.1 (((adv x.1.1).onValues (chosen φ b₀ S x.1.2)).eval (oracle S r₀ x.2)))| ≤ n * ε := by
  have hne : ∀ r, Nonempty {b // φ b = r} := fun r => ⟨⟨_, (hφ r).choose_spec⟩⟩
  have : Nonempty B := ⟨b₀⟩
  have key := oracle_near b₀ S (fun x : Choice φ × R => ((x.1 x.2).1 : B)) ε (near_choice φ hφ ε h) adv n hb hS ev
  rw [abs_sub_comm] at key
  refine le_of_eq_of_le ?_ key
  congr 2
  rw [prob_eq_avg, prob_eq_avg, avg_prod, avg_prod, avg_prod]
  refine avg_congr (fun ω => ?_)
  set f : (S → Choice φ) × (S → R) → ℚ := fun z =>
    if ev ω (((adv ω).onValues (chosen φ b₀ S z.1)).eval (oracle S r₀ z.2)) then 1 else 0 with hf
  have e1 := avg_prod f
  have e2 := avg_bij (fun x : S → Choice φ × R => ((fun s => (x s).1, fun s => (x s).2) : (S → Choice φ) × (S → R)))
    (Equiv.arrowProdEquivProdArrow S (fun _ => Choice φ) (fun _ => R)).bijective f
  refine Eq.trans ?_ (e1.symm.trans (e2.symm.trans ?_))
  · rfl
  · refine avg_congr (fun x => ?_)
    simp only [hf, OracleProg.onValues_eval]
    have : (fun q => chosen φ b₀ S (fun s => (x s).1) q (oracle S r₀ (fun s => (x s).2) q))
        = oracle S b₀ (fun s => ((x s).1 (x s).2).1) := by
      funext q
      have ho : ∀ (T : Type) (t₀ : T) (f : S → T) (hq : q ∈ S), oracle S t₀ f q = f ⟨q, hq⟩ := fun T t₀ f hq => dif_pos hq
      by_cases hq : q ∈ S
      · rw [ho _ _ _ hq, ho _ _ _ hq]
        exact dif_pos hq
      · simp [chosen, oracle, hq]
    rw [this]

/-- The same with an event about the output and the value of the answer to a last query. -/
theorem bytes_near_answer {Ω Q α : Type} [DecidableEq Q] [Fintype Ω] [Nonempty Ω] [Nonempty R] (φ : B → R) (b₀ : B)
    (r₀ : R) (h0 : φ b₀ = r₀) (S : Finset Q) (hφ : Function.Surjective φ) (ε : ℚ)
    (h : Near φ ε) (adv : Ω → OracleProg Q B α) (n : Nat) (hb : ∀ ω, (adv ω).QueryBound n) (query : α → Q)
    (hS : ∀ ω, ((adv ω).withAnswer query).QueriesIn (· ∈ S)) (ev : α → R → Prop) :
    |prob (fun x : Ω × (S → B) =>
        let out := (adv x.1).eval (oracle S b₀ x.2)
        ev out (φ (oracle S b₀ x.2 (query out))))
      - prob (fun x : (Ω × (S → Choice φ)) × (S → R) =>
        let out := ((adv x.1.1).onValues (chosen φ b₀ S x.1.2)).eval (oracle S r₀ x.2)
        ev out (oracle S r₀ x.2 (query out)))| ≤ (n + 1) * ε := by
  have key := bytes_near φ b₀ r₀ S hφ ε h (fun ω => (adv ω).withAnswer query) (n + 1)
    (fun ω => OracleProg.withAnswer_bound _ _ _ (hb ω)) hS (fun _ a => ev a.1 (φ a.2))
  simp only [OracleProg.withAnswer_eval, OracleProg.onValues_eval, chosen_value φ b₀ r₀ h0, Nat.cast_add,
    Nat.cast_one] at key ⊢
  exact key

end Rom
