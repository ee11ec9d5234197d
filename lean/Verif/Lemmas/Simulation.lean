import Verif.Lemmas.Forking
import Mathlib.Algebra.BigOperators.Field

/-!
# Programs with access to a random oracle and to an honest prover

Nothing here is about the crate. A program (`ProverProg`) may ask a random oracle and may ask an honest prover for
proofs (for contexts of its choice, depending on what it has seen). `simulate` turns it into a program that asks
only the oracle: proofs are drawn at random and the oracle is programmed where needed. `sim_close` bounds the
difference between the two, for provers of three moves that are perfectly simulatable for a given challenge.
-/

set_option linter.unusedSectionVars false
set_option linter.unusedVariables false
set_option linter.unusedSimpArgs false
namespace Rom

/-- A program that may stop, ask the oracle, or ask the prover. -/
inductive ProverProg (Q R C P α : Type) where
  | done (a : α)
  | hash (q : Q) (k : R → ProverProg Q R C P α)
  | prove (c : C) (k : P → ProverProg Q R C P α)

/-- A prover that sends a commitment, gets the challenge as the oracle's answer to the commitment, and responds.
`commit c w` is the query made in context `c` with randomness `w`, `respond c w r` the proof for the answer `r`;
`query c p` and `challenge p` are what can be read off a proof. -/
structure Prover (Q R C P W : Type) where
  commit : C → W → Q
  respond : C → W → R → P
  query : C → P → Q
  challenge : P → R

variable {Q R C P W α : Type}

namespace ProverProg

/-- At most `m` oracle queries and `n` proofs, whatever the answers. -/
def Bound : Nat → Nat → ProverProg Q R C P α → Prop
  | _, _, done _ => True
  | 0, _, hash _ _ => False
  | m + 1, n, hash _ k => ∀ r, Bound m n (k r)
  | _, 0, prove _ _ => False
  | m, n + 1, prove _ k => ∀ p, Bound m n (k p)

/-- All queries, of the program and of the prover it asks, are in `S`. -/
def QueriesIn (pv : Prover Q R C P W) (S : Q → Prop) : ProverProg Q R C P α → Prop
  | done _ => True
  | hash q k => S q ∧ ∀ r, QueriesIn pv S (k r)
  | prove c k => (∀ w, S (pv.commit c w)) ∧ ∀ p, QueriesIn pv S (k p)

/-- The output and the list of contexts and proofs seen, with the oracle `O` and a prover that uses the randomness
`ws 0`, `ws 1`, … (`l` is what was seen before). -/
def real (pv : Prover Q R C P W) (O : Q → R) :
    (ws : Nat → W) → (l : List (C × P)) → ProverProg Q R C P α → α × List (C × P)
  | _, l, done a => (a, l)
  | ws, l, hash q k => real pv O ws l (k (O q))
  | ws, l, prove c k =>
    let p := pv.respond c (ws 0) (O (pv.commit c (ws 0)))
    real pv O (fun i => ws (i + 1)) (l ++ [(c, p)]) (k p)

/-- The same program without a prover: the proofs are `ps 0`, `ps 1`, …, and where a proof needs it the oracle's
answers are replaced by the entries of the table `T`. -/
def simulate [DecidableEq Q] (query : C → P → Q) (challenge : P → R) :
    (T : List (Q × R)) → (ps : Nat → P) → (l : List (C × P)) → ProverProg Q R C P α →
      OracleProg Q R (α × List (C × P))
  | _, _, l, done a => .done (a, l)
  | T, ps, l, hash q k =>
    match T.lookup q with
    | some r => simulate query challenge T ps l (k r)
    | none => .ask q (fun r => simulate query challenge T ps l (k r))
  | T, ps, l, prove c k =>
    simulate query challenge ((query c (ps 0), challenge (ps 0)) :: T) (fun i => ps (i + 1)) (l ++ [(c, ps 0)])
      (k (ps 0))

/-- Ask `target a` at the end and return the answer too. -/
def andHash (target : α → Q) : ProverProg Q R C P α → ProverProg Q R C P (α × R)
  | done a => hash (target a) (fun r => done (a, r))
  | hash q k => hash q (fun r => (k r).andHash target)
  | prove c k => prove c (fun p => (k p).andHash target)

theorem Bound.andHash (target : α → Q) : ∀ (prog : ProverProg Q R C P α) (m n : Nat), prog.Bound m n →
    (prog.andHash target).Bound (m + 1) n
  | done _, _, _, _ => fun _ => trivial
  | hash _ _, 0, _, h => absurd h id
  | hash _ k, m + 1, n, h => fun r => (Bound.andHash target (k r) m n (h r))
  | prove _ _, 0, 0, h => absurd h id
  | prove _ _, m + 1, 0, h => absurd h id
  | prove _ k, 0, n + 1, h => fun p => (Bound.andHash target (k p) 0 n (h p))
  | prove _ k, m + 1, n + 1, h => fun p => (Bound.andHash target (k p) (m + 1) n (h p))

theorem real_andHash (pv : Prover Q R C P W) (O : Q → R) (target : α → Q) :
    ∀ (prog : ProverProg Q R C P α) (ws : Nat → W) (l : List (C × P)),
      (prog.andHash target).real pv O ws l
        = (((prog.real pv O ws l).1, O (target (prog.real pv O ws l).1)), (prog.real pv O ws l).2)
  | done a, ws, l => rfl
  | hash q k, ws, l => real_andHash pv O target (k (O q)) ws l
  | prove c k, ws, l => real_andHash pv O target (k _) _ _

theorem simulate_queryBound [DecidableEq Q] (pv : Prover Q R C P W) :
    ∀ (prog : ProverProg Q R C P α) (m n : Nat), prog.Bound m n → ∀ T ps l,
      (prog.simulate pv.query pv.challenge T ps l).QueryBound m
  | done _, m, _, _, _, _, _ => by simp [simulate, OracleProg.QueryBound]
  | hash _ _, 0, _, h, _, _, _ => absurd h id
  | hash q k, m + 1, n, h, T, ps, l => by
    have mono : ∀ (p : OracleProg Q R (α × List (C × P))) (j : Nat), p.QueryBound j → p.QueryBound (j + 1) := by
      intro p
      induction p with
      | done a => intro j _; simp [OracleProg.QueryBound]
      | ask q k ih =>
        intro j hj
        cases j with
        | zero => exact absurd hj id
        | succ j => exact fun r => ih r j (hj r)
    unfold simulate
    cases T.lookup q with
    | some r => exact mono _ _ (simulate_queryBound pv (k r) m n (h r) T ps l)
    | none => exact fun r => simulate_queryBound pv (k r) m n (h r) T ps l
  | prove _ _, 0, 0, h, _, _, _ => absurd h id
  | prove _ _, m + 1, 0, h, _, _, _ => absurd h id
  | prove c k, 0, n + 1, h, T, ps, l => simulate_queryBound pv (k _) 0 n (h _) _ _ _
  | prove c k, m + 1, n + 1, h, T, ps, l => simulate_queryBound pv (k _) (m + 1) n (h _) _ _ _

/-- The final query of `andHash` in the simulation: the output is the same, and if that query is none of those of
the proofs seen, its answer is the oracle's. -/
theorem simulate_andHash [DecidableEq Q] (pv : Prover Q R C P W) (O : Q → R) (target : α → Q) :
    ∀ (prog : ProverProg Q R C P α) (T : List (Q × R)) (ps : Nat → P) (l : List (C × P)),
      (∀ q, (∀ x ∈ l, pv.query x.1 x.2 ≠ q) → T.lookup q = none) →
      let y := (prog.simulate pv.query pv.challenge T ps l).eval O
      let z := ((prog.andHash target).simulate pv.query pv.challenge T ps l).eval O
      z.1.1 = y.1 ∧ z.2 = y.2 ∧ ((∀ x ∈ y.2, pv.query x.1 x.2 ≠ target y.1) → z.1.2 = O (target y.1))
  | done a, T, ps, l, hT => by
    unfold andHash simulate
    cases h : T.lookup (target a) with
    | some r =>
      simp only [simulate, OracleProg.eval]
      refine ⟨trivial, trivial, fun hh => ?_⟩
      rw [hT _ hh] at h
      exact absurd h (by simp)
    | none => simp [simulate, OracleProg.eval]
  | hash q k, T, ps, l, hT => by
    unfold andHash simulate
    cases h : T.lookup q with
    | some r => exact simulate_andHash pv O target (k r) T ps l hT
    | none => exact simulate_andHash pv O target (k (O q)) T ps l hT
  | prove c k, T, ps, l, hT => by
    refine simulate_andHash pv O target (k (ps 0)) _ _ _ ?_
    intro q hq
    have h1 : q ≠ pv.query c (ps 0) := fun h => hq (c, ps 0) (by simp) h.symm
    have h2 := hT q (fun x hx => hq x (by simp [hx]))
    simp [List.lookup_cons, h1, h2, beq_eq_false_iff_ne.2 h1]

end ProverProg

/-! ### Averages -/

section avg
variable {X Y : Type} [Fintype X] [Fintype Y]

/-- The mean of a function on a finite type. -/
def avg (f : X → ℚ) : ℚ := (∑ x, f x) / Fintype.card X

theorem avg_const [Nonempty X] (a : ℚ) : avg (fun _ : X => a) = a := by
  unfold avg
  have : (Fintype.card X : ℚ) ≠ 0 := by exact_mod_cast Fintype.card_ne_zero
  simp [this]

theorem avg_congr {f g : X → ℚ} (h : ∀ x, f x = g x) : avg f = avg g := by
  rw [show f = g from funext h]

theorem avg_mono {f g : X → ℚ} (h : ∀ x, f x ≤ g x) : avg f ≤ avg g := by
  unfold avg
  have := Finset.sum_le_sum (s := Finset.univ) (fun x _ => h x)
  gcongr

theorem avg_sub (f g : X → ℚ) : avg f - avg g = avg (fun x => f x - g x) := by
  unfold avg
  rw [Finset.sum_sub_distrib, sub_div]

theorem avg_add (f g : X → ℚ) : avg f + avg g = avg (fun x => f x + g x) := by
  unfold avg
  rw [Finset.sum_add_distrib, add_div]

theorem abs_avg_le (f : X → ℚ) : |avg f| ≤ avg (fun x => |f x|) := by
  unfold avg
  rw [abs_div, Nat.abs_cast]
  have := Finset.abs_sum_le_sum_abs f Finset.univ
  gcongr

theorem avg_prod (f : X × Y → ℚ) : avg f = avg (fun x => avg (fun y => f (x, y))) := by
  unfold avg
  rw [Fintype.sum_prod_type, ← Finset.sum_div, Fintype.card_prod, Nat.cast_mul]
  rw [div_div, mul_comm (Fintype.card X : ℚ)]

theorem avg_comm (f : X → Y → ℚ) : avg (fun x => avg (f x)) = avg (fun y => avg (fun x => f x y)) := by
  unfold avg
  rw [← Finset.sum_div, ← Finset.sum_div, Finset.sum_comm, div_div, div_div,
    mul_comm (Fintype.card X : ℚ)]

theorem avg_bij (e : X → Y) (he : Function.Bijective e) (f : Y → ℚ) : avg (fun x => f (e x)) = avg f := by
  unfold avg
  rw [Fintype.card_of_bijective he, Function.Bijective.sum_comp he f]

theorem avg_nonneg {f : X → ℚ} (h : ∀ x, 0 ≤ f x) : 0 ≤ avg f :=
  div_nonneg (Finset.sum_nonneg (fun x _ => h x)) (Nat.cast_nonneg _)

open Classical in
theorem prob_eq_avg (p : X → Prop) : prob p = avg (fun x => if p x then 1 else 0) := by
  unfold prob avg
  rw [Nat.card_eq_fintype_card, Nat.card_eq_fintype_card, Fintype.card_subtype]
  simp

/-- Resampling one value of a random function. -/
theorem avg_update [DecidableEq X] [Nonempty Y] (s : X) (g : (X → Y) → ℚ) :
    avg g = avg (fun r => avg (fun H => g (Function.update H s r))) := by
  rw [← avg_prod (fun x : Y × (X → Y) => g (Function.update x.2 s x.1))]
  -- (r, H) ↦ (H s, update H s r) is a bijection
  have hb : Function.Bijective (fun x : Y × (X → Y) => (x.2 s, Function.update x.2 s x.1)) := by
    refine Function.Involutive.bijective ?_
    rintro ⟨r, H⟩
    simp
  have := avg_bij _ hb (fun x : Y × (X → Y) => g x.2)
  rw [this, avg_prod]
  exact (avg_const _).symm

end avg

/-- A finite sequence continued by a default value. -/
def pad [Inhabited W] {n : Nat} (v : Fin n → W) (i : Nat) : W := if h : i < n then v ⟨i, h⟩ else default

theorem pad_zero [Inhabited W] {n : Nat} (w : W) (v : Fin n → W) : pad (Fin.cons w v : Fin (n + 1) → W) 0 = w := by
  simp [pad]

theorem pad_succ [Inhabited W] {n : Nat} (w : W) (v : Fin n → W) :
    (fun i => pad (Fin.cons w v : Fin (n + 1) → W) (i + 1)) = pad v := by
  funext i
  unfold pad
  by_cases h : i < n
  · simp only [h, Nat.succ_lt_succ_iff, dif_pos]
    exact Fin.cons_succ (α := fun _ => W) w v ⟨i, h⟩
  · simp [h]

theorem avg_cons {X : Type} [Fintype X] {n : Nat} (g : (Fin (n + 1) → X) → ℚ) :
    avg g = avg (fun w => avg (fun v : Fin n → X => g (Fin.cons w v))) := by
  rw [← avg_prod (fun x : X × (Fin n → X) => g (Fin.cons x.1 x.2))]
  have := avg_bij (Fin.consEquiv (fun _ : Fin (n + 1) => X)) (Equiv.bijective _) g
  rw [← this]
  rfl

/-! ### Lazy sampling -/

section lazy
variable [DecidableEq Q] [Fintype R] [Fintype W] [Fintype P]

/-- The oracle `O` with the entries of the table `T` on top. -/
def overlay (T : List (Q × R)) (O : Q → R) (q : Q) : R := (T.lookup q).getD (O q)

/-- Mean payoff with an oracle that answers new queries at random. -/
def realV (pv : Prover Q R C P W) (f : α → List (C × P) → ℚ) :
    (T : List (Q × R)) → (l : List (C × P)) → ProverProg Q R C P α → ℚ
  | _, l, .done a => f a l
  | T, l, .hash q k =>
    match T.lookup q with
    | some r => realV pv f T l (k r)
    | none => avg (fun r => realV pv f ((q, r) :: T) l (k r))
  | T, l, .prove c k => avg (fun w =>
    match T.lookup (pv.commit c w) with
    | some r => realV pv f T (l ++ [(c, pv.respond c w r)]) (k (pv.respond c w r))
    | none => avg (fun r =>
        realV pv f ((pv.commit c w, r) :: T) (l ++ [(c, pv.respond c w r)]) (k (pv.respond c w r))))

/-- Mean payoff of the simulation with an oracle that answers new queries at random. -/
def simV (pv : Prover Q R C P W) (f : α → List (C × P) → ℚ) :
    (T : List (Q × R)) → (l : List (C × P)) → ProverProg Q R C P α → ℚ
  | _, l, .done a => f a l
  | T, l, .hash q k =>
    match T.lookup q with
    | some r => simV pv f T l (k r)
    | none => avg (fun r => simV pv f ((q, r) :: T) l (k r))
  | T, l, .prove c k => avg (fun p =>
    simV pv f ((pv.query c p, pv.challenge p) :: T) (l ++ [(c, p)]) (k p))

theorem overlay_update {S : Finset Q} (r₀ : R) (T : List (Q × R)) (q : Q) (hq : q ∈ S) (hT : T.lookup q = none)
    (H : S → R) (r : R) :
    overlay T (oracle S r₀ (Function.update H ⟨q, hq⟩ r)) = overlay ((q, r) :: T) (oracle S r₀ H) := by
  funext q'
  unfold overlay
  by_cases h : q' = q
  · subst h
    simp [List.lookup_cons, hT, oracle, hq]
  · simp only [List.lookup_cons, beq_eq_false_iff_ne.2 h, oracle]
    congr 1
    by_cases h' : q' ∈ S
    · simp [h', Function.update_apply, h]
    · simp [h']

theorem overlay_new {S : Finset Q} (r₀ : R) (T : List (Q × R)) (q : Q) (r : R) (O : Q → R) :
    overlay ((q, r) :: T) O q = r := by simp [overlay, List.lookup_cons]

theorem overlay_some (T : List (Q × R)) (q : Q) (r : R) (hT : T.lookup q = some r) (O : Q → R) :
    overlay T O q = r := by simp [overlay, hT]

/-- Eager and lazy sampling give the same mean. -/
theorem real_eager [Inhabited W] (r₀ : R) (S : Finset Q) (pv : Prover Q R C P W) (f : α → List (C × P) → ℚ) :
    ∀ (prog : ProverProg Q R C P α) (m n : Nat), prog.Bound m n → prog.QueriesIn pv (· ∈ S) →
      ∀ (T : List (Q × R)) (l : List (C × P)),
      avg (fun H : S → R => avg (fun v : Fin n → W =>
        f (prog.real pv (overlay T (oracle S r₀ H)) (pad v) l).1
          (prog.real pv (overlay T (oracle S r₀ H)) (pad v) l).2)) = realV pv f T l prog := by
  have : Nonempty R := ⟨r₀⟩
  intro prog
  induction prog with
  | done a =>
    intro m n _ _ T l
    simp only [ProverProg.real, realV, avg_const]
  | hash q k ih =>
    intro m n hb hS T l
    cases m with
    | zero => exact absurd hb id
    | succ m =>
    simp only [ProverProg.real, realV]
    cases hT : T.lookup q with
    | some r =>
      simp only [overlay_some T q r hT]
      exact ih r m n (hb r) (hS.2 r) T l
    | none =>
      rw [avg_update ⟨q, hS.1⟩]
      refine avg_congr (fun r => ?_)
      simp only [overlay_update r₀ T q hS.1 hT, overlay_new (S := S) r₀]
      exact ih r m n (hb r) (hS.2 r) _ l
  | prove c k ih =>
    intro m n hb hS T l
    cases n with
    | zero => cases m <;> exact absurd hb id
    | succ n =>
    have hb' : ∀ p, (k p).Bound m n := by cases m <;> exact hb
    simp only [ProverProg.real, realV]
    have e : ∀ H : S → R, avg (fun v : Fin (n + 1) → W =>
        f ((k (pv.respond c (pad v 0) (overlay T (oracle S r₀ H) (pv.commit c (pad v 0))))).real pv
            (overlay T (oracle S r₀ H)) (fun i => pad v (i + 1))
            (l ++ [(c, pv.respond c (pad v 0) (overlay T (oracle S r₀ H) (pv.commit c (pad v 0))))])).1
          ((k (pv.respond c (pad v 0) (overlay T (oracle S r₀ H) (pv.commit c (pad v 0))))).real pv
            (overlay T (oracle S r₀ H)) (fun i => pad v (i + 1))
            (l ++ [(c, pv.respond c (pad v 0) (overlay T (oracle S r₀ H) (pv.commit c (pad v 0))))])).2)
        = avg (fun w => avg (fun v : Fin n → W =>
          f ((k (pv.respond c w (overlay T (oracle S r₀ H) (pv.commit c w)))).real pv
              (overlay T (oracle S r₀ H)) (pad v)
              (l ++ [(c, pv.respond c w (overlay T (oracle S r₀ H) (pv.commit c w)))])).1
            ((k (pv.respond c w (overlay T (oracle S r₀ H) (pv.commit c w)))).real pv
              (overlay T (oracle S r₀ H)) (pad v)
              (l ++ [(c, pv.respond c w (overlay T (oracle S r₀ H) (pv.commit c w)))])).2)) := by
      intro H
      rw [avg_cons]
      simp only [pad_zero, pad_succ]
    simp only [e]
    rw [avg_comm]
    refine avg_congr (fun w => ?_)
    cases hT : T.lookup (pv.commit c w) with
    | some r =>
      simp only [overlay_some T _ r hT]
      exact ih _ m n (hb' _) (hS.2 _) T _
    | none =>
      rw [avg_update ⟨pv.commit c w, hS.1 w⟩]
      refine avg_congr (fun r => ?_)
      simp only [overlay_update r₀ T _ (hS.1 w) hT, overlay_new (S := S) r₀]
      exact ih _ m n (hb' _) (hS.2 _) _ _

theorem sim_eager [Inhabited P] (r₀ : R) (S : Finset Q) (pv : Prover Q R C P W) (f : α → List (C × P) → ℚ) :
    ∀ (prog : ProverProg Q R C P α) (m n : Nat), prog.Bound m n → prog.QueriesIn pv (· ∈ S) →
      ∀ (Tp T0 T : List (Q × R)) (l : List (C × P)), (∀ q, T.lookup q = (Tp.lookup q).or (T0.lookup q)) →
      avg (fun H : S → R => avg (fun v : Fin n → P =>
        f ((prog.simulate pv.query pv.challenge Tp (pad v) l).eval (overlay T0 (oracle S r₀ H))).1
          ((prog.simulate pv.query pv.challenge Tp (pad v) l).eval (overlay T0 (oracle S r₀ H))).2)) = simV pv f T l prog := by
  have : Nonempty R := ⟨r₀⟩
  intro prog
  induction prog with
  | done a =>
    intro m n _ _ Tp T0 T l _
    simp only [ProverProg.simulate, OracleProg.eval, simV, avg_const]
  | hash q k ih =>
    intro m n hb hS Tp T0 T l hTT
    cases m with
    | zero => exact absurd hb id
    | succ m =>
    simp only [ProverProg.simulate, simV]
    cases hTp : Tp.lookup q with
    | some r =>
      have hT : T.lookup q = some r := by rw [hTT, hTp]; rfl
      simp only [hT]
      exact ih r m n (hb r) (hS.2 r) Tp T0 T l hTT
    | none =>
      simp only [OracleProg.eval]
      cases hT0 : T0.lookup q with
      | some r =>
        have hT : T.lookup q = some r := by rw [hTT, hTp, hT0]; rfl
        simp only [hT, overlay_some T0 q r hT0]
        exact ih r m n (hb r) (hS.2 r) Tp T0 T l hTT
      | none =>
        have hT : T.lookup q = none := by rw [hTT, hTp, hT0]; rfl
        simp only [hT]
        rw [avg_update ⟨q, hS.1⟩]
        refine avg_congr (fun r => ?_)
        simp only [overlay_update r₀ T0 q hS.1 hT0, overlay_new (S := S) r₀]
        refine ih r m n (hb r) (hS.2 r) Tp _ _ l ?_
        intro q'
        by_cases h : q' = q
        · subst h; simp [List.lookup_cons, hTp]
        · simp only [List.lookup_cons, beq_eq_false_iff_ne.2 h, hTT]
  | prove c k ih =>
    intro m n hb hS Tp T0 T l hTT
    cases n with
    | zero => cases m <;> exact absurd hb id
    | succ n =>
    have hb' : ∀ p, (k p).Bound m n := by cases m <;> exact hb
    simp only [ProverProg.simulate, simV]
    have e : ∀ g : (Nat → P) → (P → ℚ), avg (fun v : Fin (n + 1) → P => g (fun i => pad v (i + 1)) (pad v 0))
        = avg (fun w => avg (fun v : Fin n → P => g (pad v) w)) := by
      intro g
      rw [avg_cons]
      simp only [pad_zero, pad_succ]
    have e' := fun H : S → R => e (fun ps p =>
      f (((k p).simulate pv.query pv.challenge ((pv.query c p, pv.challenge p) :: Tp) ps (l ++ [(c, p)])).eval
          (overlay T0 (oracle S r₀ H))).1
        (((k p).simulate pv.query pv.challenge ((pv.query c p, pv.challenge p) :: Tp) ps (l ++ [(c, p)])).eval
          (overlay T0 (oracle S r₀ H))).2)
    simp only [e']
    rw [avg_comm]
    refine avg_congr (fun p => ?_)
    refine ih _ m n (hb' _) (hS.2 _) _ T0 _ _ ?_
    intro q'
    by_cases h : q' = pv.query c p
    · subst h; simp [List.lookup_cons]
    · simp only [List.lookup_cons, beq_eq_false_iff_ne.2 h, hTT]

theorem avg_le_one {X : Type} [Fintype X] [Nonempty X] {f : X → ℚ} (h : ∀ x, f x ≤ 1) : avg f ≤ 1 :=
  (avg_mono h).trans (avg_const 1).le

theorem realV_mem [Nonempty R] [Nonempty W] (pv : Prover Q R C P W) (f : α → List (C × P) → ℚ)
    (hf : ∀ a l, 0 ≤ f a l ∧ f a l ≤ 1) :
    ∀ (prog : ProverProg Q R C P α) (T : List (Q × R)) (l : List (C × P)),
      0 ≤ realV pv f T l prog ∧ realV pv f T l prog ≤ 1 := by
  intro prog
  induction prog with
  | done a => intro T l; exact hf a l
  | hash q k ih =>
    intro T l
    simp only [realV]
    cases T.lookup q with
    | some r => exact ih r T l
    | none => exact ⟨avg_nonneg (fun r => (ih r _ _).1), avg_le_one (fun r => (ih r _ _).2)⟩
  | prove c k ih =>
    intro T l
    simp only [realV]
    have : ∀ w, 0 ≤ (match T.lookup (pv.commit c w) with
        | some r => realV pv f T (l ++ [(c, pv.respond c w r)]) (k (pv.respond c w r))
        | none => avg (fun r =>
          realV pv f ((pv.commit c w, r) :: T) (l ++ [(c, pv.respond c w r)]) (k (pv.respond c w r)))) ∧
        (match T.lookup (pv.commit c w) with
        | some r => realV pv f T (l ++ [(c, pv.respond c w r)]) (k (pv.respond c w r))
        | none => avg (fun r =>
          realV pv f ((pv.commit c w, r) :: T) (l ++ [(c, pv.respond c w r)]) (k (pv.respond c w r)))) ≤ 1 := by
      intro w
      cases T.lookup (pv.commit c w) with
      | some r => exact ih _ T _
      | none => exact ⟨avg_nonneg (fun r => (ih _ _ _).1), avg_le_one (fun r => (ih _ _ _).2)⟩
    exact ⟨avg_nonneg (fun w => (this w).1), avg_le_one (fun w => (this w).2)⟩

/-- For a given challenge, random proofs are what the prover outputs; and a random proof has a given query with
probability at most `δ`. -/
structure Prover.Simulatable (pv : Prover Q R C P W) (δ : ℚ) : Prop where
  bij : ∀ c, Function.Bijective (fun x : W × R => pv.respond c x.1 x.2)
  query_respond : ∀ c w r, pv.query c (pv.respond c w r) = pv.commit c w
  challenge_respond : ∀ c w r, pv.challenge (pv.respond c w r) = r
  guess : ∀ c q, prob (fun p => pv.query c p = q) ≤ δ

open Classical in
theorem guess_table (pv : Prover Q R C P W) (δ : ℚ) (hs : pv.Simulatable δ) (c : C) (T : List (Q × R)) :
    avg (fun p => if T.lookup (pv.query c p) = none then (0 : ℚ) else 1) ≤ T.length * δ := by
  induction T with
  | nil =>
    simp [avg]
  | cons x T ih =>
    have h := hs.guess c x.1
    rw [prob_eq_avg] at h
    have := add_le_add h ih
    rw [avg_add] at this
    have e : ((x :: T).length : ℚ) * δ = δ + T.length * δ := by push_cast [List.length_cons]; ring
    rw [e]
    refine le_trans (avg_mono (fun p => ?_)) this
    by_cases hq : pv.query c p = x.1
    · have : (0 : ℚ) ≤ if T.lookup (pv.query c p) = none then (0 : ℚ) else 1 := by split <;> norm_num
      rw [if_pos hq]
      split <;> linarith
    · rw [if_neg hq]
      obtain ⟨q, r⟩ := x
      simp only [List.lookup_cons, beq_eq_false_iff_ne.2 hq, zero_add, le_refl]

open Classical in
/-- The difference made by the simulation. -/
theorem lazy_close [Nonempty R] [Nonempty W] (pv : Prover Q R C P W) (δ : ℚ) (hδ : 0 ≤ δ) (hs : pv.Simulatable δ)
    (f : α → List (C × P) → ℚ) (hf : ∀ a l, 0 ≤ f a l ∧ f a l ≤ 1) :
    ∀ (prog : ProverProg Q R C P α) (m n : Nat), prog.Bound m n → ∀ (T : List (Q × R)) (l : List (C × P)),
      |realV pv f T l prog - simV pv f T l prog| ≤ n * (T.length + m + n) * δ := by
  intro prog
  induction prog with
  | done a =>
    intro m n _ T l
    simp only [realV, simV, sub_self, abs_zero]
    positivity
  | hash q k ih =>
    intro m n hb T l
    cases m with
    | zero => exact absurd hb id
    | succ m =>
    simp only [realV, simV]
    cases T.lookup q with
    | some r =>
      refine le_trans (ih r m n (hb r) T l) ?_
      gcongr
      push_cast
      linarith
    | none =>
      simp only []
      rw [avg_sub]
      refine le_trans (abs_avg_le _) ?_
      have h : ∀ r, |realV pv f ((q, r) :: T) l (k r) - simV pv f ((q, r) :: T) l (k r)|
          ≤ n * (T.length + (m + 1 : Nat) + n) * δ := by
        intro r
        refine le_trans (ih r m n (hb r) _ l) (le_of_eq ?_)
        push_cast [List.length_cons]
        ring
      exact le_trans (avg_mono h) (avg_const _).le
  | prove c k ih =>
    intro m n hb T l
    cases n with
    | zero => cases m <;> exact absurd hb id
    | succ n =>
    have hb' : ∀ p, (k p).Bound m n := by cases m <;> exact hb
    have : Nonempty P := ⟨pv.respond c (Classical.arbitrary W) (Classical.arbitrary R)⟩
    simp only [realV, simV]
    set g : P → ℚ := fun p => realV pv f ((pv.query c p, pv.challenge p) :: T) (l ++ [(c, p)]) (k p) with hg
    have hgb : ∀ p, 0 ≤ g p ∧ g p ≤ 1 := fun p => realV_mem pv f hf _ _ _
    have e1 : avg g = avg (fun w => avg (fun r =>
        realV pv f ((pv.commit c w, r) :: T) (l ++ [(c, pv.respond c w r)]) (k (pv.respond c w r)))) := by
      rw [← avg_bij _ (hs.bij c) g, avg_prod]
      simp only [hg, hs.query_respond, hs.challenge_respond]
    -- the simulation of the rest
    have e2 : |avg g - avg (fun p => simV pv f ((pv.query c p, pv.challenge p) :: T) (l ++ [(c, p)]) (k p))|
        ≤ n * (T.length + 1 + m + n) * δ := by
      rw [avg_sub]
      refine le_trans (abs_avg_le _) (le_trans (avg_mono (g := fun _ => n * (T.length + 1 + m + n) * δ)
        (fun p => ?_)) (avg_const _).le)
      refine le_trans (ih p m n (hb' p) _ _) (le_of_eq ?_)
      push_cast [List.length_cons]
      ring
    -- the prover hits a query asked before
    have e3 : |avg (fun w => match T.lookup (pv.commit c w) with
        | some r => realV pv f T (l ++ [(c, pv.respond c w r)]) (k (pv.respond c w r))
        | none => avg (fun r =>
          realV pv f ((pv.commit c w, r) :: T) (l ++ [(c, pv.respond c w r)]) (k (pv.respond c w r)))) - avg g|
        ≤ T.length * δ := by
      rw [e1, avg_sub]
      refine le_trans (abs_avg_le _) ?_
      refine le_trans ?_ (guess_table pv δ hs c T)
      rw [← avg_bij _ (hs.bij c), avg_prod]
      refine avg_mono (fun w => ?_)
      simp only [hs.query_respond]
      rw [avg_const]
      cases hT : T.lookup (pv.commit c w) with
      | none => simp
      | some r =>
        simp only [reduceCtorEq, if_false]
        have a1 := realV_mem pv f hf (k (pv.respond c w r)) T (l ++ [(c, pv.respond c w r)])
        have a2 : 0 ≤ avg (fun r => realV pv f ((pv.commit c w, r) :: T) (l ++ [(c, pv.respond c w r)])
            (k (pv.respond c w r))) := avg_nonneg (fun r => (realV_mem pv f hf _ _ _).1)
        have a3 : avg (fun r => realV pv f ((pv.commit c w, r) :: T) (l ++ [(c, pv.respond c w r)])
            (k (pv.respond c w r))) ≤ 1 := avg_le_one (fun r => (realV_mem pv f hf _ _ _).2)
        rw [abs_le]
        constructor <;> linarith [a1.1, a1.2]
    refine le_trans (abs_sub_le _ (avg g) _) (le_trans (add_le_add e3 e2) ?_)
    push_cast
    have hm : (0 : ℚ) ≤ (m : ℚ) := Nat.cast_nonneg _
    have hn : (0 : ℚ) ≤ (n : ℚ) := Nat.cast_nonneg _
    nlinarith [mul_nonneg hm hδ, mul_nonneg hn hδ]

end lazy

/-! ### The theorem -/

section main
open Classical
variable [DecidableEq Q] [Fintype R] [Fintype W] [Fintype P] [Inhabited W] [Inhabited P]
variable {Ω : Type} [Fintype Ω]

/-- The probability of any event (about the output and the proofs seen) differs by at most `n (m + n) δ` between
the real prover and the simulation, for a program with `m` oracle queries and `n` proofs. -/
theorem sim_close [Nonempty Ω] (r₀ : R) (S : Finset Q) (pv : Prover Q R C P W) (δ : ℚ) (hδ : 0 ≤ δ)
    (hs : pv.Simulatable δ) (adv : Ω → ProverProg Q R C P α) (m n : Nat) (hb : ∀ ω, (adv ω).Bound m n)
    (hS : ∀ ω, (adv ω).QueriesIn pv (· ∈ S)) (ev : α → List (C × P) → Prop) :
    |prob (fun x : Ω × (S → R) × (Fin n → W) =>
        ev ((adv x.1).real pv (oracle S r₀ x.2.1) (pad x.2.2) []).1
          ((adv x.1).real pv (oracle S r₀ x.2.1) (pad x.2.2) []).2)
      - prob (fun x : Ω × (S → R) × (Fin n → P) =>
        ev (((adv x.1).simulate pv.query pv.challenge [] (pad x.2.2) []).eval (oracle S r₀ x.2.1)).1
          (((adv x.1).simulate pv.query pv.challenge [] (pad x.2.2) []).eval (oracle S r₀ x.2.1)).2)|
      ≤ n * (m + n) * δ := by
  have : Nonempty R := ⟨r₀⟩
  set f : α → List (C × P) → ℚ := fun a l => if ev a l then 1 else 0 with hfdef
  have hf : ∀ a l, 0 ≤ f a l ∧ f a l ≤ 1 := by
    intro a l
    simp only [hfdef]
    split <;> norm_num
  have hO : ∀ O : Q → R, overlay [] O = O := fun O => rfl
  rw [prob_eq_avg, prob_eq_avg, avg_prod, avg_prod]
  have e1 : ∀ ω, avg (fun y : (S → R) × (Fin n → W) => if ev ((adv ω).real pv (oracle S r₀ y.1) (pad y.2) []).1
      ((adv ω).real pv (oracle S r₀ y.1) (pad y.2) []).2 then (1 : ℚ) else 0) = realV pv f [] [] (adv ω) := by
    intro ω
    rw [avg_prod, ← real_eager r₀ S pv f (adv ω) m n (hb ω) (hS ω) [] []]
    rfl
  have e2 : ∀ ω, avg (fun y : (S → R) × (Fin n → P) =>
      if ev (((adv ω).simulate pv.query pv.challenge [] (pad y.2) []).eval (oracle S r₀ y.1)).1
        (((adv ω).simulate pv.query pv.challenge [] (pad y.2) []).eval (oracle S r₀ y.1)).2 then (1 : ℚ) else 0)
      = simV pv f [] [] (adv ω) := by
    intro ω
    rw [avg_prod, ← sim_eager r₀ S pv f (adv ω) m n (hb ω) (hS ω) [] [] [] [] (fun _ => rfl)]
    rfl
  simp only [e1, e2]
  rw [avg_sub]
  refine le_trans (abs_avg_le _) (le_trans (avg_mono (g := fun _ => n * (m + n) * δ) (fun ω => ?_))
    (avg_const _).le)
  have := lazy_close pv δ hδ hs f hf (adv ω) m n (hb ω) [] []
  simpa using this

/-- All queries a program and the prover it asks can ever make are in a finite set. -/
theorem ProverProg.exists_querySet (pv : Prover Q R C P W) :
    ∀ (prog : ProverProg Q R C P α), ∃ S : Finset Q, prog.QueriesIn pv (· ∈ S) := by
  have mono : ∀ (S T : Finset Q), S ⊆ T → ∀ p : ProverProg Q R C P α,
      p.QueriesIn pv (· ∈ S) → p.QueriesIn pv (· ∈ T) := by
    intro S T hST p
    induction p with
    | done a => intro _; trivial
    | hash q k ih => rintro ⟨h1, h2⟩; exact ⟨hST h1, fun r => ih r (h2 r)⟩
    | prove c k ih => rintro ⟨h1, h2⟩; exact ⟨fun w => hST (h1 w), fun r => ih r (h2 r)⟩
  intro prog
  induction prog with
  | done a => exact ⟨∅, trivial⟩
  | hash q k ih =>
    choose T hT using ih
    refine ⟨insert q (Finset.univ.biUnion T), Finset.mem_insert_self _ _, fun r => mono _ _ ?_ _ (hT r)⟩
    exact fun x hx => Finset.mem_insert_of_mem (Finset.mem_biUnion.2 ⟨r, Finset.mem_univ r, hx⟩)
  | prove c k ih =>
    choose T hT using ih
    refine ⟨(Finset.univ.image (pv.commit c)) ∪ (Finset.univ.biUnion T), fun w => ?_, fun p => mono _ _ ?_ _ (hT p)⟩
    · exact Finset.mem_union_left _ (Finset.mem_image_of_mem _ (Finset.mem_univ w))
    · exact fun x hx => Finset.mem_union_right _ (Finset.mem_biUnion.2 ⟨p, Finset.mem_univ p, hx⟩)

end main
end Rom
