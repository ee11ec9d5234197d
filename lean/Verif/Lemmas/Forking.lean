import Mathlib.Algebra.Order.Chebyshev
import Mathlib.Data.Fintype.Pi
import Mathlib.Data.Fintype.BigOperators
import Mathlib.Data.Fintype.Prod
import Mathlib.SetTheory.Cardinal.Finite
import Mathlib.Tactic.Ring
import Mathlib.Tactic.Linarith
import Mathlib.Tactic.Positivity
import Mathlib.Tactic.FieldSimp

/-!
# Programs with access to a random oracle, and the forking lemma

Nothing here is about the crate. A program which asks an oracle is a tree (`OracleProg`); the oracle is a
uniformly random function on a finite set of queries. `forking` is the forking lemma: a program whose output is
accepted with probability `a` can be run twice, with oracles that agree on everything asked before the query
that counts, such that both outputs are accepted, for the same query and different answers to it, with probability
at least `a * (a / (n + 1) - 1 / |R|)`.
-/

set_option linter.unusedSectionVars false
set_option linter.unusedVariables false
namespace Rom

/-- A program that asks an oracle: it stops, or asks a query and goes on depending on the answer. -/
inductive OracleProg (Q R α : Type) where
  | done (a : α)
  | ask (q : Q) (k : R → OracleProg Q R α)

namespace OracleProg
variable {Q R α : Type}

/-- The output, with oracle `H`. -/
def eval (H : Q → R) : OracleProg Q R α → α
  | done a => a
  | ask q k => (k (H q)).eval H

/-- The queries asked, in order, with oracle `H`. -/
def trace (H : Q → R) : OracleProg Q R α → List Q
  | done _ => []
  | ask q k => q :: (k (H q)).trace H

/-- At most `n` queries, whatever the answers. -/
def QueryBound : Nat → OracleProg Q R α → Prop
  | _, done _ => True
  | 0, ask _ _ => False
  | n + 1, ask _ k => ∀ r, QueryBound n (k r)

/-- All queries are in `S`, whatever the answers. -/
def QueriesIn (S : Q → Prop) : OracleProg Q R α → Prop
  | done _ => True
  | ask q k => S q ∧ ∀ r, QueriesIn S (k r)

theorem trace_length (H : Q → R) : ∀ (n : Nat) (p : OracleProg Q R α), p.QueryBound n → (p.trace H).length ≤ n
  | _, done _, _ => Nat.zero_le _
  | 0, ask _ _, h => absurd h id
  | n + 1, ask q k, h => Nat.succ_le_succ (trace_length H n (k (H q)) (h _))

/-- Ask `target a` at the end. -/
def andAsk (target : α → Q) : OracleProg Q R α → OracleProg Q R α
  | done a => ask (target a) (fun _ => done a)
  | ask q k => ask q (fun r => (k r).andAsk target)

theorem eval_andAsk (target : α → Q) (H : Q → R) : ∀ p : OracleProg Q R α, (p.andAsk target).eval H = p.eval H
  | done _ => rfl
  | ask q k => eval_andAsk target H (k (H q))

theorem trace_andAsk (target : α → Q) (H : Q → R) :
    ∀ p : OracleProg Q R α, (p.andAsk target).trace H = p.trace H ++ [target (p.eval H)]
  | done _ => rfl
  | ask q k => congrArg (q :: ·) (trace_andAsk target H (k (H q)))

/-- Oracles that agree on the first `i` queries lead to the same first `i + 1` queries. -/
theorem trace_take (H H' : Q → R) : ∀ (i : Nat) (p : OracleProg Q R α),
    (∀ q ∈ (p.trace H).take i, H' q = H q) → (p.trace H').take (i + 1) = (p.trace H).take (i + 1)
  | _, done _, _ => rfl
  | 0, ask q k, _ => by simp [trace]
  | i + 1, ask q k, h => by
    have hq : H' q = H q := h q (by simp [trace])
    have ih := trace_take H H' i (k (H q)) (fun q' hq' => h q' (by simp [trace, hq']))
    simp only [trace, List.take_succ_cons, hq] at ih ⊢
    rw [ih]

/-- Oracles that agree on all queries asked lead to the same output. -/
theorem eval_congr (H H' : Q → R) : ∀ p : OracleProg Q R α,
    (∀ q ∈ p.trace H, H' q = H q) → p.eval H' = p.eval H
  | done _, _ => rfl
  | ask q k, h => by
    have hq : H' q = H q := h q (by simp [trace])
    simp only [eval, hq]
    exact eval_congr H H' (k (H q)) (fun q' hq' => h q' (by simp [trace, hq']))

end OracleProg

/-- Probability of an event on a finite sample space, uniformly distributed. -/
noncomputable def prob {Ω : Type} (P : Ω → Prop) : ℚ := (Nat.card {ω // P ω} : ℚ) / Nat.card Ω

section
variable {Q R : Type} [DecidableEq Q]

/-- The oracle given by a function on the finite set `S` (and `r₀` elsewhere). -/
def oracle (S : Finset Q) (r₀ : R) (H : S → R) (q : Q) : R :=
  if h : q ∈ S then H ⟨q, h⟩ else r₀

/-- `H` on the queries in `L`, `G` on the others. -/
def splice (S : Finset Q) (L : List Q) (H G : S → R) : S → R := fun s => if s.1 ∈ L then H s else G s

theorem oracle_splice_mem {S : Finset Q} {r₀ : R} {L : List Q} {H G : S → R} {q : Q} (h : q ∈ L) :
    oracle S r₀ (splice S L H G) q = oracle S r₀ H q := by
  unfold oracle splice
  split
  · simp_all
  · rfl

theorem oracle_splice_not_mem {S : Finset Q} {r₀ : R} {L : List Q} {H G : S → R} {q : Q} (h : q ∉ L) :
    oracle S r₀ (splice S L H G) q = oracle S r₀ G q := by
  unfold oracle splice
  split
  · simp_all
  · rfl

variable {Ω α : Type}

/-- The queries asked before `target` of the output is asked for the first time. -/
def before (H : Q → R) (p : OracleProg Q R α) (target : α → Q) : List Q :=
  (p.trace H).takeWhile (· ≠ target (p.eval H))

end

/-! ### The counting argument -/

section counting
open Classical
variable {Q R : Type} [DecidableEq Q] [Fintype R] {S : Finset Q} (r₀ : R)
variable {Ω α : Type} [Fintype Ω]

private noncomputable def L (r₀ : R) (p : OracleProg Q R α) (i : Nat) (H : S → R) : List Q :=
  (p.trace (oracle S r₀ H)).take i

private noncomputable def sp (r₀ : R) (p : OracleProg Q R α) (i : Nat) (H G : S → R) : S → R :=
  splice S (L r₀ p i H) H G

private theorem trace_sp (p : OracleProg Q R α) (i : Nat) (H G : S → R) :
    (p.trace (oracle S r₀ (sp r₀ p i H G))).take (i + 1) = (p.trace (oracle S r₀ H)).take (i + 1) :=
  OracleProg.trace_take _ _ i p (fun q hq => oracle_splice_mem hq)

private theorem L_sp (p : OracleProg Q R α) (i : Nat) (H G : S → R) :
    L r₀ p i (sp r₀ p i H G) = L r₀ p i H := by
  have := congrArg (List.take i) (trace_sp r₀ p i H G)
  simpa [L, List.take_take] using this

private theorem sp_sp (p : OracleProg Q R α) (i : Nat) (H G K : S → R) :
    sp r₀ p i (sp r₀ p i H G) K = sp r₀ p i H K := by
  rw [sp, L_sp]
  funext s
  simp only [splice, sp]
  split <;> rfl

private noncomputable def swap (p : OracleProg Q R α) (i : Nat) : Function.End ((S → R) × (S → R)) :=
  fun x => (sp r₀ p i x.1 x.2, splice S (L r₀ p i x.1) x.2 x.1)

private theorem swap_involutive (p : OracleProg Q R α) (i : Nat) :
    Function.Involutive (swap (S := S) r₀ p i) := by
  rintro ⟨H, G⟩
  have h := L_sp r₀ p i H G
  simp only [swap, Prod.mk.injEq]
  refine ⟨?_, ?_⟩
  · funext s
    rw [sp, h]
    simp only [splice, sp]
    split <;> rfl
  · rw [h]
    funext s
    simp only [splice, sp]
    split <;> rfl

private theorem sum_sp (p : OracleProg Q R α) (i : Nat) (f : (S → R) → ℚ) :
    ∑ H : S → R, ∑ G : S → R, f (sp r₀ p i H G) = Fintype.card (S → R) * ∑ H : S → R, f H := by
  have h := Equiv.sum_comp (Function.Involutive.toPerm _ (swap_involutive (S := S) r₀ p i)) (fun x => f x.1)
  rw [Fintype.sum_prod_type, Fintype.sum_prod_type] at h
  have h' : ∑ H : S → R, ∑ G : S → R, f (sp r₀ p i H G) = ∑ H : S → R, ∑ G : S → R, f H := h
  rw [h']
  simp [Finset.mul_sum]

/-- The square of the number of accepted runs is at most the number of pairs of accepted runs. -/
private theorem pairs (p : Ω → OracleProg Q R α) (i : Nat) (f : Ω → (S → R) → ℚ) :
    (∑ ω, ∑ H, f ω H) ^ 2 ≤ Fintype.card Ω * ∑ ω, ∑ H, ∑ G, f ω H * f ω (sp r₀ (p ω) i H G) := by
  set M : ℚ := (Fintype.card (S → R) : ℚ) with hM
  have hMpos : 0 < M := by
    have : Nonempty R := ⟨r₀⟩
    rw [hM]; exact_mod_cast Fintype.card_pos
  let T : Ω → (S → R) → ℚ := fun ω H => ∑ G, f ω (sp r₀ (p ω) i H G)
  have h1 : ∑ x : Ω × (S → R), T x.1 x.2 = M * ∑ ω, ∑ H, f ω H := by
    rw [Fintype.sum_prod_type, Finset.mul_sum]
    exact Finset.sum_congr rfl (fun ω _ => sum_sp r₀ (p ω) i (f ω))
  have h2 : ∑ x : Ω × (S → R), T x.1 x.2 ^ 2
      = M * ∑ ω, ∑ H, ∑ G, f ω H * f ω (sp r₀ (p ω) i H G) := by
    rw [Fintype.sum_prod_type, Finset.mul_sum]
    refine Finset.sum_congr rfl (fun ω _ => ?_)
    have e1 : ∀ H, T ω H ^ 2 = ∑ G, T ω (sp r₀ (p ω) i H G) * f ω (sp r₀ (p ω) i H G) := by
      intro H
      have : ∀ G, T ω (sp r₀ (p ω) i H G) = T ω H := by
        intro G
        simp only [T, sp_sp]
      simp only [this]
      rw [← Finset.mul_sum, sq]
    simp only [e1]
    rw [sum_sp r₀ (p ω) i (fun H => T ω H * f ω H)]
    congr 1
    refine Finset.sum_congr rfl (fun H _ => ?_)
    rw [mul_comm, Finset.mul_sum]
  have h3 := sq_sum_le_card_mul_sum_sq (s := (Finset.univ : Finset (Ω × (S → R)))) (f := fun x => T x.1 x.2)
  rw [h1, h2, Finset.card_univ, Fintype.card_prod, Nat.cast_mul, ← hM] at h3
  have h4 : M ^ 2 * (∑ ω, ∑ H, f ω H) ^ 2
      ≤ M ^ 2 * (Fintype.card Ω * ∑ ω, ∑ H, ∑ G, f ω H * f ω (sp r₀ (p ω) i H G)) := by
    nlinarith [h3]
  exact le_of_mul_le_mul_left h4 (by positivity)

private theorem card_fixed (s : S) (c : R) :
    (Fintype.card R : ℚ) * ∑ G : S → R, (if G s = c then 1 else 0) = Fintype.card (S → R) := by
  have h : (Finset.univ.filter (fun G : S → R => G s = c))
      = Fintype.piFinset (fun j => if j = s then {c} else Finset.univ) := by
    ext G
    simp only [Finset.mem_filter, Finset.mem_univ, true_and, Fintype.mem_piFinset]
    constructor
    · intro h j
      split
      · next e => simp [e, h]
      · simp
    · intro h
      simpa using h s
  rw [Finset.sum_boole, h, Fintype.card_piFinset, Fintype.card_pi]
  have : ∀ j : S, (if j = s then ({c} : Finset R) else Finset.univ).card
      = if j = s then 1 else Fintype.card R := by
    intro j; split <;> simp
  simp only [this]
  rw [Finset.prod_ite]
  simp only [Finset.prod_const_one, one_mul, Finset.prod_const, Finset.card_univ, Fintype.card_coe]
  have hc : (Finset.univ.filter (fun j : S => ¬ j = s)).card = S.card - 1 := by
    rw [Finset.filter_not, Finset.filter_eq' Finset.univ s]
    simp [Finset.card_sdiff]
  rw [hc]
  have hpos : 0 < S.card := Finset.card_pos.2 ⟨s.1, s.2⟩
  norm_cast
  rw [← pow_succ', Nat.sub_add_cancel hpos]

private theorem card_prob {Ω : Type} [Fintype Ω] (P : Ω → Prop) :
    (Nat.card {ω // P ω} : ℚ) = ∑ ω, (if P ω then 1 else 0) := by
  rw [Nat.card_eq_fintype_card, Fintype.card_subtype, Finset.sum_boole]

theorem before_eq_take (H : Q → R) (p : OracleProg Q R α) (target : α → Q) :
    before H p target = ((p.andAsk target).trace H).take (before H p target).length := by
  rw [OracleProg.trace_andAsk, before]
  have h := List.takeWhile_prefix (fun q => decide (q ≠ target (p.eval H))) (l := p.trace H)
  exact List.prefix_iff_eq_take.1 (h.trans (List.prefix_append _ _))

theorem target_at (H : Q → R) (p : OracleProg Q R α) (target : α → Q) :
    ((p.andAsk target).trace H)[(before H p target).length]? = some (target (p.eval H)) := by
  rw [OracleProg.trace_andAsk, before]
  generalize target (p.eval H) = q
  induction p.trace H with
  | nil => simp
  | cons x l ih =>
    by_cases hx : x = q
    · subst hx; simp
    · simpa [List.takeWhile_cons, hx] using ih

theorem target_not_before (H : Q → R) (p : OracleProg Q R α) (target : α → Q) :
    target (p.eval H) ∉ before H p target := by
  unfold before
  generalize target (p.eval H) = q
  induction p.trace H with
  | nil => simp
  | cons x l ih =>
    by_cases hx : x = q
    · subst hx; simp
    · simpa [List.takeWhile_cons, hx, Ne.symm hx] using ih

theorem before_length (H : Q → R) (p : OracleProg Q R α) (target : α → Q) (n : Nat) (hn : p.QueryBound n) :
    (before H p target).length ≤ n :=
  (List.takeWhile_prefix _).length_le.trans (p.trace_length H n hn)

/-- What the two runs of the forking experiment satisfy: the first is accepted, and the second, with the oracle
changed from the query `target` of the first output on, is accepted for the same query and another answer. -/
def Forked (S : Finset Q) (r₀ : R) (p : OracleProg Q R α) (target : α → Q) (acc : α → R → Prop)
    (H G : S → R) : Prop :=
  let O := oracle S r₀ H
  let O' := oracle S r₀ (splice S (before O p target) H G)
  acc (p.eval O) (O (target (p.eval O))) ∧ acc (p.eval O') (O' (target (p.eval O'))) ∧
    target (p.eval O') = target (p.eval O) ∧
    O' (target (p.eval O)) ≠ O (target (p.eval O))

/-- **Forking lemma.** -/
theorem forking (S : Finset Q) (p : Ω → OracleProg Q R α) (n : Nat) (hn : ∀ ω, (p ω).QueryBound n)
    (target : Ω → α → Q) (hS : ∀ ω (H : S → R), target ω ((p ω).eval (oracle S r₀ H)) ∈ S)
    (acc : Ω → α → R → Prop) :
    let a := prob (fun x : Ω × (S → R) => acc x.1 ((p x.1).eval (oracle S r₀ x.2))
      (oracle S r₀ x.2 (target x.1 ((p x.1).eval (oracle S r₀ x.2)))))
    a * (a / (n + 1) - 1 / Nat.card R) ≤
      prob (fun x : Ω × (S → R) × (S → R) => Forked S r₀ (p x.1) (target x.1) (acc x.1) x.2.1 x.2.2) := by
  intro a
  let tg : Ω → (S → R) → Q := fun ω H => target ω ((p ω).eval (oracle S r₀ H))
  let win : Ω → (S → R) → Prop := fun ω H =>
    acc ω ((p ω).eval (oracle S r₀ H)) (oracle S r₀ H (tg ω H))
  let ix : Ω → (S → R) → Nat := fun ω H => (before (oracle S r₀ H) (p ω) (target ω)).length
  let gp : Ω → OracleProg Q R α := fun ω => (p ω).andAsk (target ω)
  let f : Nat → Ω → (S → R) → ℚ := fun i ω H => if win ω H ∧ ix ω H = i then 1 else 0
  let fk : Nat → Ω → (S → R) → (S → R) → ℚ := fun i ω H G =>
    if Forked S r₀ (p ω) (target ω) (acc ω) H G ∧ ix ω H = i then 1 else 0
  set M : ℚ := (Fintype.card (S → R) : ℚ) with hM
  set N : ℚ := (Fintype.card R : ℚ) with hN
  set W : ℚ := (Fintype.card Ω : ℚ) with hW
  have hMpos : 0 < M := by
    have : Nonempty R := ⟨r₀⟩
    rw [hM]; exact_mod_cast Fintype.card_pos
  have hNpos : 0 < N := by
    have : Nonempty R := ⟨r₀⟩
    rw [hN]; exact_mod_cast Fintype.card_pos
  -- one index
  have key : ∀ i ω H G, f i ω H * f i ω (sp r₀ (gp ω) i H G)
      ≤ fk i ω H G + f i ω H * (if G ⟨tg ω H, hS ω H⟩ = H ⟨tg ω H, hS ω H⟩ then 1 else 0) := by
    intro i ω H G
    by_cases h1 : win ω H ∧ ix ω H = i
    swap
    · have : f i ω H = 0 := if_neg h1
      rw [this]; simp only [zero_mul, add_zero, fk]; split <;> norm_num
    have e1 : f i ω H = 1 := if_pos h1
    by_cases h2 : win ω (sp r₀ (gp ω) i H G) ∧ ix ω (sp r₀ (gp ω) i H G) = i
    swap
    · have : f i ω (sp r₀ (gp ω) i H G) = 0 := if_neg h2
      rw [this, e1]; simp only [mul_zero, one_mul, fk]; split <;> split <;> norm_num
    have e2 : f i ω (sp r₀ (gp ω) i H G) = 1 := if_pos h2
    rw [e1, e2, one_mul, one_mul]
    obtain ⟨w1, i1⟩ := h1
    obtain ⟨w2, i2⟩ := h2
    have hL : L r₀ (gp ω) i H = before (oracle S r₀ H) (p ω) (target ω) := by
      have := before_eq_take (oracle S r₀ H) (p ω) (target ω)
      rw [show (before (oracle S r₀ H) (p ω) (target ω)).length = i from i1] at this
      exact this.symm
    have hsp : sp r₀ (gp ω) i H G = splice S (before (oracle S r₀ H) (p ω) (target ω)) H G := by
      rw [sp, hL]
    have htg : tg ω (sp r₀ (gp ω) i H G) = tg ω H := by
      have t1 := target_at (oracle S r₀ H) (p ω) (target ω)
      have t2 := target_at (oracle S r₀ (sp r₀ (gp ω) i H G)) (p ω) (target ω)
      rw [show (before (oracle S r₀ H) (p ω) (target ω)).length = i from i1] at t1
      rw [show (before (oracle S r₀ (sp r₀ (gp ω) i H G)) (p ω) (target ω)).length = i from i2] at t2
      have t3 := congrArg (fun l : List Q => l[i]?) (trace_sp r₀ (gp ω) i H G)
      simp only [List.getElem?_take_of_lt (Nat.lt_succ_self i)] at t3
      have := t2.symm.trans (t3.trans t1)
      exact Option.some.inj this
    by_cases hg : G ⟨tg ω H, hS ω H⟩ = H ⟨tg ω H, hS ω H⟩
    · rw [if_pos hg]
      have : 0 ≤ fk i ω H G := by simp only [fk]; split <;> norm_num
      linarith
    · have : fk i ω H G = 1 := by
        refine if_pos ⟨⟨w1, ?_, ?_, ?_⟩, i1⟩
        · rw [← hsp]; exact w2
        · rw [← hsp]; exact htg
        · rw [oracle_splice_not_mem (target_not_before _ _ _)]
          have : target ω ((p ω).eval (oracle S r₀ H)) ∈ S := hS ω H
          simp only [oracle, this, dif_pos]
          exact hg
      rw [this, if_neg hg]; norm_num
  -- sums over the index
  have hidx : ∀ ω H, (before (oracle S r₀ H) (p ω) (target ω)).length ∈ Finset.range (n + 1) := fun ω H =>
    Finset.mem_range.2 (Nat.lt_succ_of_le (before_length _ _ _ n (hn ω)))
  have hsumf : ∀ ω H, ∑ i ∈ Finset.range (n + 1), f i ω H = if win ω H then 1 else 0 := by
    intro ω H
    by_cases hw : win ω H
    · simp only [f, hw, true_and, if_true]
      rw [Finset.sum_ite_eq, if_pos (hidx ω H)]
    · simp only [f, hw, false_and, if_false, Finset.sum_const_zero]
  have hsumfk : ∀ ω H G, ∑ i ∈ Finset.range (n + 1), fk i ω H G
      = if Forked S r₀ (p ω) (target ω) (acc ω) H G then 1 else 0 := by
    intro ω H G
    by_cases hw : Forked S r₀ (p ω) (target ω) (acc ω) H G
    · simp only [fk, hw, true_and, if_true]
      rw [Finset.sum_ite_eq, if_pos (hidx ω H)]
    · simp only [fk, hw, false_and, if_false, Finset.sum_const_zero]
  set A : ℚ := ∑ ω, ∑ H : S → R, (if win ω H then 1 else 0) with hA
  set X : ℚ := ∑ ω, ∑ H : S → R, ∑ G : S → R,
    (if Forked S r₀ (p ω) (target ω) (acc ω) H G then 1 else 0) with hX
  have hAf : A = ∑ i ∈ Finset.range (n + 1), ∑ ω, ∑ H, f i ω H := by
    rw [hA]
    symm
    rw [Finset.sum_comm]
    refine Finset.sum_congr rfl (fun ω _ => ?_)
    rw [Finset.sum_comm]
    exact Finset.sum_congr rfl (fun H _ => hsumf ω H)
  have hXf : X = ∑ i ∈ Finset.range (n + 1), ∑ ω, ∑ H, ∑ G, fk i ω H G := by
    rw [hX]
    symm
    rw [Finset.sum_comm]
    refine Finset.sum_congr rfl (fun ω _ => ?_)
    rw [Finset.sum_comm]
    refine Finset.sum_congr rfl (fun H _ => ?_)
    rw [Finset.sum_comm]
    exact Finset.sum_congr rfl (fun G _ => hsumfk ω H G)
  have hPi : ∀ i, ∑ ω, ∑ H, ∑ G, f i ω H * f i ω (sp r₀ (gp ω) i H G)
      ≤ ∑ ω, ∑ H, ∑ G, fk i ω H G + M / N * ∑ ω, ∑ H, f i ω H := by
    intro i
    rw [Finset.mul_sum, ← Finset.sum_add_distrib]
    refine Finset.sum_le_sum (fun ω _ => ?_)
    rw [Finset.mul_sum, ← Finset.sum_add_distrib]
    refine Finset.sum_le_sum (fun H _ => ?_)
    refine (Finset.sum_le_sum (fun G _ => key i ω H G)).trans ?_
    rw [Finset.sum_add_distrib, ← Finset.mul_sum]
    have := card_fixed (S := S) ⟨tg ω H, hS ω H⟩ (H ⟨tg ω H, hS ω H⟩)
    rw [← hN, ← hM] at this
    rw [show (∑ G : S → R, if G ⟨tg ω H, hS ω H⟩ = H ⟨tg ω H, hS ω H⟩ then (1 : ℚ) else 0) = M / N by
      field_simp; linarith]
    linarith
  have main : A ^ 2 ≤ (n + 1) * (W * (X + M / N * A)) := by
    have c1 := sq_sum_le_card_mul_sum_sq (s := Finset.range (n + 1)) (f := fun i => ∑ ω, ∑ H, f i ω H)
    rw [Finset.card_range, ← hAf] at c1
    have c2 : ∑ i ∈ Finset.range (n + 1), (∑ ω, ∑ H, f i ω H) ^ 2 ≤ W * (X + M / N * A) := by
      rw [hXf, hAf, Finset.mul_sum (a := M / N), ← Finset.sum_add_distrib, Finset.mul_sum]
      refine Finset.sum_le_sum (fun i _ => ?_)
      refine (pairs r₀ gp i (f i)).trans ?_
      exact mul_le_mul_of_nonneg_left (hPi i) (Nat.cast_nonneg _)
    push_cast at c1
    refine c1.trans ?_
    exact mul_le_mul_of_nonneg_left c2 (by positivity)
  have ha : a = A / (W * M) := by
    simp only [a, prob]
    rw [card_prob, Fintype.sum_prod_type, Nat.card_eq_fintype_card, Fintype.card_prod, Nat.cast_mul, ← hW, ← hM]
  have hx : prob (fun x : Ω × (S → R) × (S → R) => Forked S r₀ (p x.1) (target x.1) (acc x.1) x.2.1 x.2.2)
      = X / (W * (M * M)) := by
    simp only [prob]
    rw [card_prob, Fintype.sum_prod_type, Nat.card_eq_fintype_card, Fintype.card_prod, Fintype.card_prod,
      Nat.cast_mul, Nat.cast_mul, ← hW, ← hM, hX]
    congr 1
    exact Finset.sum_congr rfl (fun ω _ => Fintype.sum_prod_type _)
  rw [hx, ha, Nat.card_eq_fintype_card, ← hN]
  rcases eq_or_lt_of_le (show 0 ≤ W from Nat.cast_nonneg _) with h0 | hWpos
  · simp [← h0]
  have hn1 : (0 : ℚ) < n + 1 := by positivity
  rw [show A / (W * M) * (A / (W * M) / (n + 1) - 1 / N)
      = (A ^ 2 / (n + 1) - W * (M / N * A)) / (W * W * (M * M)) by field_simp,
    show X / (W * (M * M)) = (W * X) / (W * W * (M * M)) by field_simp]
  apply div_le_div_of_nonneg_right _ (by positivity)
  have : A ^ 2 / (n + 1) ≤ W * (X + M / N * A) := by
    rw [div_le_iff₀ hn1]; linarith
  linarith

end counting

/-! ### Every program with boundedly many queries asks queries in a finite set -/

theorem OracleProg.exists_querySet {Q R α : Type} [DecidableEq Q] [Fintype R] :
    ∀ (n : Nat) (p : OracleProg Q R α), p.QueryBound n → ∃ S : Finset Q, p.QueriesIn (· ∈ S) := by
  have mono : ∀ (S T : Finset Q), S ⊆ T → ∀ p : OracleProg Q R α, p.QueriesIn (· ∈ S) → p.QueriesIn (· ∈ T) := by
    intro S T hST p
    induction p with
    | done a => intro _; trivial
    | ask q k ih => rintro ⟨h1, h2⟩; exact ⟨hST h1, fun r => ih r (h2 r)⟩
  intro n
  induction n with
  | zero =>
    rintro (a | ⟨q, k⟩) h
    · exact ⟨∅, trivial⟩
    · exact absurd h id
  | succ n ih =>
    rintro (a | ⟨q, k⟩) h
    · exact ⟨∅, trivial⟩
    · choose T hT using fun r => ih (k r) (h r)
      refine ⟨insert q (Finset.univ.biUnion T), Finset.mem_insert_self _ _, fun r => ?_⟩
      refine mono (T r) _ ?_ _ (hT r)
      intro x hx
      exact Finset.mem_insert_of_mem (Finset.mem_biUnion.2 ⟨r, Finset.mem_univ r, hx⟩)

end Rom
