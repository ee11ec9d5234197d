import Verif.Model.Shamir
import Verif.Lemmas.Poly
import Mathlib.LinearAlgebra.Lagrange
import Mathlib.Algebra.BigOperators.Intervals

/-! Lemmas about the Shamir functions. -/

set_option linter.unusedSectionVars false
namespace Allo
open Spec Finset

section
variable {F M : Type} [Field F] [DecidableEq F] [AddCommGroup M] [Module F M]

/-! ### sums and products of loops -/

theorem foldl_range_add (f : Nat → M) (n : Nat) (r : M) :
    (List.range n).foldl (fun r i => r + f i) r = r + ∑ i ∈ range n, f i := by
  induction n with
  | zero => simp
  | succ n ih => rw [List.range_succ, List.foldl_append, ih, sum_range_succ]; simp [add_assoc]

theorem foldl_range'_add (f : Nat → M) (n : Nat) (r : M) :
    (List.range' 1 n).foldl (fun r i => r + f i) r = r + ∑ i ∈ range n, f (i + 1) := by
  induction n with
  | zero => simp
  | succ n ih =>
    rw [List.range'_concat, List.foldl_append, ih, sum_range_succ]
    simp [add_assoc, add_comm n 1]

theorem foldl_range_mul (f : Nat → F) (n : Nat) (r : F) :
    (List.range n).foldl (fun r i => r * f i) r = r * ∏ i ∈ range n, f i := by
  induction n with
  | zero => simp
  | succ n ih => rw [List.range_succ, List.foldl_append, ih, prod_range_succ]; simp [mul_assoc]

theorem polyVal_eq_finsum (x : F) (A : List M) :
    polyVal x A = ∑ k ∈ range A.length, x ^ k • A.getD k 0 := by
  induction A with
  | nil => simp
  | cons a l ih =>
    rw [List.length_cons, sum_range_succ', polyVal_cons, ih, smul_sum]
    simp [pow_succ', mul_smul, add_comm]

/-! ### Lagrange interpolation at a point -/

/-- Lagrange coefficient of node `i` among the nodes in `s`, evaluated at `z` -/
def lagr (s : Finset Nat) (x : Nat → F) (z : F) (i : Nat) : F :=
  ∏ j ∈ s.erase i, (z - x j) * (x i - x j)⁻¹

theorem lagr_eq_eval (s : Finset Nat) (x : Nat → F) (z : F) (i : Nat) :
    lagr s x z i = (Lagrange.basis s x i).eval z := by
  rw [Lagrange.basis, Polynomial.eval_prod, lagr]
  apply prod_congr rfl
  intro j _
  simp [Lagrange.basisDivisor, mul_comm]

/-- interpolation of the monomials -/
theorem lagr_pow (s : Finset Nat) (x : Nat → F) (hx : Set.InjOn x s) (z : F) (k : Nat)
    (hk : k < s.card) : ∑ i ∈ s, lagr s x z i * x i ^ k = z ^ k := by
  have h : (Polynomial.X ^ k : Polynomial F) = Lagrange.interpolate s x (fun i => x i ^ k) := by
    apply Lagrange.eq_interpolate_of_eval_eq _ hx
    · rw [Polynomial.degree_X_pow]; exact_mod_cast hk
    · intro i _; simp
  have h2 := congrArg (Polynomial.eval z) h
  rw [Lagrange.interpolate_apply, Polynomial.eval_finsetSum] at h2
  simp only [Polynomial.eval_pow, Polynomial.eval_X, Polynomial.eval_mul, Polynomial.eval_C] at h2
  rw [h2]
  exact sum_congr rfl (fun i _ => by rw [lagr_eq_eval, mul_comm])

/-- interpolation of a polynomial with coefficients in a module -/
theorem lagr_polyVal (s : Finset Nat) (x : Nat → F) (hx : Set.InjOn x s) (z : F) (A : List M)
    (hA : A.length ≤ s.card) : ∑ i ∈ s, lagr s x z i • polyVal (x i) A = polyVal z A := by
  simp only [polyVal_eq_finsum, smul_sum]
  rw [sum_comm]
  apply sum_congr rfl
  intro k hk
  rw [← lagr_pow s x hx z k (lt_of_lt_of_le (mem_range.1 hk) hA), sum_smul]
  exact sum_congr rfl (fun i _ => by rw [smul_smul])

/-- existence of the interpolating polynomial -/
theorem exists_polyVal (s : Finset Nat) (x : Nat → F) (hx : Set.InjOn x s) (v : Nat → M) :
    ∃ A : List M, A.length = s.card ∧ (∀ z, polyVal z A = ∑ i ∈ s, lagr s x z i • v i) ∧
      ∀ i ∈ s, polyVal (x i) A = v i := by
  classical
  refine ⟨(List.range s.card).map (fun k => ∑ i ∈ s, (Lagrange.basis s x i).coeff k • v i), by simp,
    ?_, ?_⟩
  · intro z
    rw [polyVal_eq_finsum, List.length_map, List.length_range]
    have : ∀ k ∈ range s.card, z ^ k • ((List.range s.card).map
        (fun k => ∑ i ∈ s, (Lagrange.basis s x i).coeff k • v i)).getD k 0
        = ∑ i ∈ s, ((Lagrange.basis s x i).coeff k * z ^ k) • v i := by
      intro k hk
      rw [mem_range] at hk
      simp [hk, smul_sum, smul_smul, mul_comm]
    rw [sum_congr rfl this, sum_comm]
    apply sum_congr rfl
    intro i hi
    rw [← sum_smul, lagr_eq_eval]
    congr 1
    rw [Polynomial.eval_eq_sum_range']
    have hd := Lagrange.degree_basis hx hi
    have hs : 0 < s.card := card_pos.2 ⟨i, hi⟩
    rw [Polynomial.natDegree_eq_of_degree_eq_some hd]
    exact Nat.sub_lt hs Nat.one_pos
  · intro i hi
    rw [polyVal_eq_finsum, List.length_map, List.length_range]
    have : ∀ k ∈ range s.card, x i ^ k • ((List.range s.card).map
        (fun k => ∑ i ∈ s, (Lagrange.basis s x i).coeff k • v i)).getD k 0
        = ∑ j ∈ s, ((Lagrange.basis s x j).coeff k * x i ^ k) • v j := by
      intro k hk
      rw [mem_range] at hk
      simp [hk, smul_sum, smul_smul, mul_comm]
    rw [sum_congr rfl this, sum_comm]
    have key : ∀ j ∈ s, ∑ k ∈ range s.card, ((Lagrange.basis s x j).coeff k * x i ^ k) • v j
        = if j = i then v i else 0 := by
      intro j hj
      have hs : 0 < s.card := card_pos.2 ⟨i, hi⟩
      have hd := Lagrange.degree_basis hx hj
      rw [← sum_smul, ← Polynomial.eval_eq_sum_range']
      · by_cases hji : j = i
        · subst hji; simp [Lagrange.eval_basis_self hx hj]
        · rw [Lagrange.eval_basis_of_ne hji hi]; simp [hji]
      · rw [Polynomial.natDegree_eq_of_degree_eq_some hd]
        exact Nat.sub_lt hs Nat.one_pos
    rw [sum_congr rfl key]
    simp [hi]

theorem lagr_ne_zero (s : Finset Nat) (x : Nat → F) (hx : Set.InjOn x s) (z : F) (i : Nat) (hi : i ∈ s)
    (hz : ∀ j ∈ s, j ≠ i → z ≠ x j) : lagr s x z i ≠ 0 := by
  rw [lagr, prod_ne_zero_iff]
  intro j hj
  rw [mem_erase] at hj
  refine mul_ne_zero (sub_ne_zero.2 (hz j hj.2 hj.1)) (inv_ne_zero (sub_ne_zero.2 ?_))
  intro e
  exact hj.1 (hx hj.2 hi e.symm)

/-! ### the coefficients computed by the code -/

/-- the evaluation point of share `i` -/
def ptX {T : Type} (shares : List (F × T)) (i : Nat) : F := (shares.map (·.1)).getD i 0

/-- the value of share `i` -/
def ptV (shares : List (F × M)) (i : Nat) : M := (shares.map (·.2)).getD i 0

theorem ptX_lt {T : Type} {shares : List (F × T)} {i : Nat} (h : i < shares.length) :
    shares[i].1 = ptX shares i := by simp [ptX, h]

theorem ptV_lt {shares : List (F × M)} {i : Nat} (h : i < shares.length) :
    shares[i].2 = ptV shares i := by simp [ptV, h]

theorem product_eq {T : Type} (t : Nat) (shares : List (F × T)) (h : t ≤ shares.length) :
    (shares.take t).foldl (fun a y => a * y.1) 1 = ∏ j ∈ range t, ptX shares j := by
  induction t with
  | zero => simp
  | succ t ih =>
    rw [List.take_add_one, List.getElem?_eq_getElem (by omega), List.foldl_append, ih (by omega),
      prod_range_succ]
    simp [ptX_lt (show t < shares.length by omega)]

theorem lagr_zero (t : Nat) (x : Nat → F) (i : Nat) (hi : i < t) (h0 : x i ≠ 0) :
    (∏ j ∈ range t, x j) * ∏ j ∈ range t, (if i = j then (x i)⁻¹ else (x j - x i)⁻¹)
      = lagr (range t) x 0 i := by
  have hi' : i ∈ range t := mem_range.2 hi
  rw [← mul_prod_erase (range t) x hi', ← mul_prod_erase (range t) _ hi', lagr]
  simp only [if_true]
  have : ∏ j ∈ (range t).erase i, (if i = j then (x i)⁻¹ else (x j - x i)⁻¹)
      = ∏ j ∈ (range t).erase i, (x j - x i)⁻¹ := by
    apply prod_congr rfl
    intro j hj
    rw [if_neg (Ne.symm (mem_erase.1 hj).1)]
  rw [this]
  have e : ∀ j ∈ (range t).erase i, (0 - x j) * (x i - x j)⁻¹ = x j * (x j - x i)⁻¹ := by
    intro j _
    rw [← neg_sub (x j) (x i), inv_neg]; ring
  rw [prod_congr rfl e, prod_mul_distrib]
  field_simp

theorem shamirCoefficient_ok {T : Type} (t : Nat) (shares : List (F × T)) (p : F) (i : Nat)
    (hi : i < t) (ht : t ≤ shares.length) (h0 : ptX shares i ≠ 0)
    (hd : ∀ j < t, j ≠ i → ptX shares j ≠ ptX shares i) :
    shamirCoefficient t shares p i = .ok (p * ∏ j ∈ range t,
      (if i = j then (ptX shares i)⁻¹ else (ptX shares j - ptX shares i)⁻¹)) := by
  unfold shamirCoefficient
  rw [foldlM_ok _ _ (fun c j => c * (if i = j then (ptX shares i)⁻¹
    else (ptX shares j - ptX shares i)⁻¹)), foldl_range_mul]
  intro c j hj
  rw [List.mem_range] at hj
  by_cases hij : i = j
  · subst hij
    simp only [if_true]
    rw [idx_lt (show i < shares.length by omega)]
    simp only [bind, Except.bind, ptX_lt]
    rw [inv!_ne h0]; rfl
  · simp only [hij, if_false]
    rw [idx_lt (show j < shares.length by omega), idx_lt (show i < shares.length by omega)]
    simp only [bind, Except.bind, ptX_lt]
    rw [inv!_ne (sub_ne_zero.2 (hd j hj (Ne.symm hij)))]; rfl

/-- hypotheses on the first `m` evaluation points: there, distinct and non-zero -/
structure GoodPts {T : Type} (m : Nat) (shares : List (F × T)) : Prop where
  len : m ≤ shares.length
  ne0 : ∀ i < m, ptX shares i ≠ 0
  inj : ∀ i < m, ∀ j < m, ptX shares i = ptX shares j → i = j

theorem GoodPts.mono {T : Type} {m n : Nat} {shares : List (F × T)} (h : GoodPts m shares)
    (hn : n ≤ m) : GoodPts n shares :=
  ⟨le_trans hn h.len, fun i hi => h.ne0 i (by omega), fun i hi j hj => h.inj i (by omega) j (by omega)⟩

theorem GoodPts.injOn {T : Type} {m : Nat} {shares : List (F × T)} (h : GoodPts m shares) :
    Set.InjOn (ptX shares) (range m) := by
  intro i hi j hj e
  simp at hi hj
  exact h.inj i hi j hj e

/-- the coefficients -/
theorem coefficients_ok {T : Type} (t : Nat) (shares : List (F × T)) (h : GoodPts t shares) :
    (List.range t).mapM (shamirCoefficient t shares
        ((shares.take t).foldl (fun a y => a * y.1) 1))
      = .ok ((List.range t).map (lagr (range t) (ptX shares) 0)) := by
  apply mapM_ok
  intro i hi
  rw [List.mem_range] at hi
  rw [shamirCoefficient_ok t shares _ i hi h.len (h.ne0 i hi)
    (fun j hj hji e => hji (h.inj j hj i hi e)), product_eq t shares h.len,
    lagr_zero t _ i hi (h.ne0 i hi)]

/-- the check coefficients in closed form (before relating them to Lagrange coefficients) -/
def checkEntry (t n : Nat) (x : Nat → F) (i : Nat) : F :=
  if i = 0 then (∏ j ∈ range t, x j) * x 0 * ∏ j ∈ range n, (x (j + 1) - x t)⁻¹
  else if i ≤ n then lagr (range t) x 0 i * (x t * (x 0)⁻¹ * (x 0 - x i) * (x t - x i)⁻¹)
  else lagr (range t) x 0 i

theorem checks_loop {T : Type} (t : Nat) (ht : 1 ≤ t) (shares : List (F × T))
    (h : GoodPts (t + 1) shares) (n : Nat) (hn : n ≤ t - 1) (xt x0 : F × T)
    (hxt : xt.1 = ptX shares t) (hx0 : x0.1 = ptX shares 0) :
    (List.range' 1 n).foldlM (fun checks i => do
      let xi ← idx shares i
      let v ← inv! (xt.1 - xi.1)
      let checks := checks.modify i (· * (ptX shares t * (ptX shares 0)⁻¹ * (x0.1 - xi.1) * v))
      let v' ← inv! (xi.1 - xt.1)
      let checks := checks.modify 0 (· * v')
      pure checks) ((List.range t).map (checkEntry t 0 (ptX shares)))
      = (.ok ((List.range t).map (checkEntry t n (ptX shares))) : Rust (List F)) := by
  induction n with
  | zero => rfl
  | succ n ih =>
    rw [List.range'_concat, List.foldlM_append, ih (by omega)]
    have hl := h.len
    have hne : ptX shares t ≠ ptX shares (1 + n) :=
      fun e => absurd (h.inj t (by omega) (1 + n) (by omega) e) (by omega)
    simp only [one_mul, List.foldlM_cons, List.foldlM_nil, bind, Except.bind]
    rw [idx_lt (show 1 + n < shares.length by omega)]
    simp only [ptX_lt, hxt, hx0]
    rw [inv!_ne (sub_ne_zero.2 hne), inv!_ne (sub_ne_zero.2 (Ne.symm hne))]
    simp only [pure, Except.pure, Except.ok.injEq]
    apply List.ext_getElem
    · simp
    · intro i h1 h2
      simp at h1 h2
      simp only [List.getElem_modify, List.getElem_map, List.getElem_range]
      unfold checkEntry
      by_cases hi0 : i = 0
      · subst hi0
        simp only [if_true, if_neg (show ¬(1 + n = 0) by omega)]
        rw [prod_range_succ, add_comm 1 n]
        ring
      · simp only [hi0, if_false, if_neg (Ne.symm hi0)]
        by_cases hin : 1 + n = i
        · subst hin
          rw [if_pos rfl, if_neg (by omega), if_pos (by omega)]
        · rw [if_neg hin]
          by_cases hle : i ≤ n
          · rw [if_pos hle, if_pos (by omega)]
          · rw [if_neg hle, if_neg (by omega)]

theorem checks_ok {T : Type} (t : Nat) (ht : 1 ≤ t) (shares : List (F × T))
    (h : GoodPts (t + 1) shares) :
    shamirChecks t shares (∏ j ∈ range t, ptX shares j)
      ((List.range t).map (lagr (range t) (ptX shares) 0))
      = .ok ((List.range t).map (checkEntry t (t - 1) (ptX shares))) := by
  have hl := h.len
  have hloop := checks_loop t ht shares h (t - 1) le_rfl shares[t] shares[0] (ptX_lt _) (ptX_lt _)
  unfold shamirChecks
  rw [idx_lt (show t < shares.length by omega), idx_lt (show 0 < shares.length by omega)]
  simp only [bind, Except.bind]
  have h00 : shares[0].1 ≠ 0 := by rw [ptX_lt]; exact h.ne0 0 (by omega)
  rw [inv!_ne h00]
  simp only [idx_lt (show 0 < ((List.range t).map (lagr (range t) (ptX shares) 0)).length by
    simp; omega)]
  rw [← hloop]
  simp only [bind, Except.bind, ptX_lt]
  congr 1
  apply List.ext_getElem
  · simp
  · intro i h1 h2
    simp at h1 h2
    simp only [List.getElem_set, List.getElem_map, List.getElem_range, checkEntry]
    by_cases hi0 : i = 0
    · subst hi0; simp
    · rw [if_neg (Ne.symm hi0), if_neg hi0, if_neg (by omega)]

theorem shamirCoefficients_exact {T : Type} (t : Nat) (shares : List (F × T)) (h : GoodPts t shares)
    (hl : shares.length = t) :
    shamirCoefficients t shares = .ok ((List.range t).map (lagr (range t) (ptX shares) 0), none) := by
  unfold shamirCoefficients
  rw [if_neg (by omega)]
  simp only [bind, Except.bind]
  rw [coefficients_ok t shares h]
  simp only
  rw [if_neg (by omega)]; rfl

theorem shamirCoefficients_extra {T : Type} (t : Nat) (ht : 1 ≤ t) (shares : List (F × T))
    (h : GoodPts (t + 1) shares) :
    shamirCoefficients t shares = .ok ((List.range t).map (lagr (range t) (ptX shares) 0),
      some ((List.range t).map (checkEntry t (t - 1) (ptX shares)))) := by
  have hl := h.len
  unfold shamirCoefficients
  rw [if_neg (by omega)]
  simp only [bind, Except.bind]
  rw [coefficients_ok t shares (h.mono (by omega))]
  simp only
  rw [if_pos (by omega), product_eq t shares (by omega), checks_ok t ht shares h]
  rfl

/-! ### rebuilding -/

/-- The scalar version is the point version at `G = F`. -/
theorem rebuildScalar_eq (shares : List (F × F)) (cs : List F) (ch : Option (List F)) :
    shamirRebuildScalar shares cs ch = shamirRebuildPoint shares cs ch := by
  unfold shamirRebuildScalar shamirRebuildPoint
  have hl : (fun (r : F) (i : Nat) => (do
        let s ← idx shares i
        let c ← idx cs i
        pure (r + s.2 * c) : Rust F))
      = fun r i => (do
        let s ← idx shares i
        let c ← idx cs i
        pure (r + c • s.2) : Rust F) := by
    funext r i
    cases hs : idx shares i <;> cases hc : idx cs i <;> simp [bind, Except.bind, mul_comm]
  rw [hl]
  congr 1
  funext result
  cases ch with
  | none => rfl
  | some checks =>
    have hc : (fun (r : F) (i : Nat) => (do
          let c ← idx checks i
          let s ← idx shares i
          pure (r + c * s.2) : Rust F))
        = fun r i => (do
          let s ← idx shares i
          let c ← idx checks i
          pure (r + c • s.2) : Rust F) := by
      funext r i
      unfold idx
      cases checks[i]? <;> cases shares[i]? <;> rfl
    simp only [hc]
    unfold idx
    cases checks[0]? <;> cases shares[cs.length]? <;> rfl

variable [DecidableEq M]

theorem rebuild_sum (shares : List (F × M)) (cs : List F) (h : cs.length ≤ shares.length) :
    (List.range cs.length).foldlM (fun (r : M) i => do
      let s ← idx shares i
      let c ← idx cs i
      pure (r + c • s.2)) 0 = (.ok (∑ i ∈ range cs.length, cs.getD i 0 • ptV shares i) : Rust M) := by
  rw [foldlM_ok _ _ (fun r i => r + cs.getD i 0 • ptV shares i), foldl_range_add, zero_add]
  intro r i hi
  rw [List.mem_range] at hi
  rw [idx_lt (show i < shares.length by omega), idx_lt hi]
  simp only [bind, Except.bind, pure, Except.pure, ptV_lt]
  simp [hi]

theorem rebuildPoint_none (shares : List (F × M)) (cs : List F) (h : cs.length ≤ shares.length) :
    shamirRebuildPoint shares cs none
      = .ok (some (∑ i ∈ range cs.length, cs.getD i 0 • ptV shares i)) := by
  unfold shamirRebuildPoint
  rw [rebuild_sum shares cs h]; rfl

theorem rebuildPoint_some (shares : List (F × M)) (cs ch : List F) (h : cs.length < shares.length)
    (h0 : 0 < cs.length) (hch : ch.length = cs.length) :
    shamirRebuildPoint shares cs (some ch)
      = .ok (if ch.getD 0 0 • ptV shares cs.length
            + ∑ i ∈ range (cs.length - 1), ch.getD (i + 1) 0 • ptV shares (i + 1)
          = ∑ i ∈ range cs.length, cs.getD i 0 • ptV shares i
        then some (∑ i ∈ range cs.length, cs.getD i 0 • ptV shares i) else none) := by
  unfold shamirRebuildPoint
  rw [rebuild_sum shares cs (by omega)]
  simp only [bind, Except.bind]
  rw [idx_lt h, idx_lt (show 0 < ch.length by omega)]
  simp only [ptV_lt]
  have := foldlM_ok (List.range' 1 (cs.length - 1)) (fun (r : M) i => do
      let s ← idx shares i
      let c ← idx ch i
      pure (r + c • s.2)) (fun r i => r + ch.getD i 0 • ptV shares i)
      (ch[0] • ptV shares cs.length) (by
    intro r i hi
    rw [List.mem_range'_1] at hi
    rw [idx_lt (show i < shares.length by omega), idx_lt (show i < ch.length by omega)]
    simp only [bind, Except.bind, pure, Except.pure, ptV_lt]
    simp [show i < ch.length by omega])
  simp only [bind, Except.bind] at this
  rw [this, foldl_range'_add]
  simp only
  have e : ch.getD 0 0 = ch[0] := by simp [show 0 < ch.length by omega]
  rw [e]
  split <;> rfl

/-! ### the check compares two interpolations -/

theorem range_erase_eq (t i : Nat) (hi : i < t) (h1 : 1 ≤ i) :
    (range t).erase i = insert 0 (((range t).erase 0).erase i) := by
  ext j; simp; omega

/-- nodes `1..t` -/
def tailSet (t : Nat) : Finset Nat := (range (t + 1)).erase 0

theorem checkEntry_mid (t i : Nat) (x : Nat → F) (hi : i < t) (h1 : 1 ≤ i) (h0 : x 0 ≠ 0)
    (h0i : x 0 ≠ x i) : checkEntry t (t - 1) x i = lagr (tailSet t) x 0 i := by
  unfold checkEntry
  rw [if_neg (by omega), if_pos (by omega)]
  have e1 : (range t).erase i = insert 0 (((range t).erase 0).erase i) := range_erase_eq t i hi h1
  have e2 : (tailSet t).erase i = insert t (((range t).erase 0).erase i) := by
    ext j; simp [tailSet]; omega
  unfold lagr
  rw [e1, e2, prod_insert (by simp), prod_insert (by simp)]
  have hne : x 0 - x i ≠ 0 := sub_ne_zero.2 h0i
  rw [← neg_sub (x 0) (x i), inv_neg, ← neg_sub (x t) (x i), inv_neg]
  field_simp
  ring

theorem checkEntry_zero (t : Nat) (ht : 1 ≤ t) (x : Nat → F) :
    checkEntry t (t - 1) x 0 = x 0 ^ 2 * lagr (tailSet t) x 0 t := by
  unfold checkEntry
  rw [if_pos rfl]
  have e2 : (tailSet t).erase t = (range (t - 1)).image (· + 1) := by
    ext j; simp only [tailSet, mem_erase, mem_range, mem_image]
    constructor
    · rintro ⟨h1, h2, h3⟩; exact ⟨j - 1, by omega, by omega⟩
    · rintro ⟨k, hk, rfl⟩; omega
  unfold lagr
  rw [e2, prod_image (fun a _ b _ h => by omega)]
  obtain ⟨n, rfl⟩ : ∃ n, t = n + 1 := ⟨t - 1, by omega⟩
  rw [prod_range_succ', Nat.add_sub_cancel]
  have e : ∀ j ∈ range n, (0 - x (j + 1)) * (x (n + 1) - x (j + 1))⁻¹
      = x (j + 1) * (x (j + 1) - x (n + 1))⁻¹ := by
    intro j _
    rw [← neg_sub (x (j + 1)) (x (n + 1)), inv_neg]; ring
  rw [prod_congr rfl e, prod_mul_distrib]
  ring

/-- Rebuilding with the check, for arbitrary values: the check passes exactly when the value at the
extra point times `x₀²` is the interpolated one. -/
theorem rebuild_check_general (t : Nat) (ht : 1 ≤ t) (shares : List (F × M)) {T : Type}
    (pts : List (F × T)) (hp : GoodPts (t + 1) pts) (hpts : ∀ i ≤ t, ptX shares i = ptX pts i)
    (hl : t < shares.length) :
    shamirRebuildPoint shares ((List.range t).map (lagr (range t) (ptX pts) 0))
        (some ((List.range t).map (checkEntry t (t - 1) (ptX pts))))
      = .ok (if ptX pts 0 ^ 2 • ptV shares t
            = ∑ i ∈ range t, lagr (range t) (ptX pts) (ptX pts t) i • ptV shares i
        then some (∑ i ∈ range t, lagr (range t) (ptX pts) 0 i • ptV shares i) else none) := by
  rw [rebuildPoint_some _ _ _ (by simpa using hl) (by simp; omega) (by simp)]
  simp only [List.length_map, List.length_range]
  have hsum : ∑ i ∈ range t, ((List.range t).map (lagr (range t) (ptX pts) 0)).getD i 0 • ptV shares i
      = ∑ i ∈ range t, lagr (range t) (ptX pts) 0 i • ptV shares i := by
    apply sum_congr rfl
    intro i hi
    rw [mem_range] at hi
    simp [hi]
  rw [hsum]
  have h00 := hp.ne0 0 (by omega)
  have hck : ((List.range t).map (checkEntry t (t - 1) (ptX pts))).getD 0 0 • ptV shares t
      + ∑ i ∈ range (t - 1), ((List.range t).map (checkEntry t (t - 1) (ptX pts))).getD (i + 1) 0
        • ptV shares (i + 1)
      = lagr (tailSet t) (ptX pts) 0 t • (ptX pts 0 ^ 2 • ptV shares t)
        + ∑ i ∈ range (t - 1), lagr (tailSet t) (ptX pts) 0 (i + 1) • ptV shares (i + 1) := by
    congr 1
    · simp [show 0 < t by omega, checkEntry_zero t ht _, smul_smul, mul_comm]
    · apply sum_congr rfl
      intro i hi
      rw [mem_range] at hi
      have : i + 1 < t := by omega
      have hne : ptX pts 0 ≠ ptX pts (i + 1) :=
        fun e => absurd (hp.inj 0 (by omega) (i + 1) (by omega) e) (by omega)
      simp [this, checkEntry_mid t (i + 1) _ this (by omega) h00 hne]
  rw [hck]
  -- compare with the interpolating polynomial of the first t shares
  obtain ⟨A, hA1, hA2, hA3⟩ := exists_polyVal (range t) (ptX pts) (hp.mono (Nat.le_succ t)).injOn
    (ptV shares)
  rw [card_range] at hA1
  have hinj : Set.InjOn (ptX pts) (tailSet t) := by
    intro i hi j hj e
    simp [tailSet] at hi hj
    exact hp.inj i (by omega) j (by omega) e
  have hcard : (tailSet t).card = t := by simp [tailSet]
  have htail := lagr_polyVal (tailSet t) (ptX pts) hinj 0 A (by rw [hA1, hcard])
  have hsplit : ∑ i ∈ tailSet t, lagr (tailSet t) (ptX pts) 0 i • polyVal (ptX pts i) A
      = lagr (tailSet t) (ptX pts) 0 t • polyVal (ptX pts t) A
        + ∑ i ∈ range (t - 1), lagr (tailSet t) (ptX pts) 0 (i + 1) • ptV shares (i + 1) := by
    have e : tailSet t = insert t ((range (t - 1)).image (· + 1)) := by
      ext j; simp only [tailSet, mem_erase, mem_range, mem_image, mem_insert]
      constructor
      · rintro ⟨h1, h2⟩
        by_cases hj : j = t
        · exact Or.inl hj
        · exact Or.inr ⟨j - 1, by omega, by omega⟩
      · rintro (rfl | ⟨k, hk, rfl⟩) <;> omega
    rw [e, sum_insert (by simp; omega), sum_image (fun a _ b _ h => by omega), ← e]
    congr 1
    apply sum_congr rfl
    intro i hi
    rw [mem_range] at hi
    rw [hA3 (i + 1) (mem_range.2 (by omega))]
  have hne : lagr (tailSet t) (ptX pts) 0 t ≠ 0 := by
    apply lagr_ne_zero _ _ hinj
    · simp [tailSet]; omega
    · intro j hj _
      simp [tailSet] at hj
      exact Ne.symm (hp.ne0 j (by omega))
  have hiff : (lagr (tailSet t) (ptX pts) 0 t • (ptX pts 0 ^ 2 • ptV shares t)
        + ∑ i ∈ range (t - 1), lagr (tailSet t) (ptX pts) 0 (i + 1) • ptV shares (i + 1)
        = ∑ i ∈ range t, lagr (range t) (ptX pts) 0 i • ptV shares i) ↔
      (ptX pts 0 ^ 2 • ptV shares t
            = ∑ i ∈ range t, lagr (range t) (ptX pts) (ptX pts t) i • ptV shares i) := by
    rw [← hA2 0, ← hA2 (ptX pts t), ← htail, hsplit, add_left_inj]
    constructor
    · intro h
      have := congrArg (fun P => (lagr (tailSet t) (ptX pts) 0 t)⁻¹ • P) h
      simpa only [smul_smul, inv_mul_cancel₀ hne, one_smul, ← mul_assoc, one_mul] using this
    · intro h; rw [h]
  simp only [hiff]

theorem rebuild_nocheck (t : Nat) (shares : List (F × M)) (x : Nat → F) (hl : t ≤ shares.length) :
    shamirRebuildPoint shares ((List.range t).map (lagr (range t) x 0)) none
      = .ok (some (∑ i ∈ range t, lagr (range t) x 0 i • ptV shares i)) := by
  rw [rebuildPoint_none _ _ (by simpa using hl)]
  congr 2
  simp only [List.length_map, List.length_range]
  apply sum_congr rfl
  intro i hi
  rw [mem_range] at hi
  simp [hi]

end
end Allo
