import Verif.Lemmas.Shamir
import Verif.Lemmas.Batch

/-! Sharing as polynomial functions. -/

set_option linter.unusedSectionVars false
namespace Allo
open Spec Finset

section
variable {F M : Type} [Field F] [DecidableEq F] [AddCommGroup M] [Module F M]

/-- `g` is a polynomial function of degree less than `t` with coefficients in `M` -/
def PolyFn (t : Nat) (g : F → M) : Prop := ∃ A : List M, A.length = t ∧ ∀ z, g z = polyVal z A

theorem polyVal_zipWith (z : F) (A B : List M) (h : A.length = B.length) :
    polyVal z (List.zipWith (· + ·) A B) = polyVal z A + polyVal z B := by
  induction A generalizing B with
  | nil => cases B <;> simp at h ⊢
  | cons a A ih =>
    cases B with
    | nil => simp at h
    | cons b B =>
      simp at h
      simp [ih B h, smul_add]; abel

theorem PolyFn.const (t : Nat) (ht : 1 ≤ t) (w : M) : PolyFn t (fun _ : F => w) := by
  refine ⟨w :: List.replicate (t - 1) 0, by simp; omega, fun z => by simp⟩

theorem PolyFn.add {t : Nat} {f g : F → M} (hf : PolyFn t f) (hg : PolyFn t g) :
    PolyFn t (fun z => f z + g z) := by
  obtain ⟨A, hA, hA'⟩ := hf
  obtain ⟨B, hB, hB'⟩ := hg
  exact ⟨List.zipWith (· + ·) A B, by simp [hA, hB],
    fun z => by
      show f z + g z = _
      rw [polyVal_zipWith z A B (by omega), hA', hB']⟩

theorem PolyFn.smul {t : Nat} {p : F → F} (hp : PolyFn t p) (w : M) :
    PolyFn t (fun z => p z • w) := by
  obtain ⟨A, hA, hA'⟩ := hp
  exact ⟨A.map (fun c => c • w), by simp [hA], fun z => by
    show p z • w = _
    rw [polyVal_map_smul_pt, hA']⟩

theorem PolyFn.const_smul {t : Nat} {p : F → M} (hp : PolyFn t p) (c : F) :
    PolyFn t (fun z => c • p z) := by
  obtain ⟨A, hA, hA'⟩ := hp
  exact ⟨A.map (c • ·), by simp [hA], fun z => by
    show c • p z = _
    rw [polyVal_map_smul, hA']⟩

theorem PolyFn.sum {t : Nat} (ht : 1 ≤ t) (m : Nat) (f : Nat → F → M) (hf : ∀ j < m, PolyFn t (f j)) :
    PolyFn t (fun z => ∑ j ∈ range m, f j z) := by
  induction m with
  | zero => simpa using PolyFn.const t ht (0 : M)
  | succ m ih =>
    simp only [sum_range_succ]
    exact (ih (fun j hj => hf j (by omega))).add (hf m (by omega))

/-- interpolation -/
theorem PolyFn.interp {t : Nat} {g : F → M} (hg : PolyFn t g) (s : Finset Nat) (hs : t ≤ s.card)
    (x : Nat → F) (hx : Set.InjOn x s) (z : F) : ∑ i ∈ s, lagr s x z i • g (x i) = g z := by
  obtain ⟨A, hA, hA'⟩ := hg
  simp only [hA']
  exact lagr_polyVal s x hx z A (by omega)

/-! ### the sharing polynomial -/

/-- coefficients of the polynomial `shamir_share` uses -/
def sharePoly (t : Nat) (secret : F) (coef : Nat → F) : List F :=
  secret :: (List.range (t - 1)).map (fun k => coef (k + 1))

theorem sharePoly_length (t : Nat) (ht : 1 ≤ t) (secret : F) (coef : Nat → F) :
    (sharePoly t secret coef).length = t := by simp [sharePoly]; omega

theorem sharePoly_zero (t : Nat) (secret : F) (coef : Nat → F) :
    polyVal (0 : F) (sharePoly t secret coef) = secret := by simp [sharePoly]

theorem sharePoly_polyFn (t : Nat) (ht : 1 ≤ t) (secret : F) (coef : Nat → F) :
    PolyFn t (fun z : F => polyVal z (sharePoly t secret coef)) :=
  ⟨_, sharePoly_length t ht secret coef, fun _ => rfl⟩

theorem vsssEvaluate_ok (poly : List F) (x : F) (t : Nat) (ht : 1 ≤ t) (h : t ≤ poly.length) :
    vsssEvaluate poly x t = .ok (polyVal x (poly.take t)) := by
  unfold vsssEvaluate
  rw [usub_le ht]
  have := hornerAll poly x (t - 1) (by omega)
  rw [show t - 1 + 1 = t by omega] at this
  exact this

theorem shamirShare_ok (t n : Nat) (ht : 1 ≤ t) (secret : F) (coef : Nat → F) :
    shamirShare t n secret coef = .ok ((List.range n).map (fun i =>
      (((i + 1 : Nat) : F), polyVal ((i + 1 : Nat) : F) (sharePoly t secret coef)))) := by
  unfold shamirShare
  rw [if_neg (by omega)]
  apply mapM_ok
  intro i _
  have hl := sharePoly_length t ht secret coef
  have := vsssEvaluate_ok (sharePoly t secret coef) ((i + 1 : Nat) : F) t ht (by omega)
  rw [List.take_of_length_le (by omega)] at this
  simp only [sharePoly] at this ⊢
  simp only [this, bind, Except.bind, pure, Except.pure]

/-- the points `1..n` are distinct and non-zero -/
theorem cast_inj_of {n : Nat} (hc : ∀ i, 0 < i → i ≤ n → (i : F) ≠ 0) {i j : Nat} (hi : i ≤ n)
    (hj : j ≤ n) (h : (i : F) = (j : F)) : i = j := by
  rcases Nat.lt_trichotomy i j with hlt | rfl | hlt
  · exfalso
    apply hc (j - i) (by omega) (by omega)
    rw [Nat.cast_sub (by omega), h, sub_self]
  · rfl
  · exfalso
    apply hc (i - j) (by omega) (by omega)
    rw [Nat.cast_sub (by omega), h, sub_self]

theorem goodPts_std {T : Type} {n : Nat} (hc : ∀ i, 0 < i → i ≤ n → (i : F) ≠ 0)
    (shares : List (F × T)) (hl : shares.length = n)
    (hx : ∀ i < n, ptX shares i = ((i + 1 : Nat) : F)) (m : Nat) (hm : m ≤ n) : GoodPts m shares := by
  refine ⟨by omega, ?_, ?_⟩
  · intro i hi
    rw [hx i (by omega)]
    exact hc (i + 1) (by omega) (by omega)
  · intro i hi j hj e
    rw [hx i (by omega), hx j (by omega)] at e
    have := cast_inj_of hc (by omega) (by omega) e
    omega

variable [DecidableEq M]

/-- Rebuilding polynomial values at good points whose first is `±1`. -/
theorem rebuild_polyFn {T : Type} (t : Nat) (ht : 1 ≤ t) (pts : List (F × T)) (shares : List (F × M))
    (g : F → M) (hg : PolyFn t g) (hl : t ≤ shares.length) (hll : pts.length = shares.length)
    (hp : GoodPts (min pts.length (t + 1)) pts) (hx : ∀ i < shares.length, ptX shares i = ptX pts i)
    (hv : ∀ i < min shares.length (t + 1), ptV shares i = g (ptX pts i))
    (h1 : t < pts.length → ptX pts 0 ^ 2 = 1) :
    ∃ cs ch, shamirCoefficients t pts = .ok (cs, ch) ∧
      shamirRebuildPoint shares cs ch = .ok (some (g 0)) := by
  have hres : ∑ i ∈ range t, lagr (range t) (ptX pts) 0 i • ptV shares i = g 0 := by
    rw [← hg.interp (range t) (by simp) (ptX pts) (hp.mono (by omega)).injOn 0]
    apply sum_congr rfl
    intro i hi
    rw [mem_range] at hi
    rw [hv i (by omega)]
  by_cases he : pts.length = t
  · refine ⟨_, _, shamirCoefficients_exact t pts (hp.mono (by omega)) he, ?_⟩
    rw [rebuild_nocheck t shares _ hl, hres]
  · have hp' : GoodPts (t + 1) pts := hp.mono (by omega)
    refine ⟨_, _, shamirCoefficients_extra t ht pts hp', ?_⟩
    rw [rebuild_check_general t ht shares pts hp' (fun i hi => hx i (by omega)) (by omega), hres,
      if_pos]
    rw [h1 (by omega), one_smul, hv t (by omega),
      ← hg.interp (range t) (by simp) (ptX pts) (hp.mono (by omega)).injOn (ptX pts t)]
    apply sum_congr rfl
    intro i hi
    rw [mem_range] at hi
    rw [hv i (by omega)]

end
end Allo
