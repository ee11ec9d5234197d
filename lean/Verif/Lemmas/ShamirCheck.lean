import Verif.Lemmas.ShamirPoly

/-! The consistency check in terms of `Spec.OnPoly`. -/

set_option linter.unusedSectionVars false
namespace Allo
open Spec Finset

section
variable {F M : Type} [Field F] [DecidableEq F] [AddCommGroup M] [Module F M]

theorem onPoly_take_iff (t m : Nat) (shares : List (F × M)) (hm : m ≤ shares.length) :
    OnPoly t (shares.take m) ↔
      ∃ A : List M, A.length = t ∧ ∀ i < m, ptV shares i = polyVal (ptX shares i) A := by
  constructor
  · rintro ⟨A, hA, h⟩
    refine ⟨A, hA, fun i hi => ?_⟩
    have hi' : i < shares.length := by omega
    rw [← ptV_lt hi', ← ptX_lt hi']
    exact h _ (List.mem_take_iff_getElem.2 ⟨i, by omega, rfl⟩)
  · rintro ⟨A, hA, h⟩
    refine ⟨A, hA, fun p hp => ?_⟩
    obtain ⟨i, hi, rfl⟩ := List.mem_take_iff_getElem.1 hp
    rw [ptV_lt (by omega), ptX_lt (by omega)]
    exact h i (by omega)

theorem onPoly_check_iff (t : Nat) (shares : List (F × M)) (h : GoodPts (t + 1) shares) :
    OnPoly t (shares.take (t + 1)) ↔
      ptV shares t = ∑ i ∈ range t, lagr (range t) (ptX shares) (ptX shares t) i • ptV shares i := by
  rw [onPoly_take_iff t (t + 1) shares h.len]
  constructor
  · rintro ⟨A, hA, hv⟩
    rw [hv t (by omega), ← lagr_polyVal (range t) (ptX shares) (h.mono (by omega)).injOn _ A (by simp [hA])]
    apply sum_congr rfl
    intro i hi
    rw [mem_range] at hi
    rw [hv i (by omega)]
  · intro hv
    obtain ⟨A, hA1, hA2, hA3⟩ := exists_polyVal (range t) (ptX shares) (h.mono (Nat.le_succ t)).injOn
      (ptV shares)
    refine ⟨A, by simpa using hA1, fun i hi => ?_⟩
    by_cases hit : i = t
    · subst hit; rw [hv, hA2]
    · exact (hA3 i (mem_range.2 (by omega))).symm

/-- the points of a list of shares, stated on the list -/
theorem goodPts_of {T : Type} (m : Nat) (shares : List (F × T)) (hm : m ≤ shares.length)
    (h0 : (0 : F) ∉ (shares.take m).map (·.1)) (hd : ((shares.take m).map (·.1)).Nodup) :
    GoodPts m shares := by
  have hx : ∀ i (hi : i < m), ((shares.take m).map (·.1))[i]'(by simp; omega) = ptX shares i := by
    intro i hi
    rw [← ptX_lt (by omega)]
    simp
  refine ⟨hm, ?_, ?_⟩
  · intro i hi e
    apply h0
    rw [← e, ← hx i hi]
    exact List.getElem_mem _
  · intro i hi j hj e
    rw [← hx i hi, ← hx j hj] at e
    exact (List.Nodup.getElem_inj_iff hd).1 e

theorem ptX_congr {T U : Type} (l : List (F × T)) (l' : List (F × U))
    (h : l.map (·.1) = l'.map (·.1)) : ptX l = ptX l' := by
  funext i; simp [ptX, h]

theorem ptX_take {T : Type} (l : List (F × T)) (m i : Nat) (hi : i < m) :
    ptX (l.take m) i = ptX l i := by
  simp [ptX, List.getD_eq_getElem?_getD, hi]

theorem ptV_take (l : List (F × M)) (m i : Nat) (hi : i < m) :
    ptV (l.take m) i = ptV l i := by
  simp [ptV, List.getD_eq_getElem?_getD, hi]

/-- two polynomials of degree `< t` that agree at `t` distinct points agree everywhere -/
theorem polyVal_unique (s : Finset Nat) (x : Nat → F) (hx : Set.InjOn x s) (A B : List M)
    (hA : A.length ≤ s.card) (hB : B.length ≤ s.card)
    (h : ∀ i ∈ s, polyVal (x i) A = polyVal (x i) B) (z : F) : polyVal z A = polyVal z B := by
  rw [← lagr_polyVal s x hx z A hA, ← lagr_polyVal s x hx z B hB]
  exact sum_congr rfl (fun i hi => by rw [h i hi])

end
end Allo
