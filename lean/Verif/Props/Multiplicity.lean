import Verif.Props.Binding

/-!
# C100: what the accumulator does not check

Multiplicities, membership at removal, and the claims of the holder of the key.
-/

set_option linter.unusedSectionVars false

namespace Allo
open Spec

section
variable {F G1 G2 GT : Type} [Field F] [DecidableEq F] [AddCommGroup G1] [Module F G1]
  [AddCommGroup G2] [Module F G2] [AddCommGroup GT] [Module F GT] [DecidableEq GT]

/-- C100: for every accumulator, every element other than `-sk` and every `d` there is exactly one non-membership
witness with this `d` that verifies. -/
theorem C100_one_witness_per_d (E : Pairing F G1 G2 GT) (V : G1) (y sk d : F) (h : y ≠ -sk) :
    ∃! w : NonMembershipWitness F G1, w.d = d ∧ nmwVerify E w y (publicKey E sk) V = true := by
  have h' : y + sk ≠ 0 := fun h0 => h (eq_neg_of_add_eq_zero_left h0)
  refine ⟨⟨(y + sk)⁻¹ • (V - d • E.g1), d⟩, ⟨rfl, ?_⟩, ?_⟩
  · rw [C10_verify_iff, IsNonWitness, smul_smul, mul_inv_cancel₀ h', one_smul, sub_add_cancel]
  · rintro ⟨c, d'⟩ ⟨rfl, hv⟩
    rw [C10_verify_iff, IsNonWitness] at hv
    simp only at hv ⊢
    rw [← hv, add_sub_cancel_right, smul_smul, inv_mul_cancel₀ h', one_smul]

/-- C100: so the holder of the key can make a membership witness and a non-membership witness with `d ≠ 0` for the same
element and the same accumulator, member or not: the accumulator does not bind its manager. -/
theorem C100_both_claims (E : Pairing F G1 G2 GT) (V : G1) (y sk : F) (h : y ≠ -sk) :
    ∃ (C : G1) (w : NonMembershipWitness F G1), w.d ≠ 0 ∧ mwNew y V sk = .ok (some C) ∧
      mwVerify E C y (publicKey E sk) V = true ∧ nmwVerify E w y (publicKey E sk) V = true := by
  obtain ⟨C, h1, h2⟩ := C02_new E V y sk (fun h0 => h (eq_neg_of_add_eq_zero_left h0))
  obtain ⟨w, ⟨h3, h4⟩, -⟩ := C100_one_witness_per_d E V y sk 1 h
  exact ⟨C, w, by rw [h3]; exact one_ne_zero, h1, h2, h4⟩

/-- C100: adding an element that is already there changes the accumulator (so additions are counted), unless the
accumulator is the identity or the element is `1 - sk`. -/
theorem C100_add_twice (V : G1) (sk y : F) :
    accAdd (accAdd V sk y) sk y = accAdd V sk y ↔ V = 0 ∨ y = -sk ∨ y = 1 - sk := by
  rw [accAdd, accAdd, ← sub_eq_zero]
  have : (sk + y) • (sk + y) • V - (sk + y) • V = ((sk + y) * (sk + y - 1)) • V := by module
  rw [this, smul_eq_zero, mul_eq_zero]
  have e1 : sk + y = 0 ↔ y = -sk := ⟨eq_neg_of_add_eq_zero_right, fun h => by rw [h]; ring⟩
  have e2 : sk + y - 1 = 0 ↔ y = 1 - sk := ⟨fun h => by linear_combination h, fun h => by rw [h]; ring⟩
  rw [e1, e2]; tauto

/-- C100: an element added twice and removed once is still a member: non-membership witnesses are refused, a new
membership witness verifies. But `batch_update` treats it as removed: the old witness is left as it is, which verifies
only if the accumulator has not changed. -/
theorem C100_removed_once (E : Pairing F G1 G2 GT) (S : List F) (y sk : F) (C : G1) (h : y ≠ -sk)
    (hw : mwVerify E C y (publicKey E sk) (accWithElements E sk (y :: y :: S)) = true) :
    ∃ V' cs, accUpdate (accWithElements E sk (y :: y :: S)) sk [] [y] = .ok (V', cs) ∧
      V' = accWithElements E sk (y :: S) ∧ nmwNew E y (y :: S) sk = .ok none ∧
      (∃ C', mwNew y V' sk = .ok (some C') ∧ mwVerify E C' y (publicKey E sk) V' = true) ∧
      mwBatchUpdate C y [] [y] cs = C ∧
      (mwVerify E C y (publicKey E sk) V' = true ↔ V' = accWithElements E sk (y :: y :: S)) := by
  have h' : y + sk ≠ 0 := fun h0 => h (eq_neg_of_add_eq_zero_left h0)
  obtain ⟨r, hr⟩ : ∃ r, accUpdate (accWithElements E sk (y :: y :: S)) sk [] [y] = .ok r := by
    cases hc : accUpdate (accWithElements E sk (y :: y :: S)) sk [] [y] with
    | ok r => exact ⟨r, rfl⟩
    | error e =>
      have := (C04_update_panics _ sk [] [y]).1 ⟨e, hc⟩
      exact absurd (List.mem_singleton.1 this).symm h
  obtain ⟨V', cs⟩ := r
  have hV' : V' = accWithElements E sk (y :: S) := by
    have h1 := C03_update_acc (accWithElements E sk (y :: y :: S)) sk [] [y]
    rw [hr] at h1
    have h2 : Except.ok V' = accRemoveElements (accAddElements (accWithElements E sk (y :: y :: S)) sk []) sk [y] := h1
    rw [accRemoveElements, batchDeletions, batchAdditions_eq, prodPlus_cons, prodPlus_nil, mul_one, inv!_ne h'] at h2
    simp only [bind, Except.bind, pure, Except.pure, Except.ok.injEq] at h2
    rw [h2, accAddElements, accWithElements, accWithElements, batchAdditions_eq, batchAdditions_eq, batchAdditions_eq,
      prodPlus_nil, one_smul, prodPlus_cons, smul_smul, ← mul_assoc, inv_mul_cancel₀ h', one_mul]
  have hb := (C05_removed_unchanged C y [] [y] cs (by simp)).2
  refine ⟨V', cs, hr, hV', (C08_none_iff E y (y :: S) sk).2 (by simp), C02_new E V' y sk h', hb, ?_⟩
  have := C05_removed_rejected E C _ V' sk y [] [y] cs hw (by simp)
  rwa [hb] at this

/-- C100: `remove` does not ask whether the element is there. Removing an element that was never added succeeds, adding
it afterwards restores the accumulator, and in between the accumulator is that of a list `T` for few keys only. -/
theorem C100_remove_absent (E : Pairing F G1 G2 GT) (S : List F) (y : F) (hy : y ∉ S) :
    (∀ sk, y ≠ -sk → ∃ V', accRemove (accWithElements E sk S) sk y = .ok V' ∧
      accAdd V' sk y = accWithElements E sk S) ∧
    ∀ T, ∃ bad : Finset F, bad.card ≤ max S.length (T.length + 1) ∧
      ∀ sk V', accRemove (accWithElements E sk S) sk y = .ok V' →
        (V' = accWithElements E sk T → sk ∈ bad) := by
  refine ⟨fun sk h => ?_, fun T => ?_⟩
  · cases hr : accRemove (accWithElements E sk S) sk y with
    | error e => exact absurd ((C03_panic (accWithElements E sk S) sk y []).1.1 ⟨e, hr⟩) h
    | ok V' => exact ⟨V', rfl, C03_remove_add _ V' sk y hr⟩
  · have hp : ¬ S.Perm (y :: T) := fun h => hy (h.mem_iff.2 (by simp))
    obtain ⟨bad, hc, -, hb⟩ := (C99_binding E S (y :: T)).2 hp
    refine ⟨bad, by simpa using hc, fun sk V' hr hV' => (hb sk).1 ?_⟩
    have h1 := C03_remove_add _ V' sk y hr
    rw [← h1, hV', accAdd, accWithElements, accWithElements, batchAdditions_eq, batchAdditions_eq, prodPlus_cons,
      smul_smul, add_comm]

example : (3 : ℚ) ≠ -4 ∧ (3 : ℚ) ∉ [(1 : ℚ), 2] ∧
    mwVerify (Pairing.field ℚ) (35 : ℚ) 3 (publicKey (Pairing.field ℚ) 4)
      (accWithElements (Pairing.field ℚ) 4 [3, 3, 1]) = true := by
  refine ⟨by norm_num, by norm_num, ?_⟩
  rw [C01_verify_iff]
  norm_num [IsWitness, accWithElements, batchAdditions, Pairing.field]

end
end Allo
