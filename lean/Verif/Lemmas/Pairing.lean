import Verif.Lemmas.Basic

set_option linter.unusedSectionVars false
namespace Allo
open Spec

section
variable {F G1 G2 GT : Type} [Field F] [DecidableEq F] [AddCommGroup G1] [Module F G1]
  [AddCommGroup G2] [Module F G2] [AddCommGroup GT] [Module F GT]

/-- pairing a point with a non-zero base decides whether it is zero -/
theorem Pairing.eq_zero_iff (E : Pairing F G1 G2 GT) {P : G1} {Q : G2} (hQ : Q ≠ 0) :
    E.e P Q = 0 ↔ P = 0 :=
  ⟨fun h => (E.nondeg P Q h).resolve_right hQ, fun h => by simp [h]⟩

theorem Pairing.left_inj (E : Pairing F G1 G2 GT) {P P' : G1} {Q : G2} (hQ : Q ≠ 0) :
    E.e P Q = E.e P' Q ↔ P = P' := by
  rw [← sub_eq_zero, ← LinearMap.sub_apply, ← map_sub, E.eq_zero_iff hQ, sub_eq_zero]

/-- the pairing equation of both witness checks -/
theorem Pairing.check_iff (E : Pairing F G1 G2 GT) {C V : G1} {Q : G2} (hQ : Q ≠ 0) (y a : F) :
    E.e C (y • Q + a • Q) + E.e V (-Q) = 0 ↔ (y + a) • C = V := by
  have : E.e C (y • Q + a • Q) + E.e V (-Q) = E.e ((y + a) • C - V) Q := by
    simp [add_smul, sub_eq_add_neg]
  rw [this, E.eq_zero_iff hQ, sub_eq_zero]

theorem mwVerify_iff [DecidableEq GT] (E : Pairing F G1 G2 GT) (C V : G1) (y sk : F) :
    mwVerify E C y (publicKey E sk) V = true ↔ (y + sk) • C = V := by
  unfold mwVerify
  rw [decide_eq_true_eq]
  exact E.check_iff E.g2_ne y sk

theorem nmwVerify_iff [DecidableEq GT] (E : Pairing F G1 G2 GT) (w : NonMembershipWitness F G1)
    (V : G1) (y sk : F) :
    nmwVerify E w y (publicKey E sk) V = true ↔ (y + sk) • w.c + w.d • E.g1 = V := by
  unfold nmwVerify
  rw [decide_eq_true_eq]
  have : E.e w.c (y • E.g2 + sk • E.g2) + E.e (w.d • E.g1) E.g2 + E.e V (-E.g2)
      = E.e ((y + sk) • w.c + w.d • E.g1 - V) E.g2 := by
    simp [add_smul, sub_eq_add_neg]
  rw [publicKey, this, E.eq_zero_iff E.g2_ne, sub_eq_zero]

end
end Allo
