import Verif.Props.Multiplicity
import Verif.Instances.Systems

/-!
# Concrete cases of C99 and C100
-/

set_option linter.unusedVariables false
namespace Allo
open Spec Inst

local notation "Eℚ" => Pairing.field ℚ

example := (C99_binding Eℚ [1, 4] [2, 2]).2 (by decide)
example := (C99_binding Eℚ [1, 4, 1] [4, 1, 1]).1 (by decide)
example := C99_collision_reveals_key Eℚ [1, 4] [2, 2] (by decide)
/-- the two lists do collide for the key `0` -/
example : accWithElements Eℚ 0 [1, 4] = accWithElements Eℚ 0 [2, 2] := by decide +kernel
example := (C99_updates (42 : ℚ) (by norm_num) [(5 : ℚ), 6] [2] [5] [3]).2 (by decide)
example := (C99_updates (42 : ℚ) (by norm_num) [(5 : ℚ), 6] [2, 6] [5] [2]).1 (by decide)
example := C99_removed_rejected Eℚ 42 (by norm_num) 3 [5] [3] (by norm_num) (by norm_num)
/-- the witness 6 of 3 before the change, and the change -/
example : mwVerify Eℚ 6 3 (publicKey Eℚ 4) 42 = true ∧ accUpdate (42 : ℚ) (4 : ℚ) [5] [3] = .ok (54, [-12]) := by
  decide +kernel

/-- two deletions later than epoch 0, on the server of `Instances/Systems` -/
example : ∃ bad : Finset ℚ, bad.card ≤ 2 ∧ ((4 : ℚ) ∉ bad → (6 : ℚ) ≠ 1 / 5 ∧
    ∀ y w, credVerify Eℚ 6 srv₃.getPublicKeys params y w = .ok () →
      credVerify Eℚ (1 / 5) srv₃.getPublicKeys params y w ≠ .ok ()) := by
  obtain ⟨bad, hc, hb⟩ := C99_epochs Eℚ params (by inst) (by inst) 6 (by inst) srv₃.deletions 0 2 (by norm_num)
    (by decide +kernel)
  exact ⟨bad, hc, hb 4 9 (ops₁ ++ ops₂) ops₃ srv₃ 6 (1 / 5) (by decide +kernel) (by decide +kernel) run₁₂₃ rfl
    (by decide +kernel) (by decide +kernel)⟩

example := C100_one_witness_per_d Eℚ 42 5 4 6 (by norm_num)
example := C100_both_claims Eℚ 42 3 4 (by norm_num)
example := C100_removed_once Eℚ [1] 3 4 35 (by norm_num) (by decide +kernel)
example := C100_remove_absent Eℚ [2, 3] 5 (by norm_num)

end Allo
