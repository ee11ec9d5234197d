import Verif.Props.Accumulator
import Verif.Instances.Data

/-!
# Concrete cases of the theorems in `Props/Accumulator` (C01 – C11)

Every theorem that has hypotheses is applied to concrete data that meet them. Over `ℚ` with the pairing
`ℚ × ℚ → ℚ`: the secret key is 4, the accumulated elements are 2 and 3, so the accumulator is `6 * 7 = 42`; the
witness of 3 is 6, and `(4, 6)` is a non-membership witness of 5, because `9 * 4 + 6 = 42`.
-/

set_option linter.unusedVariables false
namespace Allo
open Spec

local notation "Eℚ" => Pairing.field ℚ

/-- the accumulator of 2 and 3 -/
example : accWithElements Eℚ 4 [2, 3] = 42 := by decide +kernel

example := C01_unique Eℚ 42 3 4 (by norm_num)
example := C02_new Eℚ 42 3 4 (by norm_num)
example := C02_nonmember Eℚ [2, 3] 5 4 (by norm_num) (by norm_num)
example := C03_add_remove (42 : ℚ) (4 : ℚ) 5 (by norm_num)
example := C03_add_remove_elements (42 : ℚ) (4 : ℚ) [5, 6, 5] (by norm_num)
example := C03_order Eℚ 42 4 [5, 6, 2] [2, 6, 5] (by decide +kernel)
example := C03_remove_add (42 : ℚ) 7 (4 : ℚ) 2 (by decide +kernel)
example := C04_batch_update Eℚ 6 42 630 4 3 [5, 6] [2] [0, -42] (by decide +kernel) (by decide +kernel) (by norm_num)
example := C05_removed_rejected Eℚ 6 42 54 4 3 [5] [3] [0] (by decide +kernel) (by norm_num)
example := C05_removed_unchanged (6 : ℚ) (3 : ℚ) [5] [2, 3] [0, 1] (by norm_num)
example := C06_multi_eq_sequence (6 : ℚ) (3 : ℚ) [([5], [], [42]), ([], [], []), ([6], [2], [-252])] (by norm_num) (by simp)
example := C06_multi_eq_sequence_non (⟨4, 6⟩ : NonMembershipWitness ℚ ℚ) 5
  [([6], [], [42]), ([], [], []), ([7], [2], [-252])] (by norm_num) (by simp)
example := C06_removed_unchanged (6 : ℚ) ⟨4, 6⟩ (2 : ℚ) [([5], [], [42]), ([6], [2], [-252])] ⟨([6], [2], [-252]), by simp, by simp⟩
example := C07_history Eℚ 6 42 630 4 3 [([5], []), ([6], [2])] [([5], [], [42]), ([6], [2], [-252])]
  (by decide +kernel) (by decide +kernel) (by norm_num)
example := C07_history_non Eℚ ⟨6, 0⟩ 42 630 4 3 [([5], []), ([6], [2])] [([5], [], [42]), ([6], [2], [-252])]
  (by decide +kernel) (by decide +kernel) (by norm_num)
example := C08_some Eℚ 5 [2, 3] 4 (by norm_num) (by norm_num)
/-- 5 is added: the scalar of the updated witness becomes 0 -/
example := C09_batch_update_non Eℚ ⟨4, 6⟩ 42 630 4 5 [5, 6] [2] [0, -42] (by decide +kernel) (by decide +kernel)
  (by norm_num)
example := C09_deleted_unchanged (⟨4, 6⟩ : NonMembershipWitness ℚ ℚ) 5 [6] [5] [1]
  (by norm_num)
example := C10_member_accepted Eℚ [2, 3] 3 4 (by norm_num) 6 (by decide +kernel)
example := C10_update_across_own_addition Eℚ ⟨4, 6⟩ 42 630 4 5 [5, 6] [2] [0, -42] (by decide +kernel)
  (by decide +kernel) (by norm_num) (by norm_num)
/-- neither `a = d` nor `1 + y = a + d + sk`: the witness becomes wrong -/
example := C11_mixed Eℚ 6 42 63 4 3 5 2 (by decide +kernel) (by decide +kernel) (by norm_num) (by norm_num)
example := C11_own_delete_later (6 : ℚ) 42 7 (3 : ℚ) 2 [5] (by norm_num) [1]
example := C11_sequence Eℚ 3 4 [(true, 5), (false, 2), (true, 7)] (by norm_num) 2 14 33 231 (by decide +kernel)
  (by decide +kernel)
example := C11_sequence_non Eℚ 5 4 [(true, 6), (false, 2)] (by norm_num) ⟨4, 6⟩ ⟨8, -2⟩ 42 70
  (by decide +kernel) (by decide +kernel)
example := C11_single_add Eℚ 6 42 4 3 5 (by decide +kernel)
example := C11_single_add_non Eℚ ⟨4, 6⟩ 42 4 5 6 (by decide +kernel)
example := C11_single_delete Eℚ 6 42 7 4 3 2 (by decide +kernel) (by decide +kernel) (by norm_num)
example := C11_single_delete_non Eℚ ⟨4, 6⟩ 42 7 4 5 2 (by decide +kernel) (by decide +kernel) (by norm_num)
/-- 5 and 6 are added: `5 + 4 ≠ 1`, so the witness becomes wrong -/
example := C11_two_additions Eℚ 6 42 4 3 5 6 (by decide +kernel) (by norm_num)
example := C11_two_deletions Eℚ 270 1890 35 4 3 2 5 (by decide +kernel) (by decide +kernel) (by norm_num) (by norm_num)
  (by norm_num)

end Allo
