import Verif.Props.RealLiar
import Verif.Instances.Real

/-!
# Concrete cases of the theorems of `Props/RealLiar`
-/

set_option linter.unusedVariables false
namespace Allo
open Spec Inst User Rom
namespace Bls

example := C124_accepted_lie_bls (G1 := Fr) (G2 := Fr) 4 2 (by inst) (by inst) {0} [1, 2, 3] (by decide) (by decide) 0 (by inst)

example : ∃ k : Fr, k ≠ 0 ∧ ∃ a q, honest₃[1]? = some a ∧ honest₃[3]? = some q ∧
    ((∃ W, postUpdate (6 / 7) 2 upd₃.yShares upd₃.yValues (silence {0} (honest₃.set 1 (addTimes k a q))) = .ok (.ok W)) ∨
      postUpdate (6 / 7) 2 upd₃.yShares upd₃.yValues (silence {0} (honest₃.set 1 (addTimes k a q)))
        = .ok (.error "user has been deleted")) := by
  obtain ⟨k, hk, h⟩ := C124_accepted_lie_bls (G1 := Fr) (G2 := Fr) 4 2 (by inst) (by inst) {0} [1, 2, 3] (by decide)
    (by decide) 0 (by inst)
  obtain ⟨a, q, ha, hq, -, hok⟩ := h params 4 9 6 ops srv run' id (fun _ h => h) user₃ (by inst)
    (by decide +kernel) urand upd₃ upd₃_eq (6 / 7) honest₃ honest₃_answers
  exact ⟨k, hk.2 (by decide), a, q, ha, hq, hok⟩

example (A : (Nat → Option (List Fr)) → List Fr × List Fr) (rest : Nat → Nat → Fr) :=
  C124_guess_bls params 4 9 6 ops srv run' id (fun _ h => h) user₃ 5 3 (by inst) (by inst) (by decide +kernel) (6 / 7) {0}
    (by decide) [1, 2, 3, 4] (by decide) (by decide) 0 (by inst) {1} (by inst) (by decide) (by decide) (by decide) A 3
    (by decide +kernel) rest

/-- five servers with the log of `srv` -/
example (r₁ r : Nat → Nat → Fr) := C114_mixed_detected_bls srv (by decide +kernel) (List.replicate 5 srv) (synced 5 srv) id
  (fun _ h => h) user₃ 4 (by inst) 2 (by inst) (by inst) (by inst) 3 (by inst) (by decide +kernel) (6 / 7) r₁ r (· == 1) 0 1
  (by inst) (by inst) rfl rfl
example (r : Nat → Nat → Fr) := C115_smaller_bls srv (by decide +kernel) (List.replicate 5 srv) (synced 5 srv) id
  (fun _ h => h) user₃ 4 (by inst) 3 2 (by inst) (by inst) (by inst) (by inst) 3 (by inst) (by decide +kernel) (6 / 7) r

end Bls
end Allo
