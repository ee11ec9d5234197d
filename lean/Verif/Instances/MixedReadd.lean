import Verif.Props.MixedReadd
import Verif.Instances.Data

/-!
# A concrete case of `Props/MixedReadd`

Id 3 is added, deleted with `quick_delete` and added again: the credential `w₃` of user 3 is valid again (with the new
membership witness); after another `quick_delete` (of 1) it is not.
-/

set_option linter.unusedVariables false
namespace Allo
open Spec Inst Server

def opsBack : List (Op ℚ) := [.add 1, .add 3, .quickDelete 3, .add 3]
def srvBack : Server ℚ ℚ ℚ := getServer ((Server.new params 4 9 6).run opsBack)
def opsStale : List (Op ℚ) := opsBack ++ [.quickDelete 1]
def srvStale : Server ℚ ℚ ℚ := getServer ((Server.new params 4 9 6).run opsStale)

theorem runBack : (Server.new params 4 9 6).run opsBack = .ok srvBack := by decide +kernel
theorem runStale : (Server.new params 4 9 6).run opsStale = .ok srvStale := by decide +kernel

theorem back_fresh : (Mix.start.run 4 opsBack).ref 3 = some (Mix.start.run 4 opsBack).cur := by decide +kernel
theorem stale_not_fresh : (Mix.start.run 4 opsStale).ref 3 ≠ some (Mix.start.run 4 opsStale).cur := by decide +kernel

/-- reinstated -/
example : ∃ V C, srvBack.getAccumulator = .ok V ∧
    credVerify (Pairing.field ℚ) V srvBack.getPublicKeys params 3 { w₃ with witness := C } = .ok () := by
  obtain ⟨V, C, h1, -, h2⟩ := C120_reinstated (Pairing.field ℚ) Hc enc params (by decide +kernel) (by decide +kernel) 4 9 6
    opsBack srvBack runBack 3 (by decide +kernel) w₃ 6 (by decide +kernel)
  exact ⟨V, C, h1, h2.2 (Or.inl back_fresh)⟩

/-- and no longer -/
example : ∃ V C, srvStale.getAccumulator = .ok V ∧
    credVerify (Pairing.field ℚ) V srvStale.getPublicKeys params 3 { w₃ with witness := C } ≠ .ok () := by
  obtain ⟨V, C, h1, -, h2⟩ := C120_reinstated (Pairing.field ℚ) Hc enc params (by decide +kernel) (by decide +kernel) 4 9 6
    opsStale srvStale runStale 3 (by decide +kernel) w₃ 6 (by decide +kernel)
  exact ⟨V, C, h1, fun h => (h2.1 h).elim stale_not_fresh (by norm_num [params])⟩

end Allo
