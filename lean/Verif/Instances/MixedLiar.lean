import Verif.Props.MixedLiar
import Verif.Instances.Data

/-!
# Concrete cases of the theorems of `Props/MixedLiar`

Users 1, 2, 3 and 5 are added, 2 is deleted with `delete`, 1 with `quick_delete`; then 8 is added and deleted with
`delete`. User 3 missed all three deletions and asks four servers, threshold 2.
-/

set_option linter.unusedVariables false
namespace Allo
open Spec Inst User

def opsMixed : List (Server.Op ℚ) := ops₁ ++ [.quickDelete 1, .add 8, .delete 8]
def srvMixed : Server ℚ ℚ ℚ := getServer (srv₀.run opsMixed)

theorem runMixed : (Server.new params 4 9 6).run opsMixed = .ok srvMixed := by decide +kernel

theorem mixed_safe : SafeFrom (4 : ℚ) Mix.start opsMixed := C120_careful 4 _ (by norm_num [opsMixed, ops₁, Careful])

theorem mixed_upd₃ : user₃.prepareForUpdate id srvMixed.getEpoch 4 2 urand = .ok (.ok upd₃) := by decide +kernel

/-- the answers of four up-to-date servers -/
def honestMixed : List (List ℚ × List ℚ) := upd₃.yShares.map (fun ys =>
  match srvMixed.update upd₃.epochDiff ys with
  | .ok a => a
  | .error _ => ([], []))

/-- the fourth server lies -/
def lyingMixed : List (List ℚ × List ℚ) :=
  honestMixed.set 3 (honestMixed[3]!.1.map (· + 1), honestMixed[3]!.2.map (· + 1))

/-- the first server lies: a wrong answer among those used first -/
def firstMixed : List (List ℚ × List ℚ) :=
  honestMixed.set 0 (honestMixed[0]!.1.map (· + 1), honestMixed[0]!.2.map (· + 1))

theorem honestMixed_answers : HonestAnswers srvMixed 4 upd₃ honestMixed := by
  refine ⟨by decide +kernel, ?_⟩
  intro i hi
  have h : ∀ i < 4, srvMixed.update upd₃.epochDiff (upd₃.yShares[i]!) = .ok (honestMixed[i]!) ∧
      upd₃.yShares[i]? = some (upd₃.yShares[i]!) ∧ honestMixed[i]? = some (honestMixed[i]!) := by decide +kernel
  exact ⟨_, _, (h i hi).2.1, (h i hi).2.2, (h i hi).1⟩

theorem lyingMixed_differs : DiffersOn {3} honestMixed lyingMixed := by unfold DiffersOn; decide +kernel
theorem firstMixed_differs : DiffersOn {0} honestMixed firstMixed := by unfold DiffersOn; decide +kernel

/-- the history is a mixture, and both outcomes occur: a liar among the first three is noticed, the fourth is not read -/
example : (∃ y, Server.Op.delete y ∈ opsMixed) ∧ (∃ y, Server.Op.quickDelete y ∈ opsMixed) ∧
    srvMixed.deletions = [2, 1, 8] ∧ srvMixed.accumulators = [6, 1, 1 / 5, 1 / 60] ∧
    postUpdate (6 / 7 : ℚ) 2 upd₃.yShares upd₃.yValues lyingMixed = .ok (.ok (1 / 420)) ∧
    postUpdate (6 / 7 : ℚ) 2 upd₃.yShares upd₃.yValues firstMixed = .ok (.error "malicious server") :=
  ⟨⟨2, by simp [opsMixed, ops₁]⟩, ⟨1, by simp [opsMixed, ops₁]⟩, by decide +kernel, by decide +kernel, by decide +kernel,
    by decide +kernel⟩

example := C120_liar params (4 : ℚ) 9 6 opsMixed mixed_safe srvMixed runMixed id (fun _ h => h) user₃ 4 2 (by inst) (by inst)
  (cast_ne 4) (by inst) (by decide +kernel) urand upd₃ mixed_upd₃ (6 / 7) 6 (by decide +kernel)
  (by norm_num [IsWitness, user₃]) honestMixed lyingMixed honestMixed_answers {3} lyingMixed_differs (by decide +kernel)
  (1 / 420) (by decide +kernel)

/-- the fourth server is silent -/
example := C120_liar_and_silent params (4 : ℚ) 9 6 opsMixed mixed_safe srvMixed runMixed id (fun _ h => h) user₃ 4 2
  (by inst) (cast_ne 4) (by inst) (by decide +kernel) urand upd₃ mixed_upd₃ (6 / 7) {3} (by decide) [0, 1, 2] (by decide)
  (by decide) honestMixed lyingMixed honestMixed_answers {3} lyingMixed_differs 3 (by
    intro i hi hip l hl
    have : i = 0 ∨ i = 1 ∨ i = 2 := by omega
    rcases this with rfl | rfl | rfl <;> (simp at hl; subst hl; decide)) 6 (by decide +kernel)
    (by norm_num [IsWitness, user₃]) (1 / 420) (by decide +kernel)

/-- the user starts with the wrong witness 1 -/
example := C120_error params (4 : ℚ) 9 6 opsMixed mixed_safe srvMixed runMixed [srvMixed, srvMixed, srvMixed, srvMixed]
  (by simp) 2 (by inst) (by inst) (cast_ne 4) id (fun _ h => h)
  { user₃ with witness := some ⟨10, 1, 32 / 12⟩ } ⟨10, 1, 32 / 12⟩ rfl (by decide +kernel) (by decide +kernel) 6
  (by decide +kernel) (by decide +kernel) urand

/-- the first and the third server answer anything -/
example (ans : List (List ℚ × List ℚ)) (h : HonestOff {0, 2} honestMixed ans) :=
  C120_recover (Pairing.field ℚ) params (by decide +kernel) (by decide +kernel) (4 : ℚ) 9 6 opsMixed mixed_safe srvMixed
  runMixed id (fun _ h => h) user₃ 4 2 (by inst) (by inst) (cast_ne 4) (by decide +kernel) (by inst) (by decide +kernel) urand
  upd₃ mixed_upd₃ 6 (by decide +kernel) ⟨10, 6 / 7, 32 / 12⟩ rfl (by decide +kernel) (by norm_num [user₃])
  (by decide +kernel) honestMixed ans honestMixed_answers {0, 2} h (by decide +kernel)
example : HonestOff {0, 2} honestMixed (honestMixed.set 0 ([], [1, 2])) := by
  refine ⟨by simp, fun i hi hn => ?_⟩
  have : (0 : ℕ) ≠ i := by rintro rfl; exact hn (by decide)
  rw [List.getElem?_set_ne this]

end Allo
