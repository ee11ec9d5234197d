import Verif.Props.SilentLiar
import Verif.Instances.Updating

/-!
# Concrete cases of the theorems of `Props/SilentLiar`

User 3 has missed three epochs and asks four servers, threshold 2.
-/

set_option linter.unusedVariables false
namespace Allo
open Spec Inst User

/-- the fourth server sends a quarter of its answer -/
def quarter₃ : List (List ℚ × List ℚ) := honest₃.set 3 (honest₃[3]!.1.map (· / 4), honest₃[3]!.2.map (· / 4))

/-- the second server sends its answer minus three times that of the fourth -/
def wrong₃ : List (List ℚ × List ℚ) := honest₃.set 1
  ((honest₃[1]!.1.zip honest₃[3]!.1).map (fun x => x.1 - 3 * x.2), (honest₃[1]!.2.zip honest₃[3]!.2).map (fun x => x.1 - 3 * x.2))

theorem quarter₃_differs : DiffersOn {3} honest₃ quarter₃ := by unfold DiffersOn; decide +kernel
theorem wrong₃_differs : DiffersOn {1} honest₃ wrong₃ := by unfold DiffersOn; decide +kernel

/-- **C124** (the first server silent, one liar). With four servers and threshold 2, when the answer of the first server
does not arrive: three honest answers are rejected; if one of the three servers lies suitably, `post_update` returns
`Ok` with a result that is not a witness for the current accumulator, although the user's witness was valid and the
other two are honest; and if the last of the three divides its answer by 4, the right result is accepted. -/
theorem C124_first_silent : ∃ (srv : Server ℚ ℚ ℚ) (u : User ℚ ℚ ℚ) (upd : UserUpdate ℚ) (w W W' V Ve : ℚ)
    (honest ans ans' : List (List ℚ × List ℚ)),
    (Server.new params 4 9 6).run (ops₁ ++ ops₂) = .ok srv ∧ srv.getAccumulator = .ok V ∧
    srv.accumulators[u.epoch - 1]? = some Ve ∧ IsWitness 4 Ve u.id w ∧
    u.prepareForUpdate id srv.getEpoch 4 2 urand = .ok (.ok upd) ∧
    u.id ∉ srv.deletions.drop (u.epoch - 1) ∧ HonestAnswers srv 4 upd honest ∧
    postUpdate w 2 upd.yShares upd.yValues (silence {0} honest) = .ok (.error "malicious server") ∧
    DiffersOn {1} honest ans ∧ postUpdate w 2 upd.yShares upd.yValues (silence {0} ans) = .ok (.ok W) ∧
    ¬ IsWitness 4 V u.id W ∧
    DiffersOn {3} honest ans' ∧ postUpdate w 2 upd.yShares upd.yValues (silence {0} ans') = .ok (.ok W') ∧
    IsWitness 4 V u.id W' := by
  refine ⟨srv₂, user₃, upd₃, 6 / 7, -2833 / 131040, 1 / 315, 1 / 45, 6, honest₃, wrong₃, quarter₃, run₁₂,
    by decide +kernel, by decide +kernel, ?_, upd₃_eq, by decide +kernel, honest₃_answers, by decide +kernel,
    wrong₃_differs, by decide +kernel, ?_, quarter₃_differs, by decide +kernel, ?_⟩
  · unfold IsWitness; decide +kernel
  · unfold IsWitness; decide +kernel
  · unfold IsWitness; decide +kernel

/-- the third of four servers is silent and the fourth lies -/
example := C124_first_answers params (4 : ℚ) 9 6 (ops₁ ++ ops₂) srv₂ run₁₂ id (fun _ h => h) user₃ 4 2 (by inst)
  (cast_ne 4) (by inst) (by decide +kernel) urand upd₃ upd₃_eq (6 / 7) {2} (by decide) [0, 1, 3] (by decide) (by decide)
  honest₃ lying₃ honest₃_answers {3} lying₃_differs 2 (by
    intro i hi hip l hl
    have : i = 0 ∨ i = 1 := by omega
    rcases this with rfl | rfl <;> (simp at hl; subst hl; decide))
example := C124_accepted_is_valid params (4 : ℚ) 9 6 (ops₁ ++ ops₂) (by decide +kernel) srv₂ run₁₂ id (fun _ h => h) user₃ 4 2
  (by inst) (cast_ne 4) (by inst) (by decide +kernel) urand upd₃ upd₃_eq (6 / 7) {3} (by decide) [0, 1, 2] (by decide)
  (by decide) honest₃ lying₃ honest₃_answers {3} lying₃_differs 3 (by
    intro i hi hip l hl
    have : i = 0 ∨ i = 1 ∨ i = 2 := by omega
    rcases this with rfl | rfl | rfl <;> (simp at hl; subst hl; decide)) 6 (by decide +kernel)
    (by norm_num [IsWitness, user₃]) (1 / 315) (by decide +kernel)
/-- the first is silent and the last lies -/
example := C124_spare_must_lie params (4 : ℚ) 9 6 (ops₁ ++ ops₂) srv₂ run₁₂ id (fun _ h => h) user₃ 4 2 (by inst)
  (cast_ne 4) (by inst) (by decide +kernel) urand upd₃ upd₃_eq (6 / 7) {0} [1, 2, 3] (by decide) (by decide)
  honest₃ quarter₃ honest₃_answers {3} quarter₃_differs (by
    intro i hi l hl
    have : i = 0 ∨ i = 1 := by omega
    rcases this with rfl | rfl <;> (simp at hl; subst hl; decide))
/-- the first is silent and the second lies -/
example := C124_one_answer params (4 : ℚ) 9 6 (ops₁ ++ ops₂) srv₂ run₁₂ id (fun _ h => h) user₃ 4 2 (by inst)
  (cast_ne 4) (by inst) (by decide +kernel) urand upd₃ upd₃_eq (6 / 7) {0} [1, 2, 3] (by decide) (by decide)
  honest₃ wrong₃ wrong₃ honest₃_answers 0 (by inst) wrong₃_differs wrong₃_differs (-2833 / 131040) (-2833 / 131040) (by decide +kernel)
  (by decide +kernel)

/-- the first is silent and the second lies: which answer is accepted, and how it finds it -/
example := C124_accepted_lie (F := ℚ) (G1 := ℚ) (G2 := ℚ) 4 2 (by inst) (cast_ne 4) {0} [1, 2, 3] (by decide) (by decide)
  0 (by inst)
example : ∃ k : ℚ, k ≠ 0 ∧ ∃ a q, honest₃[1]? = some a ∧ honest₃[3]? = some q ∧
    ((∃ W, postUpdate (6 / 7) 2 upd₃.yShares upd₃.yValues (silence {0} (honest₃.set 1 (addTimes k a q))) = .ok (.ok W)) ∨
      postUpdate (6 / 7) 2 upd₃.yShares upd₃.yValues (silence {0} (honest₃.set 1 (addTimes k a q)))
        = .ok (.error "user has been deleted")) := by
  obtain ⟨k, hk, h⟩ := C124_accepted_lie (F := ℚ) (G1 := ℚ) (G2 := ℚ) 4 2 (by inst) (cast_ne 4) {0} [1, 2, 3] (by decide)
    (by decide) 0 (by inst)
  obtain ⟨a, q, ha, hq, -, hok⟩ := h params (4 : ℚ) 9 6 (ops₁ ++ ops₂) srv₂ run₁₂ id (fun _ h => h) user₃ (by inst)
    (by decide +kernel) urand upd₃ upd₃_eq (6 / 7) honest₃ honest₃_answers
  exact ⟨k, by rw [Ne, hk]; norm_num, a, q, ha, hq, hok⟩
example : ∃ other : ℚ → List ℚ → List ℚ, ∃ ys q, upd₃.yShares[1]? = some ys ∧ honest₃[3]? = some q ∧
    srv₂.update upd₃.epochDiff (other user₃.id ys) = .ok q := by
  obtain ⟨other, h⟩ := C124_two_known_id (F := ℚ) (G1 := ℚ) (G2 := ℚ) 4 (cast_ne 4) 1 3 (by inst) (by inst)
  exact ⟨other, h params (4 : ℚ) 9 6 (ops₁ ++ ops₂) srv₂ run₁₂ id (fun _ h => h) user₃ (by inst)
    (by decide +kernel) urand upd₃ upd₃_eq (by inst) honest₃ honest₃_answers⟩

end Allo
