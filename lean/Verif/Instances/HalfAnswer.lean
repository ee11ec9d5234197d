import Verif.Props.HalfAnswer
import Verif.Instances.Updating

/-!
# Concrete cases of the theorems of `Props/HalfAnswer`

User 3 has missed three epochs and asks four servers.
-/

set_option linter.unusedVariables false
namespace Allo
open Spec Inst

/-- server 1 of four leaves out its scalar and sends the one point that is accepted with threshold 2 -/
def half₃ : List (List ℚ × List ℚ) := honest₃.set 1 ([], [-22 / 27])

theorem half₃_half : HalfAnswers {1} honest₃ half₃ := by
  refine ⟨by decide +kernel, by decide +kernel, ?_⟩
  intro i hi a ha
  obtain rfl := Finset.mem_singleton.1 hi
  refine ⟨[-22 / 27], by decide +kernel, ?_⟩
  have : ∀ b ∈ honest₃[1]?, b.2.length = 1 := by decide +kernel
  rw [this a ha]; rfl

/-- **C122** (not only with `t + 1` servers). With four servers and threshold 2, one server that leaves out its scalar
and sends a suitable point makes `post_update` return `Ok` for a user with a valid witness, and the result is not a
witness for the current accumulator: the check of the spare answer does not notice. -/
theorem C122_wrong_accepted : ∃ (srv : Server ℚ ℚ ℚ) (u : User ℚ ℚ ℚ) (upd : UserUpdate ℚ) (w W V Ve : ℚ)
    (honest ans : List (List ℚ × List ℚ)),
    (Server.new params 4 9 6).run (ops₁ ++ ops₂) = .ok srv ∧ srv.getAccumulator = .ok V ∧
    srv.accumulators[u.epoch - 1]? = some Ve ∧ IsWitness 4 Ve u.id w ∧
    u.prepareForUpdate id srv.getEpoch 4 2 urand = .ok (.ok upd) ∧
    u.id ∉ srv.deletions.drop (u.epoch - 1) ∧ HonestAnswers srv 4 upd honest ∧ HalfAnswers {1} honest ans ∧
    User.postUpdate w 2 upd.yShares upd.yValues ans = .ok (.ok W) ∧ ¬ IsWitness 4 V u.id W := by
  refine ⟨srv₂, user₃, upd₃, 6 / 7, 59 / 945, 1 / 45, 6, honest₃, half₃, run₁₂, by decide +kernel, by decide +kernel,
    ?_, upd₃_eq, by decide +kernel, honest₃_answers, half₃_half, by decide +kernel, ?_⟩
  · unfold IsWitness; decide +kernel
  · unfold IsWitness; decide +kernel

/-- the hypotheses of `C122_accepted_once` (threshold 2, four servers, server 1 sends no scalars) -/
example := C122_accepted_once params 4 9 6 (ops₁ ++ ops₂) srv₂ run₁₂ id (fun _ h => h) user₃ 4 2 (by inst) (by inst)
  (fun i h _ => by exact_mod_cast Nat.pos_iff_ne_zero.1 h) (by inst) (by decide +kernel) urand upd₃ upd₃_eq (6 / 7) {1} (by decide)
  (by decide) honest₃ half₃ honest₃_answers half₃_half 1 (by decide) (by decide) (by decide +kernel)

/-- the same user asks three servers with threshold 2 -/
def upd₃' : UserUpdate ℚ :=
  match user₃.prepareForUpdate id 4 3 2 urand with
  | .ok (.ok u) => u
  | _ => ⟨0, [], []⟩

def honest₃' : List (List ℚ × List ℚ) := upd₃'.yShares.map (fun ys =>
  match srv₂.update upd₃'.epochDiff ys with
  | .ok a => a
  | .error _ => ([], []))

theorem upd₃'_eq : user₃.prepareForUpdate id srv₂.getEpoch 3 2 urand = .ok (.ok upd₃') := by decide +kernel

theorem honest₃'_answers : HonestAnswers srv₂ 3 upd₃' honest₃' := by
  refine ⟨by decide +kernel, ?_⟩
  intro i hi
  have h : ∀ i < 3, srv₂.update upd₃'.epochDiff (upd₃'.yShares[i]!) = .ok (honest₃'[i]!) ∧
      upd₃'.yShares[i]? = some (upd₃'.yShares[i]!) ∧ honest₃'[i]? = some (honest₃'[i]!) := by decide +kernel
  exact ⟨_, _, (h i hi).2.1, (h i hi).2.2, (h i hi).1⟩

theorem half₃'_half (l : Nat) (hl : l < 3) : HalfAnswers {l} honest₃' (honest₃'.set l ([], [77])) := by
  refine ⟨by simp, fun i hi hiH => ?_, fun i hi a ha => ?_⟩
  · rw [List.getElem?_set_ne (by rintro rfl; exact hiH (by simp))]
  · obtain rfl := Finset.mem_singleton.1 hi
    have hlen : honest₃'.length = 3 := by decide +kernel
    refine ⟨[77], by rw [List.getElem?_set_self (by omega)], ?_⟩
    have : ∀ b ∈ honest₃', b.2.length = 1 := by decide +kernel
    rw [this a (List.mem_of_getElem? ha)]; rfl

example := C122_not_noticed params 4 9 6 (ops₁ ++ ops₂) srv₂ run₁₂ id (fun _ h => h) user₃ 3 2 (by inst) (by inst)
  (fun i h _ => by exact_mod_cast Nat.pos_iff_ne_zero.1 h) (by inst) (by decide +kernel) urand upd₃' upd₃'_eq (6 / 7) {0} (by decide)
  honest₃' _ honest₃'_answers (half₃'_half 0 (by decide))
example := C122_control params 4 9 6 (ops₁ ++ ops₂) srv₂ run₁₂ id (fun _ h => h) user₃ 3 2 (by inst) (by inst)
  (fun i h _ => by exact_mod_cast Nat.pos_iff_ne_zero.1 h) (by inst) (by decide +kernel) urand upd₃' upd₃'_eq (6 / 7) {0} (by decide)
  honest₃' _ honest₃'_answers (half₃'_half 0 (by decide)) 0 (by decide) (by decide) (by decide +kernel) 1000
example := C122_harmless params 4 9 6 (ops₁ ++ ops₂) srv₂ run₁₂ id (fun _ h => h) user₃ 3 2 (by inst) (by inst)
  (fun i h _ => by exact_mod_cast Nat.pos_iff_ne_zero.1 h) (by inst) (by decide +kernel) urand upd₃' upd₃'_eq (6 / 7) {2} (by decide)
  honest₃' _ honest₃'_answers (half₃'_half 2 (by decide))
example := C122_one_server params 4 9 6 (ops₁ ++ ops₂) srv₂ run₁₂ id (fun _ h => h) user₃ 2 (by inst)
  (fun i h _ => by exact_mod_cast Nat.pos_iff_ne_zero.1 h) (by inst) (by decide +kernel) urand upd₃' upd₃'_eq (6 / 7) 1 (by decide)
  honest₃' _ honest₃'_answers (half₃'_half 1 (by decide)) (by decide +kernel) (by decide +kernel) (1 / 45)

end Allo
