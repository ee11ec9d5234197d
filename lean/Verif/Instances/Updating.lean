import Verif.Props.Communication
import Verif.Props.Cost
import Verif.Props.Crash
import Verif.Props.Direct
import Verif.Props.Enrol
import Verif.Props.HashTable
import Verif.Props.Hashing
import Verif.Props.Malicious
import Verif.Instances.Data

/-!
# Concrete cases of the theorems in `Props/Communication`, `Cost`, `Crash`, `Direct`, `Enrol`, `HashTable`, `Hashing`
and `Malicious`

User 3 has missed the three epochs of `srv₂` and asks four servers with threshold 2.
-/

set_option linter.unusedVariables false
namespace Allo
open Spec Inst

local notation "Eℚ" => Pairing.field ℚ

variable (H : Oracle ℚ) (t : Transcript) (eph : Bytes) (rand : Nat → Nat → ℚ)

theorem upd₃_eq : user₃.prepareForUpdate id srv₂.getEpoch 4 2 urand = .ok (.ok upd₃) := by decide +kernel

theorem honest₃_answers : HonestAnswers srv₂ 4 upd₃ honest₃ := by
  refine ⟨by decide +kernel, ?_⟩
  intro i hi
  have h : ∀ i < 4, srv₂.update upd₃.epochDiff (upd₃.yShares[i]!) = .ok (honest₃[i]!) ∧
      upd₃.yShares[i]? = some (upd₃.yShares[i]!) ∧ honest₃[i]? = some (honest₃[i]!) := by decide +kernel
  exact ⟨_, _, (h i hi).2.1, (h i hi).2.2, (h i hi).1⟩

theorem lying₃_differs : DiffersOn {3} honest₃ lying₃ := by unfold DiffersOn; decide +kernel

/-! ### one update -/

example := C64_communication user₃ 4 4 2 (by inst) (by inst) (by inst) (by inst) rand
example := C64_near_optimal user₃ 4 4 2 (by inst) (by inst) (by inst) (by inst) rand
example := C64_f64_error (2 / 3) (by norm_num)

/-- C64_f64_even: `2^53 + 1` is halfway between two binary64 numbers and rounds to `2^53`. -/
example : f64 (2 ^ 53 + 1) = 2 ^ 53 := by
  have hl : Int.log 2 ((2 : ℝ) ^ 53 + 1) = 53 := by
    rw [show (2 : ℝ) ^ 53 + 1 = ((2 ^ 53 + 1 : ℕ) : ℝ) by norm_num, Int.log_natCast]
    rw [show Nat.log 2 (2 ^ 53 + 1) = 53 from Nat.log_eq_of_pow_le_of_lt_pow (by norm_num) (by norm_num)]
    rfl
  obtain ⟨n, h1, h2⟩ := C64_f64_even ((2 : ℝ) ^ 53 + 1) (by norm_num)
  rw [hl] at h1 h2
  obtain ⟨h3, h4⟩ := h2 (2 ^ 52) (by norm_num)
  rcases h4 with rfl | rfl
  · rw [h1]; norm_num
  · exact absurd h3 (by decide)
example := C64_no_overflow 1000 (by inst) (by inst) 1006 (by inst)
example := C64_rounding_harmless 1000 (by inst) (by inst)

example := C90_batch_update (6 : ℚ) (3 : ℚ) [5, 6] [2] [0, -42] (by inst) (by inst)
example := C90_post_update (6 / 7 : ℚ) 2 1 (by inst) upd₃.yShares upd₃.yValues honest₃ (by decide +kernel) (.ok (1 / 315))
  (by decide +kernel)
example := C90_same srv₂ user₃ 3 3 4 4 2 [6, 13, 32] id rand (6 / 7) (by inst) upd₃.yShares upd₃.yValues honest₃ [5] [2] [1]
example := C90_server_update srv₂ 3 [6, 13, 32] ([-20], [2 / 15]) (by decide +kernel)
example := C90_update user₃ 4 4 2 (by inst) (by inst) (by inst) (by inst) rand

example := C38_accepted_is_valid params (4 : ℚ) 9 6 (ops₁ ++ ops₂) [] (by decide +kernel) (by inst) srv₂
  (by simpa using run₁₂) id (fun _ h => h) user₃ 4 2 (by inst) (by inst) (cast_ne 4) (by inst) (by decide +kernel) urand upd₃
  upd₃_eq (6 / 7) 6 (by decide +kernel) (by norm_num [IsWitness, user₃]) honest₃ lying₃ honest₃_answers {3} lying₃_differs
  (by decide +kernel) (1 / 315) (by decide +kernel)
/-- two of the first three servers lie -/
example := C39_control params (4 : ℚ) 9 6 (ops₁ ++ ops₂) srv₂ run₁₂ id (fun _ h => h) user₃ 4 2 (by inst) (by inst)
  (cast_ne 4) (by inst) (by decide +kernel) urand upd₃ upd₃_eq (6 / 7) {0, 2} (by decide +kernel) 1000
example := C40_malformed_panics (6 / 7 : ℚ) 2 upd₃.yShares upd₃.yValues (honest₃.set 2 ([1, 2], [3, 4])) (by inst) (by inst)
  (by left; exact ⟨([1, 2], [3, 4]), by decide +kernel, [-20], by decide +kernel, by decide +kernel⟩)
example := C40_ok_needs_enough (6 / 7 : ℚ) (1 / 315) 2 upd₃.yShares upd₃.yValues lying₃ (by inst) (by inst)
  (by decide +kernel)

/-! ### crashes -/

example := C63_call params (4 : ℚ) 9 6 (ops₁ ++ ops₂) srv₂ run₁₂ List.reverse (fun l => List.reverse_perm l) (.add (-4))
example := C63_create_witness H enc params params (4 : ℚ) 9 6 (ops₁ ++ ops₂) srv₂ run₁₂ user₃ 10 2
theorem exCrash_perm : ∀ p ∈ exCrash, ∀ l, (p.1 l).Perm l := by
  intro p hp l
  simp only [exCrash, List.mem_cons, List.not_mem_nil, or_false] at hp
  rcases hp with rfl | rfl | rfl | rfl | rfl | rfl | rfl <;> exact List.reverse_perm l
example := C63_history params (4 : ℚ) 9 6 exCrash exCrash_perm
example := C63_panic_state params (4 : ℚ) 9 6 (ops₁ ++ ops₂) srv₂ run₁₂ List.reverse (fun l => List.reverse_perm l) (.add (-4))
example := C63_update params (4 : ℚ) 9 6 (ops₁ ++ ops₂) srv₂ run₁₂ [srv₂, srv₁] id 2 rand user₃
example := C63_users_unread (GT := ℚ) srv₂ { srv₂ with allUsers := [7] } (by simp [SameButUsers])

/-! ### a server built by hand -/

/-- accumulator 60, key 4, users 2, 3 and 5 -/
def hand : Server ℚ ℚ ℚ := ⟨[60], 4, ⟨4, 9⟩, 9, [2, 3, 5], [(2, 10), (3, 60 / 7), (5, 60 / 9)], []⟩
def hand' : Server ℚ ℚ ℚ := getServer (hand.run [.delete 2, .add 8, .quickDelete 5])
def handUser : User ℚ ℚ ℚ := ⟨3, some ⟨10, 60 / 7, 32 / 12⟩, 60, ⟨4, 9⟩, 1⟩

example := C68_built (4 : ℚ) hand hand' 60 rfl rfl rfl (by decide +kernel)
  (by intro p hp; simp only [hand, List.mem_cons, List.not_mem_nil, or_false] at hp
      rcases hp with rfl | rfl | rfl <;> norm_num [IsWitness])
  [.delete 2, .add 8] [.quickDelete 5] (by decide +kernel) (by decide +kernel) (by decide +kernel) [hand', hand', hand']
  (by simp) 2 (by inst) (by inst) (cast_ne 3) id (fun _ h => h) handUser ⟨10, 60 / 7, 32 / 12⟩ rfl (by decide +kernel)
  (by decide +kernel) 60 (by decide +kernel) (by norm_num [IsWitness, handUser]) rand
example := C68_follow_log id (fun _ h => h) hand' (by decide +kernel) [hand', hand', hand'] (by simp) 2 (by inst) (by inst)
  (cast_ne 3) handUser ⟨10, 60 / 7, 32 / 12⟩ rfl (by decide +kernel) (by decide +kernel) rand

/-! ### enrolment -/


example := C55_accept_iff H enc params srv₁ 3 7 2 30 (by decide +kernel)
example := C55_replay Hc enc params srv₁ srv₂ 3 8 7 (-68) 30 (1 / 7, 32 / 12) (by decide +kernel) (by decide +kernel)
  (by decide +kernel)
example := C55_special_sound Hc (fun _ _ => 8) enc params srv₁ srv₂ 3 3 7 8 (-68) (-78) 30 (1 / 7, 32 / 12) (1 / 315, 32 / 12)
  (by decide +kernel) (by decide +kernel) (by decide +kernel) (by inst)
example := C55_special_sound_applies enc params srv₁ 3 (by decide +kernel) (by decide +kernel) 10 2 7 8 (by inst)

/-! ### hash tables -/

/-- two buckets for the users, three for the witnesses; resized in between -/
example := C80_any_hash (fun q : ℚ => q.num.toNat % 3) 2 (by inst) params (4 : ℚ) 9 6
  [.call (.add 1), .call (.add 4), .resize 2 3, .call (.add 7), .call (.delete 4), .call (.add (-4)), .resize 8 1]
  (by intro e he a b hab; subst hab; simp at he; omega)
example := C80_element_hash (fun l => l.length) encQ 4 (by inst) params (4 : ℚ) 9 6 (ops₁ ++ ops₂)
example := C80_run params (4 : ℚ) 9 6 (ops₁ ++ ops₂) srv₂ run₁₂
example (hash : ℚ → Nat) := C80_witness (GT := ℚ) hash _
  (C80_any_hash hash 2 (by inst) params (4 : ℚ) 9 6 ((ops₁ ++ ops₂).map .call) (by simp [ops₁, ops₂])).2.2 _
  (C80_any_hash hash 2 (by inst) params (4 : ℚ) 9 6 ((ops₁ ++ ops₂).map .call) (by simp [ops₁, ops₂])).2.1 H enc params 3 7 2 30

/-! ### derived parameters -/

example := C54_params_injective (List.replicate 96 1) (List.replicate 96 2) (by inst) (some [1, 2]) none

end Allo
