import Verif.Props.Serde
import Verif.Props.Shamir
import Verif.Props.Slicing
import Verif.Props.Suite
import Verif.Props.Update
import Verif.Props.UpdateServer
import Verif.Props.UserCalls
import Verif.Props.Wire
import Verif.Props.World
import Verif.Instances.Systems
import Verif.Instances.Credential

/-!
# Concrete cases of the theorems in `Props/Serde`, `Shamir`, `Slicing`, `Suite`, `Update`, `UpdateServer`, `UserCalls`,
`Wire` and `World`
-/

set_option linter.unusedVariables false
namespace Allo
open Spec Inst

local notation "Eℚ" => Pairing.field ℚ

variable (H : Oracle ℚ) (t : Transcript) (eph : Bytes) (rand rand' : Nat → Nat → ℚ)

/-! ### files -/

section
open SerdeExample

/-- 32 and 48 bytes per element, as in the code -/
def bare32 : Bare Fr := ⟨scalarToBe, fun r => (scalarFromBe (r.take 32)).map (·, r.drop 32)⟩
def bare48 : Bare Fr := ⟨padCodec.compress, fun r => (padCodec.decompress (r.take 48)).map (·, r.drop 48)⟩

theorem bare32_size : bare32.Size 32 := fun x => scalarToBe_length x
theorem bare48_size : bare48.Size 48 := fun x => padCodec.length_compress x
theorem bare32_lawful : bare32.Lawful := by
  intro x r
  have h := scalarToBe_length x
  simp [bare32, List.take_append_of_le_length, List.drop_append_of_le_length, h, List.take_of_length_le, scalarFromBe_toBe]
theorem bare48_lawful : bare48.Lawful := by
  intro x r
  have h := padCodec.length_compress x
  simp [bare48, List.take_append_of_le_length, List.drop_append_of_le_length, h, List.take_of_length_le,
    padCodec.decompress_compress]

example := C69_message_bytes bare32 bare48 bare32_size bare48_size 3 [6, 13, 32] [1, 2] [3, 4] (by inst)
example := C69_read_wf byte byte byte [2, 10, 5, 3, 3, 4, 4, 2, 7, 1, 1, 7, 126, 1, 1] []
  { exampleServer with allUsers := [1, 7] } (by rfl)
example := C69_restore byte byte byte byte_lawful byte_lawful byte_lawful exampleServer ⟨by decide +kernel, by decide +kernel⟩
  [7, 1] [(7, 126)] (by decide +kernel) (by decide +kernel)
example := C69_sizes bare32 bare48 bare32_size bare48_size
example (H : Oracle (ZMod 251)) (enc : Enc (ZMod 251) (ZMod 251) (ZMod 251)) :=
  C69_transparent H enc ⟨1, 1, 2, 3, 1, 5, 7, 11⟩ byte byte byte byte_lawful byte_lawful byte_lawful 3 4 10
    [.call (.change (.add 1)), .call (.change (.add 7)), .restart List.reverse List.reverse, .call (.change (.delete 1)),
      .call (.update 1 [2, 3])]
    (by intro e he
        simp only [List.mem_cons, List.not_mem_nil, or_false] at he
        rcases he with rfl | rfl | rfl | rfl | rfl
        · trivial
        · trivial
        · exact ⟨List.reverse_perm, List.reverse_perm⟩
        · trivial
        · trivial)
example := C69_types bare32 bare48 bare48 bare32_lawful bare48_lawful bare48_lawful
end

/-! ### secret sharing -/

/-- the shares of 7 with threshold 2 for four servers -/
def sh : List (ℚ × ℚ) := [(1, 9), (2, 11), (3, 13), (4, 15)]
theorem sh_eq : shamirShare 2 4 (7 : ℚ) (fun _ => 2) = .ok sh := by decide +kernel

example := C33_any_t_shares 2 4 (by inst) (cast_ne 4) (7 : ℚ) (fun _ => 2) sh sh_eq [(4, 15), (2, 11)] (by decide +kernel)
  (by decide +kernel) (by inst)
example := C33_round_trip 2 4 (by inst) (by inst) (cast_ne 4) (7 : ℚ) (fun i => i + 2)
example := C33_shares 2 4 (by inst) (7 : ℚ) (fun i => i + 2)
example := C33_shares_onto 3 4 [2, 5] (7 : ℚ) (by inst)
example := C34_affine 2 4 (by inst) (by inst) (cast_ne 4) (100 : ℚ) [((7 : ℚ), fun _ => 2, 3), (8, fun i => i, 4)] sh
  (by decide +kernel)
example := C34_affine_scalar 2 4 (by inst) (by inst) (cast_ne 4) (100 : ℚ) [((7 : ℚ), fun _ => 2, 3), (8, fun i => i, 4)] sh
  (by decide +kernel)
example := C35_exact 2 (by inst) sh sh (by inst) rfl (by decide +kernel) (by decide +kernel) rfl
example := C35_exact_scalar 2 (by inst) sh sh (by inst) rfl (by decide +kernel) (by decide +kernel) rfl
example := C35_rest_ignored 2 (by inst) sh sh (sh.set 3 (4, 1000)) (by inst) rfl rfl (by decide +kernel) (by decide +kernel) rfl
example := C35_rest_ignored_scalar 2 (by inst) sh sh (sh.set 3 (4, 1000)) (by inst) rfl rfl (by decide +kernel)
  (by decide +kernel) rfl
theorem sh_onPoly : OnPoly 2 (sh.take 3) := ⟨[7, 2], rfl, by decide +kernel⟩
example := C35_tamper 2 (by inst) sh sh (by decide) rfl (by decide +kernel) (by decide +kernel) rfl sh_onPoly 2 (by inst) (1000 : ℚ)
  (by decide +kernel)
example := C35_tamper_scalar 2 (by inst) sh sh (by decide) rfl (by decide +kernel) (by decide +kernel) rfl sh_onPoly 2 (by inst)
  (1000 : ℚ) (by decide +kernel)
/-- the first server is the second: the check fails although all shares are right -/
example := C36_honest_accepted_iff 2 (by inst) (sh.drop 1) (sh.drop 1) (by decide) rfl (by decide +kernel) (by decide +kernel)
  [(7 : ℚ), 2] rfl (by decide +kernel)
example := C36_honest_accepted_iff_scalar 2 (by inst) (sh.drop 1) (sh.drop 1) (by decide) rfl (by decide +kernel)
  (by decide +kernel) [(7 : ℚ), 2] rfl (by decide +kernel)

/-! ### batches in slices -/

def slices : List (List ℚ × List ℚ) := [([5, 6], [2]), ([8], [5])]
def accOnce : ℚ × List ℚ :=
  match accUpdate (42 : ℚ) (4 : ℚ) [5, 6, 8] [2, 5] with
  | .ok r => r
  | .error _ => (0, [])

example := C67_non_witness Eℚ 4 10 ⟨-1, 56⟩ 42 finalAcc accOnce.1 slices published accOnce.2 (by inst) (by inst)
  (by decide +kernel) (by decide +kernel) (by decide +kernel)
def slicesOf (k : Nat) : List (List ℚ × List ℚ × List ℚ) :=
  match updateHistory (4 : ℚ) (42 : ℚ) (slicePairs k [5, 6, 8] [2, 5]) with
  | .ok (_, p) => p
  | .error _ => []
example := C67_size 2 (by inst) (4 : ℚ) (42 : ℚ) finalAcc [5, 6, 8] [2, 5] (slicesOf 2) accOnce.1 accOnce.2 (by decide +kernel)
  (by decide +kernel)
example := C67_slices_cover 2 (by inst) [5, 6, (8 : ℚ)] [2, 5]
example := C67_slices_small 2 [5, 6, (8 : ℚ)] [2, 5] ([5, 6], [2, 5]) (by decide +kernel)
example := C67_witness Eℚ 4 3 6 42 finalAcc accOnce.1 slices published accOnce.2 (by inst) (by inst)
  (by decide +kernel) (by decide +kernel) (by decide +kernel)

example := C95_growing Eℚ H enc encQ_inj encQ_inj 4 7 8 [3, 1, 2] (by inst) (by inst) pparams none nrand

/-! ### updates -/

theorem synced (n : Nat) (s : Server ℚ ℚ ℚ) : ∀ s' ∈ List.replicate n s,
    s'.accumulators = s.accumulators ∧ s'.deletions = s.deletions := by
  intro s' hs; rw [List.eq_of_mem_replicate hs]; exact ⟨rfl, rfl⟩

example := C25_update Eℚ params (by inst) (by inst) (4 : ℚ) 9 6 (ops₁ ++ ops₂) ops₃ (by decide +kernel) (by decide +kernel) srv₃
  run₁₂₃ (List.replicate 4 srv₃) (synced 4 srv₃) 3 (by inst) (by inst) (cast_ne _) id (fun _ h => h) user₃ (by decide +kernel)
  (by inst) (by decide +kernel) 6 (by decide +kernel) (by decide +kernel) (by decide +kernel) rand
example := C26_deleted params (4 : ℚ) 9 6 (ops₁ ++ ops₂) srv₂ run₁₂ (List.replicate 4 srv₂) (synced 4 srv₂) 3 (by inst) (by inst)
  (cast_ne _) id (fun _ h => h) user₅ (by inst) (by inst) (by decide +kernel) rand
example := C27_with_epoch_set Eℚ params (by inst) (by inst) (4 : ℚ) 9 6 ops₁ ops₂ (ops₁ ++ ops₂) [] (by simp) (by decide +kernel)
  (by simp) srv₁ srv₂ run₁ run₂ (by decide +kernel) (List.replicate 4 srv₁) (List.replicate 3 srv₂) (synced 4 srv₁)
  (synced 3 srv₂) 3 2 (by inst) (by inst) (by inst) (by inst) (cast_ne _) id (fun _ h => h) user₃ (by decide +kernel) (by inst)
  (by decide +kernel) 6 (by decide +kernel) (by decide +kernel) (by decide +kernel) rand rand'
example := C28_epoch_zero_panics params (4 : ℚ) 9 6 (ops₁ ++ ops₂) srv₂ run₁₂ (List.replicate 4 srv₂) (synced 4 srv₂) 3
  (by inst) (by inst) id (fun _ h => h) { user₃ with epoch := 0 } (by inst) rfl rand
example := C28_future_epoch_panics id { user₃ with epoch := 5 } (by inst) srv₂ [srv₂, srv₂] 2 (by inst) (by inst)
  (by decide +kernel) rand
example := C28_no_new_epoch_panics id rfl userNow (by inst) srv₂ [srv₂, srv₂] 2 (by inst) (by inst) (by decide +kernel) rand
example := C29_error_unchanged id user₅ user₅ (List.replicate 4 srv₂) 3 rand "user has been deleted"
  (C26_deleted params (4 : ℚ) 9 6 (ops₁ ++ ops₂) srv₂ run₁₂ (List.replicate 4 srv₂) (synced 4 srv₂) 3 (by inst) (by inst)
    (cast_ne _) id (fun _ h => h) user₅ (by inst) (by inst) (by decide +kernel) rand)
example := C30_update_shape params (4 : ℚ) 9 6 (ops₁ ++ ops₂) srv₂ run₁₂ 3 [6, 13]
example := C31_plain_powers params (4 : ℚ) 9 6 (ops₁ ++ ops₂) srv₂ run₁₂ 3 2 (by inst) (by decide +kernel) 3 (by decide +kernel)
  (6 / 7)
example := C32_prepare id (fun _ h => h) user₃ 4 4 2 (by inst) (by inst) (by inst) rand

/-! ### calls of a user -/

def enrolled : User ℚ ℚ ℚ := ⟨3, some ⟨10, 1 / 7, 32 / 12⟩, 1, ⟨4, 9⟩, 2⟩
example := C83_enrol_resets Hc enc params user₃ { user₃ with witness := none, accumulator := 99, epoch := 77 } rfl rfl srv₁
  (by decide +kernel) 10 2 enrolled (by decide +kernel)
/-- the user was created for a server with the keys 4 and 9 and enrols at one with the keys 5 and 9 -/
example := C83_foreign_keys Eℚ Hc enc params (by inst) (by inst) (4 : ℚ) 9 6 5 9 6 ops₁ [.add 3] (by decide +kernel) srv₁
  (getServer ((Server.new params 5 9 6).run [.add 3])) run₁ (by decide +kernel) 3 ⟨3, none, 1, ⟨4, 9⟩, 2⟩
  ⟨3, some ⟨10, 6 / 8, 32 / 12⟩, 6, ⟨4, 9⟩, 1⟩ (by decide +kernel) (by decide +kernel) 10 2 (by decide +kernel) 6
  (by decide +kernel) (by inst) (by decide +kernel)
example := C83_frame Hc enc params id
  [.update [srv₁, srv₁] 2 urand, .createWitness srv₁ 10 2, .update [srv₂, srv₂, srv₂] 2 urand] user₃
  { enrolled with witness := some ⟨10, 1 / 315, 32 / 12⟩, accumulator := 1 / 45 } (by decide +kernel)
example := C83_updates Hc enc params id [.update [srv₁, srv₁] 2 urand, .update [srv₁, srv₁] 3 urand]
  (by intro c hc; simp only [List.mem_cons, List.not_mem_nil, or_false] at hc; rcases hc with rfl | rfl <;> trivial) user₃
  { user₃ with witness := some ⟨10, 1 / 7, 32 / 12⟩, accumulator := 1 } (by decide +kernel)

example := C98_membership_make Eℚ enc pparams 4 (.sharedBlinding 3 8) 6 mrand t 7 3 8 (by inst)
example := C98_nonmembership_make Eℚ enc pparams 4 5 ⟨4, 6⟩ (by inst) (some 8) nrand t 7

/-- C57: the reachable world of `exWorld` -/
example : ∃ w : World ℚ ℚ ℚ, ∃ u p V u', w.users 0 = some u ∧ u.accumulator ∈ w.srv.accumulators ∧
    checkProof Eℚ (fun _ _ => 1) (⟨fun _ => [], fun _ => [], fun _ => []⟩ : Enc ℚ ℚ ℚ) p exParams u.publicKeys u.accumulator eph
      = true ∧
    w.srv.getAccumulator = .ok V ∧ u.update Nat.sqrt (List.replicate 3 w.srv) 2 rand = .ok (u', .ok ()) ∧
    u'.checkWitness Eℚ exParams V = .ok () := by
  obtain ⟨w, u, hr, hu, hw, hup, he, hd⟩ := exWorld
  have seed0 : ∀ d : Nat, 1 ≤ d → 1 ≤ Nat.sqrt d := fun d hd => Nat.sqrt_pos.2 hd
  obtain ⟨p, -, hp⟩ := C57_proof_accepted Eℚ _ _ exParams (by simp [exParams]) (by simp [exParams]) Nat.sqrt seed0 rfl 4 9 6 w hr
    0 u hu hw eph crand
  obtain ⟨-, hv⟩ := C57_recorded_valid Eℚ _ _ exParams (by simp [exParams]) (by simp [exParams]) Nat.sqrt seed0 rfl 4 9 6 w hr
    0 u hu hw
  obtain ⟨V, hV, hx, -⟩ := C57_update_succeeds Eℚ _ _ exParams (by simp [exParams]) (by simp [exParams]) Nat.sqrt seed0 rfl 4 9 6 w
    hr 0 u hu hw hup (by omega) (List.replicate 3 w.srv) (synced 3 w.srv) 2 (by inst) (by inst) (cast_ne _) rand
  obtain ⟨u', h1, h2, -⟩ := hx hd
  exact ⟨w, u, p, V, u', hu, hv, hp, hV, h1, h2⟩

end Allo
