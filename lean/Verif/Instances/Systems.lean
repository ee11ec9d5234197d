import Verif.Props.Poly
import Verif.Props.PostUpdate
import Verif.Props.Random
import Verif.Props.Readd
import Verif.Props.Release
import Verif.Props.Replicas
import Verif.Props.Reuse
import Verif.Props.Revocation
import Verif.Props.Rollback
import Verif.Props.Secrecy
import Verif.Props.SelectiveFailure
import Verif.Props.Server
import Verif.Props.Signature
import Verif.Props.Silent
import Verif.Instances.Updating

/-!
# Concrete cases of the theorems about histories of the server (C12 – C24, C37 – C41, C59 – C62, C73 – C75, C92 – C96)
-/

set_option linter.unusedVariables false
namespace Allo
open Spec Inst

local notation "Eℚ" => Pairing.field ℚ

variable (H : Oracle ℚ) (t : Transcript) (eph : Bytes) (rand : Nat → Nat → ℚ)

example := C12_eval_hom [1, 2, 3] [4, 5] (2 : ℚ) 17 14 (by decide +kernel) (by decide +kernel)

example := C96_total (6 / 7 : ℚ) 2 (by inst) lying₃ (cast_ne _) upd₃.yShares (by decide +kernel)

/-! ### an id that is deleted and added again -/

def opsR : List (Server.Op ℚ) := ops₁ ++ [.delete 3, .add 3]
def srvR : Server ℚ ℚ ℚ := getServer (srv₀.run opsR)
theorem runR : (Server.new params 4 9 6).run opsR = .ok srvR := by decide +kernel

example := C94_one_fate Eℚ keys params 3 w₃ ⟨11, 1 / 7, 35 / 12⟩ 6 1 (by inst) (by inst)
example := C94_reinstated Eℚ H enc params (by inst) (by inst) (4 : ℚ) 9 6 opsR (by decide +kernel) srvR runR 3
  (by decide +kernel) w₃ 6 (by decide +kernel)
/-- user 5 is deleted in `ops₂`, then added again -/
example := C94_update_refused params (4 : ℚ) 9 6 (ops₁ ++ ops₂) srv₂ run₁₂ user₅ (by inst) (by inst) (by decide +kernel) []
  (getServer (srv₂.run [.add 5])) (by decide +kernel) (List.replicate 3 (getServer (srv₂.run [.add 5])))
  (by intro s hs; rw [List.eq_of_mem_replicate hs]; exact ⟨rfl, rfl⟩) 2 (by inst) (by inst) (cast_ne _) id (fun _ h => h)
  rand

/-! ### release builds -/

/-- a user who is up to date -/
def userNow : User ℚ ℚ ℚ := { user₃ with epoch := 4 }
example := C73_no_new_epoch userNow (by inst) srv₂ [srv₂, srv₂] 2 (by inst) (by inst) (by decide +kernel) (by inst) 5 (by inst)
  rand
example := C73_prepare user₃ 4 4 2 (by inst) (by inst) (2 ^ 60 + 6) (by inst) rand
example := C73_prepare_future userNow 3 4 2 (by inst) (by inst) (by inst) (by inst) 1 (by inst) rand
example := C73_server srv₂ 3 [6, 13, 32] (by decide +kernel) (by decide +kernel) (by decide +kernel)
example := C73_update user₃ [srv₂, srv₂, srv₂] 2 (by inst) (by decide +kernel) (2 ^ 60 + 6) (by inst) rand

/-! ### replicas -/

/-- the same deletions, additions at other times -/
def opsB : List (Server.Op ℚ) := [.add 5, .add 2, .delete 2, .add 1, .delete 1, .delete 5, .add 3]
def srvB : Server ℚ ℚ ℚ := getServer (srv₀.run opsB)
theorem runB : (Server.new params 4 9 6).run opsB = .ok srvB := by decide +kernel
theorem unmixed₂ : Unmixed (ops₁ ++ ops₂) := ⟨ops₁ ++ ops₂, [], by simp, by decide +kernel, by simp⟩
theorem unmixedB : Unmixed opsB := ⟨opsB, [], by simp, by decide +kernel, by simp⟩

/-- a check of `DeletesMembers` -/
def deletesCheck (ops : List (Server.Op ℚ)) (i : Nat) : Bool := match ops[i]? with
  | some (.delete y) => decide (y ∈ (regRun (ops.take i)).members)
  | some (.quickDelete y) => decide (y ∈ (regRun (ops.take i)).members)
  | _ => true

theorem deletesMembers_of (ops : List (Server.Op ℚ)) (h : ∀ i < ops.length, deletesCheck ops i = true) :
    DeletesMembers ops := by
  rintro pre y post (rfl | rfl) <;> simpa [deletesCheck] using h pre.length (by simp)

theorem deletes₂ : DeletesMembers (ops₁ ++ ops₂) := deletesMembers_of _ (by decide +kernel)
theorem deletesB : DeletesMembers opsB := deletesMembers_of _ (by decide +kernel)

example := C75_log opsB deletesB
example := C75_missed_add params (4 : ℚ) 9 6 (ops₁ ++ ops₂) [.add 3, .add 5] 2 srv₂
  (getServer (srv₀.run [.add 3, .add 5])) run₁₂ (by decide +kernel) (by decide +kernel) (by decide +kernel)
example := C75_order_of_adds params (4 : ℚ) 9 6 (ops₁ ++ ops₂) opsB unmixed₂ unmixedB deletes₂
  deletesB (by decide +kernel) srv₂ srvB run₁₂ runB
example := C75_update Eℚ params (by inst) (by inst) (4 : ℚ) 9 6 (ops₁ ++ ops₂) unmixed₂ srv₂ run₁₂ [opsB, ops₁ ++ ops₂, opsB]
  (by intro o ho; simp only [List.mem_cons, List.not_mem_nil, or_false] at ho
      rcases ho with rfl | rfl | rfl
      · exact ⟨unmixedB, by decide +kernel⟩
      · exact ⟨unmixed₂, rfl⟩
      · exact ⟨unmixedB, by decide +kernel⟩)
  [srvB, srv₂, srvB] (.cons runB (.cons run₁₂ (.cons runB .nil))) 2 (by inst) (by inst) (cast_ne _) id (fun _ h => h) user₃
  (by decide +kernel) (by inst) (by decide +kernel) 6 (by decide +kernel) (by decide +kernel) (by decide +kernel) rand

/-! ### the same random values used twice -/

example := C92_mem_proofs Eℚ 3 6 7 pparams 4 5 mrand 1 2 (by inst)
example := C92_non_proofs Eℚ 5 ⟨4, 6⟩ ⟨4, 6⟩ pparams 4 4 nrand ncommit ncommit ncommit_eq ncommit_eq 1 2 (by inst)
/-- the challenge is the length of the verifier's nonce -/
def Hlen : Oracle ℚ := fun t _ => match t.msgs.getLast? with
  | some m => m.2.length
  | none => 0
example := C92_presentations Eℚ Hlen enc params keys keys 6 6 [1] [1, 2] 3 10 (32 / 12) (6 / 7) (6 / 7) crand (cproof 1)
  (cproof 2) (by decide +kernel) (by decide +kernel) (by decide +kernel)
example := C92_shared_blinding Eℚ 5 8 7 3 ⟨4, 6⟩ pparams ⟨2, 3, 4, 5⟩ 4 4 mrand mrand nrand
example := C92_update_queries id id user₃ user₅ 4 4 4 4 2 urand upd₃
  (match user₅.prepareForUpdate id 4 4 2 urand with | .ok (.ok u) => u | _ => ⟨0, [], []⟩) (by decide +kernel) (by decide +kernel) 1
  [9, 17, 37] [11, 33, 135] (by decide +kernel) (by decide +kernel)

/-! ### revocation -/

example := C59_forged_proof (G1 := ℚ) (G2 := ℚ) (GT := ℚ) (ops₁ ++ ops₂) (by decide +kernel)
example := C59_revocation_sdh (G1 := ℚ) (G2 := ℚ) (GT := ℚ) (ops₁ ++ ops₂) (by decide +kernel)
example := C60_both_witnesses Eℚ 4 5 42 (42 / 9) ⟨4, 6⟩ (by inst) (by inst) (by inst)
example := C60_membership_forgery (G1 := ℚ) (G2 := ℚ) (GT := ℚ) [1, 2, (3 : ℚ)] 5 (by inst)
example := C60_nonmembership_forgery (G1 := ℚ) (G2 := ℚ) (GT := ℚ) [1, 2, (3 : ℚ)] 2 (by inst)

/-! ### a server restored from a backup -/

/-- after `ops₁`, the calls `ops₂` are lost; then 3 is deleted and 8 added -/
def opsN : List (Server.Op ℚ) := [.delete 3, .add 8]
def srvN : Server ℚ ℚ ℚ := getServer (srv₁.run opsN)
theorem runN : srv₁.run opsN = .ok srvN := by decide +kernel
theorem unmixedN : Unmixed (ops₁ ++ opsN) := ⟨ops₁ ++ opsN, [], by simp, by decide +kernel, by simp⟩
/-- user 3 with its credential from epoch 2 of the lost history -/
def userL : User ℚ ℚ ℚ := ⟨8, some ⟨10, 1 / 12 / 5, 32 / 17⟩, 1 / 5, ⟨4, 9⟩, 3⟩

example := C93_lost_future Eℚ params (by inst) (by inst) (4 : ℚ) 9 6 ops₁ ops₂ opsN unmixed₂ unmixedN srv₁ srv₂ srvN run₁ run₂
  runN (List.replicate 3 srvN) (by intro s hs; rw [List.eq_of_mem_replicate hs]; exact ⟨rfl, rfl⟩) 2 (by inst) (by inst)
  (cast_ne _) id (fun _ h => h) rfl userL (by decide +kernel) (by inst) (1 / 5) (by decide +kernel) (by decide +kernel) rand
example := C93_repeated params (4 : ℚ) 9 6 ops₁ ops₂ [.add 10, .delete 1, .delete 5] unmixed₂
  ⟨_, [], (List.append_nil _).symm, by decide +kernel, by simp⟩ srv₁ srv₂ (getServer (srv₁.run [.add 10, .delete 1, .delete 5]))
  run₁ run₂ (by decide +kernel) (by decide +kernel)
/-- user 5, deleted in the lost history -/
example := C93_revives Eℚ H enc params (by inst) (by inst) (4 : ℚ) 9 6 ops₁ ops₂ opsN unmixed₂ unmixedN srv₁ srv₂ srvN run₁ run₂
  runN 3 2 (by inst) (by inst) (cast_ne _) id (fun _ h => h) user₅ (by decide +kernel) (by inst) 6 (by decide +kernel)
  (by decide +kernel) (by decide +kernel) (by decide +kernel) (by decide +kernel) rand
example := C93_update_iff Eℚ params (by inst) (by inst) (4 : ℚ) 9 6 (ops₁ ++ ops₂) unmixed₂ srv₂ run₁₂ (List.replicate 3 srv₂)
  (by intro s hs; rw [List.eq_of_mem_replicate hs]; exact ⟨rfl, rfl⟩) 2 (by inst) (by inst) (cast_ne _) id (fun _ h => h)
  user₃ (by inst) (by decide +kernel) (by inst) (by decide +kernel) 6 (by decide +kernel) (by decide +kernel) rand

/-! ### what servers learn -/

example := C37_equal_counts id (fun _ h => h) user₃ user₅ 4 4 3 (by inst) (by inst) (cast_ne 4) (by inst) rfl {0, 3} (by inst)
  (by inst) 4 (by decide +kernel) 5 (by inst) (fun i => if i = 0 then some [1, 2, 3] else some [4, 5, 6])
example := C37_secrecy id (fun _ h => h) user₃ user₅ 4 4 3 (by inst) (by inst) (cast_ne 4) (by inst) rfl {0, 3} (by inst)
  (by inst)
example := C37_sessions id (fun _ h => h) ![user₃, user₅] ![user₅, user₃] ![4, 5] ![4, 3] ![3, 2] (by decide) (by decide)
  (by intro s; exact cast_ne _) (by decide +kernel) (by decide +kernel) ![{0, 3}, {1}] (by decide) (by decide)
example := C37_t_servers_learn_the_id id (fun _ h => h) user₃ user₃ 4 4 4 2 (by inst) (by inst) (cast_ne 4) (by inst) (by inst)
  urand urand upd₃ upd₃ (by decide +kernel) (by decide +kernel) {0, 3} (by inst) (by inst) (fun _ _ => rfl)

/-! ### lying, silent and lagging servers -/

example := C74_accepted_iff params (4 : ℚ) 9 6 (ops₁ ++ ops₂) srv₂ run₁₂ id (fun _ h => h) user₃ 4 2 (by inst) (by inst)
  (cast_ne 4) (by inst) (by decide +kernel) (by decide +kernel) urand upd₃ upd₃_eq (6 / 7) honest₃ lying₃ honest₃_answers {3}
  lying₃_differs (by decide +kernel)
example := C74_selective_failure params (4 : ℚ) 9 6 (ops₁ ++ ops₂) srv₂ run₁₂ id (fun _ h => h) 4 2 (by inst) (by inst)
  (cast_ne 4) 1 (by inst) (by decide +kernel) {0, 2} (by decide +kernel) 3
/-- one of four servers has seen two deletions only -/
def srvLag : Server ℚ ℚ ℚ := getServer (srv₀.run (ops₁ ++ [.delete 1]))
example := C41_lagging_ok params (4 : ℚ) 9 6 (ops₁ ++ ops₂) srv₂ run₁₂ id (fun _ h => h) user₃ (by inst) srv₂ [srv₂, srvLag, srv₂]
  3 (by inst) (cast_ne _) (by inst) (by decide +kernel) ⟨rfl, rfl⟩ (by decide +kernel) (by decide +kernel) rand
example := C41_silent_exact params (4 : ℚ) 9 6 (ops₁ ++ ops₂) srv₂ run₁₂ id (fun _ h => h) user₃ 4 2 (by inst) (by inst)
  (cast_ne 4) (by inst) (by decide +kernel) urand upd₃ upd₃_eq (6 / 7) {1, 2} (by decide +kernel)

/-! ### the server -/

example := C15_refines params (4 : ℚ) 9 6 (ops₁ ++ ops₂) srv₂ run₁₂
example := C16_add_keeps srv₂ (getServer (srv₂.run [.add 10])) 10 (some (1 / 45 / 14)) (by decide +kernel)
example := C16_history params (4 : ℚ) 9 6 (ops₁ ++ ops₂) ops₃ (by decide +kernel) (by decide +kernel) srv₃ run₁₂₃
example := C17_stored_witnesses_valid Eℚ params (4 : ℚ) 9 6 (ops₁ ++ ops₂) (by decide +kernel) srv₂ run₁₂ (1 / 45)
  (by decide +kernel)
example := C18_delete_quickDelete params (4 : ℚ) 9 6 (ops₁ ++ ops₂) (by decide +kernel) srv₂ run₁₂ 3 (1 / 45)
  (by decide +kernel)
example := C19_revival params (4 : ℚ) 9 6 (ops₁ ++ ops₂) (by decide +kernel) srv₂ run₁₂ (1 / 45) (by decide +kernel) 3 8
  (by decide +kernel) (by decide +kernel) (by inst)
example := C20_no_panic params (4 : ℚ) 9 6 (ops₁ ++ ops₂) srv₂ run₁₂ 3
example := C22_nonmember H enc params srv₂ user₅ (by decide +kernel)
example := C24_stale Eℚ params (by inst) (by inst) (4 : ℚ) 9 6 (ops₁ ++ ops₂) ops₃ (by decide +kernel) (by decide +kernel) srv₃
  run₁₂₃ 3 w₃ 0 2 (by inst) 6 (1 / 5) (by decide +kernel) (by decide +kernel) (by decide +kernel)

/-! ### signatures -/

example := C61_exception { params with k0 := -30 } (10 : ℚ) (by decide +kernel)
example := C62_any_key Eℚ 6 params (by inst) (by inst) 4 9 3 w₃ ⟨11, 6 / 7, 35 / 12⟩ (by inst) (by inst) (by inst)
example := C62_anyone_enrols Eℚ H enc params (by inst) (by inst) (4 : ℚ) 9 6 (ops₁ ++ ops₂) (by decide +kernel) srv₂ run₁₂ 3
  (by decide +kernel) (by inst)

end Allo
