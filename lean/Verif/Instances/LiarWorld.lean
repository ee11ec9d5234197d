import Verif.Props.LiarWorld
import Verif.Instances.Updating

/-!
# A history with a lying server

1, 2, 3 and 5 are added; users 3 and 5 are made and enrolled; 2 is deleted, 1 is deleted with `quick_delete`, 8 is added
and deleted, 5 is deleted with `quick_delete`; 9 is added, made and enrolled. Then user 3 updates with five servers
(threshold 2) of which the third is silent and the last lies.
-/

set_option linter.unusedVariables false
namespace Allo
open Spec Inst

theorem LWorld.steps_run {F G1 G2 GT : Type} [Field F] [DecidableEq F] [AddCommGroup G1] [Module F G1]
    [DecidableEq G1] [AddCommGroup G2] [Module F G2] [AddCommGroup GT] [Module F GT] [DecidableEq GT]
    {E : Pairing F G1 G2 GT} {H : Oracle F} {enc : Enc G1 G2 GT} {params : AccParams G1 G2} {seed : Nat → Nat}
    {guarded : Prop} {may : Nat → Prop} {w₀ : LWorld F G1 G2}
    (ops : List (Server.Op F)) {w : LWorld F G1 G2} (hq : Careful [] [] (w.calls ++ ops))
    {s' : Server F G1 G2} (h : LWorld.Steps E H enc params seed guarded may w₀ w) (hr : w.srv.run ops = .ok s') :
    LWorld.Steps E H enc params seed guarded may w₀ ⟨s', w.users, w.calls ++ ops⟩ := by
  induction ops generalizing w with
  | nil =>
    simp only [Server.run, List.foldlM_nil, pure, Except.pure, Except.ok.injEq] at hr
    subst hr; rw [List.append_nil]; exact h
  | cons op ops ih =>
    simp only [Server.run, List.foldlM_cons, bind, Except.bind] at hr
    cases hst : w.srv.step op with
    | error e => rw [hst] at hr; simp at hr
    | ok p =>
      obtain ⟨s1, r⟩ := p
      rw [hst] at hr
      have hpre : Careful [] [] (w.calls ++ [op]) := careful_append _ ops [] [] (by simpa using hq)
      have := ih (w := ⟨s1, w.users, w.calls ++ [op]⟩) (by simpa using hq)
        (h.tail none _ _ (.server w op s1 r hpre hst) (by simp)) hr
      simpa using this

/-- a trivial encoding -/
def encC : Enc ℚ ℚ ℚ := ⟨fun _ => [], fun _ => [], fun _ => []⟩

/-- the server after 1, 2, 3 and 5 were added -/
def srvA : Server ℚ ℚ ℚ := getServer ((Server.new params 4 9 6).run (ops₁.take 4))

/-- users 0 (identifier 3) and 1 (identifier 5) -/
def usersA : Nat → Option (User ℚ ℚ ℚ) := setAt (setAt (fun _ => none) 0 (some user₃)) 1 (some user₅)

/-- what happens then -/
def opsLie : List (Server.Op ℚ) := [.delete 2, .quickDelete 1, .add 8, .delete 8, .quickDelete 5, .add 9]
def srvLie : Server ℚ ℚ ℚ := getServer (srvA.run opsLie)
/-- user 2 (identifier 9), enrolled at the end -/
def user₉ : User ℚ ℚ ℚ := ⟨9, some ⟨10, 1 / 7020, 32 / 18⟩, 1 / 540, ⟨4, 9⟩, 5⟩
def usersLie : Nat → Option (User ℚ ℚ ℚ) := setAt usersA 2 (some user₉)
/-- all calls -/
def callsLie : List (Server.Op ℚ) := ops₁.take 4 ++ opsLie

theorem callsLie_careful : Careful [] [] callsLie := by norm_num [callsLie, ops₁, opsLie, Careful]
example : srvLie.deletions = [2, 1, 8, 5] ∧ srvLie.accumulators = [6, 1, 1 / 5, 1 / 60, 1 / 540] ∧ srvLie.ids = [9, 3] := by
  decide +kernel
theorem usersLie_0 : usersLie 0 = some user₃ := rfl
theorem usersLie_1 : usersLie 1 = some user₅ := rfl

theorem usersA_0 : usersA 0 = some user₃ := rfl
theorem usersA_1 : usersA 1 = some user₅ := rfl

/-- user 3 with the witness that the update gives it -/
def user₃new : User ℚ ℚ ℚ := user₃.adopt ⟨10, 6 / 7, 32 / 12⟩ (1 / 3780) (1 / 540) srvLie.getEpoch

theorem setAt_setAt {A : Type} (f : Nat → Option A) (i : Nat) (a b : Option A) : setAt (setAt f i a) i b = setAt f i b := by
  funext j; by_cases h : j = i
  · subst h; rw [setAt_self, setAt_self]
  · rw [setAt_ne h, setAt_ne h, setAt_ne h]

theorem cw₃ : ({ user₃ with witness := none } : User ℚ ℚ ℚ).createWitness (fun _ _ => 1) encC params srvA 10 2 = .ok user₃ := by
  decide +kernel
theorem cw₅ : ({ user₅ with witness := none } : User ℚ ℚ ℚ).createWitness (fun _ _ => 1) encC params srvA 10 2 = .ok user₅ := by
  decide +kernel

theorem cw₉ : ({ user₉ with witness := none } : User ℚ ℚ ℚ).createWitness (fun _ _ => 1) encC params srvLie 10 2 = .ok user₉ := by
  decide +kernel
/-- the new user checks what it got -/
theorem cw₉_ok : ∀ V, srvLie.getAccumulator = .ok V → user₉.checkWitness (Pairing.field ℚ) params V = .ok () := by
  intro V hV
  rw [show srvLie.getAccumulator = .ok (1 / 540) by decide +kernel] at hV
  obtain rfl := Except.ok.inj hV
  decide +kernel

/-- all users enrolled and everything deleted -/
theorem lworld_reach (guarded : Prop) :
    LWorld.Steps (Pairing.field ℚ) (fun _ _ => 1) encC params id guarded (fun _ => True) (LWorld.init params 4 9 6) ⟨srvLie, usersLie, callsLie⟩ := by
  have r1 := LWorld.steps_run (ops₁.take 4)
    (w := LWorld.init params 4 9 6) (by norm_num [LWorld.init, ops₁, Careful])
    (LWorld.Steps.refl (E := Pairing.field ℚ) (H := fun _ _ => 1) (enc := encC) (params := params) (seed := id) (guarded := guarded)
      (may := fun _ => True) (w := LWorld.init params 4 9 6)) (s' := srvA) (by decide +kernel)
  have r2 := r1.tail (some 0) _ _ (.join _ 0 3 { user₃ with witness := none } (by decide +kernel)) (by simp)
  have r3 := r2.tail (some 0) _ _ (.enrol _ 0 _ user₃ 10 2 rfl cw₃ (Or.inl (by decide +kernel))) (by simp)
  have r4 := r3.tail (some 1) _ _ (.join _ 1 5 { user₅ with witness := none } (by decide +kernel)) (by simp)
  have r5 := r4.tail (some 1) _ _ (.enrol _ 1 _ user₅ 10 2 rfl cw₅ (Or.inl (by decide +kernel))) (by simp)
  have r6 := LWorld.steps_run opsLie (w := ⟨srvA, _, ops₁.take 4⟩) callsLie_careful r5 (s' := srvLie) (by decide +kernel)
  have r7 := r6.tail (some 2) _ _ (.join _ 2 9 { user₉ with witness := none } (by decide +kernel)) (by simp)
  have r8 := r7.tail (some 2) _ _ (.enrol _ 2 _ user₉ 10 2 rfl cw₉ (Or.inr cw₉_ok)) (by simp)
  rw [setAt_setAt, setAt_setAt, setAt_setAt] at r8
  exact r8

/-- the request to five servers and their answers -/
def upd₅ : UserUpdate ℚ :=
  match user₃.prepareForUpdate id 5 5 2 urand with
  | .ok (.ok u) => u
  | _ => ⟨0, [], []⟩

def honest₅ : List (List ℚ × List ℚ) := upd₅.yShares.map (fun ys =>
  match srvLie.update upd₅.epochDiff ys with
  | .ok a => a
  | .error _ => ([], []))

def lying₅ : List (List ℚ × List ℚ) := honest₅.set 4 (honest₅[4]!.1.map (· + 1), honest₅[4]!.2.map (· + 1))

theorem upd₅_eq : user₃.prepareForUpdate id srvLie.getEpoch 5 2 urand = .ok (.ok upd₅) := by decide +kernel

theorem honest₅_answers : HonestAnswers srvLie 5 upd₅ honest₅ := by
  refine ⟨by decide +kernel, ?_⟩
  intro i hi
  have h : ∀ i < 5, srvLie.update upd₅.epochDiff (upd₅.yShares[i]!) = .ok (honest₅[i]!) ∧
      upd₅.yShares[i]? = some (upd₅.yShares[i]!) ∧ honest₅[i]? = some (honest₅[i]!) := by decide +kernel
  exact ⟨_, _, (h i hi).2.1, (h i hi).2.2, (h i hi).1⟩

theorem lying₅_differs : DiffersOn {4} honest₅ lying₅ := by unfold DiffersOn; decide +kernel

/-- user 3 updates, although the third server is silent and the fifth lies -/
theorem lworld_update (guarded : Prop) : LWorld.Step (Pairing.field ℚ) (fun _ _ => 1) encC params id guarded none ⟨srvLie, usersLie, callsLie⟩
    ⟨srvLie, setAt usersLie 0 (some user₃new), callsLie⟩ :=
  .update ⟨srvLie, usersLie, callsLie⟩ 0 user₃ ⟨10, 6 / 7, 32 / 12⟩ 5 2 urand upd₅ honest₅ lying₅ {2} [0, 1, 3, 4] {4} 3 (1 / 3780)
    (1 / 540) usersLie_0 rfl (by inst) (cast_ne 5) (by decide +kernel) upd₅_eq honest₅_answers (by decide) (by decide)
    (by decide) lying₅_differs (by
      intro i hi hip l hl
      have : i = 0 ∨ i = 1 ∨ i = 2 := by omega
      rcases this with rfl | rfl | rfl <;> (simp at hl; subst hl; decide))
    (by decide +kernel) (by decide +kernel)

/-- C123: safety, in the history with the lie -/
example := C123_always_valid (Pairing.field ℚ) (fun _ _ => 1) encC params (by decide +kernel) (by decide +kernel) id (fun _ h => h) False
  (fun _ => True) 4 9 6 ⟨srvLie, setAt usersLie 0 (some user₃new), callsLie⟩
  ((lworld_reach False).tail none _ _ (lworld_update False) (by simp)) 0 user₃new rfl (by simp [user₃new, User.adopt])

/-- C123: user 5 was deleted after epoch 1; a continuation is the update of user 3 -/
example : (setAt usersLie 0 (some user₃new)) 1 = some user₅ :=
  C123_revoked_stuck (Pairing.field ℚ) (fun _ _ => 1) encC params (by decide +kernel) (by decide +kernel) id (fun _ h => h) False
  (fun _ => True) 4 9 6 ⟨srvLie, usersLie, callsLie⟩ ⟨srvLie, setAt usersLie 0 (some user₃new), callsLie⟩
  (lworld_reach False) 1 user₅ usersLie_1 (by decide +kernel) (LWorld.Steps.refl.tail none _ _ (lworld_update False) (by simp))

/-- C123: progress for user 3 -/
example := C123_progress (Pairing.field ℚ) (fun _ _ => 1) encC params (by decide +kernel) (by decide +kernel) id (fun _ h => h) False
  (fun _ => True) 4 9 6 ⟨srvLie, usersLie, callsLie⟩ (lworld_reach False) 0 user₃ _ usersLie_0 rfl (by decide +kernel) (by decide +kernel) 5 2
  (by inst) (cast_ne 5) urand {2} (by decide) [0, 1, 3, 4] (by decide) (by decide)

end Allo
