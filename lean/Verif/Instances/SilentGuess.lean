import Verif.Props.SilentGuess

/-!
# A concrete case of the theorem of `Props/SilentGuess`

Five servers over `ZMod 7`, threshold 3; the first is silent, the second lies and knows its own shares.
-/

set_option linter.unusedVariables false
namespace Allo
open Spec Rom User

theorem guess_chars : ∀ i : Nat, 0 < i → i ≤ 5 → (i : ZMod 7) ≠ 0 := by
  intro i h1 h2
  interval_cases i <;> decide

example (A : (Nat → Option (List (ZMod 7))) → List (ZMod 7) × List (ZMod 7)) (rest : Nat → Nat → ZMod 7) :
    prob (fun x : Fin 2 → Fin 2 → ZMod 7 => ∃ upd honest W,
      ordUser.prepareForUpdate (fun _ => 1) leakSrv.getEpoch 5 3 (withRows (t := 3) x rest) = .ok (.ok upd) ∧
      HonestAnswers leakSrv 5 upd honest ∧
      DiffersOn {1} honest (honest.set 1 (A (jointView {1} upd))) ∧
      postUpdate (4 : ZMod 7) 3 upd.yShares upd.yValues (silence {0} (honest.set 1 (A (jointView {1} upd)))) = .ok (.ok W))
      ≤ 1 / 7 := by
  have h := C124_guess onePar 1 1 2 leakOps leakSrv leakSrv_run (fun _ => 1) (fun _ _ => le_refl _) ordUser 5 3 guess_chars
    (by decide) (by decide) (4 : ZMod 7) {0} [1, 2, 3, 4] (by decide) (by decide) 0 (by decide) (by decide) {1} (by decide)
    (by decide) (by decide) (by decide) A 2 (by decide) rest
  rw [Nat.card_eq_fintype_card, ZMod.card] at h
  exact h

/-- such a lie exists: for each choice of the coefficients one answer passes the check -/
example (x : Fin 2 → Fin 2 → ZMod 7) (rest : Nat → Nat → ZMod 7) : ∃ upd honest ans,
    ordUser.prepareForUpdate (fun _ => 1) leakSrv.getEpoch 5 3 (withRows (t := 3) x rest) = .ok (.ok upd) ∧
      HonestAnswers leakSrv 5 upd honest ∧ DiffersOn {1} honest ans ∧
      ((∃ W, postUpdate (4 : ZMod 7) 3 upd.yShares upd.yValues (silence {0} ans) = .ok (.ok W)) ∨
        postUpdate (4 : ZMod 7) 3 upd.yShares upd.yValues (silence {0} ans) = .ok (.error "user has been deleted")) := by
  obtain ⟨k, -, hk⟩ := C124_accepted_lie (F := ZMod 7) (G1 := ZMod 7) (G2 := ZMod 7) 5 3 (by decide) guess_chars {0}
    [1, 2, 3, 4] (by decide) (by decide) 0 (by decide)
  obtain ⟨k', upd, -, -, hp, -⟩ := prepareForUpdate_ok (fun _ => 1) (fun _ _ => le_refl _) ordUser leakSrv.getEpoch 5 3
    (by decide) (by decide) (by decide) (withRows (t := 3) x rest)
  obtain ⟨kk, -, -, -, -, -, hh⟩ := honest_closed (fun _ => 1) (fun _ _ => le_refl _) ordUser leakSrv rfl 5 3 (by decide)
    (by decide) (by decide) (by decide) _ upd hp
  obtain ⟨a, q, -, -, hd, ho⟩ := hk onePar 1 1 2 leakOps leakSrv leakSrv_run (fun _ => 1) (fun _ _ => le_refl _) ordUser (by decide)
    (by decide) _ upd hp 4 _ ((hh _).2 rfl)
  exact ⟨upd, _, _, hp, (hh _).2 rfl, hd, ho⟩

end Allo
