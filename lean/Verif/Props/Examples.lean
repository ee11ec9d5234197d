import Verif.Props.Silent
import Verif.Props.Update
import Verif.Props.Credential
import Verif.Props.Communication

/-!
# Concrete cases meeting the hypotheses of C22, C24, C38, C41, C58 and C64

Everything over `ℚ` with the pairing `ℚ × ℚ → ℚ`; the computations are done by the kernel.
-/

set_option linter.unusedSectionVars false
set_option linter.unusedVariables false
set_option linter.unusedSimpArgs false
namespace Allo
open Spec Finset User

/-- `exUser` (id 3, epoch 1) prepares an update for 4 servers with threshold 2 after the deletion in `exPre`: there
are four honest answers, and the first share of server 3 is not zero. -/
theorem exSession_ok : ∃ srv upd honest, (Server.new exParams (4 : ℚ) 9 6).run exPre = .ok srv ∧
    srv.getEpoch = 2 ∧ exUser.prepareForUpdate (fun _ => 1) srv.getEpoch 4 2 (fun _ _ => 1) = .ok (.ok upd) ∧
    HonestAnswers srv 4 upd honest ∧ (∃ p x, honest[3]? = some p ∧ p.1[0]? = some x ∧ x ≠ 0) := by
  have h : (match (Server.new exParams (4 : ℚ) 9 6).run exPre with
      | .ok srv => decide (srv.getEpoch = 2) &&
        (match exUser.prepareForUpdate (fun _ => 1) srv.getEpoch 4 2 (fun _ _ => 1) with
        | .ok (.ok upd) => (match upd.yShares with
          | [y0, y1, y2, y3] =>
            (match srv.update upd.epochDiff y0, srv.update upd.epochDiff y1, srv.update upd.epochDiff y2,
              srv.update upd.epochDiff y3 with
            | .ok a0, .ok a1, .ok a2, .ok a3 => (match a3.1 with
              | x :: _ => decide (x ≠ 0)
              | _ => false)
            | _, _, _, _ => false)
          | _ => false)
        | _ => false)
      | .error _ => false) = true := by decide +kernel
  split at h
  · next srv h1 =>
    rw [Bool.and_eq_true, decide_eq_true_eq] at h
    obtain ⟨he, h⟩ := h
    split at h
    · next upd h2 =>
      split at h
      · next y0 y1 y2 y3 h3 =>
        split at h
        · next a0 a1 a2 a3 g0 g1 g2 g3 =>
          split at h
          · next x xs hx =>
            rw [decide_eq_true_eq] at h
            refine ⟨srv, upd, [a0, a1, a2, a3], h1, he, h2, ⟨rfl, ?_⟩, a3, x, rfl, by rw [hx]; rfl, h⟩
            intro i hi
            rw [h3]
            match i, hi with
            | 0, _ => exact ⟨y0, a0, rfl, rfl, g0⟩
            | 1, _ => exact ⟨y1, a1, rfl, rfl, g1⟩
            | 2, _ => exact ⟨y2, a2, rfl, rfl, g2⟩
            | 3, _ => exact ⟨y3, a3, rfl, rfl, g3⟩
          · simp at h
        · simp at h
      · simp at h
    · simp at h
  · simp at h

theorem cast_ne_zero_of_pos : ∀ n i : Nat, 0 < i → i ≤ n → ((i : Nat) : ℚ) ≠ 0 :=
  fun _ _ h _ => by exact_mod_cast Nat.pos_iff_ne_zero.1 h

/-- C41: the failing case happens: with the first of four servers silent, threshold 2 and three honest answers,
the honest answers are reported as malicious. -/
example : ∃ upd honest, postUpdate (6 / 7 : ℚ) 2 upd.yShares upd.yValues (silence {0} honest)
      = .ok (.error "malicious server") ∧
    ∃ srv, (Server.new exParams (4 : ℚ) 9 6).run exPre = .ok srv ∧ HonestAnswers srv 4 upd honest := by
  obtain ⟨srv, upd, honest, h1, he, h2, h3, h4⟩ := exSession_ok
  refine ⟨upd, honest, ?_, srv, h1, h3⟩
  exact C41_first_silent_rejected exParams 4 9 6 exPre srv h1 (fun _ => 1) (fun _ _ => le_refl _) exUser 4 2
    (le_refl _) (by norm_num) (cast_ne_zero_of_pos 4) (le_refl _) (by rw [he]; decide) (fun _ _ => 1) upd h2 _
    {0} [1, 2, 3] (by decide) (by decide) (by norm_num) honest h3 h4

/-- C41: silent servers other than the first do no harm: servers 1 and 3 of four silent, threshold 2. -/
example : ∃ (srv : Server ℚ ℚ ℚ) (upd : UserUpdate ℚ) (honest : List (List ℚ × List ℚ)) (res : Except String ℚ),
    HonestAnswers srv 4 upd honest ∧
    postUpdate (6 / 7 : ℚ) 2 upd.yShares upd.yValues honest = .ok res ∧
    postUpdate (6 / 7 : ℚ) 2 upd.yShares upd.yValues (silence {1, 3} honest) = .ok res := by
  obtain ⟨srv, upd, honest, h1, he, h2, h3, h4⟩ := exSession_ok
  obtain ⟨hon, res, a, b, c⟩ := C41_silent_ok exParams 4 9 6 exPre srv h1 (fun _ => 1) (fun _ _ => le_refl _) exUser
    4 2 (le_refl _) (by norm_num) (cast_ne_zero_of_pos 4) (le_refl _) (by rw [he]; decide) (fun _ _ => 1) upd h2
    (6 / 7) {1, 3} (by decide) (by decide)
  exact ⟨srv, upd, hon, res, a, b, c⟩

/-- C38: four servers, threshold 2; server 2 (the only liar among the first three) and server 3 answer anything of
the right shape: the result is the honest one or "malicious server". -/
example : ∃ (srv : Server ℚ ℚ ℚ) (upd : UserUpdate ℚ) (honest : List (List ℚ × List ℚ)) (res : Except String ℚ),
    HonestAnswers srv 4 upd honest ∧ postUpdate (6 / 7 : ℚ) 2 upd.yShares upd.yValues honest = .ok res ∧
    ∀ ans, DiffersOn {2, 3} honest ans →
      (postUpdate (6 / 7 : ℚ) 2 upd.yShares upd.yValues ans = .ok res ∨
       postUpdate (6 / 7 : ℚ) 2 upd.yShares upd.yValues ans = .ok (.error "malicious server")) := by
  obtain ⟨srv, upd, honest, h1, he, h2, h3, h4⟩ := exSession_ok
  obtain ⟨hon, res, a, b, c⟩ := C38_one_liar exParams 4 9 6 exPre srv h1 (fun _ => 1) (fun _ _ => le_refl _) exUser
    4 2 (le_refl _) (by norm_num) (cast_ne_zero_of_pos 4) (le_refl _) (by rw [he]; decide) (fun _ _ => 1) upd h2
    (6 / 7)
  exact ⟨srv, upd, hon, res, a, b, fun ans h => (c {2, 3} ans h (by decide)).1⟩

/-- C58: three servers, threshold 2; server 1 has an outdated log of the same length. The hypotheses hold. -/
example (rand : Nat → Nat → ℚ) : ∃ srv srv' : Server ℚ ℚ ℚ, srv'.deletions ≠ srv.deletions ∧
    (exUser.update (fun _ => 1) [srv, srv', srv] 2 rand = exUser.update (fun _ => 1) [srv, srv, srv] 2 rand ∨
     exUser.update (fun _ => 1) [srv, srv', srv] 2 rand = .ok (exUser, .error "malicious server")) := by
  obtain ⟨srv, _, h1, _, h3, h4, _⟩ := exUpdateRun
  have he : srv.getEpoch = 2 := by
    rw [Server.getEpoch, h3]; rfl
  refine ⟨srv, { srv with deletions := [77] }, by rw [h4]; norm_num, ?_⟩
  refine C58_wrong_window exParams 4 9 6 exPre srv h1 (fun _ => 1) (fun _ _ => le_refl _) exUser (by simp [exUser]) srv
    [{ srv with deletions := [77] }, srv] 2 (le_refl _) (by simp) (cast_ne_zero_of_pos 3) (le_refl _)
    (by rw [he]; decide) ⟨rfl, rfl⟩ {1} (by decide) ?_ rand
  intro i s' hs
  match i, hs with
  | 0, hs =>
    cases hs
    exact ⟨fun _ => ⟨rfl, rfl⟩, by rw [h3, h4]; rfl, by rw [he, h4]; decide⟩
  | 1, hs =>
    cases hs
    exact ⟨fun h => absurd (by simp) h, by simp [h3], by rw [he]; simp [exUser]⟩
  | 2, hs =>
    cases hs
    exact ⟨fun _ => ⟨rfl, rfl⟩, by rw [h3, h4]; rfl, by rw [he, h4]; decide⟩

/-- C22: user 3 enrols with the server reached by `exPre`. -/
example (H : Oracle ℚ) (enc : Enc ℚ ℚ ℚ) (key k : ℚ) : ∃ (srv : Server ℚ ℚ ℚ) (u u' : User ℚ ℚ ℚ),
    User.new srv 3 = .ok u ∧ u.createWitness H enc exParams srv key k = .ok u' ∧
    u'.checkWitness (Pairing.field ℚ) exParams 1 = .ok () := by
  obtain ⟨srv, _, h1, _, h3, h4, _⟩ := exUpdateRun
  have hacc : srv.getAccumulator = .ok 1 := by rw [Server.getAccumulator, h3]; rfl
  have hnew : User.new srv 3 = .ok (⟨3, none, 1, srv.getPublicKeys, srv.getEpoch⟩ : User ℚ ℚ ℚ) := by
    simp [User.new, hacc, bind, Except.bind, pure, Except.pure]
  obtain ⟨u', V, g1, g2, g3, -⟩ := C22_create_witness (Pairing.field ℚ) H enc exParams (by norm_num [exParams])
    (by norm_num [exParams]) 4 9 6 exPre (by decide) srv h1 _ 3 hnew (by decide +kernel) (by norm_num) key k
  rw [hacc] at g2
  cases g2
  exact ⟨srv, _, u', hnew, g1, g3⟩

/-- C22: with the keys 4 and 9 the issued credential passes the second equation under the signing key, and
would not pass it under the witness key. -/
example (H : Oracle ℚ) (enc : Enc ℚ ℚ ℚ) (k : ℚ) : ∃ (srv : Server ℚ ℚ ℚ) (u u' : User ℚ ℚ ℚ) (w : Witness ℚ ℚ),
    User.new srv 3 = .ok u ∧ u.createWitness H enc exParams srv 10 k = .ok u' ∧ u'.witness = some w ∧
    w.signature * (3 * exParams.k2 + srv.getSignPublicKey) = (10 * exParams.k1 + exParams.k0) * exParams.k2 ∧
    w.signature * (3 * exParams.k2 + srv.getWitnessPublicKey) ≠ (10 * exParams.k1 + exParams.k0) * exParams.k2 := by
  obtain ⟨srv, _, h1, _, h3, h4, _⟩ := exUpdateRun
  have hacc : srv.getAccumulator = .ok 1 := by rw [Server.getAccumulator, h3]; rfl
  have hnew : User.new srv 3 = .ok (⟨3, none, 1, srv.getPublicKeys, srv.getEpoch⟩ : User ℚ ℚ ℚ) := by
    simp [User.new, hacc, bind, Except.bind, pure, Except.pure]
  obtain ⟨-, u', V, w, g1, g2, g3, g4, g5⟩ := C22_getters (Pairing.field ℚ) H enc exParams
    (by norm_num [exParams]) (by norm_num [exParams]) 4 9 6 exPre (by decide) srv h1 _ 3 hnew
    (by decide +kernel) (by norm_num) 10 k
  have hk1 : srv.getSignPublicKey = 9 := by
    rw [Server.getSignPublicKey, (keys_run h1).1]; norm_num [exParams]
  have hk2 : srv.getWitnessPublicKey = 4 := by
    rw [Server.getWitnessPublicKey, (keys_run h1).1]; norm_num [exParams]
  simp only [Pairing.field, LinearMap.mul_apply', smul_eq_mul] at g5
  refine ⟨srv, _, u', w, hnew, g1, g3, g5, ?_⟩
  rw [hk1] at g5
  rw [hk2]
  intro hc
  norm_num [exParams] at g5 hc
  linarith

/-- C24: the witness of user 3 from before the deletion of 2 does not check afterwards. -/
example : credVerify (Pairing.field ℚ) (6 : ℚ) ⟨4, 9⟩ exParams 3 ⟨10, 6 / 7, (10 * 3 + 2) / 12⟩ = .ok () ∧
    credVerify (Pairing.field ℚ) (1 : ℚ) ⟨4, 9⟩ exParams 3 ⟨10, 6 / 7, (10 * 3 + 2) / 12⟩ ≠ .ok () := by
  obtain ⟨srv, _, h1, _, h3, h4, _⟩ := exUpdateRun
  have hk : srv.getPublicKeys = ⟨4, 9⟩ := by
    have hkeys := keys_run h1
    rw [Server.getPublicKeys, hkeys.1]
    norm_num [exParams]
  have hw : credVerify (Pairing.field ℚ) (6 : ℚ) ⟨4, 9⟩ exParams 3 ⟨10, 6 / 7, (10 * 3 + 2) / 12⟩ = .ok () := by
    rw [credVerify_pairing]; norm_num [Pairing.field, exParams]
  refine ⟨hw, ?_⟩
  rw [← hk] at hw ⊢
  exact C24_single (Pairing.field ℚ) exParams (by norm_num [exParams]) (by norm_num [exParams]) 4 9 6 exPre []
    (by decide) (by decide) srv (by rw [List.append_nil]; exact h1) (by norm_num [exParams]) 3 _ 0 6 1 2
    (by rw [h4]; rfl) (by norm_num) (by rw [h3]; rfl) (by rw [h3]; rfl) hw

end Allo
