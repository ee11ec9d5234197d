import Verif.Props.Mixed
import Verif.Props.Readd

/-!
# C120: re-adding a revoked id after mixed histories

C94 for histories that mix `delete` and `quick_delete` in any way.
-/

set_option linter.unusedSectionVars false
set_option linter.unusedVariables false
namespace Allo
open Spec Server

section
variable {F G1 G2 GT : Type} [Field F] [DecidableEq F] [AddCommGroup G1] [Module F G1]
  [DecidableEq G1] [AddCommGroup G2] [Module F G2] [AddCommGroup GT] [Module F GT] [DecidableEq GT]

/-- C120, re-adding after any history: the id of a credential that was valid once is a member. Then everybody who asks
`Server::witness` for that id gets the same membership witness, and with it the old secret key and signature are a valid
credential for the current accumulator exactly if the member is fresh (or the first accumulator is the identity). So
re-adding reinstates the old credential until the next `quick_delete`, whatever was called before. -/
theorem C120_reinstated (E : Pairing F G1 G2 GT) (H : Oracle F) (enc : Enc G1 G2 GT) (params : AccParams G1 G2)
    (hP : params.p2 ≠ 0) (hK : params.k2 ≠ 0) (α sM v : F) (ops : List (Op F)) (s : Server F G1 G2)
    (h : (Server.new params α sM v).run ops = .ok s) (y : F) (hy : y ∈ s.ids)
    (old : Witness F G1) (Vold : G1) (hold : credVerify E Vold s.getPublicKeys params y old = .ok ()) :
    ∃ V C, s.getAccumulator = .ok V ∧
      (∀ c z key, ∀ r, s.witness H enc params y c z key = .ok (some r) → r.1 = C) ∧
      (credVerify E V s.getPublicKeys params y { old with witness := C } = .ok () ↔
        (Mix.start.run α ops).ref y = some (Mix.start.run α ops).cur ∨ v • params.p1 = 0) := by
  have hI := invM_run ops (invM_new params α sM v) h
  obtain ⟨C, hC⟩ := mapGet_some_of_mem hy
  have hV : s.getAccumulator = .ok ((Mix.start.run α ops).cur • v • params.p1) := by
    rw [getAccumulator, hI.last]; rfl
  refine ⟨_, C, hV, ?_, ?_⟩
  · intro c z key r hr
    obtain ⟨h1, h2, h3⟩ := C21_witness H enc params s y c z key
    by_cases hc : enrolChallenge H enc key (z • params.k1 + c • key) = c
    · by_cases hs : y + s.signSecretKey = 0
      · rw [(h3 hy hc).2 hs] at hr; cases hr
      · obtain ⟨C', R, e1, e2, -⟩ := (h3 hy hc).1 hs
        rw [e1] at hr
        cases hr
        rw [hC] at e2
        exact (Option.some.inj e2).symm
    · rw [h2 hc] at hr; cases hr
  · obtain ⟨b, hb1, hb2⟩ := hI.wits _ (mapGet_mem hC)
    simp only at hb1 hb2
    have key' : (y + α) • C = (Mix.start.run α ops).cur • v • params.p1 ↔
        (Mix.start.run α ops).ref y = some (Mix.start.run α ops).cur ∨ v • params.p1 = 0 := by
      rw [hb2, hb1, Option.some.injEq, ← sub_eq_zero, ← sub_smul, smul_eq_zero, sub_eq_zero]
    rw [← key']
    rw [getPublicKeys, (keys_run h).1, credVerify_iff E params hP hK] at hold ⊢
    exact ⟨fun h => h.1, fun h => ⟨h, hold.2⟩⟩

end

end Allo
