import Verif.Props.Update
import Verif.Props.Credential
import Verif.Props.Examples

/-!
# C94: several credentials for one id; re-adding a revoked id

The signature in a credential has no date. What expires is the membership witness, and that depends on the id only.
-/

set_option linter.unusedSectionVars false
set_option linter.unusedVariables false
namespace Allo
open Spec Server

section
variable {F G1 G2 GT : Type} [Field F] [DecidableEq F] [AddCommGroup G1] [Module F G1]
  [DecidableEq G1] [AddCommGroup G2] [Module F G2] [AddCommGroup GT] [Module F GT] [DecidableEq GT]

/-- **C94** (one id, one fate). Take any two credentials for the same id that verified at some time (against any
accumulators). Against every accumulator and with every membership witness either both verify or none does:
no operation on the server can revoke one of two credentials issued for an id. -/
theorem C94_one_fate (E : Pairing F G1 G2 GT) (pk : PublicKeys G2) (params : AccParams G1 G2) (y : F)
    (w₁ w₂ : Witness F G1) (V₁ V₂ : G1) (h₁ : credVerify E V₁ pk params y w₁ = .ok ())
    (h₂ : credVerify E V₂ pk params y w₂ = .ok ()) (V C : G1) :
    credVerify E V pk params y { w₁ with witness := C } = .ok () ↔
      credVerify E V pk params y { w₂ with witness := C } = .ok () := by
  rw [credVerify_pairing] at h₁ h₂ ⊢
  rw [credVerify_pairing]
  exact ⟨fun h => ⟨h.1, h₂.2⟩, fun h => ⟨h.1, h₁.2⟩⟩

/-- **C94** (re-adding reinstates). The id of a credential that was valid once is a member again (after any history
of `add` and `delete` calls, in which it may have been deleted any number of times). Then the old secret key and
signature, with the membership witness that `Server::witness` returns to *anyone* who asks for that id with a
valid proof for a key of their own, are a valid credential for the current accumulator, and its presentations are
accepted. -/
theorem C94_reinstated (E : Pairing F G1 G2 GT) (H : Oracle F) (enc : Enc G1 G2 GT) (params : AccParams G1 G2)
    (hP : params.p2 ≠ 0) (hK : params.k2 ≠ 0) (α sM v : F) (ops : List (Op F))
    (hq : ∀ op ∈ ops, op.isQuick = false) (s : Server F G1 G2)
    (h : (Server.new params α sM v).run ops = .ok s) (y : F) (hy : y ∈ (regRun ops).members)
    (old : Witness F G1) (Vold : G1) (hold : credVerify E Vold s.getPublicKeys params y old = .ok ()) :
    ∃ V C, s.getAccumulator = .ok V ∧
      (∀ c z key, ∀ r, s.witness H enc params y c z key = .ok (some r) → r.1 = C) ∧
      (∀ key k : F, y ≠ -sM → ∃ r, s.witness H enc params y (enrolChallenge H enc (key • params.k1) (k • params.k1))
        (k - enrolChallenge H enc (key • params.k1) (k • params.k1) * key) (key • params.k1) = .ok (some r)) ∧
      credVerify E V s.getPublicKeys params y { old with witness := C } = .ok () ∧
      ∀ eph rand, ∃ p, makeProof E H enc { old with witness := C } y V params s.getPublicKeys eph rand = some p ∧
        checkProof E H enc p params s.getPublicKeys V eph = true := by
  have hI := invW_run params α sM v ops hq s h
  have hR := refines_run ops (refines_new params α sM v) h
  have hyid := (hR.members y).2 hy
  obtain ⟨C, hC⟩ := mapGet_some_of_mem hyid
  have hV : s.getAccumulator = .ok (accAfter α (v • params.p1) s.deletions) := by
    rw [getAccumulator, hI.last]; rfl
  have hw := ((C17_stored_witnesses_valid E params α sM v ops hq s h _ hV).1 y C hC).1
  have hcred : credVerify E (accAfter α (v • params.p1) s.deletions) s.getPublicKeys params y
      { old with witness := C } = .ok () := by
    rw [getPublicKeys, (keys_run h).1, credVerify_iff E params hP hK] at hold ⊢
    exact ⟨hw, hold.2⟩
  refine ⟨_, C, hV, ?_, ?_, hcred, fun eph rand => ?_⟩
  · intro c z key r hr
    obtain ⟨h1, h2, h3⟩ := C21_witness H enc params s y c z key
    by_cases hc : enrolChallenge H enc key (z • params.k1 + c • key) = c
    · by_cases hs : y + s.signSecretKey = 0
      · rw [(h3 hyid hc).2 hs] at hr; cases hr
      · obtain ⟨C', R, e1, e2, -⟩ := (h3 hyid hc).1 hs
        rw [e1] at hr
        cases hr
        rw [hC] at e2
        exact (Option.some.inj e2).symm
    · rw [h2 hc] at hr; cases hr
  · intro key k hs
    obtain ⟨-, -, h3⟩ := C21_witness H enc params s y (enrolChallenge H enc (key • params.k1) (k • params.k1))
        (k - enrolChallenge H enc (key • params.k1) (k • params.k1) * key) (key • params.k1)
    have hs' : y + s.signSecretKey ≠ 0 := by
      rw [(keys_run h).2.2]
      exact fun h0 => hs (eq_neg_of_add_eq_zero_left h0)
    obtain ⟨C', R, e1, -⟩ := (h3 hyid (by
      congr 1
      rw [sub_smul, mul_smul]
      abel)).1 hs'
    exact ⟨_, e1⟩
  · obtain ⟨a, b⟩ := C42_complete E H enc { old with witness := C } y _ params s.getPublicKeys eph rand
    obtain ⟨p, hp⟩ := a.2 hcred
    exact ⟨p, hp, b p hp⟩

/-- **C94** (but not by updating). Although its id is a member again, a user whose recorded epoch is before the
deletion can never update: the log still has its id. It has to call `create_witness` again. -/
theorem C94_update_refused (params : AccParams G1 G2) (α sM v : F) (ops : List (Op F)) (srv : Server F G1 G2)
    (h : (Server.new params α sM v).run ops = .ok srv) (u : User F G1 G2) (hw : u.witness ≠ none)
    (he1 : 1 ≤ u.epoch) (hdel : u.id ∈ srv.deletions.drop (u.epoch - 1)) (later : List (Op F))
    (srv' : Server F G1 G2) (h' : srv.run (.add u.id :: later) = .ok srv')
    (servers : List (Server F G1 G2))
    (hs : ∀ s' ∈ servers, s'.accumulators = srv'.accumulators ∧ s'.deletions = srv'.deletions)
    (t : Nat) (ht : 2 ≤ t) (hn : t ≤ servers.length) (hc : ∀ i, 0 < i → i ≤ servers.length → (i : F) ≠ 0)
    (seed : Nat → Nat) (hseed : ∀ d, 1 ≤ d → 1 ≤ seed d) (rand : Nat → Nat → F) :
    u.update seed servers t rand = .ok (u, .error "user has been deleted") := by
  have r : (Server.new params α sM v).run (ops ++ .add u.id :: later) = .ok srv' := run_append.2 ⟨srv, h, h'⟩
  refine C26_deleted params α sM v _ srv' r servers hs t ht hn hc seed hseed u hw he1 ?_ rand
  have hpre : srv.deletions <+: srv'.deletions := by
    refine run_inv (fun x => srv.deletions <+: x.deletions) (fun _ => True) ?_ _ (fun _ _ => trivial) h'
      (List.prefix_refl _)
    intro x op x' r _ hI h
    rcases step_cases h with ⟨rfl, -, -⟩ | ⟨y, V, rfl, hy, hV, h0, -, rfl⟩ |
      ⟨y, C, rfl, hC, -, rfl⟩ | ⟨y, V, rfl, hy, hV, h0, -, rfl⟩
    · exact hI
    · exact hI
    · exact hI.trans (List.prefix_append _ _)
    · exact hI.trans (List.prefix_append _ _)
  obtain ⟨l, hl⟩ := hpre
  rw [← hl, List.drop_append]
  exact List.mem_append_left _ hdel

end

/-- Two credentials (secret keys 10 and 20) for id 2, which is enrolled, deleted and enrolled again. -/
example : (2 : ℚ) ∈ (regRun [Op.add (1 : ℚ), .add 2, .delete 2, .add 2]).members ∧
    (∀ op ∈ [Op.add (1 : ℚ), .add 2, .delete 2, .add 2], op.isQuick = false) ∧
    (∃ s, (Server.new exParams 4 9 6).run [.add 1, .add 2, .delete 2, .add 2] = .ok s ∧
      s.getPublicKeys = ⟨4, 9⟩ ∧ (2 : ℚ) ∈ s.deletions.drop (1 - 1)) ∧
    credVerify (Pairing.field ℚ) (6 : ℚ) ⟨4, 9⟩ exParams 2 ⟨10, 1, 32 / 11⟩ = .ok () ∧
    credVerify (Pairing.field ℚ) (6 : ℚ) ⟨4, 9⟩ exParams 2 ⟨20, 1, 62 / 11⟩ = .ok () := by
  refine ⟨by decide +kernel, by simp [Op.isQuick],
    ⟨⟨[6, 1], 4, ⟨4, 9⟩, 9, [2, 1], [(2, 1 / 6), (1, 1 / 5)], [2]⟩, by with_unfolding_all rfl, rfl,
      by decide +kernel⟩, ?_, ?_⟩ <;>
    rw [credVerify_pairing] <;> simp [Pairing.field, exParams] <;> norm_num

end Allo
