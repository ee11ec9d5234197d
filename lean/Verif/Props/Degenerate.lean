import Verif.Props.Credential
import Verif.Props.Server
import Verif.Props.AccProof
import Verif.Lemmas.Batch
import Mathlib.Tactic.Module
import Mathlib.Tactic.FieldSimp
import Mathlib.Tactic.NormNum

/-!
# C91: degenerate inputs (identity accumulator, identity keys, identity parameters)

No entry point rejects the identity point. This file says exactly what that costs, and when the crate's own
operations can produce such a value.
-/

set_option linter.unusedSectionVars false
set_option linter.unusedVariables false
namespace Allo
open Spec Server

section
variable {F G1 G2 GT : Type} [Field F] [DecidableEq F] [AddCommGroup G1] [Module F G1]
  [AddCommGroup G2] [Module F G2] [AddCommGroup GT] [Module F GT] [DecidableEq GT]

/-- **C91** (identity accumulator, raw witnesses). Against the identity accumulator the identity point is an
accepted membership witness for every element and every public key; it is the only one, except for the
element `-sk`, where everything is accepted. -/
theorem C91_identity_accumulator (E : Pairing F G1 G2 GT) :
    (∀ (y : F) (pk : G2), mwVerify E 0 y pk 0 = true) ∧
    (∀ (y sk : F) (C : G1), mwVerify E C y (publicKey E sk) 0 = true ↔ C = 0 ∨ y = -sk) := by
  refine ⟨fun y pk => by simp [mwVerify], fun y sk C => ?_⟩
  rw [mwVerify_iff, smul_eq_zero, ← eq_neg_iff_add_eq_zero]
  tauto

/-- **C91** (identity accumulator, credentials). Whoever once had a credential that verified against any
accumulator (in particular every revoked user) passes `Witness::verify` and `check_membership_proof` against
the identity accumulator, with the identity as membership witness and the same secret key and signature. -/
theorem C91_identity_accumulator_credential (E : Pairing F G1 G2 GT) (H : Oracle F) (enc : Enc G1 G2 GT)
    (V : G1) (pk : PublicKeys G2) (params : AccParams G1 G2) (y : F) (w : Witness F G1)
    (h : credVerify E V pk params y w = .ok ()) (eph : Bytes) (rand : ProofRand F) :
    credVerify E 0 pk params y { w with witness := 0 } = .ok () ∧
    ∃ p, makeProof E H enc { w with witness := 0 } y 0 params pk eph rand = some p ∧
      checkProof E H enc p params pk 0 eph = true := by
  have h0 : credVerify E 0 pk params y { w with witness := 0 } = .ok () := by
    rw [credVerify_pairing] at h ⊢
    exact ⟨by simp, h.2⟩
  obtain ⟨h1, h2⟩ := C42_complete E H enc { w with witness := 0 } y 0 params pk eph rand
  obtain ⟨p, hp⟩ := h1.2 h0
  exact ⟨h0, p, hp, h2 p hp⟩

/-- **C91** (when raw accumulators become the identity). Exactly when the element `-sk` was added, or the
accumulator was the identity before: `with_elements`, `add`, `remove`, `update`. -/
theorem C91_becomes_identity (E : Pairing F G1 G2 GT) (sk : F) :
    (∀ S : List F, accWithElements E sk S = 0 ↔ -sk ∈ S) ∧
    (∀ (V : G1) (y : F), accAdd V sk y = 0 ↔ V = 0 ∨ y = -sk) ∧
    (∀ (V V' : G1) (y : F), accRemove V sk y = .ok V' → (V' = 0 ↔ V = 0)) ∧
    (∀ (V V' : G1) (A D : List F) (cs : List G1), accUpdate V sk A D = .ok (V', cs) →
      (V' = 0 ↔ V = 0 ∨ -sk ∈ A)) := by
  refine ⟨fun S => ?_, fun V y => ?_, fun V V' y h => ?_, fun V V' A D cs h => ?_⟩
  · rw [accWithElements, batchAdditions_eq, smul_eq_zero, prodPlus_eq_zero]
    exact or_iff_left E.g1_ne
  · rw [accAdd, smul_eq_zero, add_comm, ← eq_neg_iff_add_eq_zero]
    tauto
  · by_cases h0 : sk + y = 0
    · simp [accRemove, h0, bind, Except.bind] at h
    · simp only [accRemove, inv!_ne h0, bind, Except.bind, pure, Except.pure, Except.ok.injEq] at h
      subst h
      rw [smul_eq_zero]
      exact or_iff_right (inv_ne_zero h0)
  · by_cases hD : -sk ∈ D
    · rw [accUpdate_err V sk A D hD] at h; cases h
    · obtain ⟨cs', h1, -, -⟩ := accUpdate_ok V sk A D hD
      rw [h1] at h
      simp only [Except.ok.injEq, Prod.mk.injEq] at h
      obtain ⟨rfl, -⟩ := h
      have hD' : (prodPlus sk D)⁻¹ ≠ 0 := inv_ne_zero (by rwa [Ne, prodPlus_eq_zero])
      rw [smul_eq_zero, mul_eq_zero, prodPlus_eq_zero]
      tauto

/-- **C91** (the server never publishes it). With `add`/`delete`, or `add`/`quick_delete`, or `quick_delete`
only after all `delete`s, no accumulator of a server whose initial value is not the identity is ever the
identity. -/
theorem C91_server (params : AccParams G1 G2) (hp : params.p1 ≠ 0) (α sM v : F) (hv : v ≠ 0)
    (ops₁ ops₂ : List (Op F)) (h₁ : ∀ op ∈ ops₁, op.isQuick = false)
    (h₂ : ∀ op ∈ ops₂, op.isDelete = false) (s : Server F G1 G2)
    (h : (Server.new params α sM v).run (ops₁ ++ ops₂) = .ok s) : ∀ V ∈ s.accumulators, V ≠ 0 := by
  obtain ⟨hl, ha, -, -⟩ := C16_history params α sM v ops₁ ops₂ h₁ h₂ s h
  have hd : ∀ d ∈ s.deletions, d + α ≠ 0 := by
    intro d hd h0
    have hI := invA_run params α sM v ops₁ ops₂ h₁ h₂ s h
    exact hI.noneg (by rwa [← eq_neg_of_add_eq_zero_left h0])
  intro V hV
  obtain ⟨i, hi, rfl⟩ := List.getElem_of_mem hV
  have := ha i (by omega)
  rw [List.getElem?_eq_getElem hi, Option.some.injEq] at this
  rw [this]
  refine smul_ne_zero (inv_ne_zero ?_) (smul_ne_zero hv hp)
  rw [Ne, List.prod_eq_zero_iff]
  rintro h0
  obtain ⟨d, hdm, hd0⟩ := List.mem_map.1 h0
  exact hd d (List.mem_of_mem_take hdm) hd0

/-- **C91** (`quick_delete` before `delete`). The restriction on the order is needed: whenever
`(y + α)(q + α) = d + α`, the history below leaves the identity as accumulator. -/
theorem C91_mixing (params : AccParams G1 G2) (α sM v q d y : F) (hq : q + α ≠ 0) (hd : d + α ≠ 0)
    (hy : y + α ≠ 0) (hqd : q ≠ d) (hyd : y ≠ d) (h : (y + α) * (q + α) = d + α) :
    ∃ s : Server F G1 G2, (Server.new params α sM v).run
        [.add q, .add d, .quickDelete q, .add y, .delete d, .delete y] = .ok s ∧
      s.getAccumulator = .ok 0 := by
  have hdq : d ≠ q := Ne.symm hqd
  have hdy : d ≠ y := Ne.symm hyd
  have e : (y + α)⁻¹ * ((q + α)⁻¹ * v) = (d + α)⁻¹ * v := by
    rw [← h, mul_inv, mul_assoc]
  have e1 := inv!_ne hq
  have e2 := inv!_ne hd
  have e3 := inv!_ne hy
  have e4 := inv!_ne (sub_ne_zero.2 hdy)
  simp [run, step, Server.add, Server.delete, Server.quickDelete, Server.new, mapContains, mapInsert, mapErase,
    mapGet, unwrap, bind, Except.bind, pure, Except.pure, e1, e2, e3, e4, hqd, hdq, hyd, hdy,
    getAccumulator, smul_smul, e]

/-- **C91** (secret key 0). The public key of the secret key 0 (`SecretKey::default()`) is the identity, and
against it anyone computes an accepted membership witness for every element other than 0. -/
theorem C91_zero_key (E : Pairing F G1 G2 GT) (V : G1) (y : F) (hy : y ≠ 0) :
    publicKey E (0 : F) = 0 ∧ mwVerify E (y⁻¹ • V) y 0 V = true := by
  have h0 : publicKey E (0 : F) = 0 := by simp [publicKey]
  refine ⟨h0, ?_⟩
  rw [← h0, mwVerify_iff, add_zero, smul_inv_smul₀ hy]

/-- **C91** (identity server keys). If both keys a verifier uses are the identity, anyone makes, for every
accumulator, every id other than 0 and every secret key, a credential that verifies and whose presentations
are accepted. -/
theorem C91_identity_keys (E : Pairing F G1 G2 GT) (H : Oracle F) (enc : Enc G1 G2 GT) (V : G1)
    (params : AccParams G1 G2) (y k : F) (hy : y ≠ 0) (eph : Bytes) (rand : ProofRand F) :
    let w : Witness F G1 := ⟨k, y⁻¹ • V, y⁻¹ • (k • params.k1 + params.k0)⟩
    credVerify E V ⟨0, 0⟩ params y w = .ok () ∧
    ∃ p, makeProof E H enc w y V params ⟨0, 0⟩ eph rand = some p ∧
      checkProof E H enc p params ⟨0, 0⟩ V eph = true := by
  intro w
  have h0 : credVerify E V ⟨0, 0⟩ params y w = .ok () := by
    rw [credVerify_pairing]
    constructor
    · simp [w, smul_smul, hy]
    · simp only [w, add_zero, map_smul, LinearMap.smul_apply, smul_smul, mul_inv_cancel₀ hy, one_smul]
  obtain ⟨h1, h2⟩ := C42_complete E H enc w y V params ⟨0, 0⟩ eph rand
  obtain ⟨p, hp⟩ := h1.2 h0
  exact ⟨h0, p, hp, h2 p hp⟩

/-- **C91** (identity parameters `P̃`, `K̃`). With a server made for parameters whose `P̃` is the identity every
point is an accepted membership witness, for every accumulator and id; likewise every signature if `K̃` is the
identity. -/
theorem C91_identity_params (E : Pairing F G1 G2 GT) (params : AccParams G1 G2) (α sM v : F) (V : G1) (y : F)
    (w : Witness F G1) :
    (params.p2 = 0 → ∀ C : G1, credVerify E V (Server.new params α sM v).getPublicKeys params y w = .ok () →
      ∀ V' : G1, credVerify E V' (Server.new params α sM v).getPublicKeys params y { w with witness := C } = .ok ()) ∧
    (params.k2 = 0 → ∀ (R : G1) (k : F),
      credVerify E V (Server.new params α sM v).getPublicKeys params y w = .ok () →
      credVerify E V (Server.new params α sM v).getPublicKeys params y ⟨k, w.witness, R⟩ = .ok ()) ∧
    (params.p2 = 0 → params.k2 = 0 →
      credVerify E V (Server.new params α sM v).getPublicKeys params y w = .ok ()) := by
  simp only [credVerify_pairing, Server.getPublicKeys, Server.new]
  refine ⟨?_, ?_, ?_⟩
  · rintro h C ⟨-, h2⟩ V'
    exact ⟨by simp [h], h2⟩
  · rintro h R k ⟨h1, -⟩
    exact ⟨h1, by simp [h]⟩
  · intro h h'
    simp [h, h']

/-- **C91** (`Z` the identity). Then a presentation shows the membership witness and the signature in the
clear: every two presentations of the same credential are linkable, to each other and to its issuing. (So
the hypothesis `Z ≠ 0` of C44 cannot be dropped.) For the accumulator proofs `E_C` is the witness. -/
theorem C91_identity_z (E : Pairing F G1 G2 GT) (H : Oracle F) (enc : Enc G1 G2 GT) :
    (∀ (params : AccParams G1 G2) (pk : PublicKeys G2) (V : G1) (y : F) (w : Witness F G1) (eph : Bytes)
      (rand : ProofRand F) (p : CredProof F G1), params.z1 = 0 →
      makeProof E H enc w y V params pk eph rand = some p → p.u1 = w.signature ∧ p.u2 = w.witness) ∧
    (∀ (params : ProofParams G1) (pk : G2) (y : ProofMessage F) (C : G1) (rand : MemRand F) (c : F),
      params.z = 0 → ((MemCommitting.new E y C params pk rand).genProof c).eC = C) := by
  refine ⟨fun params pk V y w eph rand p hz h => ?_, fun params pk y C rand c hz => ?_⟩
  · have hv := (C42_complete E H enc w y V params pk eph rand).1.1 ⟨p, h⟩
    rw [makeProof_eq E H enc w y V params pk eph rand hv] at h
    obtain rfl := Option.some.inj h
    simp [Committing.genProof, Committing.new, hz]
  · simp [MemCommitting.genProof, MemCommitting.new, hz]

/-- **C91**: with `Z` the identity, two users with different signatures never output the same proof (C44
fails, and their presentations are told apart with certainty). -/
theorem C91_identity_z_linkable (E : Pairing F G1 G2 GT) (H : Oracle F) (enc : Enc G1 G2 GT)
    (params : AccParams G1 G2) (hz : params.z1 = 0) (pk : PublicKeys G2) (V V' : G1) (eph eph' : Bytes)
    (y y' : F) (w w' : Witness F G1) (hw : w.signature ≠ w'.signature) (rand rand' : ProofRand F)
    (p p' : CredProof F G1) (h : makeProof E H enc w y V params pk eph rand = some p)
    (h' : makeProof E H enc w' y' V' params pk eph' rand' = some p') : p.u1 ≠ p'.u1 := by
  rw [((C91_identity_z E H enc).1 _ _ _ _ _ _ _ _ hz h).1, ((C91_identity_z E H enc).1 _ _ _ _ _ _ _ _ hz h').1]
  exact hw

end

/-! ### concrete cases -/

/-- a server with a non-identity initial accumulator and a history with a deletion (`C91_server`) -/
example : ∃ s, (Server.new exParams 4 9 6).run (exOps ++ []) = .ok s ∧ exParams.p1 ≠ 0 ∧ (6 : ℚ) ≠ 0 ∧
    s.deletions = [2] := by
  obtain ⟨s, h, h2, -⟩ := exRun
  exact ⟨s, by rwa [List.append_nil], by simp [exParams], by norm_num, h2⟩

/-- three ids that meet the hypotheses of `C91_mixing` with secret key 1 -/
example : (1 : ℚ) + 1 ≠ 0 ∧ (5 : ℚ) + 1 ≠ 0 ∧ (2 : ℚ) + 1 ≠ 0 ∧ (1 : ℚ) ≠ 5 ∧ (2 : ℚ) ≠ 5 ∧
    ((2 : ℚ) + 1) * (1 + 1) = 5 + 1 := by norm_num

/-- two credentials valid for one accumulator with `Z` the identity (`C91_identity_z_linkable`,
`C91_identity_accumulator_credential`) -/
example : credVerify (Pairing.field ℚ) (6 : ℚ) ⟨4, 9⟩ ⟨1, 1, 2, 3, 1, 5, 7, 0⟩ 2 ⟨10, 1, 32 / 11⟩ = .ok () ∧
    credVerify (Pairing.field ℚ) (6 : ℚ) ⟨4, 9⟩ ⟨1, 1, 2, 3, 1, 5, 7, 0⟩ 8 ⟨5, 1 / 2, 1⟩ = .ok () := by
  constructor <;> rw [credVerify_pairing] <;> simp [Pairing.field] <;> norm_num

end Allo
