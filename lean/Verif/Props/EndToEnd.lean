import Verif.Props.Accumulator
import Verif.Props.AccProof

/-!
# C46, C49 end to end: issue, follow the accumulator's history, prove, verify
-/

set_option linter.unusedSectionVars false
set_option linter.unusedVariables false

namespace Allo
open Spec

section
variable {F G1 G2 GT : Type} [Field F] [DecidableEq F] [AddCommGroup G1] [Module F G1]
  [AddCommGroup G2] [Module F G2] [AddCommGroup GT] [Module F GT] [DecidableEq GT]

/-- **C46** end to end. A witness issued for any element `y ≠ -sk` against any accumulator, brought forward
with `multi_batch_update` over any history of updates that do not delete `y`, gives a proof that is
accepted under the public key of `sk` and the final accumulator. -/
theorem C46_issued (E : Pairing F G1 G2 GT) (H : Oracle F) (enc : Enc G1 G2 GT) (y : ProofMessage F)
    (V V' : G1) (sk : F) (hy : y.getMessage + sk ≠ 0) (hist : List (List F × List F))
    (published : List (List F × List F × List G1))
    (hh : updateHistory sk V hist = .ok (V', published)) (hd : ∀ b ∈ hist, y.getMessage ∉ b.2)
    (params : ProofParams G1) (rand : MemRand F) (t : Transcript) (label : String) :
    ∃ C, mwNew y.getMessage V sk = .ok (some C) ∧
      let C' := mwMultiBatchUpdate C y.getMessage published
      let mpc := MemCommitting.new E y C' params (publicKey E sk) rand
      let challenge := H (mpc.getBytesForChallenge enc t) label
      H (((mpc.genProof challenge).finalize E V' params (publicKey E sk) challenge).getBytesForChallenge enc t)
        label = challenge := by
  obtain ⟨C, h1, h2⟩ := C02_new E V y.getMessage sk hy
  exact ⟨C, h1, C46_complete E H enc y _ V' params _
    (C07_history E C V V' sk _ hist published h2 hh hd).1 rand t label⟩

/-- **C46** end to end, converse: the honest proof made from a witness that is valid for `V` is accepted
against an accumulator `V'` only for challenge 0 or if `V' = V`: witnesses that were not brought forward are
useless. -/
theorem C46_stale (E : Pairing F G1 G2 GT) (y : ProofMessage F) (C V V' : G1) (sk : F)
    (hw : mwVerify E C y.getMessage (publicKey E sk) V = true) (params : ProofParams G1) (rand : MemRand F)
    (c : F) :
    ((MemCommitting.new E y C params (publicKey E sk) rand).genProof c).finalize E V' params (publicKey E sk) c
        = (MemCommitting.new E y C params (publicKey E sk) rand).committed ↔ c = 0 ∨ V' = V := by
  rw [C46_finalize_iff, mwVerify_iff]
  rw [mwVerify_iff] at hw
  rw [hw, eq_comm (a := V)]

/-- **C49** end to end. For a set `S`, an element `y ∉ S`, `y ≠ -sk`, and any history of updates that neither
add nor delete `y`: the witness issued and brought forward gives a proof accepted under the public key of
`sk` and the final accumulator. -/
theorem C49_issued (E : Pairing F G1 G2 GT) (H : Oracle F) (enc : Enc G1 G2 GT) (y sk : F) (S : List F)
    (hS : y ∉ S) (hy : y ≠ -sk) (V' : G1) (hist : List (List F × List F))
    (published : List (List F × List F × List G1))
    (hh : updateHistory sk (accWithElements E sk S) hist = .ok (V', published))
    (hd : ∀ b ∈ hist, y ∉ b.1 ∧ y ∉ b.2) (params : ProofParams G1) (blinding : Option F)
    (rand : NonRand F) (t : Transcript) (label : String) :
    ∃ w nc, nmwNew E y S sk = .ok (some w) ∧
      NonCommitting.new E y (nmwMultiBatchUpdate w y published) params (publicKey E sk) blinding rand = .ok nc ∧
      let challenge := H (nc.getBytesForChallenge enc t) label
      H (((nc.genProof challenge).finalize E V' params (publicKey E sk) challenge).getBytesForChallenge enc t)
        label = challenge := by
  obtain ⟨w, h1, h2, h3⟩ := C08_some E y S sk hS hy
  obtain ⟨a, -, b⟩ := C07_history_non E w _ V' sk y hist published h3 hh (fun b hb => (hd b hb).2)
  have hne : (nmwMultiBatchUpdate w y published).d ≠ 0 := by
    rw [Ne, b, not_or]
    exact ⟨h2, fun ⟨b, hb, hm⟩ => (hd b hb).1 hm⟩
  obtain ⟨nc, h4, h5⟩ := C49_complete E H enc y _ V' params (publicKey E sk) a hne blinding rand t label
  exact ⟨w, nc, h1, h4, h5⟩

/-- **C49** end to end, converse: the honest non-membership proof made from a witness that is valid for `V` is
accepted against an accumulator `V'` only for challenge 0 or if `V' = V`. -/
theorem C49_stale (E : Pairing F G1 G2 GT) (y sk : F) (w : NonMembershipWitness F G1) (V V' : G1)
    (hw : nmwVerify E w y (publicKey E sk) V = true) (params : ProofParams G1) (blinding : Option F)
    (rand : NonRand F) (nc : NonCommitting F G1 GT)
    (h : NonCommitting.new E y w params (publicKey E sk) blinding rand = .ok nc) (c : F) :
    (nc.genProof c).finalize E V' params (publicKey E sk) c = nc.committed ↔ c = 0 ∨ V' = V := by
  rw [C49_finalize_iff E y w V' params (publicKey E sk) blinding rand c nc h, nmwVerify_iff]
  rw [nmwVerify_iff] at hw
  rw [hw, eq_comm (a := V)]

/-- **C49** end to end, elements that were added: if some update of the history adds `y` (and none deletes it),
the holder who follows the published updates ends with a witness that still verifies against the accumulator
(C10: `d = 0` is accepted there) but from which no proof can be made: committing panics. -/
theorem C49_added (E : Pairing F G1 G2 GT) (y sk : F) (S : List F) (hS : y ∉ S) (hy : y ≠ -sk) (V' : G1)
    (hist : List (List F × List F)) (published : List (List F × List F × List G1))
    (hh : updateHistory sk (accWithElements E sk S) hist = .ok (V', published))
    (hd : ∀ b ∈ hist, y ∉ b.2) (ha : ∃ b ∈ hist, y ∈ b.1) (params : ProofParams G1) (blinding : Option F)
    (rand : NonRand F) :
    ∃ w, nmwNew E y S sk = .ok (some w) ∧
      nmwVerify E (nmwMultiBatchUpdate w y published) y (publicKey E sk) V' = true ∧
      NonCommitting.new E y (nmwMultiBatchUpdate w y published) params (publicKey E sk) blinding rand =
        .error .unwrapNone := by
  obtain ⟨w, h1, h2, h3⟩ := C08_some E y S sk hS hy
  obtain ⟨a, -, b⟩ := C07_history_non E w _ V' sk y hist published h3 hh hd
  exact ⟨w, h1, a, (C49_panics_iff E y _ params (publicKey E sk) blinding rand).1 (b.2 (.inr ha))⟩

/-- C49: the element 7 is added by the first update. -/
example (params : ProofParams ℚ) (blinding : Option ℚ) (rand : NonRand ℚ) : ∃ V' published w,
    updateHistory (4 : ℚ) (accWithElements (Pairing.field ℚ) 4 [1, 2, 3]) [([7], [1]), ([8, 9], [2])]
      = .ok (V', published) ∧ nmwNew (Pairing.field ℚ) 7 [1, 2, 3] 4 = .ok (some w) ∧
    NonCommitting.new (Pairing.field ℚ) 7 (nmwMultiBatchUpdate w 7 published) params
      (publicKey (Pairing.field ℚ) 4) blinding rand = .error .unwrapNone := by
  obtain ⟨r, hr⟩ := C07_history_total (4 : ℚ) (accWithElements (Pairing.field ℚ) 4 [1, 2, 3])
    [([7], [1]), ([8, 9], [2])] (by simp; norm_num)
  obtain ⟨w, h1, -, h3⟩ := C49_added (Pairing.field ℚ) 7 4 [1, 2, 3] (by norm_num) (by norm_num) r.1 _ r.2 hr
    (by simp) ⟨([7], [1]), by simp, by simp⟩ params blinding rand
  exact ⟨r.1, r.2, w, hr, h1, h3⟩

/-- C49: a proof for accumulator 15 checked against 22. -/
example (params : ProofParams ℚ) (blinding : Option ℚ) (rand : NonRand ℚ) : ∃ nc,
    NonCommitting.new (Pairing.field ℚ) 2 ⟨1, 9⟩ params (publicKey (Pairing.field ℚ) 4) blinding rand = .ok nc ∧
    (nc.genProof 5).finalize (Pairing.field ℚ) 22 params (publicKey (Pairing.field ℚ) 4) 5 ≠ nc.committed := by
  obtain ⟨nc, h⟩ := (C49_panics_iff (Pairing.field ℚ) 2 ⟨1, 9⟩ params (publicKey (Pairing.field ℚ) 4) blinding
    rand).2 (by norm_num)
  refine ⟨nc, h, ?_⟩
  rw [Ne, C49_stale (Pairing.field ℚ) 2 4 ⟨1, 9⟩ 15 22 (by
    rw [nmwVerify_iff]; norm_num [Pairing.field]) params blinding rand nc h 5]
  norm_num

/-- The hypotheses are met: a history with two updates. -/
example : ∃ r, updateHistory (4 : ℚ) (accWithElements (Pairing.field ℚ) 4 [1, 2, 3]) [([7], [1]), ([8, 9], [2])]
    = .ok r :=
  C07_history_total 4 _ _ (by simp; norm_num)

end
end Allo
