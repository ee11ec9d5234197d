import Verif.Props.AccProof
import Verif.Props.AccBinding
import Verif.Instances.Data

/-!
# Concrete cases of the theorems in `Props/AccProof` and `Props/AccBinding` (C46 – C51, C65, C66)

The accumulator is 42, the secret key 4; the witness of the member 3 is 6, that of the non-member 5 is `(4, 6)`.
-/

set_option linter.unusedVariables false
namespace Allo
open Spec Inst

local notation "Eℚ" => Pairing.field ℚ

variable (H : Oracle ℚ) (t : Transcript)

example := C46_complete Eℚ H enc (.hidden 3) 6 42 pparams 4 (by decide +kernel) mrand t "challenge"
example := C47_special_sound Eℚ pparams (by decide) (by decide) 4 42 (mproof 1) (mproof 2) 1 2 (by norm_num)
  (by decide +kernel)
example := C47_extracted_is_witness Eℚ pparams (by decide) (by decide) 4 42 (mproof 1) (mproof 2) 1 2 (by norm_num)
  (by decide +kernel)
example := C48_any_proof_is_honest Eℚ 3 6 pparams 4 1 2 1 (mproof 1) (by decide +kernel) (by decide +kernel)
  (by decide +kernel)
/-- the same witness and element, other random values behind the responses -/
example := C48_same_triple Eℚ 3 3 6 6 42 pparams 4 (by decide +kernel) (by decide +kernel) 1 2 1 mrand (by decide +kernel)
  (by decide +kernel) (by decide +kernel)
/-- with the identity as parameter `X`, the proof of 3 could also be one of 2 -/
example := C48_same_triple Eℚ 3 2 6 7 42 ⟨0, 7, 11, 13⟩ 4 (by decide +kernel) (by decide +kernel) (1 - 1 / 11) 2 1 mrand
  (by decide +kernel) (by decide +kernel) (by decide +kernel)
example := C48_triple_determines_witness Eℚ (.hidden 3) (.sharedBlinding 3 8) 6 6 pparams (by decide) (by decide) 4 mrand
  ⟨1, 2, 9, 9, 9, 9, 9⟩ 1 2 (by decide +kernel)
example := C49_complete Eℚ H enc 5 ⟨4, 6⟩ 42 pparams 4 (by decide +kernel) (by decide +kernel) none nrand t "challenge"
example := C49_finalize_iff Eℚ 5 ⟨4, 6⟩ 42 pparams 4 none nrand 1 ncommit ncommit_eq
example := C50_special_sound Eℚ pparams (by decide) (by decide) 4 42 (nproof 1) (nproof 2) 1 2 (by norm_num)
  (by decide +kernel)
example := C50_extracted_is_witness Eℚ pparams (by decide) (by decide) 4 42 (nproof 1) (nproof 2) 1 2 (by norm_num)
  (by decide +kernel) (by decide +kernel)
/-- the same element 3 in two accumulators (42 and 21, keys 4 and 4) with a shared blinder -/
example := C51_linked_mem_mem Eℚ pparams ⟨2, 3, 4, 5⟩ (by decide) (by decide) (by decide) (by decide) 4 4 42 21
  (mproof 1) (mproof 2)
  ((MemCommitting.new Eℚ (.sharedBlinding 3 3) 3 ⟨2, 3, 4, 5⟩ 4 mrand).genProof 1)
  ((MemCommitting.new Eℚ (.sharedBlinding 3 3) 3 ⟨2, 3, 4, 5⟩ 4 mrand).genProof 2) 1 2 (by norm_num) (by decide +kernel)
  (by decide +kernel) (by decide +kernel) (by decide +kernel)
/-- the element 5 is in the accumulator 63 (witness 7) and not in 42 -/
example := C51_linked_mem_non Eℚ ⟨2, 3, 4, 5⟩ pparams (by decide) (by decide) (by decide) (by decide) 4 4 63 42
  ((MemCommitting.new Eℚ (.sharedBlinding 5 3) 7 ⟨2, 3, 4, 5⟩ 4 mrand).genProof 1)
  ((MemCommitting.new Eℚ (.sharedBlinding 5 3) 7 ⟨2, 3, 4, 5⟩ 4 mrand).genProof 2) (nproof 1) (nproof 2) 1 2 (by norm_num)
  (by decide +kernel) (by decide +kernel) (by decide +kernel) (by decide +kernel)
example := C51_mem_mem Eℚ Eℚ 3 5 8 6 7 pparams pparams 4 4 mrand mrand 1 (by norm_num)
example := C51_mem_non Eℚ Eℚ 3 5 3 6 ⟨4, 6⟩ pparams pparams 4 4 mrand nrand 1 (by norm_num) ncommit (by decide +kernel)
example := C51_reuse_reveals Eℚ Eℚ 3 8 6 3 pparams ⟨2, 3, 4, 5⟩ 4 4 mrand mrand 1 2 (by norm_num)

example := C65_responses Eℚ 5 ⟨4, 6⟩ (by decide +kernel) pparams (by decide) 4 1 1 2 (nproof 1) (by decide +kernel)
  (by decide +kernel) (by decide +kernel)
/-- the witness `(4, 6)` of 5 and the witness `(4, 2)` of 6 have the same point: the same proof comes from both -/
example := C65_same_triple Eℚ 5 6 ⟨4, 6⟩ ⟨4, 2⟩ (by decide +kernel) (by decide +kernel) 42 pparams (by decide) 4
  (by decide +kernel) (by decide +kernel) 1 2 1 nrand (by decide +kernel) (by decide +kernel) (by decide +kernel) ncommit
  ncommit_eq
example := C65_triple_determines_point Eℚ 5 5 ⟨4, 6⟩ ⟨4, 6⟩ pparams (by decide) (by decide) 4 none none nrand nrand ncommit
  ncommit ncommit_eq ncommit_eq 1 2 (by decide +kernel)
/-- for a hash that is constantly 1 all proofs are accepted; the two transcripts collide -/
example := C66_mem_binding Eℚ (fun _ _ => 1) enc encQ_inj encQ_inj (mproof 1) 42 43 pparams 4 4 1 t "challenge" rfl rfl
  (Or.inl (by norm_num))
example := C66_non_binding Eℚ (fun _ _ => 1) enc encQ_inj encQ_inj (nproof 1) 42 42 pparams 4 5 1 t "challenge" rfl rfl
  (Or.inr (by decide +kernel))
example := C66_params_binding Eℚ (fun _ _ => 1) enc encQ_inj (mproof 1) 42 42 pparams ⟨2, 3, 4, 5⟩ 4 4 1 t "challenge"
  (by decide) rfl rfl

end Allo
