import Verif.Props.Credential
import Verif.Props.Codec
import Verif.Props.Degenerate
import Verif.Props.EndToEnd
import Verif.Instances.Data

/-!
# Concrete cases of the theorems in `Props/Codec`, `Props/Credential`, `Props/Degenerate` and `Props/EndToEnd`
-/

set_option linter.unusedVariables false
namespace Allo
open Spec Inst

local notation "Eℚ" => Pairing.field ℚ

variable (H : Oracle ℚ) (t : Transcript) (eph : Bytes)

/-! ### byte encodings -/

def zeros (n : Nat) : Bytes := List.replicate n 0
def cproofFr : CredProof Fr Fr := ⟨1, 2, 3, 4, 5, 6, 7, 8, 9, 10, 11, 12⟩
def mproofFr : MemProof Fr Fr := ⟨1, 2, 3, 4, 5, 6, 7, 8⟩
def getBytes : Rust Bytes → Bytes
  | .ok b => b
  | .error _ => []
def cbytes : Bytes := getBytes (cproofFr.toBytes padCodec)
def mbytes : Bytes := getBytes (mproofFr.toBytes padCodec)

example := C52_cred_decode padCodec cbytes (by inst)
theorem cbytes_eq : CredProof.fromBytes padCodec cbytes = .ok (.ok cproofFr) :=
  ((C52_cred_decode padCodec cbytes (by inst)).1 cproofFr).2 (by decide +kernel)
example := C52_cred_unique padCodec cbytes cbytes (by inst) (by inst) cproofFr cbytes_eq cbytes_eq
example := C52_mem_decode padCodec mbytes (by inst)
theorem mbytes_eq : MemProof.fromBytes padCodec mbytes = .ok (.ok mproofFr) :=
  ((C52_mem_decode padCodec mbytes (by inst)).1 mproofFr).2 (by decide +kernel)
example := C52_mem_unique padCodec mbytes mbytes (by inst) (by inst) mproofFr mbytes_eq mbytes_eq

/-! ### presentations -/

example := C43_extracts_prover Eℚ params keys 6 3 w₃ (by inst) crand 1 2 (by inst)
example := C43_special_sound Eℚ params keys 6 (cproof 1) (cproof 2) (by unfold SameCommitments; inst) (by inst)
example := C44_accepted_iff Eℚ H enc params (by inst) keys 6 eph 3 w₃ (by inst) (cproof 7)
example := C44_anonymous Eℚ H enc params (by inst) keys 6 eph 3 5 w₃ w₅ (by inst) (by inst) crand
/-- three sessions: user 3 and user 5 take turns -/
example := C44_sessions Eℚ H enc params (by inst) keys (fun _ : Fin 3 => 6) (fun _ => eph) ![3, 5, 3] ![5, 3, 5]
  ![w₃, w₅, w₃] ![w₅, w₃, w₅] (by decide +kernel) (by decide +kernel)
example := C44_simulation Eℚ params (by inst) keys 3 w₃ (cproof 7)
/-- with a hash function that is constant, one presentation is accepted in two sessions -/
example := C45_binding Eℚ Hc enc encQ_inj encQ_inj encQ_inj (cproof 7) ⟨params, keys, 6, [1]⟩ ⟨params, keys, 6, [2]⟩
  (by decide +kernel) (by decide +kernel) (by inst)

/-! ### identity points -/

example := C91_identity_accumulator_credential Eℚ H enc 6 keys params 3 w₃ (by inst) eph crand
example := C91_identity_keys Eℚ H enc 6 params 3 10 (by inst) eph crand
example := C91_identity_z_linkable Eℚ Hc enc { params with z1 := 0 } rfl keys 6 6 [1] [2] 3 5 w₃ w₅ (by inst) crand crand
  ((Committing.new Eℚ w₃ { params with z1 := 0 } keys crand).genProof w₃ 3 7)
  ((Committing.new Eℚ w₅ { params with z1 := 0 } keys crand).genProof w₅ 5 7) (by decide +kernel) (by decide +kernel)
example := C91_mixing params (4 : ℚ) 9 6 2 14 (-1) (by inst) (by inst) (by inst) (by inst) (by inst) (by inst)
example := C91_server params (by inst) (4 : ℚ) 9 6 (by inst) (ops₁ ++ ops₂) ops₃ (by decide +kernel) (by decide +kernel) srv₃ run₁₂₃
example := C91_zero_key Eℚ 6 3 (by inst)

/-! ### from issuing to proving -/

def published : List (List ℚ × List ℚ × List ℚ) :=
  match updateHistory (4 : ℚ) (42 : ℚ) [([5, 6], [2]), ([8], [5])] with
  | .ok (_, p) => p
  | .error _ => []
def finalAcc : ℚ :=
  match updateHistory (4 : ℚ) (42 : ℚ) [([5, 6], [2]), ([8], [5])] with
  | .ok (V, _) => V
  | .error _ => 0

example := C46_issued Eℚ H enc (.hidden 3) 42 finalAcc 4 (by inst) [([5, 6], [2]), ([8], [5])] published
  (by decide +kernel) (by decide +kernel) pparams mrand t "challenge"
example := C46_stale Eℚ (.hidden 3) 6 42 84 4 (by inst) pparams mrand 7
example := C49_issued Eℚ H enc 10 4 [3, 2] (by inst) (by inst) finalAcc [([5, 6], [2]), ([8], [5])] published
  (by decide +kernel) (by decide +kernel) pparams none nrand t "challenge"

end Allo
