import Verif.Model.Server
import Verif.Model.User
import Verif.Model.AccProof
import Verif.Model.Credential
import Verif.Props.Server
import Mathlib.Algebra.Field.Rat
import Mathlib.Tactic.NormNum
import Mathlib.Data.Rat.Encodable
import Mathlib.Data.ZMod.Basic
import Mathlib.Algebra.Field.ZMod

/-!
# The concrete data used in `Verif/Instances`

Over `ℚ` with the pairing `ℚ × ℚ → ℚ` (multiplication): parameters, a server with history, users. The secret keys are 4
(accumulator) and 9 (signatures), the initial accumulator is 6.
-/

namespace Allo

deriving instance DecidableEq for PublicKeys, AccParams, Witness, CredProof, NonMembershipWitness, Server, User,
  UserUpdate, MemProof, NonProof, Delta, MemFinal, NonFinal, NonCommitting, ProofParams

namespace Inst

/-- `P₁ = P₂ = K₂ = 1`, `K₀ = 2`, `K₁ = 3`, `X = 5`, `Y = 7`, `Z = 11` -/
def params : AccParams ℚ ℚ := ⟨1, 1, 2, 3, 1, 5, 7, 11⟩

/-- 1, 2, 3 and 5 are added, 2 is deleted -/
def ops₁ : List (Server.Op ℚ) := [.add 1, .add 2, .add 3, .add 5, .delete 2]
/-- then 1 is deleted, 8 is added, 5 is deleted -/
def ops₂ : List (Server.Op ℚ) := [.delete 1, .add 8, .delete 5]
/-- in the end 8 is deleted with `quick_delete` -/
def ops₃ : List (Server.Op ℚ) := [.quickDelete 8]

def getServer : Rust (Server ℚ ℚ ℚ) → Server ℚ ℚ ℚ
  | .ok s => s
  | .error _ => Server.new params 0 0 0

def srv₀ : Server ℚ ℚ ℚ := Server.new params 4 9 6
def srv₁ : Server ℚ ℚ ℚ := getServer (srv₀.run ops₁)
def srv₂ : Server ℚ ℚ ℚ := getServer (srv₁.run ops₂)
def srv₃ : Server ℚ ℚ ℚ := getServer (srv₂.run ops₃)

theorem run₁ : (Server.new params 4 9 6).run ops₁ = .ok srv₁ := by decide +kernel
theorem run₂ : srv₁.run ops₂ = .ok srv₂ := by decide +kernel
theorem run₃ : srv₂.run ops₃ = .ok srv₃ := by decide +kernel
theorem run₁₂ : (Server.new params 4 9 6).run (ops₁ ++ ops₂) = .ok srv₂ := by decide +kernel
theorem run₁₂₃ : (Server.new params 4 9 6).run ((ops₁ ++ ops₂) ++ ops₃) = .ok srv₃ := by decide +kernel

/-- the server is what one expects -/
example : srv₁.accumulators = [6, 1] ∧ srv₁.deletions = [2] ∧ srv₁.ids = [5, 3, 1] ∧ srv₁.getEpoch = 2 ∧
    srv₂.deletions = [2, 1, 5] ∧ srv₂.ids = [8, 3] ∧ srv₂.accumulators = [6, 1, 1 / 5, 1 / 45] ∧
    srv₃.deletions = [2, 1, 5, 8] ∧ srv₃.ids = [3] := by decide +kernel

/-- user 3 (secret key 10) with its credential from epoch 1 -/
def user₃ : User ℚ ℚ ℚ := ⟨3, some ⟨10, 6 / 7, 32 / 12⟩, 6, ⟨4, 9⟩, 1⟩
/-- user 5, who is deleted in the last epoch -/
def user₅ : User ℚ ℚ ℚ := ⟨5, some ⟨10, 6 / 9, 32 / 14⟩, 6, ⟨4, 9⟩, 1⟩

example : user₃.checkWitness (Pairing.field ℚ) params 6 = .ok () ∧ user₅.checkWitness (Pairing.field ℚ) params 6 = .ok () ∧
    user₃.publicKeys = srv₁.getPublicKeys := by decide +kernel

theorem cast_ne (n : Nat) : ∀ i : Nat, 0 < i → i ≤ n → (i : ℚ) ≠ 0 :=
  fun _ h _ => by exact_mod_cast Nat.pos_iff_ne_zero.1 h

/-- an injective encoding of `ℚ` as byte strings -/
def encQ (q : ℚ) : Bytes := List.replicate (Encodable.encode q) 0

theorem encQ_inj : Function.Injective encQ := by
  intro a b h
  have := congrArg List.length h
  simp only [encQ, List.length_replicate] at this
  exact Encodable.encode_injective this

def enc : Enc ℚ ℚ ℚ := ⟨encQ, encQ, encQ⟩

/-- parameters of the accumulator proofs -/
def pparams : ProofParams ℚ := ⟨5, 7, 11, 13⟩
/-- random values of a membership proof -/
def mrand : MemRand ℚ := ⟨1, 2, 3, 4, 5, 6, 7⟩
/-- random values of a non-membership proof -/
def nrand : NonRand ℚ := ⟨1, 2, 3, 4, 5, 6, 7, 8, 9, 10, 11, 12⟩

/-- the membership proof of 3 (witness 6, accumulator 42, key 4) for the challenge `c` -/
def mproof (c : ℚ) : MemProof ℚ ℚ := (MemCommitting.new (Pairing.field ℚ) (.hidden 3) 6 pparams 4 mrand).genProof c

def ncommit : NonCommitting ℚ ℚ ℚ :=
  match NonCommitting.new (Pairing.field ℚ) 5 ⟨4, 6⟩ pparams 4 none nrand with
  | .ok nc => nc
  | .error _ => ⟨0, 0, 0, 0, 0, 0, 0, 0, 0, 0, 0, 0, 0, 0, 0, 0, 0, 0, 0, 0, 0, 0, 0, 0, 0, 0, 0, 0⟩

theorem ncommit_eq : NonCommitting.new (Pairing.field ℚ) 5 ⟨4, 6⟩ pparams 4 none nrand = .ok ncommit := by decide +kernel

/-- the non-membership proof of 5 (witness (4, 6), accumulator 42, key 4) for the challenge `c` -/
def nproof (c : ℚ) : NonProof ℚ ℚ := ncommit.genProof c

/-- a hash function with the constant value 7 (the theorems hold for all) -/
def Hc : Oracle ℚ := fun _ _ => 7

def w₃ : Witness ℚ ℚ := ⟨10, 6 / 7, 32 / 12⟩
def w₅ : Witness ℚ ℚ := ⟨10, 6 / 9, 32 / 14⟩
def keys : PublicKeys ℚ := ⟨4, 9⟩

def crand : ProofRand ℚ := ⟨1, 2, 3, 4, 5, 6, 7, 8, 9, 10, 11⟩

/-- the presentation of user 3 for the challenge `c` -/
def cproof (c : ℚ) : CredProof ℚ ℚ := (Committing.new (Pairing.field ℚ) w₃ params keys crand).genProof w₃ 3 c

/-- the presentation of user 3 with the hash function `Hc` -/
theorem cproof_made (eph : Bytes) : makeProof (Pairing.field ℚ) Hc enc w₃ 3 6 params keys eph crand = some (cproof 7) := by
  have h : credVerify (Pairing.field ℚ) 6 keys params 3 w₃ = .ok () := by decide +kernel
  unfold makeProof
  rw [h]
  rfl

/-- randomness of an update request -/
def urand (i j : Nat) : ℚ := i + 2 * j + 1

/-- the request of user 3 to four servers, threshold 2, for the three epochs of `srv₂` it has missed -/
def upd₃ : UserUpdate ℚ :=
  match user₃.prepareForUpdate id 4 4 2 urand with
  | .ok (.ok u) => u
  | _ => ⟨0, [], []⟩

/-- the answers of four up-to-date servers -/
def honest₃ : List (List ℚ × List ℚ) := upd₃.yShares.map (fun ys =>
  match srv₂.update upd₃.epochDiff ys with
  | .ok a => a
  | .error _ => ([], []))

/-- the fourth server lies -/
def lying₃ : List (List ℚ × List ℚ) := honest₃.set 3 (honest₃[3]!.1.map (· + 1), honest₃[3]!.2.map (· + 1))

/-- discharge a hypothesis about concrete data -/
macro "inst" : tactic => `(tactic| first | decide +kernel | norm_num | simp)

end Inst
end Allo
