import Verif.Model.User
import Verif.Model.AccProof

/-!
# The crate's own tests as programs

`/repo` tests with the random values as arguments and the sizes (numbers of users, servers, elements, the threshold)
as parameters. `.ok true`: all assertions hold; `.ok false`: one fails; `.error`: a panic.
-/

namespace Allo.Suite
open Allo

section acc
variable {F G1 G2 GT : Type} [Field F] [DecidableEq F] [AddCommGroup G1] [Module F G1] [DecidableEq G1]
  [AddCommGroup G2] [Module F G2] [AddCommGroup GT] [Module F GT] [DecidableEq GT]

/-- `new_accmulator_100`, `new_accumulator_10K`, `new_accumulator_10M`, src/accumulator/acc.rs:259-290. -/
def newAccumulator (E : Pairing F G1 G2 GT) (key : F) (elems : List F) : Rust Bool :=
  pure (decide (accWithElements E key elems ≠ E.g1))

/-- `add_test`, src/accumulator/acc.rs:292-298. -/
def addTest (E : Pairing F G1 G2 GT) (key value1 : F) : Rust Bool :=
  pure (decide (accAddAssign E.g1 key value1 ≠ E.g1))

/-- `sub_test`, src/accumulator/acc.rs:300-309. -/
def subTest (E : Pairing F G1 G2 GT) (key value1 : F) : Rust Bool := do
  let acc := accAddAssign E.g1 key value1
  if acc = E.g1 then return false
  let acc ← accRemoveAssign acc key value1
  pure (decide (acc = E.g1))

/-- `batch_test`, src/accumulator/acc.rs:311-320. -/
def batchTest (E : Pairing F G1 G2 GT) (key : F) (values : List F) : Rust Bool := do
  let (acc, _) ← accUpdateAssign E.g1 key values []
  if acc = E.g1 then return false
  let (acc, _) ← accUpdateAssign acc key [] values
  pure (decide (acc = E.g1))

/-- `false_witness` (ignored by default), src/accumulator/acc.rs:322-337; `y` is `elems[1]`. -/
def falseWitness (E : Pairing F G1 G2 GT) (key : F) (elems : List F) : Rust Bool := do
  let acc := accWithElements E key elems
  let wit ← mwNew (101 : F) acc key
  if wit.isSome then return false
  let wit ← mwNew (1 : F) acc key
  if wit.isNone then return false
  let y ← idx elems 1
  let wit ← unwrap wit
  pure (mwVerify E wit y (publicKey E key) acc)

/-- `batch_test`, src/accumulator/key.rs:169-178. -/
def keyBatchTest (E : Pairing F G1 G2 GT) (key : F) (data : List F) : Rust Bool := do
  let del ← batchDeletions key data
  let res := batchAdditions key data * del
  pure (decide (res = 1) && decide (res • E.g1 = E.g1))

/-- `coefficient_test`, src/accumulator/key.rs:180-192, with any two slices; `n` is the expected length. -/
def coefficientTest (key : F) (additions deletions : List F) (n : Nat) : Rust Bool := do
  let coefficients ← createCoefficients key additions deletions
  pure (decide (coefficients.length = n))

/-- `update_test`, src/accumulator/witness.rs:533-558; `e0`, `e1`, `y` are `elements[0]`, `[1]`, `[4]` and `S` is
`elements[1..]`. -/
def updateTest (E : Pairing F G1 G2 GT) (key : F) (S : List F) (e0 e1 y : F) : Rust Bool := do
  let acc := accWithElements E key S
  let wit ← mwNew y acc key
  let wit ← unwrap wit
  let newAcc := accAdd acc key e0
  let t1 := mwUpdate wit y acc newAcc [e0] []
  let t2 ← mwNew y newAcc key
  let t2 ← unwrap t2
  if t1 ≠ t2 then return false
  let newAcc ← accRemove acc key e1
  let t1 := mwUpdate wit y acc newAcc [] [e1]
  let t2 ← mwNew y newAcc key
  let t2 ← unwrap t2
  pure (decide (t1 = t2))

/-- `membership_batch_update`, src/accumulator/witness.rs:560-592, and `membership_multi_batch_update`,
src/accumulator/witness.rs:594-651: any number of batches `(additions, deletions)`. -/
def multiBatchUpdate (E : Pairing F G1 G2 GT) (key : F) (elements : List F) (y : F)
    (batches : List (List F × List F)) : Rust Bool := do
  let acc := accWithElements E key elements
  let wit ← mwNew y acc key
  let wit ← unwrap wit
  if !mwVerify E wit y (publicKey E key) acc then return false
  let (acc, published) ← batches.foldlM (fun (st : G1 × List (List F × List F × List G1)) b => do
    let (acc, coefficients) ← accUpdateAssign st.1 key b.1 b.2
    pure (acc, st.2 ++ [(b.1, b.2, coefficients)])) (acc, [])
  let wit := mwMultiBatchUpdate wit y published
  pure (mwVerify E wit y (publicKey E key) acc)

/-- `single_server_split_batch_update`, src/tests.rs:334-377: like `multiBatchUpdate`, with one
`batch_update_assign` per slice. -/
def splitBatchUpdate (E : Pairing F G1 G2 GT) (key : F) (items : List F) (y : F)
    (batches : List (List F × List F)) : Rust Bool := do
  let acc := accWithElements E key items
  let wit ← mwNew y acc key
  let wit ← unwrap wit
  let (acc, published) ← batches.foldlM (fun (st : G1 × List (List F × List F × List G1)) b => do
    let (acc, deltas) ← accUpdateAssign st.1 key b.1 b.2
    pure (acc, st.2 ++ [(b.1, b.2, deltas)])) (acc, [])
  let wit := published.foldl (fun w t => mwBatchUpdate w y t.1 t.2.1 t.2.2) wit
  pure (mwVerify E wit y (publicKey E key) acc)

/-- `basic_membership_proof`, src/accumulator/proof.rs:818-848. -/
def membershipProof (E : Pairing F G1 G2 GT) (H : Oracle F) (enc : Enc G1 G2 GT) (sk y : F)
    (proofParams : ProofParams G1) (rand : MemRand F) : Rust Bool := do
  let pk := publicKey E sk
  let acc := accWithElements E sk [y]
  let mw ← mwNew y acc sk
  let mw ← unwrap mw
  let mpc := MemCommitting.new E (.hidden y) mw proofParams pk rand
  let prefixT := ((Transcript.new "basic_membership_proof").append "Public Key" (enc.g2 pk)).append
    "Accumulator" (enc.g1 acc)
  let prefixT := proofParams.addToTranscript enc prefixT
  let challenge := H (mpc.getBytesForChallenge enc prefixT) "challenge"
  let proof := mpc.genProof challenge
  let finalProof := proof.finalize E acc proofParams pk challenge
  let challenge2 := H (finalProof.getBytesForChallenge enc prefixT) "challenge"
  pure (decide (challenge = challenge2))

/-- The common part of `basic_nonmembership_proof`, src/accumulator/proof.rs:850-889, and `growing_accumulator`,
src/accumulator/proof.rs:891-956: a proof from a witness for `elements` against `acc`; the two challenges. -/
def nonMembershipChallenges (E : Pairing F G1 G2 GT) (H : Oracle F) (enc : Enc G1 G2 GT) (sk y : F)
    (elements : List F) (acc : G1) (name : String) (proofParams : ProofParams G1) (blinding : Option F)
    (rand : NonRand F) : Rust (F × F) := do
  let pk := publicKey E sk
  let nmw ← nmwNew E y elements sk
  let nmw ← unwrap nmw
  let nmpc ← NonCommitting.new E y nmw proofParams pk blinding rand
  let prefixT := (Transcript.new name).append "accumulator" (enc.g1 acc)
  let challenge := H (nmpc.getBytesForChallenge enc prefixT) "challenge"
  let proof := nmpc.genProof challenge
  let finalProof := proof.finalize E acc proofParams pk challenge
  let challenge2 := H (finalProof.getBytesForChallenge enc prefixT) "challenge"
  pure (challenge, challenge2)

/-- `basic_nonmembership_proof`, src/accumulator/proof.rs:850-889. -/
def nonMembershipProof (E : Pairing F G1 G2 GT) (H : Oracle F) (enc : Enc G1 G2 GT) (sk y : F)
    (elements : List F) (proofParams : ProofParams G1) (blinding : Option F) (rand : NonRand F) : Rust Bool := do
  let (c, c2) ← nonMembershipChallenges E H enc sk y elements (accWithElements E sk elements)
    "basic_nonmembership_proof" proofParams blinding rand
  pure (decide (c = c2))

/-- `growing_accumulator`, src/accumulator/proof.rs:891-956; `e6` is the element added after issuing. -/
def growingAccumulator (E : Pairing F G1 G2 GT) (H : Oracle F) (enc : Enc G1 G2 GT) (sk y e6 : F)
    (elements : List F) (proofParams : ProofParams G1) (blinding : Option F) (rand : NonRand F) : Rust Bool := do
  let (c, c2) ← nonMembershipChallenges E H enc sk y elements
    (accAddAssign (accWithElements E sk elements) sk e6) "growing_accumulator" proofParams blinding rand
  pure (decide (c ≠ c2))

/-- `test_shamir` (`checked = false`) and `test_shamir_check`, src/tests.rs:19-41. -/
def shamir (threshold numShares : Nat) (secret : F) (coef : Nat → F) (checked : Bool) : Rust Bool := do
  let shares ← shamirShare threshold numShares secret coef
  let coeffs ← shamirCoefficients threshold shares
  let rebuild ← shamirRebuildScalar shares coeffs.1 (if checked then coeffs.2 else none)
  let rebuild ← unwrap rebuild
  pure (decide (secret = rebuild))

/-- `test_shamir_affine`, src/tests.rs:45-59. -/
def shamirAffine (threshold numShares : Nat) (secret a b : F) (coef : Nat → F) : Rust Bool := do
  let shares ← shamirShare threshold numShares secret coef
  let shares := shares.map (fun s => (s.1, s.2 * a + b))
  let coeffs ← shamirCoefficients threshold shares
  let rebuild ← shamirRebuildScalar shares coeffs.1 coeffs.2
  let rebuild ← unwrap rebuild
  pure (decide (a * secret + b = rebuild))

/-- `test_shamir_point`, src/tests.rs:63-80. -/
def shamirPoint (threshold numShares : Nat) (secret1 secret2 : F) (a b : G1) (coef1 coef2 : Nat → F) :
    Rust Bool := do
  let shares1 ← shamirShare threshold numShares secret1 coef1
  let shares2 ← shamirShare threshold numShares secret2 coef2
  let pointShares ← (List.range shares1.length).mapM (fun i => do
    let s1 ← idx shares1 i
    let s2 ← idx shares2 i
    pure (s1.1, s1.2 • a + s2.2 • b))
  let coeffs ← shamirCoefficients threshold shares1
  let rebuild ← shamirRebuildPoint pointShares coeffs.1 coeffs.2
  let rebuild ← unwrap rebuild
  pure (decide (secret1 • a + secret2 • b = rebuild))

end acc

section system
variable {F G1 G2 GT : Type} [Field F] [DecidableEq F] [AddCommGroup G1] [Module F G1] [DecidableEq G1]
  [AddCommGroup G2] [Module F G2] [AddCommGroup GT] [Module F GT] [DecidableEq GT]

/-- What a test draws for a user: its id, secret key and enrolment nonce. -/
structure NewUser (F : Type) where
  id : F
  key : F
  nonce : F

/-- The loop that enrols the users and asserts `check_witness`, src/tests.rs:88-97, 109-118, 142-151, 241-250, 292-301
(in 177-181, 208-212 without the assertion). -/
def enrol (E : Pairing F G1 G2 GT) (H : Oracle F) (enc : Enc G1 G2 GT) (params : AccParams G1 G2)
    (server : Server F G1 G2) (news : List (NewUser F)) : Rust (Server F G1 G2 × List (User F G1 G2) × Bool) :=
  news.foldlM (fun (st : Server F G1 G2 × List (User F G1 G2) × Bool) r => do
    let u ← User.new st.1 r.id
    let (s, _) ← st.1.add u.getId
    let u ← u.createWitness H enc params s r.key r.nonce
    let V ← s.getAccumulator
    pure (s, st.2.1 ++ [u], st.2.2 && decide (u.checkWitness E params V = .ok ()))) (server, [], true)

/-- `test_witness_issue`, src/tests.rs:83-98. -/
def witnessIssue (E : Pairing F G1 G2 GT) (H : Oracle F) (enc : Enc G1 G2 GT) (params : AccParams G1 G2)
    (α sM v : F) (news : List (NewUser F)) : Rust Bool := do
  let (_, _, ok) ← enrol E H enc params (Server.new params α sM v) news
  pure ok

/-- The loop that deletes users and asserts that their witness fails, src/tests.rs:119-124, 152-157, 251-256, 302-307. -/
def revoke (E : Pairing F G1 G2 GT) (params : AccParams G1 G2) (server : Server F G1 G2)
    (users : List (User F G1 G2)) : Rust (Server F G1 G2 × Bool) :=
  users.foldlM (fun (st : Server F G1 G2 × Bool) u => do
    let (s, _) ← st.1.delete u.getId
    let V ← s.getAccumulator
    pure (s, st.2 && decide (u.checkWitness E params V ≠ .ok ()))) (server, true)

/-- The loop that deletes the users once more and adds others, src/tests.rs:158-162, 308-312. -/
def deleteAndAdd (server : Server F G1 G2) (users : List (User F G1 G2)) (ids : List F) :
    Rust (Server F G1 G2) :=
  (users.zip ids).foldlM (fun (s : Server F G1 G2) p => do
    let (s, _) ← s.delete p.1.getId
    let u ← User.new s p.2
    let (s, _) ← s.add u.getId
    pure s) server

/-- `test_witness_update`, src/tests.rs:101-131 (`others = []`) and `test_witness_update_add`, src/tests.rs:134-169;
`news` must not be empty. -/
def witnessUpdate (E : Pairing F G1 G2 GT) (H : Oracle F) (enc : Enc G1 G2 GT) (params : AccParams G1 G2)
    (seed : Nat → Nat) (α sM v : F) (news : List (NewUser F)) (others : List F) (nServers threshold : Nat)
    (rand : Nat → Nat → F) : Rust Bool := do
  let (server, users, ok) ← enrol E H enc params (Server.new params α sM v) news
  if !ok then return false
  let u0 ← idx users 0
  let (server, ok) ← revoke E params server (users.drop 1)
  if !ok then return false
  let server ← deleteAndAdd server (users.drop 1) others
  let servers := List.replicate nServers server
  let (u0, res) ← u0.update seed servers threshold rand
  if !res.isOk then return false
  let V ← server.getAccumulator
  pure (decide (u0.checkWitness E params V = .ok ()))

/-- `test_split_witness_update`, src/tests.rs:233-281, and `test_witness_split_update_add`, src/tests.rs:285-329. -/
def splitUpdate (E : Pairing F G1 G2 GT) (H : Oracle F) (enc : Enc G1 G2 GT) (params : AccParams G1 G2)
    (seed : Nat → Nat) (α sM v : F) (news : List (NewUser F)) (others : List F) (nServers threshold : Nat)
    (rand : Nat → Nat → F) : Rust Bool := do
  let (server, users, ok) ← enrol E H enc params (Server.new params α sM v) news
  if !ok then return false
  let u0 ← idx users 0
  let (server, ok) ← revoke E params server (users.drop 1)
  if !ok then return false
  let server ← deleteAndAdd server (users.drop 1) others
  let servers := List.replicate nServers server
  let s0 ← idx servers 0
  match ← u0.prepareForUpdate seed s0.getEpoch nServers threshold rand with
  | .error _ => return false
  | .ok upd =>
    let dvs ← (List.range nServers).mapM (fun i => do
      let s ← idx servers i
      let ys ← idx upd.yShares i
      s.update upd.epochDiff ys)
    let w ← unwrap u0.witness
    match ← User.postUpdate w.witness threshold upd.yShares upd.yValues dvs with
    | .error _ => return false
    | .ok c =>
      let V ← server.getAccumulator
      let u0 : User F G1 G2 := { u0 with witness := u0.witness.map (fun w => { w with witness := c }) }
      pure (decide (u0.checkWitness E params V = .ok ()))

/-- One presentation, src/tests.rs:183-196 and 218-230: `unwrap` the proof, and check it. -/
def present (E : Pairing F G1 G2 GT) (H : Oracle F) (enc : Enc G1 G2 GT) (params : AccParams G1 G2)
    (server : Server F G1 G2) (u : User F G1 G2) (eph : Bytes) (rand : ProofRand F) : Rust Bool := do
  let p ← unwrap (u.makeMembershipProof E H enc params server.getPublicKeys eph rand)
  let V ← server.getAccumulator
  pure (checkProof E H enc p params server.getPublicKeys V eph)

/-- `basic_membership_proof`, src/tests.rs:172-197. -/
def presentAll (E : Pairing F G1 G2 GT) (H : Oracle F) (enc : Enc G1 G2 GT) (params : AccParams G1 G2)
    (α sM v : F) (news : List (NewUser F)) (eph : Nat → Bytes) (rand : Nat → ProofRand F) : Rust Bool := do
  let (server, users, _) ← enrol E H enc params (Server.new params α sM v) news
  users.zipIdx.foldlM (fun ok (u, i) => do
    let b ← present E H enc params server u (eph i) (rand i)
    pure (ok && b)) true

/-- `basic_membership_proof_failure`, src/tests.rs:200-231: all users but the first are deleted, and the proofs of all
of them (also of the first one, which has not updated) have to be rejected. -/
def presentStale (E : Pairing F G1 G2 GT) (H : Oracle F) (enc : Enc G1 G2 GT) (params : AccParams G1 G2)
    (α sM v : F) (news : List (NewUser F)) (eph : Nat → Bytes) (rand : Nat → ProofRand F) : Rust Bool := do
  let (server, users, _) ← enrol E H enc params (Server.new params α sM v) news
  let server ← (users.drop 1).foldlM (fun (s : Server F G1 G2) u => do
    let (s, _) ← s.delete u.getId
    pure s) server
  users.zipIdx.foldlM (fun ok (u, i) => do
    let b ← present E H enc params server u (eph i) (rand i)
    pure (ok && !b)) true

end system
end Allo.Suite
