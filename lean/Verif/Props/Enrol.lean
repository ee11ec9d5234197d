import Verif.Props.Server
import Verif.Props.Credential

/-!
# C55, C56: enrolment (`User::create_witness` / `Server::witness`) and `User::random`
-/

set_option linter.unusedSectionVars false
set_option linter.unusedVariables false

namespace Allo
open Spec Server

section
variable {F G1 G2 GT : Type} [Field F] [DecidableEq F] [AddCommGroup G1] [Module F G1]
  [AddCommGroup G2] [Module F G2] [AddCommGroup GT] [Module F GT] [DecidableEq GT] [DecidableEq G1]

/-- **C55** (completeness), for any server state (reachable or not), any user (new, or with an old
witness) and any hash function: the enrolment proof that `create_witness` computes is always accepted.
The user ends with the stored membership witness, its own key, and a signature `R` with
`(id + s) R = key K1 + K0`. -/
theorem C55_complete (H : Oracle F) (enc : Enc G1 G2 GT) (params : AccParams G1 G2)
    (srv : Server F G1 G2) (V : G1) (hV : srv.getAccumulator = .ok V) (u : User F G1 G2)
    (hy : u.id ∈ srv.ids) (hs : u.id + srv.signSecretKey ≠ 0) (key k : F) :
    ∃ C R, mapGet srv.allWitnesses u.id = some C ∧
      (u.id + srv.signSecretKey) • R = key • params.k1 + params.k0 ∧
      u.createWitness H enc params srv key k = .ok ⟨u.id, some ⟨key, C, R⟩, V, u.publicKeys, srv.getEpoch⟩ := by
  generalize hc : enrolChallenge H enc (key • params.k1) (k • params.k1) = c
  have hcom : (k - c * key) • params.k1 + c • key • params.k1 = k • params.k1 := by module
  obtain ⟨hw, -⟩ := (C21_witness H enc params srv u.id c (k - c * key) (key • params.k1)).2.2 hy
    (by rw [hcom]; exact hc)
  obtain ⟨C, R, hw1, hw2, hw3⟩ := hw hs
  refine ⟨C, R, hw2, hw3, ?_⟩
  unfold User.createWitness
  have hH : H (((Transcript.new "user_signature_proof").append "user_pub_key"
    (enc.g1 (key • params.k1))).append "commitment" (enc.g1 (k • params.k1))) "challenge" = c := hc
  simp only [hH]
  rw [hw1]
  simp only [bind, Except.bind, hV, pure, Except.pure]

/-- **C55** (special soundness). The enrolment challenge is a hash, so two accepted answers with the same
commitment and different challenges come from two hash functions (the usual forking experiment).
Whenever a server (or two servers) accept such a pair for one public key, the key computed from the
two answers is its secret key. -/
theorem C55_special_sound (H H' : Oracle F) (enc : Enc G1 G2 GT) (params : AccParams G1 G2)
    (srv srv' : Server F G1 G2) (y y' c c' z z' : F) (pk : G1) (r r' : G1 × G1)
    (h : srv.witness H enc params y c z pk = .ok (some r))
    (h' : srv'.witness H' enc params y' c' z' pk = .ok (some r'))
    (hcom : z • params.k1 + c • pk = z' • params.k1 + c' • pk) (hc : c ≠ c') :
    pk = ((z - z') / (c' - c)) • params.k1 := by
  have hd : c' - c ≠ 0 := sub_ne_zero.2 (Ne.symm hc)
  have : (c' - c) • pk = (z - z') • params.k1 := by
    linear_combination (norm := module) -hcom
  rw [div_eq_inv_mul, mul_smul, ← this, smul_smul, inv_mul_cancel₀ hd, one_smul]

/-- The hypotheses of `C55_special_sound` are met by every honest prover that is asked two challenges with
the same nonce, for every member: here the key extracted is the prover's. -/
theorem C55_special_sound_applies (enc : Enc G1 G2 GT) (params : AccParams G1 G2) (srv : Server F G1 G2)
    (y : F) (hy : y ∈ srv.ids) (hs : y + srv.signSecretKey ≠ 0) (key k c c' : F) (hc : c ≠ c') :
    (∃ r, srv.witness (fun _ _ => c) enc params y c (k - c * key) (key • params.k1) = .ok (some r)) ∧
    (∃ r, srv.witness (fun _ _ => c') enc params y c' (k - c' * key) (key • params.k1) = .ok (some r)) ∧
    (k - c * key) • params.k1 + c • key • params.k1 = (k - c' * key) • params.k1 + c' • key • params.k1 ∧
    ((k - c * key) - (k - c' * key)) / (c' - c) = key := by
  have hd : c' - c ≠ 0 := sub_ne_zero.2 (Ne.symm hc)
  refine ⟨?_, ?_, by module, by field_simp; ring⟩
  · obtain ⟨C, R, h, -⟩ := ((C21_witness (fun _ _ => c) enc params srv y c (k - c * key)
      (key • params.k1)).2.2 hy rfl).1 hs
    exact ⟨_, h⟩
  · obtain ⟨C, R, h, -⟩ := ((C21_witness (fun _ _ => c') enc params srv y c' (k - c' * key)
      (key • params.k1)).2.2 hy rfl).1 hs
    exact ⟨_, h⟩

/-- **C55** (accepted answers hash their commitment): an answer is accepted only if its challenge is the
hash of the public key and of the commitment it determines; with a collision-free hash and injective
encoding the public key cannot be exchanged afterwards. -/
theorem C55_accept_iff (H : Oracle F) (enc : Enc G1 G2 GT) (params : AccParams G1 G2)
    (srv : Server F G1 G2) (y c z : F) (pk : G1) (hs : y + srv.signSecretKey ≠ 0) :
    (∃ r, srv.witness H enc params y c z pk = .ok (some r)) ↔
      y ∈ srv.ids ∧ enrolChallenge H enc pk (z • params.k1 + c • pk) = c := by
  obtain ⟨h1, h2, h3⟩ := C21_witness H enc params srv y c z pk
  constructor
  · rintro ⟨r, hr⟩
    by_contra hcon
    rw [not_and_or] at hcon
    rcases hcon with hcon | hcon
    · rw [h1 hcon] at hr; simp at hr
    · rw [h2 hcon] at hr; simp at hr
  · rintro ⟨ha, hb⟩
    obtain ⟨C, R, hr, -⟩ := (h3 ha hb).1 hs
    exact ⟨_, hr⟩

/-- **C55** (what enrolment does not check): the proof of key is not bound to the user id or to the server.
An answer accepted once is accepted again for every member id (`≠ -s`) by every server: it can be replayed. -/
theorem C55_replay (H : Oracle F) (enc : Enc G1 G2 GT) (params : AccParams G1 G2)
    (srv srv' : Server F G1 G2) (y y' c z : F) (pk : G1) (r : G1 × G1)
    (h : srv.witness H enc params y c z pk = .ok (some r)) (hy : y' ∈ srv'.ids)
    (hs : y' + srv'.signSecretKey ≠ 0) :
    ∃ r', srv'.witness H enc params y' c z pk = .ok (some r') := by
  rw [C55_accept_iff H enc params srv' y' c z pk hs]
  refine ⟨hy, ?_⟩
  by_contra hcon
  rw [(C21_witness H enc params srv y c z pk).2.1 hcon] at h
  simp at h

/-- **C56**. `User::random` with keys `(α, s)` and public keys `(α P2, s K2)`: for every id and secret drawn
it returns a user that passes `check_witness` for the accumulator it was given; it panics exactly for
the ids `-α` and `-s`. -/
theorem C56_random (E : Pairing F G1 G2 GT) (params : AccParams G1 G2) (hP : params.p2 ≠ 0)
    (hK : params.k2 ≠ 0) (α s : F) (V : G1) (epoch : Nat) (id secret : F) :
    (id ≠ -α → id ≠ -s → ∃ u : User F G1 G2,
      User.random α s params V ⟨α • params.p2, s • params.k2⟩ epoch id secret = .ok u ∧
      u.checkWitness E params V = .ok () ∧ u.accumulator = V ∧ u.epoch = epoch ∧ u.id = id ∧
      ∃ w, u.witness = some w ∧ w.secretKey = secret) ∧
    (id = -α ∨ id = -s →
      User.random (G2 := G2) α s params V ⟨α • params.p2, s • params.k2⟩ epoch id secret
        = .error .unwrapNone) := by
  constructor
  · intro h1 h2
    have h1' : α + id ≠ 0 := fun h => h1 (eq_neg_of_add_eq_zero_right h)
    have h2' : s + id ≠ 0 := fun h => h2 (eq_neg_of_add_eq_zero_right h)
    refine ⟨⟨id, some ⟨secret, (α + id)⁻¹ • V, (s + id)⁻¹ • (secret • params.k1 + params.k0)⟩, V,
      ⟨α • params.p2, s • params.k2⟩, epoch⟩, ?_, ?_, rfl, rfl, rfl, _, rfl, rfl⟩
    · simp only [User.random, inv!_ne h2', mwNew, accRemove, inv!_ne h1', unwrap, bind, Except.bind,
        pure, Except.pure]
    · rw [(C23_check_witness E params hP hK α s _ rfl V).1]
      refine ⟨_, rfl, ?_, ?_⟩
      · simp only [IsWitness]
        rw [smul_smul, add_comm id α, mul_inv_cancel₀ h1', one_smul]
      · simp only
        rw [smul_smul, add_comm id s, mul_inv_cancel₀ h2', one_smul]
  · intro h
    by_cases h2 : s + id = 0
    · simp only [User.random, h2, inv!_zero, bind, Except.bind]
    · have h1 : α + id = 0 := by
        rcases h with h | h
        · rw [h]; ring
        · exact absurd (by rw [h]; ring) h2
      simp only [User.random, inv!_ne h2, mwNew, accRemove, h1, inv!_zero, bind, Except.bind]

/-- C56 is not vacuous. -/
example : ∃ u : User ℚ ℚ ℚ, User.random 4 9 ⟨1, 1, 2, 3, 1, 5, 7, 11⟩ 6 ⟨4 • 1, 9 • 1⟩ 3 2 10 = .ok u ∧
    u.checkWitness (Pairing.field ℚ) ⟨1, 1, 2, 3, 1, 5, 7, 11⟩ 6 = .ok () := by
  obtain ⟨u, h1, h2, -⟩ := (C56_random (Pairing.field ℚ) ⟨1, 1, 2, 3, 1, 5, 7, 11⟩ one_ne_zero one_ne_zero
    (4 : ℚ) 9 6 3 2 10).1 (by norm_num) (by norm_num)
  exact ⟨u, by simpa using h1, h2⟩

end
end Allo
