import Verif.Props.Credential
import Verif.Props.AccProof
import Verif.Lemmas.Update
import Mathlib.Tactic.LinearCombination
import Mathlib.Tactic.FieldSimp
import Mathlib.Tactic.NormNum

/-!
# C92: what a repeated random number generator state reveals

Every function of the crate that needs secrecy draws fresh random values. If two calls see the same values (a
cloned virtual machine, a seeded generator, a fork) the observer computes, with the formulas below:
-/

set_option linter.unusedSectionVars false
set_option linter.unusedVariables false
set_option linter.unusedSimpArgs false
namespace Allo
open Spec

section
variable {F G1 G2 GT : Type} [Field F] [DecidableEq F] [AddCommGroup G1] [Module F G1]
  [AddCommGroup G2] [Module F G2] [AddCommGroup GT] [Module F GT] [DecidableEq GT]

theorem slope_schnorr {c c' : F} (hc : c ≠ c') (k v : F) :
    (schnorr k v c - schnorr k v c') / (c - c') = v := by
  have hd : c - c' ≠ 0 := sub_ne_zero.2 hc
  unfold schnorr
  field_simp
  ring

/-- **C92** (presentations). Two presentations of one credential made with the same random values, for any two
accumulators, server keys, updated membership witnesses and verifier challenges, whose hash values differ,
reveal the whole credential: the user's id, the secret key, the signature and both membership witnesses. -/
theorem C92_presentations (E : Pairing F G1 G2 GT) (H : Oracle F) (enc : Enc G1 G2 GT)
    (params : AccParams G1 G2) (pk pk' : PublicKeys G2) (V V' : G1) (eph eph' : Bytes) (y sk : F)
    (sig C C' : G1) (rand : ProofRand F) (p p' : CredProof F G1)
    (h : makeProof E H enc ⟨sk, C, sig⟩ y V params pk eph rand = some p)
    (h' : makeProof E H enc ⟨sk, C', sig⟩ y V' params pk' eph' rand = some p')
    (hc : p.challenge ≠ p'.challenge) :
    let quotient := fun s s' : F => (s - s') / (p.challenge - p'.challenge)
    quotient p.s7 p'.s7 = y ∧ quotient p.s0 p'.s0 = sk ∧
    p.u1 - quotient p.s1 p'.s1 • params.z1 = sig ∧
    p.u2 - quotient p.s2 p'.s2 • params.z1 = C ∧
    p'.u2 - quotient p.s2 p'.s2 • params.z1 = C' := by
  intro quotient
  rw [makeProof_eq E H enc _ y V params pk eph rand
    ((C42_complete E H enc _ y V params pk eph rand).1.1 ⟨p, h⟩)] at h
  rw [makeProof_eq E H enc _ y V' params pk' eph' rand
    ((C42_complete E H enc _ y V' params pk' eph' rand).1.1 ⟨p', h'⟩)] at h'
  obtain rfl := Option.some.inj h
  obtain rfl := Option.some.inj h'
  simp only [Committing.genProof, Committing.new] at hc ⊢
  simp only [quotient, Committing.genProof, Committing.new, slope_schnorr hc]
  simp

/-- **C92** (accumulator membership proofs): element and witness. -/
theorem C92_mem_proofs (E : Pairing F G1 G2 GT) (m : F) (C C' : G1) (params : ProofParams G1) (pk pk' : G2)
    (rand : MemRand F) (c c' : F) (hc : c ≠ c') :
    let p := (MemCommitting.new E (.hidden m) C params pk rand).genProof c
    let p' := (MemCommitting.new E (.hidden m) C' params pk' rand).genProof c'
    let quotient := fun s s' : F => (s - s') / (c - c')
    quotient p.sY p'.sY = m ∧
    p.eC - (quotient p.sSigma p'.sSigma + quotient p.sRho p'.sRho) • params.z = C ∧
    p'.eC - (quotient p.sSigma p'.sSigma + quotient p.sRho p'.sRho) • params.z = C' := by
  simp only [MemCommitting.genProof, MemCommitting.new, slope_schnorr hc]
  simp [ProofMessage.getBlinder, ProofMessage.getMessage, slope_schnorr hc]

/-- **C92** (accumulator non-membership proofs): element, witness point and scalar. -/
theorem C92_non_proofs (E : Pairing F G1 G2 GT) (y : F) (w w' : NonMembershipWitness F G1) (params : ProofParams G1)
    (pk pk' : G2) (rand : NonRand F) (nc nc' : NonCommitting F G1 GT)
    (h : NonCommitting.new E y w params pk none rand = .ok nc)
    (h' : NonCommitting.new E y w' params pk' none rand = .ok nc') (c c' : F) (hc : c ≠ c') :
    let p := nc.genProof c
    let p' := nc'.genProof c'
    let quotient := fun s s' : F => (s - s') / (c - c')
    quotient p.sY p'.sY = y ∧
    p.eC - (quotient p.sSigma p'.sSigma + quotient p.sRho p'.sRho) • params.z = w.c ∧
    p'.eC - (quotient p.sSigma p'.sSigma + quotient p.sRho p'.sRho) • params.z = w'.c ∧
    (w.d = w'.d → quotient p.sU p'.sU = w.d) := by
  by_cases hd : w.d = 0
  · rw [(C49_panics_iff E y w params pk none rand).1 hd] at h; cases h
  by_cases hd' : w'.d = 0
  · rw [(C49_panics_iff E y w' params pk' none rand).1 hd'] at h'; cases h'
  simp only [NonCommitting.new, inv!_ne hd, bind, Except.bind, pure, Except.pure, Except.ok.injEq] at h
  simp only [NonCommitting.new, inv!_ne hd', bind, Except.bind, pure, Except.pure, Except.ok.injEq] at h'
  subst h
  subst h'
  simp only [NonCommitting.genProof, slope_schnorr hc]
  refine ⟨trivial, by simp, by simp, fun e => ?_⟩
  rw [← e]
  exact slope_schnorr hc _ _

/-- **C92** (external blinding). A blinding value given by the caller that is used in two proofs with
different challenges reveals the element, even if everything else is fresh and the proofs are about
different accumulators, keys and parameters: membership with membership, and membership with non-membership.
(Under the *same* challenge it is the intended use, C51.) -/
theorem C92_shared_blinding (E : Pairing F G1 G2 GT) (m b : F) (C C' : G1) (w' : NonMembershipWitness F G1)
    (params params' : ProofParams G1) (pk pk' : G2) (rand rand' : MemRand F) (nrand : NonRand F)
    (nc : NonCommitting F G1 GT) (h : NonCommitting.new E m w' params' pk' (some b) nrand = .ok nc)
    (c c' : F) (hc : c ≠ c') :
    let p := (MemCommitting.new E (.sharedBlinding m b) C params pk rand).genProof c
    let p' := (MemCommitting.new E (.sharedBlinding m b) C' params' pk' rand').genProof c'
    let q' := nc.genProof c'
    (p.sY - p'.sY) / (c - c') = m ∧ (p.sY - q'.sY) / (c - c') = m := by
  by_cases hd : w'.d = 0
  · rw [(C49_panics_iff E m w' params' pk' (some b) nrand).1 hd] at h; cases h
  simp only [NonCommitting.new, inv!_ne hd, bind, Except.bind, pure, Except.pure, Except.ok.injEq] at h
  subst h
  simp [MemCommitting.genProof, MemCommitting.new, NonCommitting.genProof, ProofMessage.getBlinder,
    ProofMessage.getMessage, slope_schnorr hc]

/-- What `prepare_for_update` sends, whatever the chunk size is. -/
theorem prepare_rows (seed : Nat → Nat) (u : User F G1 G2) (e n t : Nat) (rand : Nat → Nat → F)
    (q : UserUpdate F) (h : u.prepareForUpdate seed e n t rand = .ok (.ok q)) :
    ∃ m, 1 ≤ m ∧ q.yShares = (List.range n).map (fun i => shVec t m u.id rand ((i + 1 : Nat) : F)) := by
  unfold User.prepareForUpdate at h
  split at h
  · simp [pure, Except.pure] at h
  split at h
  · simp [pure, Except.pure, bind, Except.bind] at h
  next h1 h2 =>
  simp only [bind, Except.bind, pure, Except.pure] at h
  cases hd : usub e u.epoch with
  | error x => simp [hd] at h
  | ok d =>
    simp only [hd] at h
    cases hk : chunkSize d (seed d) with
    | error x => simp [hk] at h
    | ok k =>
      simp only [hk] at h
      rcases Nat.lt_or_ge k 2 with hk2 | hk2
      · have : k = 0 ∨ k = 1 := by omega
        rcases this with rfl | rfl
        · unfold User.shareVectors at h
          rw [shamirShare_ok t n (by omega)] at h
          simp [bind, Except.bind, usub] at h
        · unfold User.shareVectors at h
          rw [shamirShare_ok t n (by omega)] at h
          simp [bind, Except.bind, usub, pure, Except.pure] at h
          subst h
          refine ⟨1, le_refl _, ?_⟩
          simp [shVec, Function.comp_def]
      · rw [shareVectors_ok u.id n t k (by omega) hk2 rand] at h
        simp only [Except.ok.injEq] at h
        subst h
        exact ⟨k - 1, by omega, rfl⟩

theorem polyVal_sharePoly_sub (z s s' : F) (t : Nat) (coef : Nat → F) :
    polyVal z (sharePoly t s coef) - polyVal z (sharePoly t s' coef) = s - s' := by
  simp [sharePoly, polyVal]

/-- **C92** (update queries). If two users prepare their update queries with the same random values and the
same threshold, any one server (the `i`-th) sees shares whose difference is the difference of the ids; if the
queries have two powers or more and 2 ≠ 0 in the field, that server alone computes both ids. (With fresh
values fewer than `threshold` servers learn nothing, C37.) -/
theorem C92_update_queries (seed seed' : Nat → Nat) (u u' : User F G1 G2) (e e' n n' t : Nat)
    (rand : Nat → Nat → F) (q q' : UserUpdate F)
    (h : u.prepareForUpdate seed e n t rand = .ok (.ok q))
    (h' : u'.prepareForUpdate seed' e' n' t rand = .ok (.ok q')) (i : Nat) (r r' : List F)
    (hr : q.yShares[i]? = some r) (hr' : q'.yShares[i]? = some r') :
    (∃ a l a' l', r = a :: l ∧ r' = a' :: l' ∧ a - a' = u.id - u'.id) ∧
    (∀ a b l a' b' l', r = a :: b :: l → r' = a' :: b' :: l' → u.id ≠ u'.id → (2 : F) ≠ 0 →
      u.id = ((b - b') / (a - a') + (a - a')) / 2 ∧ u'.id = ((b - b') / (a - a') - (a - a')) / 2) := by
  obtain ⟨m, hm, hq⟩ := prepare_rows seed u e n t rand q h
  obtain ⟨m', hm', hq'⟩ := prepare_rows seed' u' e' n' t rand q' h'
  rw [hq] at hr
  rw [hq'] at hr'
  simp only [List.getElem?_map, Option.map_eq_some_iff] at hr hr'
  obtain ⟨i1, hi1, rfl⟩ := hr
  obtain ⟨i2, hi2, rfl⟩ := hr'
  have hi : i1 = i2 := by
    rw [List.getElem?_eq_some_iff] at hi1 hi2
    obtain ⟨_, hi1⟩ := hi1
    obtain ⟨_, hi2⟩ := hi2
    simp only [List.getElem_range] at hi1 hi2
    omega
  subst hi
  constructor
  · obtain ⟨m, rfl⟩ := Nat.exists_eq_add_of_le' hm
    obtain ⟨m', rfl⟩ := Nat.exists_eq_add_of_le' hm'
    refine ⟨_, _, _, _, by rw [shVec, List.range_succ_eq_map, List.map_cons],
      by rw [shVec, List.range_succ_eq_map, List.map_cons], ?_⟩
    rw [polyVal_sharePoly_sub]
    simp
  · intro a b l a' b' l' hl hl' hne h2
    have l1 : 2 ≤ m := by
      have := congrArg List.length hl; simp at this; omega
    have l2 : 2 ≤ m' := by
      have := congrArg List.length hl'; simp at this; omega
    have e0 : a - a' = u.id - u'.id := by
      have h1 : (shVec t m u.id rand ((i1 + 1 : Nat) : F))[0]? = some a := by rw [hl]; rfl
      have h2 : (shVec t m' u'.id rand ((i1 + 1 : Nat) : F))[0]? = some a' := by rw [hl']; rfl
      simp [shVec, show 0 < m by omega, show 0 < m' by omega] at h1 h2
      rw [← h1, ← h2, polyVal_sharePoly_sub]
    have e1 : b - b' = u.id ^ 2 - u'.id ^ 2 := by
      have h1 : (shVec t m u.id rand ((i1 + 1 : Nat) : F))[1]? = some b := by rw [hl]; rfl
      have h2 : (shVec t m' u'.id rand ((i1 + 1 : Nat) : F))[1]? = some b' := by rw [hl']; rfl
      simp [shVec, show 1 < m by omega, show 1 < m' by omega] at h1 h2
      rw [← h1, ← h2, polyVal_sharePoly_sub]
    have hn : u.id - u'.id ≠ 0 := sub_ne_zero.2 hne
    rw [e0, e1]
    constructor <;> field_simp <;> ring

/-- The hypotheses of `C92_presentations` are met: one user, two verifier challenges. -/
example (enc : Enc ℚ ℚ ℚ) (rand : ProofRand ℚ) : ∃ (H : Oracle ℚ) (p p' : CredProof ℚ ℚ),
    makeProof (Pairing.field ℚ) H enc ⟨10, 1, 32 / 11⟩ 2 6 ⟨1, 1, 2, 3, 1, 5, 7, 11⟩ ⟨4, 9⟩ [1] rand = some p ∧
    makeProof (Pairing.field ℚ) H enc ⟨10, 1, 32 / 11⟩ 2 6 ⟨1, 1, 2, 3, 1, 5, 7, 11⟩ ⟨4, 9⟩ [2] rand = some p' ∧
    p.challenge ≠ p'.challenge := by
  have h : credVerify (Pairing.field ℚ) (6 : ℚ) ⟨4, 9⟩ ⟨1, 1, 2, 3, 1, 5, 7, 11⟩ 2 ⟨10, 1, 32 / 11⟩ = .ok () := by
    rw [credVerify_pairing]; simp [Pairing.field]; norm_num
  refine ⟨fun t _ => if t.msgs.getLast? = some ("Ephemeral challenge", [1]) then 0 else 1, _, _,
    makeProof_eq _ _ enc _ 2 6 _ _ [1] rand h, makeProof_eq _ _ enc _ 2 6 _ _ [2] rand h, ?_⟩
  simp [Committing.genProof, proofChallenge, Transcript.append]

/-- The hypotheses of `C92_update_queries` are met: two users, three servers, threshold two, ten epochs. -/
example : ∃ q q' : UserUpdate ℚ, ∃ a b a' b' : ℚ, ∃ l l' : List ℚ,
    (⟨5, none, 1, ⟨1, 1⟩, 1⟩ : User ℚ ℚ ℚ).prepareForUpdate (fun _ => 5) 11 3 2 (fun i j => i + j) = .ok (.ok q) ∧
    (⟨8, none, 1, ⟨1, 1⟩, 1⟩ : User ℚ ℚ ℚ).prepareForUpdate (fun _ => 5) 11 3 2 (fun i j => i + j) = .ok (.ok q') ∧
    q.yShares[1]? = some (a :: b :: l) ∧ q'.yShares[1]? = some (a' :: b' :: l') :=
  ⟨_, _, _, _, _, _, _, _, rfl, rfl, rfl, rfl⟩

end
end Allo
