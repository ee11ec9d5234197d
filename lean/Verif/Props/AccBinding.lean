import Verif.Props.AccProof

/-!
# C65, C66: what a non-membership proof hides, and what the proofs of `src/accumulator/proof.rs` are bound to
-/

set_option linter.unusedSectionVars false
set_option linter.unusedVariables false
set_option linter.unusedSimpArgs false
namespace Allo
open Spec

section
variable {F G1 G2 GT : Type} [Field F] [DecidableEq F] [AddCommGroup G1] [Module F G1]
  [AddCommGroup G2] [Module F G2] [AddCommGroup GT] [Module F GT] [DecidableEq GT]

/-- every point is exactly one multiple of a point that is not the identity -/
theorem Pairing.unique_log (E : Pairing F G1 G2 GT) {K : G1} (hK : K ≠ 0) (Q : G1) : ∃! r : F, r • K = Q := by
  obtain ⟨a, ha⟩ := E.g1_gen Q
  obtain ⟨b, hb⟩ := E.g1_gen K
  have hb0 : b ≠ 0 := by rintro rfl; rw [zero_smul] at hb; exact hK hb
  refine ⟨a * b⁻¹, ?_, fun r hr => ?_⟩
  · show (a * b⁻¹) • K = Q
    rw [hb, smul_smul, inv_mul_cancel_right₀ hb0, ha]
  · have h' : (a * b⁻¹) • K = Q := by rw [hb, smul_smul, inv_mul_cancel_right₀ hb0, ha]
    rw [← sub_eq_zero] at h' ⊢
    have : (r - a * b⁻¹) • K = 0 := by
      rw [sub_smul, hr, ← sub_eq_zero.1 h', sub_self]
    exact (smul_eq_zero.1 this).resolve_right hK

/-! ### C65 -/

/-- **C65** (hiding). Fix the element, the non-membership witness (with `d ≠ 0`), the challenge and `σ, ρ`.
For every choice of the two points `E_d, E_d⁻¹` and of the eight responses there is exactly one choice of
the remaining randomness with which the honest prover sends them: `d`, the element and the responses'
secrets stay perfectly hidden. `K` must not be the identity. -/
theorem C65_responses (E : Pairing F G1 G2 GT) (y : F) (w : NonMembershipWitness F G1) (hd : w.d ≠ 0)
    (params : ProofParams G1) (hk : params.k ≠ 0) (pk : G2) (c σ ρ : F) (p : NonProof F G1)
    (h1 : p.eC = (σ + ρ) • params.z + w.c) (h2 : p.tSigma = σ • params.x) (h3 : p.tRho = ρ • params.y) :
    ∃! rand : NonRand F, rand.sigma = σ ∧ rand.rho = ρ ∧
      ∃ nc, NonCommitting.new E y w params pk none rand = .ok nc ∧ nc.genProof c = p := by
  obtain ⟨τ, hτ, hτu⟩ := E.unique_log hk (p.eD - w.d • E.g1)
  obtain ⟨π, hπ, hπu⟩ := E.unique_log hk (p.eDm1 - w.d⁻¹ • E.g1)
  refine ⟨⟨σ, ρ, p.sY - y * c, p.sSigma - σ * c, p.sRho - ρ * c, p.sDeltaSigma - y * σ * c,
    p.sDeltaRho - y * ρ * c, τ, π, p.sU - w.d * c, p.sV - τ * c, p.sW - -(π * w.d) * c⟩, ?_, ?_⟩
  · refine ⟨rfl, rfl, ?_⟩
    simp only [NonCommitting.new, inv!_ne hd, bind, Except.bind, pure, Except.pure]
    refine ⟨_, rfl, ?_⟩
    simp only [NonCommitting.genProof, schnorr, capR, List.zipWith_cons_cons, List.zipWith_nil_right,
      List.sum_cons, List.sum_nil, Option.getD_none]
    ext
    · exact h1.symm
    · dsimp only; rw [hτ]; abel
    · dsimp only; rw [hπ]; abel
    · exact h2.symm
    · exact h3.symm
    all_goals dsimp only; ring
  · rintro ⟨σ', ρ', ry, r1, r2, r3, r4, τ', π', rU, rV, rW⟩ ⟨hs, hr, nc, hnc, hp⟩
    simp only at hs hr
    subst hs hr
    simp only [NonCommitting.new, inv!_ne hd, bind, Except.bind, pure, Except.pure, Except.ok.injEq] at hnc
    rw [← hnc] at hp
    simp only [NonCommitting.genProof, schnorr, capR, List.zipWith_cons_cons, List.zipWith_nil_right,
      List.sum_cons, List.sum_nil, Option.getD_none, NonProof.ext_iff] at hp
    obtain ⟨-, e1, e2, -, -, f1, f2, f3, f4, f5, f6, f7, f8⟩ := hp
    have t1 : τ' = τ := hτu τ' (by show τ' • params.k = _; rw [← e1]; abel)
    have t2 : π' = π := hπu π' (by show π' • params.k = _; rw [← e2]; abel)
    subst t1 t2
    rw [← f1, ← f2, ← f3, ← f4, ← f5, ← f6, ← f7, ← f8]
    ext <;> simp

/-- **C65** (two provers). If the points `(E_C, T_σ, T_ρ)` two honest provers can send are the same, then for
each randomness of the one there is exactly one of the other (with the given `σ', ρ'`) that gives the same
whole proof; when both witnesses verify the committed values are then the same too, so the whole
interaction is the same. -/
theorem C65_same_triple (E : Pairing F G1 G2 GT) (y y' : F) (w w' : NonMembershipWitness F G1)
    (hd : w.d ≠ 0) (hd' : w'.d ≠ 0) (V : G1) (params : ProofParams G1) (hk : params.k ≠ 0) (pk : G2)
    (hv : nmwVerify E w y pk V = true) (hv' : nmwVerify E w' y' pk V = true) (σ' ρ' c : F) (rand : NonRand F)
    (hE : (rand.sigma + rand.rho) • params.z + w.c = (σ' + ρ') • params.z + w'.c)
    (hT : rand.sigma • params.x = σ' • params.x) (hT' : rand.rho • params.y = ρ' • params.y)
    (nc : NonCommitting F G1 GT) (hnc : NonCommitting.new E y w params pk none rand = .ok nc) :
    ∃! rand' : NonRand F, rand'.sigma = σ' ∧ rand'.rho = ρ' ∧
      ∃ nc', NonCommitting.new E y' w' params pk none rand' = .ok nc' ∧
        nc'.genProof c = nc.genProof c ∧ nc'.committed = nc.committed := by
  have hh : (nc.genProof c).eC = (rand.sigma + rand.rho) • params.z + w.c ∧
      (nc.genProof c).tSigma = rand.sigma • params.x ∧ (nc.genProof c).tRho = rand.rho • params.y := by
    have h := hnc
    simp only [NonCommitting.new, inv!_ne hd, bind, Except.bind, pure, Except.pure, Except.ok.injEq] at h
    rw [← h]
    exact ⟨rfl, rfl, rfl⟩
  obtain ⟨r, ⟨h1, h2, nc', h3, h4⟩, hu⟩ := C65_responses E y' w' hd' params hk pk c σ' ρ' (nc.genProof c)
    (by rw [hh.1, hE]) (by rw [hh.2.1, hT]) (by rw [hh.2.2, hT'])
  refine ⟨r, ⟨h1, h2, nc', h3, h4, ?_⟩, ?_⟩
  · rw [← (C49_finalize_iff E y' w' V params pk none r c nc' h3).2 (.inr hv'), h4,
      (C49_finalize_iff E y w V params pk none rand c nc hnc).2 (.inr hv)]
  · rintro r' ⟨g1, g2, nc'', g3, g4, -⟩
    exact hu r' ⟨g1, g2, nc'', g3, g4⟩

/-- **C65** (the limit): the triple determines the point `C` of the witness (`X, Y` not the identity), as for
membership proofs. -/
theorem C65_triple_determines_point (E : Pairing F G1 G2 GT) (y y' : F) (w w' : NonMembershipWitness F G1)
    (params : ProofParams G1) (hx : params.x ≠ 0) (hy : params.y ≠ 0) (pk : G2) (b b' : Option F)
    (rand rand' : NonRand F) (nc nc' : NonCommitting F G1 GT)
    (hnc : NonCommitting.new E y w params pk b rand = .ok nc)
    (hnc' : NonCommitting.new E y' w' params pk b' rand' = .ok nc') (c c' : F)
    (h : (nc.genProof c).eC = (nc'.genProof c').eC ∧ (nc.genProof c).tSigma = (nc'.genProof c').tSigma ∧
      (nc.genProof c).tRho = (nc'.genProof c').tRho) : w.c = w'.c := by
  have ne : ∀ {y : F} {w : NonMembershipWitness F G1} {b rand} {nc : NonCommitting F G1 GT},
      NonCommitting.new E y w params pk b rand = .ok nc → w.d ≠ 0 := by
    intro y w b rand nc h h0
    rw [(C49_panics_iff E y w params pk b rand).1 h0] at h
    cases h
  have hd := ne hnc
  have hd' := ne hnc'
  simp only [NonCommitting.new, inv!_ne hd, bind, Except.bind, pure, Except.pure, Except.ok.injEq] at hnc
  simp only [NonCommitting.new, inv!_ne hd', bind, Except.bind, pure, Except.pure, Except.ok.injEq] at hnc'
  rw [← hnc, ← hnc'] at h
  simp only [NonCommitting.genProof] at h
  obtain ⟨h1, h2, h3⟩ := h
  rw [← sub_eq_zero, ← sub_smul] at h2 h3
  have h2 := sub_eq_zero.1 ((smul_eq_zero.1 h2).resolve_right hx)
  have h3 := sub_eq_zero.1 ((smul_eq_zero.1 h3).resolve_right hy)
  rw [h2, h3] at h1
  exact add_left_cancel h1

/-! ### C66 -/

/-- The check a verifier makes with a membership proof: the challenge recomputed from the finalized values,
after the transcript prefix `t`, is the one received (src/accumulator/proof.rs:846-849, test). -/
def memAccepts (E : Pairing F G1 G2 GT) (H : Oracle F) (enc : Enc G1 G2 GT) (p : MemProof F G1) (V : G1)
    (params : ProofParams G1) (pk : G2) (c : F) (t : Transcript) (label : String) : Prop :=
  H ((p.finalize E V params pk c).getBytesForChallenge enc t) label = c

/-- The same for a non-membership proof (src/accumulator/proof.rs:889-892, test). -/
def nonAccepts (E : Pairing F G1 G2 GT) (H : Oracle F) (enc : Enc G1 G2 GT) (p : NonProof F G1) (V : G1)
    (params : ProofParams G1) (pk : G2) (c : F) (t : Transcript) (label : String) : Prop :=
  H ((p.finalize E V params pk c).getBytesForChallenge enc t) label = c

/-- The finalized values of one membership proof agree for two accumulators only if these are equal. -/
theorem C66_mem_accumulator (E : Pairing F G1 G2 GT) (p : MemProof F G1) (V V' : G1) (params : ProofParams G1)
    (pk : G2) (c : F) :
    p.finalize E V params pk c = p.finalize E V' params pk c ↔ c = 0 ∨ V = V' := by
  have key : (p.finalize E V params pk c).capRE - (p.finalize E V' params pk c).capRE
      = E.e (c • (V' - V)) E.g2 := by
    simp only [MemProof.finalize, pair, map_add, map_smul, map_neg, map_sub, LinearMap.add_apply,
      LinearMap.smul_apply, LinearMap.neg_apply, LinearMap.sub_apply]
    module
  rw [eq_comm (a := V), ← sub_eq_zero (a := V'), ← smul_eq_zero, ← E.eq_zero_iff E.g2_ne, ← key, sub_eq_zero]
  exact ⟨fun h => by rw [h], fun h => MemFinal.ext rfl rfl rfl h rfl rfl rfl rfl⟩

/-- … and for two public keys only if these are equal or the proof has `c · E_C = (s_σ + s_ρ) · Z`. -/
theorem C66_mem_key (E : Pairing F G1 G2 GT) (p : MemProof F G1) (V : G1) (params : ProofParams G1)
    (pk pk' : G2) (c : F) :
    p.finalize E V params pk c = p.finalize E V params pk' c
      ↔ pk = pk' ∨ c • p.eC = (p.sSigma + p.sRho) • params.z := by
  have key : (p.finalize E V params pk c).capRE - (p.finalize E V params pk' c).capRE
      = E.e (c • p.eC - (p.sSigma + p.sRho) • params.z) (pk - pk') := by
    simp only [MemProof.finalize, pair, map_add, map_smul, map_neg, map_sub, LinearMap.add_apply,
      LinearMap.smul_apply, LinearMap.neg_apply, LinearMap.sub_apply]
    module
  have hz : E.e (c • p.eC - (p.sSigma + p.sRho) • params.z) (pk - pk') = 0 ↔
      pk = pk' ∨ c • p.eC = (p.sSigma + p.sRho) • params.z := by
    constructor
    · intro h
      rcases E.nondeg _ _ h with h | h
      · exact .inr (sub_eq_zero.1 h)
      · exact .inl (sub_eq_zero.1 h)
    · rintro (h | h) <;> simp [h]
  rw [← hz, ← key, sub_eq_zero]
  exact ⟨fun h => by rw [h], fun h => MemFinal.ext rfl rfl rfl h rfl rfl rfl rfl⟩

/-- **C66** (accumulator, non-membership). Same for a non-membership proof. -/
theorem C66_non_accumulator (E : Pairing F G1 G2 GT) (p : NonProof F G1) (V V' : G1) (params : ProofParams G1)
    (pk : G2) (c : F) :
    p.finalize E V params pk c = p.finalize E V' params pk c ↔ c = 0 ∨ V = V' := by
  have key : (p.finalize E V params pk c).capRE - (p.finalize E V' params pk c).capRE
      = E.e (c • (V' - V)) E.g2 := by
    simp only [NonProof.finalize, pair, map_add, map_smul, map_neg, map_sub, LinearMap.add_apply,
      LinearMap.smul_apply, LinearMap.neg_apply, LinearMap.sub_apply]
    module
  rw [eq_comm (a := V), ← sub_eq_zero (a := V'), ← smul_eq_zero, ← E.eq_zero_iff E.g2_ne, ← key, sub_eq_zero]
  exact ⟨fun h => by rw [h], fun h => NonFinal.ext rfl rfl rfl rfl rfl rfl rfl h rfl rfl rfl rfl⟩

/-- **C66** (key, non-membership). Same for a non-membership proof. -/
theorem C66_non_key (E : Pairing F G1 G2 GT) (p : NonProof F G1) (V : G1) (params : ProofParams G1)
    (pk pk' : G2) (c : F) :
    p.finalize E V params pk c = p.finalize E V params pk' c
      ↔ pk = pk' ∨ c • p.eC = (p.sSigma + p.sRho) • params.z := by
  have key : (p.finalize E V params pk c).capRE - (p.finalize E V params pk' c).capRE
      = E.e (c • p.eC - (p.sSigma + p.sRho) • params.z) (pk - pk') := by
    simp only [NonProof.finalize, pair, map_add, map_smul, map_neg, map_sub, LinearMap.add_apply,
      LinearMap.smul_apply, LinearMap.neg_apply, LinearMap.sub_apply]
    module
  have hz : E.e (c • p.eC - (p.sSigma + p.sRho) • params.z) (pk - pk') = 0 ↔
      pk = pk' ∨ c • p.eC = (p.sSigma + p.sRho) • params.z := by
    constructor
    · intro h
      rcases E.nondeg _ _ h with h | h
      · exact .inr (sub_eq_zero.1 h)
      · exact .inl (sub_eq_zero.1 h)
    · rintro (h | h) <;> simp [h]
  rw [← hz, ← key, sub_eq_zero]
  exact ⟨fun h => by rw [h], fun h => NonFinal.ext rfl rfl rfl rfl rfl rfl rfl h rfl rfl rfl rfl⟩

/-- … and, for accumulators and keys which both differ, exactly if they satisfy one equation in the secret keys. -/
theorem C66_mem_both (E : Pairing F G1 G2 GT) (p : MemProof F G1) (V V' : G1) (params : ProofParams G1)
    (α α' : F) (c : F) :
    p.finalize E V params (publicKey E α) c = p.finalize E V' params (publicKey E α') c
      ↔ c • (V - V') = (α - α') • (c • p.eC - (p.sSigma + p.sRho) • params.z) := by
  have key : (p.finalize E V params (publicKey E α) c).capRE - (p.finalize E V' params (publicKey E α') c).capRE
      = E.e ((α - α') • (c • p.eC - (p.sSigma + p.sRho) • params.z) - c • (V - V')) E.g2 := by
    simp only [MemProof.finalize, pair, publicKey, map_add, map_smul, map_neg, map_sub, LinearMap.add_apply,
      LinearMap.smul_apply, LinearMap.neg_apply, LinearMap.sub_apply]
    module
  rw [eq_comm (a := c • (V - V')), ← sub_eq_zero (b := c • (V - V')), ← E.eq_zero_iff E.g2_ne, ← key, sub_eq_zero]
  exact ⟨fun h => by rw [h], fun h => MemFinal.ext rfl rfl rfl h rfl rfl rfl rfl⟩

/-- **C66** (both, non-membership). Same for a non-membership proof. -/
theorem C66_non_both (E : Pairing F G1 G2 GT) (p : NonProof F G1) (V V' : G1) (params : ProofParams G1)
    (α α' : F) (c : F) :
    p.finalize E V params (publicKey E α) c = p.finalize E V' params (publicKey E α') c
      ↔ c • (V - V') = (α - α') • (c • p.eC - (p.sSigma + p.sRho) • params.z) := by
  have key : (p.finalize E V params (publicKey E α) c).capRE - (p.finalize E V' params (publicKey E α') c).capRE
      = E.e ((α - α') • (c • p.eC - (p.sSigma + p.sRho) • params.z) - c • (V - V')) E.g2 := by
    simp only [NonProof.finalize, pair, publicKey, map_add, map_smul, map_neg, map_sub, LinearMap.add_apply,
      LinearMap.smul_apply, LinearMap.neg_apply, LinearMap.sub_apply]
    module
  rw [eq_comm (a := c • (V - V')), ← sub_eq_zero (b := c • (V - V')), ← E.eq_zero_iff E.g2_ne, ← key, sub_eq_zero]
  exact ⟨fun h => by rw [h], fun h => NonFinal.ext rfl rfl rfl rfl rfl rfl rfl h rfl rfl rfl rfl⟩

/-- the messages appended determine the finalized values -/
theorem MemFinal.bytes_inj (enc : Enc G1 G2 GT) (h1 : Function.Injective enc.g1)
    (h3 : Function.Injective enc.gt) (a b : MemFinal G1 GT) (t : Transcript)
    (h : a.getBytesForChallenge enc t = b.getBytesForChallenge enc t) : a = b := by
  simp only [MemFinal.getBytesForChallenge, memBytes, Transcript.append, List.append_assoc, List.cons_append,
    List.nil_append, Transcript.mk.injEq, List.append_cancel_left_eq, List.cons.injEq, Prod.mk.injEq, true_and,
    and_true, h1.eq_iff, h3.eq_iff] at h
  obtain ⟨e1, e2, e3, e4, e5, e6, e7, e8⟩ := h
  exact MemFinal.ext e1 e2 e3 e4 e5 e6 e7 e8

theorem NonFinal.bytes_inj (enc : Enc G1 G2 GT) (h1 : Function.Injective enc.g1)
    (h3 : Function.Injective enc.gt) (a b : NonFinal G1 GT) (t : Transcript)
    (h : a.getBytesForChallenge enc t = b.getBytesForChallenge enc t) : a = b := by
  simp only [NonFinal.getBytesForChallenge, nonBytes, Transcript.append, List.append_assoc, List.cons_append,
    List.nil_append, Transcript.mk.injEq, List.append_cancel_left_eq, List.cons.injEq, Prod.mk.injEq, true_and,
    and_true, h1.eq_iff, h3.eq_iff] at h
  obtain ⟨e1, e2, e3, e4, e5, e6, e7, e8, e9, e10, e11, e12⟩ := h
  exact NonFinal.ext e1 e2 e3 e4 e5 e7 e8 e6 e9 e10 e11 e12

/-- **C66** (binding, membership). A proof with a nonzero challenge accepted after the same prefix for two
different accumulators, or for two different keys (unless `c · E_C = (s_σ + s_ρ) · Z`), gives a collision of
the transcript hash: two different transcripts with the same challenge. -/
theorem C66_mem_binding (E : Pairing F G1 G2 GT) (H : Oracle F) (enc : Enc G1 G2 GT)
    (h1 : Function.Injective enc.g1) (h3 : Function.Injective enc.gt) (p : MemProof F G1) (V V' : G1)
    (params : ProofParams G1) (pk pk' : G2) (c : F) (t : Transcript) (label : String)
    (ha : memAccepts E H enc p V params pk c t label) (hb : memAccepts E H enc p V' params pk' c t label)
    (hne : (c ≠ 0 ∧ V ≠ V' ∧ pk = pk') ∨
      (V = V' ∧ pk ≠ pk' ∧ c • p.eC ≠ (p.sSigma + p.sRho) • params.z)) :
    let T := (p.finalize E V params pk c).getBytesForChallenge enc t
    let T' := (p.finalize E V' params pk' c).getBytesForChallenge enc t
    T ≠ T' ∧ H T label = H T' label := by
  refine ⟨fun h => ?_, Eq.trans ha (Eq.symm hb)⟩
  have := MemFinal.bytes_inj enc h1 h3 _ _ t h
  rcases hne with ⟨hc, hV, rfl⟩ | ⟨rfl, hk, he⟩
  · rcases (C66_mem_accumulator E p V V' params pk c).1 this with h | h
    · exact hc h
    · exact hV h
  · rcases (C66_mem_key E p V params pk pk' c).1 this with h | h
    · exact hk h
    · exact he h

/-- **C66** (binding, non-membership). -/
theorem C66_non_binding (E : Pairing F G1 G2 GT) (H : Oracle F) (enc : Enc G1 G2 GT)
    (h1 : Function.Injective enc.g1) (h3 : Function.Injective enc.gt) (p : NonProof F G1) (V V' : G1)
    (params : ProofParams G1) (pk pk' : G2) (c : F) (t : Transcript) (label : String)
    (ha : nonAccepts E H enc p V params pk c t label) (hb : nonAccepts E H enc p V' params pk' c t label)
    (hne : (c ≠ 0 ∧ V ≠ V' ∧ pk = pk') ∨
      (V = V' ∧ pk ≠ pk' ∧ c • p.eC ≠ (p.sSigma + p.sRho) • params.z)) :
    let T := (p.finalize E V params pk c).getBytesForChallenge enc t
    let T' := (p.finalize E V' params pk' c).getBytesForChallenge enc t
    T ≠ T' ∧ H T label = H T' label := by
  refine ⟨fun h => ?_, Eq.trans ha (Eq.symm hb)⟩
  have := NonFinal.bytes_inj enc h1 h3 _ _ t h
  rcases hne with ⟨hc, hV, rfl⟩ | ⟨rfl, hk, he⟩
  · rcases (C66_non_accumulator E p V V' params pk c).1 this with h | h
    · exact hc h
    · exact hV h
  · rcases (C66_non_key E p V params pk pk' c).1 this with h | h
    · exact hk h
    · exact he h

/-- **C66** (parameters). With `ProofParams::add_to_transcript` in the prefix, acceptance of one proof under two
different parameter sets gives a collision, whatever else differs. -/
theorem C66_params_binding (E : Pairing F G1 G2 GT) (H : Oracle F) (enc : Enc G1 G2 GT)
    (h1 : Function.Injective enc.g1) (p : MemProof F G1) (V V' : G1) (params params' : ProofParams G1)
    (pk pk' : G2) (c : F) (t : Transcript) (label : String) (hne : params ≠ params')
    (ha : memAccepts E H enc p V params pk c (params.addToTranscript enc t) label)
    (hb : memAccepts E H enc p V' params' pk' c (params'.addToTranscript enc t) label) :
    let T := (p.finalize E V params pk c).getBytesForChallenge enc (params.addToTranscript enc t)
    let T' := (p.finalize E V' params' pk' c).getBytesForChallenge enc (params'.addToTranscript enc t)
    T ≠ T' ∧ H T label = H T' label := by
  refine ⟨fun h => hne ?_, Eq.trans ha (Eq.symm hb)⟩
  simp only [MemFinal.getBytesForChallenge, memBytes, ProofParams.addToTranscript, Transcript.append,
    List.append_assoc, List.cons_append, List.nil_append, Transcript.mk.injEq, List.append_cancel_left_eq,
    List.cons.injEq, Prod.mk.injEq, true_and, and_true, h1.eq_iff] at h
  obtain ⟨e1, e2, e3, e4, -⟩ := h
  cases params; cases params'
  simp_all

/-- **C66** (the obligation of the caller). The functions of the library put neither the accumulator nor the
key into the transcript. If the caller does not do so either (the prefix `t` is fixed before the
accumulator is), a proof accepted for a nonzero accumulator can be made without any witness or secret: for
every element `m`, every point `Q` and almost every challenge there are a proof and the accumulator
`V = c⁻¹ • Q` for which it is accepted, under every public key at once. -/
theorem C66_accumulator_must_be_hashed (E : Pairing F G1 G2 GT) (H : Oracle F) (enc : Enc G1 G2 GT)
    (params : ProofParams G1) (m : F) (Q : G1) (t : Transcript) (label : String) (rand : MemRand F)
    (hr : rand.rRho = -rand.rSigma) :
    let mpc := fun pk => MemCommitting.new E (.hidden m) (0 : G1) params pk rand
    let com := fun pk : G2 => { (mpc pk).committed with capRE := (mpc pk).capRE - E.e Q E.g2 }
    let c := H ((com 0).getBytesForChallenge enc t) label
    c ≠ 0 → ∀ pk, memAccepts E H enc ((mpc 0).genProof c) (c⁻¹ • Q) params pk c t label := by
  intro mpc com c hc pk
  unfold memAccepts
  suffices h : ((mpc 0).genProof c).finalize E (c⁻¹ • Q) params pk c = com 0 by rw [h]
  have hcc : (c * c⁻¹) • E.e Q E.g2 = E.e Q E.g2 := by rw [mul_inv_cancel₀ hc, one_smul]
  rw [MemFinal.ext_iff]
  refine ⟨rfl, rfl, rfl, ?_, ?_, ?_, ?_, ?_⟩
  · simp only [MemProof.finalize, MemCommitting.genProof, mpc, com, MemCommitting.new, schnorr, pair, pairingExp,
      ProofMessage.getMessage, ProofMessage.getBlinder, hr,
      map_add, map_smul, map_neg, map_zero, LinearMap.zero_apply, LinearMap.add_apply, LinearMap.smul_apply,
      LinearMap.neg_apply]
    generalize E.e Q E.g2 = q at *
    linear_combination (norm := module) -hcc
  all_goals
    simp only [MemProof.finalize, MemCommitting.genProof, MemCommitting.new, MemCommitting.committed, schnorr,
      mpc, com, capR, List.zipWith_cons_cons, List.zipWith_nil_right, List.sum_cons, List.sum_nil]
    module

end

/-! ### Concrete cases -/

/-- C65: element `2`, witness `(3, 1)`, accumulator `19`, key `4`; `K ≠ 0` and the triple of `σ = 1, ρ = 2`. -/
example : exProofParams.k ≠ 0 ∧ (⟨3, 1⟩ : NonMembershipWitness ℚ ℚ).d ≠ 0 ∧
    ∃ p : NonProof ℚ ℚ, p.eC = ((1 : ℚ) + 2) • exProofParams.z + (3 : ℚ) ∧ p.tSigma = (1 : ℚ) • exProofParams.x ∧
      p.tRho = (2 : ℚ) • exProofParams.y ∧ p.sU = 100 ∧ p.eD = 50 :=
  ⟨by norm_num [exProofParams], by norm_num,
    ⟨((1 : ℚ) + 2) • exProofParams.z + (3 : ℚ), 50, 60, (1 : ℚ) • exProofParams.x, (2 : ℚ) • exProofParams.y,
      1, 2, 3, 4, 100, 6, 7, 8⟩, rfl, rfl, rfl, rfl, rfl⟩

/-- C65: two different witnesses with the same point for two elements: `(2+4)·3 + 1 = (1+4)·3 + 4 = 19`. -/
example : nmwVerify (Pairing.field ℚ) (⟨3, 1⟩ : NonMembershipWitness ℚ ℚ) 2 (publicKey (Pairing.field ℚ) 4) 19 = true ∧
    nmwVerify (Pairing.field ℚ) (⟨3, 4⟩ : NonMembershipWitness ℚ ℚ) 1 (publicKey (Pairing.field ℚ) 4) 19 = true := by
  decide +kernel

/-- C66: with a constant hash function (which has collisions) one proof is accepted for two accumulators. -/
example (enc : Enc ℚ ℚ ℚ) (p : MemProof ℚ ℚ) (t : Transcript) :
    memAccepts (Pairing.field ℚ) (fun _ _ => 5) enc p 18 exProofParams 4 5 t "challenge" ∧
    memAccepts (Pairing.field ℚ) (fun _ _ => 5) enc p 19 exProofParams 4 5 t "challenge" ∧ (5 : ℚ) ≠ 0 :=
  ⟨rfl, rfl, by norm_num⟩

/-- C66: the caller's obligation: `rRho = -rSigma`, hash `5`, so the forged proof is for accumulator `Q / 5`. -/
example (enc : Enc ℚ ℚ ℚ) (t : Transcript) : ∃ p : MemProof ℚ ℚ, ∀ pk : ℚ,
    memAccepts (Pairing.field ℚ) (fun _ _ => 5) enc p ((5 : ℚ)⁻¹ • (10 : ℚ)) exProofParams pk 5 t "challenge" :=
  ⟨_, C66_accumulator_must_be_hashed (Pairing.field ℚ) (fun _ _ => (5 : ℚ)) enc exProofParams 3 10 t "challenge"
    ⟨1, 2, 3, 4, -4, 6, 7⟩ rfl (by norm_num)⟩

end Allo
