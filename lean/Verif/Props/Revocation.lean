import Verif.Props.Server
import Verif.Props.Credential
import Verif.Props.Accumulator
import Verif.Lemmas.Poly

/-!
# C59, C60: revocation soundness reduces to the strong Diffie–Hellman problem

The `q`-SDH problem for a base point `B` and a secret `α`: given `B, αB, α²B, …, α^q B` find some `y` and the
point `(y+α)⁻¹ B`. A linear combination `c₀B + c₁(αB) + c₂(α²B) + …` of the given points with public
scalars is written `polyVal α (c.map (· • B))`.
-/

set_option linter.unusedSectionVars false
set_option linter.unusedVariables false
namespace Allo
open Spec Server

/-- `c₀B + c₁(αB) + … + c_q(α^q B)`: what can be computed from the points `B, αB, …, α^q B` with the
public scalars `c`. -/
def fromPowers {F G : Type} [Field F] [AddCommGroup G] [Module F G] (α : F) (B : G) (c : List F) : G :=
  (c.zipIdx.map (fun p => p.1 • ((α ^ p.2) • B))).sum

section
variable {F G1 G2 GT : Type} [Field F] [DecidableEq F] [AddCommGroup G1] [Module F G1]
  [AddCommGroup G2] [Module F G2] [AddCommGroup GT] [Module F GT]

theorem fromPowers_aux (α : F) (B : G1) (c : List F) (k : Nat) :
    ((c.zipIdx k).map (fun p => p.1 • ((α ^ p.2) • B))).sum = (α ^ k * polyVal α c) • B := by
  induction c generalizing k with
  | nil => simp [polyVal]
  | cons a c ih =>
    rw [List.zipIdx_cons, List.map_cons, List.sum_cons, ih (k + 1)]
    simp only [polyVal, smul_eq_mul]
    rw [smul_smul, ← add_smul]
    congr 1
    ring

theorem fromPowers_eq (α : F) (B : G1) (c : List F) : fromPowers α B c = polyVal α c • B := by
  rw [fromPowers, fromPowers_aux]; simp

/-- the coefficients of `∏ (x + X)` -/
theorem exists_coeffs (l : List F) :
    ∃ c : List F, c.length ≤ l.length + 1 ∧ ∀ α, polyVal α c = prodPlus α l := by
  induction l with
  | nil => exact ⟨[1], by simp, fun α => by simp [polyVal]⟩
  | cons x l ih =>
    obtain ⟨c, hl, hc⟩ := ih
    refine ⟨polyAdd (polyScale c x) (0 :: c), ?_, ?_⟩
    · rw [polyAdd_length]; simp [polyScale]; omega
    · intro α
      rw [polyAdd_val, polyScale_val, prodPlus_cons, polyVal, hc]
      simp; ring

/-- division of `∏ (x + X)` by `y + X`; the remainder is `∏ (x - y)` -/
theorem exists_quotient (l : List F) (y : F) :
    ∃ q : List F, q.length ≤ l.length ∧
      ∀ α, prodPlus α l = (y + α) * polyVal α q + prodMinus y l := by
  induction l with
  | nil => exact ⟨[], by simp, fun α => by simp [polyVal]⟩
  | cons x l ih =>
    obtain ⟨q, hl, hq⟩ := ih
    refine ⟨polyAdd (polyAdd (polyScale q x) (0 :: q)) [prodMinus y l], ?_, ?_⟩
    · rw [polyAdd_length, polyAdd_length]; simp [polyScale]; omega
    · intro α
      rw [polyAdd_val, polyAdd_val, polyScale_val, prodPlus_cons, hq]
      simp [polyVal]; ring

/-! ### facts about the registry -/

theorem regStep_log (r : Registry F) (op : Op F) :
    ∃ e, (regStep r op).log = r.log ++ e ∧
      ∀ y ∈ r.members, y ∈ e ∨ y ∈ (regStep r op).members := by
  cases op with
  | add z =>
    refine ⟨[], ?_, ?_⟩ <;> simp only [regStep, Registry.add] <;> split <;> simp_all
  | delete z =>
    by_cases hz : z ∈ r.members
    · refine ⟨[z], by simp [regStep, Registry.delete, hz], fun y hy => ?_⟩
      by_cases e : y = z <;> simp [regStep, Registry.delete, hz, hy, e]
    · exact ⟨[], by simp [regStep, Registry.delete, hz], fun y hy => by
        simp [regStep, Registry.delete, hz, hy]⟩
  | quickDelete z =>
    by_cases hz : z ∈ r.members
    · refine ⟨[z], by simp [regStep, Registry.delete, hz], fun y hy => ?_⟩
      by_cases e : y = z <;> simp [regStep, Registry.delete, hz, hy, e]
    · exact ⟨[], by simp [regStep, Registry.delete, hz], fun y hy => by
        simp [regStep, Registry.delete, hz, hy]⟩

/-- every current member is deleted later or still a member at the end -/
theorem regRun_rest (r : Registry F) (ops : List (Op F)) :
    ∃ e, (ops.foldl regStep r).log = r.log ++ e ∧
      ∀ y ∈ r.members, y ∈ e ∨ y ∈ (ops.foldl regStep r).members := by
  induction ops generalizing r with
  | nil => exact ⟨[], by simp, fun y hy => Or.inr hy⟩
  | cons op ops ih =>
    obtain ⟨e1, h1, h1'⟩ := regStep_log r op
    obtain ⟨e2, h2, h2'⟩ := ih (regStep r op)
    refine ⟨e1 ++ e2, by rw [List.foldl_cons, h2, h1, List.append_assoc], fun y hy => ?_⟩
    rcases h1' y hy with h | h
    · exact Or.inl (by simp [h])
    · rcases h2' y h with h | h
      · exact Or.inl (by simp [h])
      · exact Or.inr h

/-- calls of `add` -/
def isAdd : Op F → Bool
  | .add _ => true
  | _ => false

theorem regRun_size (r : Registry F) (ops : List (Op F)) :
    (ops.foldl regStep r).log.length + (ops.foldl regStep r).members.length
      ≤ r.log.length + r.members.length + ops.countP isAdd := by
  induction ops generalizing r with
  | nil => simp
  | cons op ops ih =>
    rw [List.foldl_cons]
    refine le_trans (ih _) ?_
    have del : ∀ z, (r.delete z).log.length + (r.delete z).members.length
        ≤ r.log.length + r.members.length := by
      intro z
      by_cases hz : z ∈ r.members
      · simp only [Registry.delete, hz, if_true, List.length_append, List.length_singleton]
        have : (r.members.filter (· ≠ z)).length < r.members.length := by
          rw [List.length_filter_lt_length_iff_exists]
          exact ⟨z, hz, by simp⟩
        omega
      · simp [Registry.delete, hz]
    cases op with
    | add z =>
      rw [List.countP_cons_of_pos (by simp [isAdd])]
      simp only [regStep, Registry.add]
      split <;> simp <;> omega
    | delete z =>
      rw [List.countP_cons_of_neg (by simp [isAdd])]
      have := del z
      simp only [regStep]; omega
    | quickDelete z =>
      rw [List.countP_cons_of_neg (by simp [isAdd])]
      have := del z
      simp only [regStep]; omega

theorem prodPlus_erase (α : F) (l : List F) (y : F) (h : y ∈ l) :
    prodPlus α l = (y + α) * prodPlus α (l.erase y) := by
  have := (List.perm_cons_erase h)
  have h2 : prodPlus α l = prodPlus α (y :: l.erase y) := by
    unfold prodPlus
    exact (this.map _).prod_eq
  rw [h2, prodPlus_cons]

theorem prodMinus_ne_zero' {y : F} {l : List F} (h : y ∉ l) : prodMinus y l ≠ 0 :=
  fun e => h (prodMinus_eq_zero.1 e)

/-! ## C59 -/

/-- The base point of C59. -/
def revBase (P1 : G1) (ops : List (Op F)) (α v : F) : G1 :=
  (prodPlus α ((regRun ops).log ++ (regRun ops).members))⁻¹ • (v • P1)

/-- C59 with the base point. -/
theorem revocation_base (ops : List (Op F)) (hq : ∀ op ∈ ops, op.isQuick = false) :
    ∃ (accC : Nat → List F) (witC : Nat → F → List F) (quo : F → List F) (r : F → F),
      (∀ i, (accC i).length ≤ ops.countP isAdd + 1) ∧
      (∀ i y, (witC i y).length ≤ ops.countP isAdd + 1) ∧
      (∀ y, (quo y).length ≤ ops.countP isAdd + 1) ∧
      (∀ y, y ∉ (regRun ops).members → r y ≠ 0) ∧
      ∀ (params : AccParams G1 G2) (α sM v : F) (s : Server F G1 G2),
        (Server.new params α sM v).run ops = .ok s →
        let B := revBase params.p1 ops α v; (v • params.p1 ≠ 0 → B ≠ 0) ∧
          (∀ i s', (Server.new params α sM v).run (ops.take i) = .ok s' →
            s'.getAccumulator = .ok (fromPowers α B (accC i)) ∧
            ∀ y C, mapGet s'.allWitnesses y = some C → C = fromPowers α B (witC i y)) ∧
          (∀ (E : Pairing F G1 G2 GT) [DecidableEq GT], params.p2 ≠ 0 → params.k2 ≠ 0 →
            ∀ V, s.getAccumulator = .ok V →
            ∀ y, y ∉ (regRun ops).members →
            ∀ w : Witness F G1, credVerify E V s.getPublicKeys params y w = .ok () →
              (y + α) • ((r y)⁻¹ • (w.witness - fromPowers α B (quo y))) = B) := by
  -- the ids deleted after the prefix, and the members at the end
  have hrest := fun i => regRun_rest (regRun (ops.take i)) (ops.drop i)
  have hfold : ∀ i, (ops.drop i).foldl regStep (regRun (ops.take i)) = regRun ops := by
    intro i
    unfold regRun
    rw [← List.foldl_append, List.take_append_drop]
  simp only [hfold] at hrest
  choose rest hlog hmem using hrest
  have hsize : (regRun ops).log.length + (regRun ops).members.length ≤ ops.countP isAdd := by
    have := regRun_size Registry.empty ops
    simpa [regRun, Registry.empty] using this
  have hrl : ∀ i, (rest i ++ (regRun ops).members).length ≤ ops.countP isAdd := by
    intro i
    have := congrArg List.length (hlog i)
    rw [List.length_append] at this ⊢
    omega
  choose cf hcl hcf using exists_coeffs (F := F)
  choose qf hql hqf using exists_quotient (F := F)
  refine ⟨fun i => cf (rest i ++ (regRun ops).members),
    fun i y => cf ((rest i ++ (regRun ops).members).erase y),
    qf (regRun ops).members, fun y => prodMinus y (regRun ops).members, ?_, ?_, ?_, ?_, ?_⟩
  · intro i
    exact le_trans (hcl _) (by have := hrl i; omega)
  · intro i y
    refine le_trans (hcl _) ?_
    have := hrl i
    have h2 := List.length_erase_le (a := y) (l := rest i ++ (regRun ops).members)
    omega
  · intro y
    exact le_trans (hql _ y) (by omega)
  · intro y hy
    exact prodMinus_ne_zero' hy
  · intro params α sM v s h
    have hR := refines_run ops (refines_new params α sM v) h
    have hI := invW_run params α sM v ops hq s h
    change Refines s (regRun ops) at hR
    have hnl : prodPlus α (regRun ops).log ≠ 0 := by
      rw [Ne, prodPlus_eq_zero, ← hR.log]; exact hI.noneg
    have hnm : prodPlus α (regRun ops).members ≠ 0 := by
      rw [Ne, prodPlus_eq_zero]
      intro hm
      exact hI.idsne _ ((hR.members _).2 hm) (by ring)
    have hn : prodPlus α ((regRun ops).log ++ (regRun ops).members) ≠ 0 := by
      rw [prodPlus_append]; exact mul_ne_zero hnl hnm
    show (_ → revBase params.p1 ops α v ≠ 0) ∧ _ ∧ _
    unfold revBase
    refine ⟨?_, ?_, ?_⟩
    · intro hv
      exact smul_ne_zero (inv_ne_zero hn) hv
    · intro i s' h'
      have hq' : ∀ op ∈ ops.take i, op.isQuick = false := fun op hop => hq op (List.mem_of_mem_take hop)
      have hR' := refines_run _ (refines_new params α sM v) h'
      change Refines s' (regRun (ops.take i)) at hR'
      have hI' := invW_run params α sM v _ hq' s' h'
      have hacc : accAfter α (v • params.p1) s'.deletions
          = prodPlus α (rest i ++ (regRun ops).members) •
            ((prodPlus α ((regRun ops).log ++ (regRun ops).members))⁻¹ • (v • params.p1)) := by
        unfold accAfter
        generalize v • params.p1 = V0
        rw [hR'.log, smul_smul]
        congr 1
        have hl := hlog i
        rw [prodPlus_append, hl, prodPlus_append]
        rw [hl, prodPlus_append] at hnl
        have h1 := left_ne_zero_of_mul hnl
        have h2 := right_ne_zero_of_mul hnl
        rw [prodPlus_append]
        field_simp
      constructor
      · rw [getAccumulator, hI'.last, fromPowers_eq, hcf, hacc]; rfl
      · intro y C hC
        have hw := hI'.wits _ (mapGet_mem hC)
        simp only at hw
        have hid : y ∈ s'.ids := List.mem_map.2 ⟨_, mapGet_mem hC, rfl⟩
        have hy0 := hI'.idsne y hid
        have hym : y ∈ rest i ++ (regRun ops).members :=
          List.mem_append.2 (hmem i y ((hR'.members y).1 hid))
        rw [hacc, prodPlus_erase α _ y hym, mul_smul] at hw
        rw [fromPowers_eq, hcf]
        exact smul_right_injective G1 hy0 hw
    · intro E _ hP hK V hV y hy w hw
      have : DecidableEq G1 := Classical.decEq _
      rw [getPublicKeys, (keys_run h).1, credVerify_iff E params hP hK] at hw
      have hw := hw.1
      unfold IsWitness at hw
      rw [getAccumulator, hI.last] at hV
      simp only [unwrap, Except.ok.injEq] at hV
      have hr : prodMinus y (regRun ops).members ≠ 0 := prodMinus_ne_zero' hy
      have hB : V = prodPlus α (regRun ops).members •
          ((prodPlus α ((regRun ops).log ++ (regRun ops).members))⁻¹ • (v • params.p1)) := by
        rw [← hV, accAfter, hR.log]
        generalize v • params.p1 = V0
        rw [smul_smul, prodPlus_append]
        congr 1
        field_simp
      generalize (prodPlus α ((regRun ops).log ++ (regRun ops).members))⁻¹ • (v • params.p1) = B at *
      rw [smul_comm, smul_sub, hw, hB, fromPowers_eq, smul_smul (y + α), ← sub_smul, hqf _ y α, smul_smul]
      rw [show (y + α) * polyVal α (qf (regRun ops).members y) + prodMinus y (regRun ops).members
        - (y + α) * polyVal α (qf (regRun ops).members y) = prodMinus y (regRun ops).members by ring]
      rw [inv_mul_cancel₀ hr, one_smul]

/-- C59. For every `add`/`delete` history `ops` (with `q` calls of `add`) there are public coefficient lists,
which depend on the ids in the history only and not on any secret, such that for all secrets: there is a
base point `B` (not the identity if the initial accumulator is not) such that

* the accumulator and every stored (issued) witness after every prefix of the history is a linear
  combination of `B, αB, …, α^q B` with these coefficients, so a party that is given only these points can
  play the servers, and corrupt any user at any time, without knowing `α`;
* any credential for any id that is not a current member, accepted by `Witness::verify` against the
  current accumulator, gives `(y+α)⁻¹B` by a public computation: a solution of the `q`-SDH problem. -/
theorem C59_revocation_sdh (ops : List (Op F)) (hq : ∀ op ∈ ops, op.isQuick = false) :
    ∃ (accC : Nat → List F) (witC : Nat → F → List F) (quo : F → List F) (r : F → F),
      (∀ i, (accC i).length ≤ ops.countP isAdd + 1) ∧
      (∀ i y, (witC i y).length ≤ ops.countP isAdd + 1) ∧
      (∀ y, (quo y).length ≤ ops.countP isAdd + 1) ∧
      (∀ y, y ∉ (regRun ops).members → r y ≠ 0) ∧
      ∀ (params : AccParams G1 G2) (α sM v : F) (s : Server F G1 G2),
        (Server.new params α sM v).run ops = .ok s →
        ∃ B : G1, (v • params.p1 ≠ 0 → B ≠ 0) ∧
          (∀ i s', (Server.new params α sM v).run (ops.take i) = .ok s' →
            s'.getAccumulator = .ok (fromPowers α B (accC i)) ∧
            ∀ y C, mapGet s'.allWitnesses y = some C → C = fromPowers α B (witC i y)) ∧
          (∀ (E : Pairing F G1 G2 GT) [DecidableEq GT], params.p2 ≠ 0 → params.k2 ≠ 0 →
            ∀ V, s.getAccumulator = .ok V →
            ∀ y, y ∉ (regRun ops).members →
            ∀ w : Witness F G1, credVerify E V s.getPublicKeys params y w = .ok () →
              (y + α) • ((r y)⁻¹ • (w.witness - fromPowers α B (quo y))) = B) := by
  obtain ⟨accC, witC, quo, r, h1, h2, h3, h4, main⟩ :=
    revocation_base (G1 := G1) (G2 := G2) (GT := GT) ops hq
  exact ⟨accC, witC, quo, r, h1, h2, h3, h4, fun params α sM v s h => ⟨_, main params α sM v s h⟩⟩

/-- C59 for proofs instead of credentials: two accepting membership proofs with the same commitments and
different challenges (what rewinding a prover gives) against the current accumulator show that the prover
used a current member's id, or they give a non-trivial linear relation between `X`, `Y`, `Z`, or a solution
of the `q`-SDH problem. -/
theorem C59_forged_proof [DecidableEq GT] (ops : List (Op F)) (hq : ∀ op ∈ ops, op.isQuick = false) :
    ∃ (quo : F → List F) (r : F → F), (∀ y, (quo y).length ≤ ops.countP isAdd + 1) ∧
      ∀ (E : Pairing F G1 G2 GT) (params : AccParams G1 G2) (α sM v : F) (s : Server F G1 G2),
        params.p2 ≠ 0 → params.k2 ≠ 0 → v • params.p1 ≠ 0 →
        (Server.new params α sM v).run ops = .ok s →
        ∃ B : G1, B ≠ 0 ∧ ∀ V, s.getAccumulator = .ok V → ∀ p p' : CredProof F G1,
          SameCommitments E params s.getPublicKeys V p p' → p.challenge ≠ p'.challenge →
          extractId p p' ∈ (regRun ops).members ∨
          (extractRelation p p' ≠ (0, 0, 0) ∧
            (extractRelation p p').1 • params.x1 + (extractRelation p p').2.1 • params.y1
              + (extractRelation p p').2.2 • params.z1 = 0) ∨
          (extractId p p' + α) • ((r (extractId p p'))⁻¹ •
            ((extractWitness params p p').witness - fromPowers α B (quo (extractId p p')))) = B := by
  obtain ⟨accC, witC, quo, r, -, -, hl, hr, H⟩ :=
    C59_revocation_sdh (F := F) (G1 := G1) (G2 := G2) (GT := GT) ops hq
  refine ⟨quo, r, hl, ?_⟩
  intro E params α sM v s hP hK hv h
  obtain ⟨B, hB, -, hsdh⟩ := H params α sM v s h
  refine ⟨B, hB hv, ?_⟩
  intro V hV p p' hc hne
  by_cases hm : extractId p p' ∈ (regRun ops).members
  · exact Or.inl hm
  · rcases C43_special_sound E params s.getPublicKeys V p p' hc hne with h1 | h1
    · exact Or.inr (Or.inr (hsdh E hP hK V hV _ hm _ h1))
    · exact Or.inr (Or.inl h1)

/-! ## C60 -/

/-- C60 (membership): for every set `S` there are public coefficients, depending on `S` and `y` only, with
which a verifying membership witness for an element `y ∉ S` against the accumulator of `S` gives
`(y+sk)⁻¹P` (`P` the generator): a solution of the `|S|`-SDH problem. -/
theorem C60_membership_forgery (S : List F) (y : F) (hy : y ∉ S) :
    ∃ (quo : List F) (r : F), quo.length ≤ S.length ∧ r ≠ 0 ∧
      ∀ (E : Pairing F G1 G2 GT) [DecidableEq GT] (sk : F) (C : G1),
        mwVerify E C y (publicKey E sk) (accWithElements E sk S) = true →
        (y + sk) • (r⁻¹ • (C - fromPowers sk E.g1 quo)) = E.g1 := by
  obtain ⟨q, hl, hq⟩ := exists_quotient S y
  refine ⟨q, prodMinus y S, hl, prodMinus_ne_zero' hy, ?_⟩
  intro E _ sk C h
  rw [C01_verify_iff, IsWitness, accWithElements, batchAdditions_eq, hq sk] at h
  rw [smul_comm, smul_sub, h, fromPowers_eq, smul_smul (y + sk), ← sub_smul, smul_smul, add_sub_cancel_left,
    inv_mul_cancel₀ (prodMinus_ne_zero' hy), one_smul]

/-- C60 (non-membership): for every set `S` there are public coefficients with which a verifying
non-membership witness with `d ≠ 0` for an element `y ∈ S` against the accumulator of `S` gives
`(y+sk)⁻¹P`. -/
theorem C60_nonmembership_forgery (S : List F) (y : F) (hy : y ∈ S) :
    ∃ quo : List F, quo.length ≤ S.length ∧
      ∀ (E : Pairing F G1 G2 GT) [DecidableEq GT] (sk : F) (w : NonMembershipWitness F G1),
        nmwVerify E w y (publicKey E sk) (accWithElements E sk S) = true → w.d ≠ 0 →
        (y + sk) • (w.d⁻¹ • (fromPowers sk E.g1 quo - w.c)) = E.g1 := by
  obtain ⟨q, hl, hq⟩ := exists_quotient S y
  refine ⟨q, hl, ?_⟩
  intro E _ sk w h hd
  rw [C10_verify_iff, IsNonWitness, accWithElements, batchAdditions_eq, hq sk, prodMinus_eq_zero.2 hy,
    add_zero] at h
  rw [smul_comm, smul_sub, fromPowers_eq, smul_smul (y + sk), ← h, add_sub_cancel_left, smul_smul,
    inv_mul_cancel₀ hd, one_smul]

/-- C60 (consistency): whatever the accumulator, a membership witness and a non-membership witness with
`d ≠ 0` for the same element that both verify give `(y+sk)⁻¹P` at once. -/
theorem C60_both_witnesses (E : Pairing F G1 G2 GT) [DecidableEq GT] (sk y : F) (V C : G1)
    (w : NonMembershipWitness F G1) (h₁ : mwVerify E C y (publicKey E sk) V = true)
    (h₂ : nmwVerify E w y (publicKey E sk) V = true) (hd : w.d ≠ 0) :
    (y + sk) • (w.d⁻¹ • (C - w.c)) = E.g1 := by
  rw [C01_verify_iff, IsWitness] at h₁
  rw [C10_verify_iff, IsNonWitness] at h₂
  rw [smul_comm, smul_sub, h₁, ← h₂, add_sub_cancel_left, smul_smul, inv_mul_cancel₀ hd, one_smul]

end

/-! ### the hypotheses are met (by the holder of the secret key, who can forge) -/

/-- after deleting 2 (and not re-adding it) the key holder can still make a credential for 2 that verifies -/
example : (∀ op ∈ [Op.add (1 : ℚ), .add 2, .add 3, .delete 2], op.isQuick = false) ∧
    (2 : ℚ) ∉ (regRun [Op.add (1 : ℚ), .add 2, .add 3, .delete 2]).members ∧
    (match (Server.new exParams (4 : ℚ) 9 6).run [.add (1 : ℚ), .add 2, .add 3, .delete 2] with
      | .ok s => (match s.getAccumulator with
        | .ok V => (match credVerify (Pairing.field ℚ) V s.getPublicKeys exParams 2
            ⟨5, V / 6, (5 * 3 + 2) / 11⟩ with
          | .ok _ => true | .error _ => false)
        | .error _ => false)
      | .error _ => false) = true := by
  refine ⟨by decide, by decide +kernel, by decide +kernel⟩

example : mwVerify (Pairing.field ℚ) (35 / 6) 2 (publicKey (Pairing.field ℚ) 4)
      (accWithElements (Pairing.field ℚ) 4 [1, 3]) = true ∧ (2 : ℚ) ∉ [1, 3] ∧
    nmwVerify (Pairing.field ℚ) ⟨30 / 5, 5⟩ 1 (publicKey (Pairing.field ℚ) 4)
      (accWithElements (Pairing.field ℚ) 4 [1, 3]) = true := by
  refine ⟨by decide +kernel, by decide, by decide +kernel⟩

/-- both kinds of witness for one element and accumulator (made with the secret key) -/
example : mwVerify (Pairing.field ℚ) 7 1 (publicKey (Pairing.field ℚ) 4) 35 = true ∧
    nmwVerify (Pairing.field ℚ) ⟨6, 5⟩ 1 (publicKey (Pairing.field ℚ) 4) 35 = true := by
  refine ⟨by decide +kernel, by decide +kernel⟩

end Allo
