import Verif.Model.Suite
import Verif.Props.Accumulator
import Verif.Props.AccProof
import Verif.Props.EndToEnd
import Verif.Props.AccBinding
import Verif.Props.Shamir
import Verif.Props.Update
import Verif.Props.Credential

/-!
# C95: the crate's own tests, for every random choice

Each test of `/repo` (modelled in `Verif.Model.Suite`, sizes as parameters) and exactly for which random values it
passes: the tests are flaky only where stated here.
-/

set_option linter.unusedSectionVars false
set_option linter.unusedVariables false
namespace Allo
open Spec Server

section
variable {F G1 G2 GT : Type} [Field F] [DecidableEq F] [AddCommGroup G1] [Module F G1] [DecidableEq G1]
  [AddCommGroup G2] [Module F G2] [AddCommGroup GT] [Module F GT] [DecidableEq GT]

theorem smul_g1_eq (E : Pairing F G1 G2 GT) (a : F) : a • E.g1 = E.g1 ↔ a = 1 := by
  constructor
  · intro h
    have : a • E.g1 = (1 : F) • E.g1 := by rw [h, one_smul]
    exact smul_left_injective F E.g1_ne this
  · rintro rfl; exact one_smul _ _

/-- **C95** (`acc.rs`). `new_accmulator_*` passes exactly if the product of `e + key` over the elements is not 1;
`add_test` if `key + value ≠ 1`; `sub_test` if it is neither 0 nor 1 (it panics at 0); `batch_test` if no value is
`-key` (it panics otherwise) and the product is not 1. -/
theorem C95_accumulator (E : Pairing F G1 G2 GT) (key value : F) (elems : List F) :
    (Suite.newAccumulator E key elems = .ok true ↔ (elems.map (fun e => e + key)).prod ≠ 1) ∧
    (Suite.addTest E key value = .ok true ↔ key + value ≠ 1) ∧
    (Suite.subTest E key value = .ok true ↔ key + value ≠ 0 ∧ key + value ≠ 1) ∧
    (Suite.batchTest E key elems = .ok true ↔ -key ∉ elems ∧ (elems.map (fun e => e + key)).prod ≠ 1) := by
  have hp : (elems.map (fun e => e + key)).prod = prodPlus key elems := by simp [prodPlus]
  refine ⟨?_, ?_, ?_, ?_⟩
  · simp [Suite.newAccumulator, pure, Except.pure, accWithElements, batchAdditions_eq, smul_g1_eq, hp]
  · simp [Suite.addTest, pure, Except.pure, accAddAssign, smul_g1_eq]
  · by_cases h1 : key + value = 1
    · simp [Suite.subTest, accAddAssign, h1, smul_g1_eq, pure, Except.pure]
    · by_cases h0 : key + value = 0
      · simp [Suite.subTest, accAddAssign, h0, accRemoveAssign, bind, Except.bind, Ne.symm E.g1_ne]
      · simp [Suite.subTest, accAddAssign, h0, h1, smul_g1_eq, accRemoveAssign, inv!_ne h0, bind, Except.bind, pure,
          Except.pure, smul_smul, inv_mul_cancel₀ h0]
  · rw [hp]
    obtain ⟨cs, h1, -, -⟩ := accUpdate_ok E.g1 key elems [] (by simp)
    have h1' : accUpdateAssign E.g1 key elems [] = _ := h1
    by_cases hpr : prodPlus key elems = 1
    · simp [Suite.batchTest, h1', hpr, bind, Except.bind, pure, Except.pure]
    · by_cases hk : -key ∈ elems
      · have h2 : accUpdateAssign (prodPlus key elems • E.g1) key [] elems = _ := accUpdate_err _ key [] elems hk
        simp [Suite.batchTest, h1', hpr, bind, Except.bind, pure, Except.pure, smul_g1_eq, h2, hk]
      · obtain ⟨cs2, h2, -, -⟩ := accUpdate_ok (prodPlus key elems • E.g1) key [] elems hk
        have h2' : accUpdateAssign (prodPlus key elems • E.g1) key [] elems = _ := h2
        have hne : prodPlus key elems ≠ 0 := by rwa [Ne, prodPlus_eq_zero]
        simp [Suite.batchTest, h1', hpr, bind, Except.bind, pure, Except.pure, smul_g1_eq, h2', hk, smul_smul,
          inv_mul_cancel₀ hne]

/-- **C95** (`false_witness`, ignored in the crate). Its expectation is wrong: `MembershipWitness::new` never returns
`None`, so the test fails for every key and all elements (it panics for the key `-101`). -/
theorem C95_false_witness (E : Pairing F G1 G2 GT) (key : F) (elems : List F) :
    (key ≠ -101 → Suite.falseWitness E key elems = .ok false) ∧
    (key = -101 → Suite.falseWitness E key elems = .error .unwrapNone) := by
  unfold Suite.falseWitness
  constructor
  · intro h
    have h : key + 101 ≠ 0 := fun h0 => h (eq_neg_of_add_eq_zero_left h0)
    simp [mwNew, accRemove, inv!_ne h, bind, Except.bind, pure, Except.pure]
  · rintro rfl
    simp [mwNew, accRemove, bind, Except.bind]

theorem createCoefficients_err (key : F) (A D : List F) (h : -key ∈ D) :
    createCoefficients key A D = .error .unwrapNone := by
  have : vdLoop key D = .error .unwrapNone := by
    unfold vdLoop
    refine foldlM_err _ _ _ ⟨D.length - 1, ?_, fun s => ?_⟩ (fun s b hb => ?_) _
    · have := List.length_pos_of_mem h
      simp; omega
    · have := List.length_pos_of_mem h
      rw [show D.length - 1 + 1 = D.length by omega, List.take_length, batchDeletions_err h]
      rfl
    · by_cases hb : -key ∈ D.take (b + 1)
      · right; rw [batchDeletions_err hb]; rfl
      · left; rw [batchDeletions_ok hb]; exact ⟨_, rfl⟩
  simp [createCoefficients, this, bind, Except.bind]

/-- **C95** (`key.rs`). `batch_test` passes exactly if no element is `-key` (it panics otherwise); `coefficient_test`
passes exactly if `-key` is not to be deleted and the expected length is the larger of the two numbers. -/
theorem C95_key (E : Pairing F G1 G2 GT) (key : F) (A D : List F) (n : Nat) :
    (Suite.keyBatchTest E key D = .ok true ↔ -key ∉ D) ∧
    (Suite.coefficientTest key A D n = .ok true ↔ -key ∉ D ∧ n = max A.length D.length) := by
  constructor
  · by_cases h : -key ∈ D
    · simp [Suite.keyBatchTest, batchDeletions_err h, h, bind, Except.bind]
    · have hne : prodPlus key D ≠ 0 := by rwa [Ne, prodPlus_eq_zero]
      simp [Suite.keyBatchTest, batchDeletions_ok h, h, bind, Except.bind, pure, Except.pure, batchAdditions_eq,
        mul_inv_cancel₀ hne]
  · by_cases h : -key ∈ D
    · have : ∃ e, createCoefficients key A D = .error e := ⟨_, createCoefficients_err key A D h⟩
      obtain ⟨e, he⟩ := this
      simp [Suite.coefficientTest, he, h, bind, Except.bind]
    · obtain ⟨cs, h1, h2, -⟩ := createCoefficients_ok key A D h
      simp [Suite.coefficientTest, h1, h, h2, bind, Except.bind, pure, Except.pure, eq_comm]

/-- **C95** (`witness.rs`, `update_test`). Passes exactly if `y ≠ -key`, the deleted element is not `-key` (it panics
otherwise), and it is not `y` itself (or the accumulator is the identity, or `y + key = 1`). -/
theorem C95_update_test (E : Pairing F G1 G2 GT) (key : F) (S : List F) (e0 e1 y : F) :
    Suite.updateTest E key S e0 e1 y = .ok true ↔
      y ≠ -key ∧ e1 ≠ -key ∧ (e1 ≠ y ∨ y + key = 1 ∨ -key ∈ S) := by
  by_cases hy : key + y = 0
  · have : y = -key := eq_neg_of_add_eq_zero_right hy
    simp [Suite.updateTest, mwNew, accRemove, hy, bind, Except.bind, this]
  have hy' : y ≠ -key := fun h => hy (by rw [h]; ring)
  have hnew : ∀ V : G1, mwNew y V key = .ok (some ((key + y)⁻¹ • V)) := fun V => by
    simp [mwNew, accRemove, inv!_ne hy, bind, Except.bind, pure, Except.pure]
  have huniq : ∀ C V : G1, mwVerify E C y (publicKey E key) V = true ↔ C = (key + y)⁻¹ • V := by
    intro C V
    rw [mwVerify_iff, add_comm y]
    constructor
    · rintro rfl; rw [smul_smul, inv_mul_cancel₀ hy, one_smul]
    · rintro rfl; rw [smul_smul, mul_inv_cancel₀ hy, one_smul]
  set V := accWithElements E key S with hV
  have hw : mwVerify E ((key + y)⁻¹ • V) y (publicKey E key) V = true := (huniq _ _).2 rfl
  have h1 := (huniq _ _).1 (C11_single_add E _ V key y e0 hw)
  by_cases he : key + e1 = 0
  · have he' : e1 = -key := eq_neg_of_add_eq_zero_right he
    simp [Suite.updateTest, ← hV, hnew, unwrap, h1, accRemove, he, bind, Except.bind, he']
  have he' : e1 ≠ -key := fun h => he (by rw [h]; ring)
  have hrem : accRemove V key e1 = .ok ((key + e1)⁻¹ • V) := by
    simp [accRemove, inv!_ne he, bind, Except.bind, pure, Except.pure]
  by_cases hd : e1 = y
  · subst hd
    have h2 := (C11_own_delete ((key + e1)⁻¹ • V) V ((key + e1)⁻¹ • V) ⟨0, 0⟩ e1 []).1
    have : V = 0 ↔ -key ∈ S := by
      rw [hV, accWithElements, batchAdditions_eq, smul_eq_zero, or_iff_left E.g1_ne, prodPlus_eq_zero]
    simp only [Suite.updateTest, ← hV, hnew, unwrap, h1, hrem, h2, bind, Except.bind, pure, Except.pure, ne_eq,
      not_true_eq_false, if_false, Except.ok.injEq, decide_eq_true_eq, hy', not_false_eq_true, true_and, false_or]
    rw [smul_smul, ← sub_eq_zero, ← sub_smul, smul_eq_zero, this]
    refine or_congr_left ?_
    rw [sub_eq_zero, left_eq_mul₀ (inv_ne_zero hy), inv_eq_one, add_comm]
  · have h2 := (huniq _ _).1 (C11_single_delete E _ V _ key y e1 hw hrem hd)
    simp [Suite.updateTest, ← hV, hnew, unwrap, h1, hrem, h2, bind, Except.bind, pure, Except.pure, hy', he', hd]

/-- the update loop of the tests is `updateHistory` -/
theorem suite_history (key : F) (batches : List (List F × List F)) (acc : G1)
    (pub : List (List F × List F × List G1)) :
    batches.foldlM (fun (st : G1 × List (List F × List F × List G1)) b => do
        let (acc, coefficients) ← accUpdateAssign st.1 key b.1 b.2
        pure (acc, st.2 ++ [(b.1, b.2, coefficients)])) (acc, pub)
      = (updateHistory key acc batches).map (fun r => (r.1, pub ++ r.2)) := by
  induction batches generalizing acc pub with
  | nil => simp [updateHistory, pure, Except.pure, Except.map]
  | cons b rest ih =>
    rw [List.foldlM_cons]
    simp only [updateHistory]
    have : accUpdateAssign acc key b.1 b.2 = accUpdate acc key b.1 b.2 := rfl
    rw [this]
    cases h : accUpdate acc key b.1 b.2 with
    | error e => simp [bind, Except.bind, Except.map, h]
    | ok p =>
      simp only [bind, Except.bind, pure, Except.pure] at ih ⊢
      rw [ih]
      cases h2 : updateHistory key p.1 rest with
      | error e => simp [h, h2, Except.map]
      | ok q => simp [h, h2, Except.map]

theorem updateHistory_err (key : F) (V : G1) (hist : List (List F × List F)) (h : ∃ b ∈ hist, -key ∈ b.2) :
    ∃ e, updateHistory key V hist = .error e := by
  induction hist generalizing V with
  | nil => simp at h
  | cons b rest ih =>
    by_cases hb : -key ∈ b.2
    · exact ⟨_, by simp [updateHistory, accUpdate_err _ _ _ _ hb, bind, Except.bind]; rfl⟩
    · obtain ⟨cs, h1, -, -⟩ := accUpdate_ok V key b.1 b.2 hb
      obtain ⟨e, he⟩ := ih ((prodPlus key b.1 * (prodPlus key b.2)⁻¹) • V) (by
        obtain ⟨b', h1, h2⟩ := h
        rcases List.mem_cons.1 h1 with rfl | h1
        · exact absurd h2 hb
        · exact ⟨b', h1, h2⟩)
      exact ⟨e, by simp only [updateHistory, h1, bind, Except.bind, he]⟩

/-- **C95** (`membership_batch_update`, `membership_multi_batch_update`, `single_server_split_batch_update`), for any
elements and any batches of changes. They panic if `y` or a deleted element is `-key`; otherwise they pass if `y` is
not deleted; if it is, the first two pass exactly if the final accumulator is the first one. -/
theorem C95_batch_tests (E : Pairing F G1 G2 GT) (key : F) (S : List F) (y : F) (batches : List (List F × List F)) :
    ((y = -key ∨ ∃ b ∈ batches, -key ∈ b.2) →
      (∃ e, Suite.multiBatchUpdate E key S y batches = .error e) ∧
      (∃ e, Suite.splitBatchUpdate E key S y batches = .error e)) ∧
    (y ≠ -key → (∀ b ∈ batches, -key ∉ b.2) →
      ((∀ b ∈ batches, y ∉ b.2) →
        Suite.multiBatchUpdate E key S y batches = .ok true ∧ Suite.splitBatchUpdate E key S y batches = .ok true) ∧
      ((∃ b ∈ batches, y ∈ b.2) → (Suite.multiBatchUpdate E key S y batches = .ok true ↔
        ∃ pub, updateHistory key (accWithElements E key S) batches = .ok (accWithElements E key S, pub)))) := by
  by_cases hy : y + key = 0
  · have hy' : y = -key := eq_neg_of_add_eq_zero_left hy
    obtain ⟨e, he⟩ := ((C02_panic (accWithElements E key S) y key).1).2 hy
    refine ⟨fun _ => ⟨⟨e, ?_⟩, ⟨e, ?_⟩⟩, fun h => absurd hy' h⟩
    · simp [Suite.multiBatchUpdate, he, bind, Except.bind]
    · simp [Suite.splitBatchUpdate, he, bind, Except.bind]
  have hy' : y ≠ -key := fun h => hy (by rw [h]; ring)
  obtain ⟨C, hC, hv⟩ := C02_new E (accWithElements E key S) y key hy
  constructor
  · rintro (h | h)
    · exact absurd h hy'
    · obtain ⟨e, he⟩ := updateHistory_err key (accWithElements E key S) batches h
      have hh := suite_history key batches (accWithElements E key S) []
      rw [he] at hh
      simp only [bind, Except.bind, pure, Except.pure] at hh
      refine ⟨⟨e, ?_⟩, ⟨e, ?_⟩⟩
      · simp [Suite.multiBatchUpdate, hC, unwrap, hv, bind, Except.bind, pure, Except.pure, hh, Except.map]
      · simp [Suite.splitBatchUpdate, hC, unwrap, hv, bind, Except.bind, pure, Except.pure, hh, Except.map]
  · intro _ hk
    obtain ⟨⟨V', pub⟩, hp⟩ := C07_history_total key (accWithElements E key S) batches hk
    have hh := suite_history key batches (accWithElements E key S) []
    rw [hp] at hh
    simp only [bind, Except.bind, pure, Except.pure] at hh
    have hm : Suite.multiBatchUpdate E key S y batches
        = .ok (mwVerify E (mwMultiBatchUpdate C y pub) y (publicKey E key) V') := by
      simp [Suite.multiBatchUpdate, hC, unwrap, hv, bind, Except.bind, pure, Except.pure, hh, Except.map]
    have hs : Suite.splitBatchUpdate E key S y batches
        = .ok (mwVerify E (pub.foldl (fun C t => mwBatchUpdate C y t.1 t.2.1 t.2.2) C) y (publicKey E key) V') := by
      simp [Suite.splitBatchUpdate, hC, unwrap, hv, bind, Except.bind, pure, Except.pure, hh, Except.map]
    constructor
    · intro hd
      obtain ⟨a, b⟩ := C07_history E C _ V' key y batches pub hv hp hd
      rw [hm, hs, a, b]
      exact ⟨rfl, rfl⟩
    · intro hd
      have hpub : ∃ t ∈ pub, y ∈ t.2.1 := by
        clear hm hs hh hv hC hk
        generalize accWithElements E key S = V at hp
        induction batches generalizing V pub with
        | nil => simp at hd
        | cons b rest ih =>
          obtain ⟨V1, cs, l', h1, h2, rfl⟩ := updateHistory_cons hp
          obtain ⟨b', hb, hb'⟩ := hd
          rcases List.mem_cons.1 hb with rfl | hb
          · exact ⟨_, List.mem_cons_self, hb'⟩
          · obtain ⟨t, ht, ht'⟩ := ih _ ⟨b', hb, hb'⟩ _ h2
            exact ⟨t, List.mem_cons_of_mem _ ht, ht'⟩
      rw [hm, (C06_removed_unchanged C ⟨0, 0⟩ y pub hpub).1, Except.ok.injEq]
      rw [mwVerify_iff] at hv ⊢
      rw [hv]
      constructor
      · rintro rfl; exact ⟨pub, hp⟩
      · rintro ⟨pub', hp'⟩
        rw [hp'] at hp
        cases hp; rfl

/-- **C95** (`proof.rs`). `basic_membership_proof` passes exactly if `y ≠ -sk`, and `basic_nonmembership_proof` exactly
if `y` is neither `-sk` nor an element (they panic otherwise), whatever the parameters, the hash function, the random
values and the blinding. -/
theorem C95_proofs (E : Pairing F G1 G2 GT) (H : Oracle F) (enc : Enc G1 G2 GT) (sk y : F) (S : List F)
    (params : ProofParams G1) (r : MemRand F) (blinding : Option F) (r' : NonRand F) :
    (Suite.membershipProof E H enc sk y params r = .ok true ↔ y ≠ -sk) ∧
    (Suite.nonMembershipProof E H enc sk y S params blinding r' = .ok true ↔ y ≠ -sk ∧ y ∉ S) := by
  constructor
  · by_cases hy : y + sk = 0
    · have hy' : y = -sk := eq_neg_of_add_eq_zero_left hy
      obtain ⟨e, he⟩ := ((C02_panic (accWithElements E sk [y]) y sk).1).2 hy
      simp only [Suite.membershipProof, he, bind, Except.bind]
      simp [hy']
    · have hy' : y ≠ -sk := fun h => hy (by rw [h]; ring)
      obtain ⟨C, hC, hv⟩ := C02_new E (accWithElements E sk [y]) y sk hy
      have := C46_complete E H enc (.hidden y) C (accWithElements E sk [y]) params (publicKey E sk) hv r
      simp only [] at this
      simp [Suite.membershipProof, hC, unwrap, bind, Except.bind, pure, Except.pure, hy', this]
  · by_cases hS : y ∈ S
    · have := (C08_none_iff E y S sk).2 hS
      simp [Suite.nonMembershipProof, Suite.nonMembershipChallenges, this, unwrap, bind, Except.bind, hS]
    · by_cases hy : y = -sk
      · obtain ⟨e, he⟩ := (C08_panic E y S sk).2 ⟨hS, hy⟩
        simp only [Suite.nonMembershipProof, Suite.nonMembershipChallenges, he, bind, Except.bind]
        simp [hy]
      · obtain ⟨w, h1, h2, h3⟩ := C08_some E y S sk hS hy
        obtain ⟨nc, h4, h5⟩ := C49_complete E H enc y w _ params (publicKey E sk) h3 h2 blinding r'
          (((Transcript.new "basic_nonmembership_proof").append "accumulator" (enc.g1 (accWithElements E sk S)))) "challenge"
        simp only [] at h5
        simp [Suite.nonMembershipProof, Suite.nonMembershipChallenges, h1, unwrap, h4, bind, Except.bind, pure,
          Except.pure, h5, hS, hy]

/-- **C95** (`growing_accumulator`, a negative test). With `y ∉ S`, `y ≠ -sk`, and `c` the prover's challenge: if
`c = 0`, `e6 + sk = 1` or `-sk ∈ S` the test fails; otherwise the two sides hash different transcripts, and the test
passes exactly if these do not collide. -/
theorem C95_growing (E : Pairing F G1 G2 GT) (H : Oracle F) (enc : Enc G1 G2 GT) (h1 : Function.Injective enc.g1)
    (h3 : Function.Injective enc.gt) (sk y e6 : F) (S : List F) (hS : y ∉ S) (hy : y ≠ -sk)
    (params : ProofParams G1) (blinding : Option F) (rand : NonRand F) :
    ∃ w nc, nmwNew E y S sk = .ok (some w) ∧
      NonCommitting.new E y w params (publicKey E sk) blinding rand = .ok nc ∧
      let acc := accAdd (accWithElements E sk S) sk e6
      let pre := (Transcript.new "growing_accumulator").append "accumulator" (enc.g1 acc)
      let t := nc.getBytesForChallenge enc pre
      let c := H t "challenge"
      let t' := ((nc.genProof c).finalize E acc params (publicKey E sk) c).getBytesForChallenge enc pre
      (c = 0 ∨ e6 + sk = 1 ∨ -sk ∈ S → Suite.growingAccumulator E H enc sk y e6 S params blinding rand = .ok false) ∧
      (¬ (c = 0 ∨ e6 + sk = 1 ∨ -sk ∈ S) → t ≠ t' ∧
        (Suite.growingAccumulator E H enc sk y e6 S params blinding rand = .ok true ↔
          H t "challenge" ≠ H t' "challenge")) := by
  obtain ⟨w, e1, e2, e3⟩ := C08_some E y S sk hS hy
  obtain ⟨nc, e4⟩ := (C49_panics_iff E y w params (publicKey E sk) blinding rand).2 e2
  set acc := accAddAssign (accWithElements E sk S) sk e6 with hacc
  set pre := (Transcript.new "growing_accumulator").append "accumulator" (enc.g1 acc) with hpre
  set c := H (nc.getBytesForChallenge enc pre) "challenge" with hc
  have hfin := C49_finalize_iff E y w acc params (publicKey E sk) blinding rand c nc e4
  have hrun : Suite.growingAccumulator E H enc sk y e6 S params blinding rand
      = .ok (decide (c ≠ H (((nc.genProof c).finalize E acc params (publicKey E sk) c).getBytesForChallenge enc pre)
        "challenge")) := by
    simp [Suite.growingAccumulator, Suite.nonMembershipChallenges, e1, unwrap, e4, bind, Except.bind, pure,
      Except.pure, hc, hacc, hpre]
  have hacc0 : acc = accWithElements E sk S ↔ e6 + sk = 1 ∨ -sk ∈ S := by
    rw [hacc, accAddAssign, accWithElements, batchAdditions_eq, smul_smul, ← sub_eq_zero, ← sub_smul, smul_eq_zero,
      or_iff_left E.g1_ne, sub_eq_zero, mul_left_eq_self₀, prodPlus_eq_zero, add_comm]
  have hver : nmwVerify E w y (publicKey E sk) acc = true ↔ e6 + sk = 1 ∨ -sk ∈ S := by
    rw [← hacc0]
    rw [nmwVerify_iff] at e3 ⊢
    rw [e3, eq_comm]
  refine ⟨w, nc, e1, e4, ?_, ?_⟩
  · intro h
    have : (nc.genProof c).finalize E acc params (publicKey E sk) c = nc.committed :=
      hfin.2 (h.imp_right hver.2)
    rw [hrun, this]
    simp only [Except.ok.injEq, decide_eq_false_iff_not, not_not]
    rfl
  · intro h
    refine ⟨fun ht => ?_, ?_⟩
    · have := NonFinal.bytes_inj enc h1 h3 _ nc.committed pre ht.symm
      exact h ((hfin.1 this).imp_right hver.1)
    · rw [hrun, Except.ok.injEq, decide_eq_true_eq]
      exact Iff.rfl

/-- **C95** (the Shamir tests), for every threshold `1 ≤ t ≤ n`, secrets, points and random coefficients: they pass. -/
theorem C95_shamir (t n : Nat) (ht : 1 ≤ t) (hn : t ≤ n) (hc : ∀ i, 0 < i → i ≤ n → (i : F) ≠ 0)
    (secret secret2 a b : F) (P Q : G1) (coef coef2 : Nat → F) :
    Suite.shamir t n secret coef false = .ok true ∧ Suite.shamir t n secret coef true = .ok true ∧
    Suite.shamirAffine t n secret a b coef = .ok true ∧
    Suite.shamirPoint t n secret secret2 P Q coef coef2 = .ok true := by
  obtain ⟨shares, cs, ch, h1, h2, -, h4, h5⟩ := C33_round_trip t n ht hn hc secret coef
  refine ⟨?_, ?_, ?_, ?_⟩
  · simp [Suite.shamir, h1, h2, h5, unwrap, bind, Except.bind, pure, Except.pure]
  · simp [Suite.shamir, h1, h2, h4, unwrap, bind, Except.bind, pure, Except.pure]
  · have hsh := shamirShare_ok t n ht secret coef
    obtain ⟨cs, ch, h2, h4⟩ := C34_affine_scalar t n ht hn hc b [(secret, coef, a)]
      (((List.range n).map (fun i => (((i + 1 : Nat) : F), polyVal ((i + 1 : Nat) : F) (sharePoly t secret coef)))).map
        (fun s => (s.1, s.2 * a + b))) (by simp)
    have he : ((List.range n).map (fun i => (((i + 1 : Nat) : F), polyVal ((i + 1 : Nat) : F) (sharePoly t secret coef)))).map
        (fun s => (s.1, s.2 * a + b)) = (List.range n).map (fun i => (((i + 1 : Nat) : F),
          b + ([(secret, coef, a)].map (fun s => shareAt t n s.1 s.2.1 i * s.2.2)).sum)) := by
      rw [List.map_map]
      apply List.map_congr_left
      intro i hi
      simp [shareAt_eq t n ht secret coef i (List.mem_range.1 hi), add_comm]
    rw [he] at h2
    simp only [Suite.shamirAffine, hsh, bind, Except.bind, he, h2, h4, unwrap, pure, Except.pure]
    simp [add_comm, mul_comm]
  · have hsh := shamirShare_ok t n ht secret coef
    have hsh2 := shamirShare_ok t n ht secret2 coef2
    obtain ⟨cs, ch, h2, h4⟩ := C34_affine t n ht hn hc (0 : G1) [(secret, coef, P), (secret2, coef2, Q)]
      ((List.range n).map (fun i => (((i + 1 : Nat) : F), polyVal ((i + 1 : Nat) : F) (sharePoly t secret coef)))) (by simp)
    have hm : ∀ l : List Nat, (∀ i ∈ l, i < n) → l.mapM (fun i => do
        let s1 ← idx ((List.range n).map (fun i => (((i + 1 : Nat) : F), polyVal ((i + 1 : Nat) : F)
          (sharePoly t secret coef)))) i
        let s2 ← idx ((List.range n).map (fun i => (((i + 1 : Nat) : F), polyVal ((i + 1 : Nat) : F)
          (sharePoly t secret2 coef2)))) i
        pure (s1.1, s1.2 • P + s2.2 • Q)) = (.ok (l.map (fun i => (((i + 1 : Nat) : F),
          (0 : G1) + ([(secret, coef, P), (secret2, coef2, Q)].map (fun s => shareAt t n s.1 s.2.1 i • s.2.2)).sum)))
            : Rust _) := by
      intro l hl
      induction l with
      | nil => rfl
      | cons i l ih =>
        rw [List.mapM_cons, ih (fun j hj => hl j (by simp [hj]))]
        have := hl i (by simp)
        simp [idx, this, bind, Except.bind, pure, Except.pure, shareAt_eq t n ht _ _ _ this]
    have hm := hm (List.range n) (fun i hi => List.mem_range.1 hi)
    simp only [bind, Except.bind, pure, Except.pure] at hm
    simp only [Suite.shamirPoint, hsh, hsh2, bind, Except.bind, pure, Except.pure, List.length_map, List.length_range,
      hm, h2, h4, unwrap]
    simp

/-- With the key `4`: the accumulator tests pass on `1, 2, 3` and fail on the single element `-3` (`-3 + 4 = 1`); the
multi-batch tests pass on two batches, and panic if a batch deletes `-4`. -/
example : Suite.newAccumulator (Pairing.field ℚ) 4 [1, 2, 3] = .ok true ∧
    Suite.newAccumulator (Pairing.field ℚ) 4 [-3] ≠ .ok true ∧
    Suite.batchTest (Pairing.field ℚ) 4 [1, 2, 3] = .ok true ∧
    Suite.updateTest (Pairing.field ℚ) 4 [1, 2] 5 6 1 = .ok true ∧
    Suite.multiBatchUpdate (Pairing.field ℚ) 4 [1, 2, 3] 1 [([5], [2]), ([6, 7], [3, 5])] = .ok true ∧
    (∃ e, Suite.multiBatchUpdate (Pairing.field ℚ) 4 [1, 2, 3] 1 [([5], [2]), ([6], [-4])] = .error e) ∧
    Suite.falseWitness (Pairing.field ℚ) 4 [1, 2] = .ok false ∧
    Suite.shamir 2 3 (5 : ℚ) (fun _ => 7) true = .ok true := by
  refine ⟨(C95_accumulator (Pairing.field ℚ) 4 0 _).1.2 (by norm_num), fun h => ?_,
    (C95_accumulator (Pairing.field ℚ) 4 0 _).2.2.2.2 (by norm_num), (C95_update_test _ 4 _ 5 6 1).2 (by norm_num),
    (((C95_batch_tests _ 4 _ 1 _).2 (by norm_num) (by norm_num)).1 (by norm_num)).1,
    ((C95_batch_tests _ 4 _ 1 _).1 (by norm_num)).1, (C95_false_witness _ 4 _).1 (by norm_num),
    (C95_shamir (G1 := ℚ) 2 3 (by omega) (by omega) (fun i h _ => by exact_mod_cast h.ne') 5 0 0 0 0 0 _ (fun _ => 0)).2.1⟩
  exact (C95_accumulator (Pairing.field ℚ) 4 0 _).1.1 h (by norm_num)

end
end Allo
