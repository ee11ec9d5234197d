import Verif.Props.Accumulator
import Verif.Props.Server
import Mathlib.Algebra.Polynomial.Roots
import Mathlib.Algebra.Polynomial.BigOperators

/-!
# C99: an accumulator binds to the multiset of its elements

Two different multisets of elements have the same accumulator for few keys only, and whoever finds such a pair
has found the secret key.
-/

set_option linter.unusedSectionVars false

namespace Allo
open Spec Server Polynomial

section
variable {F G1 G2 GT : Type} [Field F] [DecidableEq F] [AddCommGroup G1] [Module F G1]
  [AddCommGroup G2] [Module F G2] [AddCommGroup GT] [Module F GT] [DecidableEq GT]

/-- `∏ (X + v)` over a list of elements: the accumulated polynomial. -/
noncomputable def elemPoly (S : List F) : F[X] := (S.map (fun s => X - C (-s))).prod

theorem elemPoly_eval (S : List F) (sk : F) : (elemPoly S).eval sk = prodPlus sk S := by
  induction S with
  | nil => simp [elemPoly]
  | cons a S ih =>
    rw [show elemPoly (a :: S) = (X - C (-a)) * elemPoly S by simp [elemPoly]]
    rw [eval_mul, ih, prodPlus_cons]; simp [add_comm]

theorem elemPoly_monic (S : List F) : (elemPoly S).Monic := by
  induction S with
  | nil => simp [elemPoly]
  | cons a S ih =>
    rw [show elemPoly (a :: S) = (X - C (-a)) * elemPoly S by simp [elemPoly]]
    exact (monic_X_sub_C _).mul ih

theorem elemPoly_natDegree (S : List F) : (elemPoly S).natDegree = S.length := by
  induction S with
  | nil => simp [elemPoly]
  | cons a S ih =>
    rw [show elemPoly (a :: S) = (X - C (-a)) * elemPoly S by simp [elemPoly]]
    rw [(monic_X_sub_C _).natDegree_mul (elemPoly_monic S), ih, natDegree_X_sub_C]
    simp [add_comm]

theorem elemPoly_inj {S T : List F} (h : elemPoly S = elemPoly T) : S.Perm T := by
  have key : ∀ S : List F, (elemPoly S).roots = ((S.map (fun s => -s) : List F) : Multiset F) := by
    intro S
    have := roots_multiset_prod_X_sub_C ((S.map (fun s => -s) : List F) : Multiset F)
    rw [← this]
    congr 1
    simp [elemPoly, Function.comp_def]
  have h2 := key S
  rw [h, key T] at h2
  have h3 : (T.map (fun s => -s)).Perm (S.map (fun s => -s)) := Multiset.coe_eq_coe.1 h2
  have h4 := h3.map (fun s => -s)
  simp only [List.map_map, Function.comp_def, neg_neg, List.map_id'] at h4
  exact h4.symm

/-- The keys for which two multisets collide. -/
noncomputable def badKeys (S T : List F) : Finset F := (elemPoly S - elemPoly T).roots.toFinset

theorem mem_badKeys {S T : List F} (h : ¬ S.Perm T) (sk : F) :
    sk ∈ badKeys S T ↔ prodPlus sk S = prodPlus sk T := by
  have hne : elemPoly S - elemPoly T ≠ 0 := fun h0 => h (elemPoly_inj (sub_eq_zero.1 h0))
  rw [badKeys, Multiset.mem_toFinset, mem_roots hne, IsRoot.def, eval_sub, elemPoly_eval, elemPoly_eval,
    sub_eq_zero]

theorem badKeys_card (S T : List F) : (badKeys S T).card ≤ max S.length T.length := by
  refine (Multiset.toFinset_card_le _).trans ((card_roots' _).trans ((natDegree_sub_le _ _).trans ?_))
  rw [elemPoly_natDegree, elemPoly_natDegree]

theorem badKeys_card_lt {S T : List F} (h : ¬ S.Perm T) (hl : S.length = T.length) :
    (badKeys S T).card < S.length := by
  have hne : elemPoly S - elemPoly T ≠ 0 := fun h0 => h (elemPoly_inj (sub_eq_zero.1 h0))
  refine lt_of_le_of_lt (Multiset.toFinset_card_le _) (lt_of_le_of_lt (card_roots' _) ?_)
  have hd : (elemPoly S - elemPoly T).degree < (elemPoly S).degree := by
    refine degree_sub_lt_left ?_ (elemPoly_monic S).ne_zero ?_
    · rw [degree_eq_natDegree (elemPoly_monic S).ne_zero, degree_eq_natDegree (elemPoly_monic T).ne_zero,
        elemPoly_natDegree, elemPoly_natDegree, hl]
    · rw [(elemPoly_monic S).leadingCoeff, (elemPoly_monic T).leadingCoeff]
  have := natDegree_lt_natDegree hne hd
  rwa [elemPoly_natDegree] at this

/-- C99: `with_elements` gives different accumulators for different multisets, except for at most as many keys as
the larger one has elements (one fewer if both have the same size); for the same multiset always the same one. -/
theorem C99_binding (E : Pairing F G1 G2 GT) (S T : List F) :
    (S.Perm T → ∀ sk, accWithElements E sk S = accWithElements E sk T) ∧
    (¬ S.Perm T → ∃ bad : Finset F, bad.card ≤ max S.length T.length ∧
      (S.length = T.length → bad.card < S.length) ∧
      ∀ sk, accWithElements E sk S = accWithElements E sk T ↔ sk ∈ bad) := by
  refine ⟨fun h sk => (C03_order E E.g1 sk S T h).2.1, fun h => ⟨badKeys S T, badKeys_card S T,
    badKeys_card_lt h, fun sk => ?_⟩⟩
  rw [mem_badKeys h, accWithElements, accWithElements, batchAdditions_eq, batchAdditions_eq]
  exact ⟨fun h => smul_left_injective F E.g1_ne h, fun h => by rw [h]⟩

/-- C99: whoever finds two different multisets with the same accumulator knows the secret key: the two lists
leave a fixed list of candidates, and the public key tells which one it is. -/
theorem C99_collision_reveals_key [DecidableEq G2] (E : Pairing F G1 G2 GT) (S T : List F) (h : ¬ S.Perm T) :
    ∃ candidates : List F, candidates.length ≤ max S.length T.length ∧
      ∀ sk, accWithElements E sk S = accWithElements E sk T →
        candidates.find? (fun c => decide (publicKey E c = publicKey E sk)) = some sk := by
  obtain ⟨bad, hc, -, hb⟩ := (C99_binding E S T).2 h
  refine ⟨bad.toList, by simpa using hc, fun sk hsk => ?_⟩
  have hm : sk ∈ bad.toList := by simpa using (hb sk).1 hsk
  have hinj : ∀ c, publicKey E c = publicKey E sk → c = sk := fun c h => smul_left_injective F E.g2_ne h
  cases hf : bad.toList.find? (fun c => decide (publicKey E c = publicKey E sk)) with
  | none =>
    have := List.find?_eq_none.1 hf sk hm
    simp at this
  | some c =>
    have := List.find?_some hf
    rw [hinj c (by simpa using this)]

/-- C99 for `update`: two batches of changes applied to an accumulator (not the identity) give the same result exactly
when they amount to the same change of the multiset, except for few keys. -/
theorem C99_updates (V : G1) (hV : V ≠ 0) (A D A' D' : List F) :
    ((A ++ D').Perm (A' ++ D) → ∀ sk V₁ V₂ cs₁ cs₂, accUpdate V sk A D = .ok (V₁, cs₁) →
      accUpdate V sk A' D' = .ok (V₂, cs₂) → V₁ = V₂) ∧
    (¬ (A ++ D').Perm (A' ++ D) → ∃ bad : Finset F,
      bad.card ≤ max (A.length + D'.length) (A'.length + D.length) ∧
      ∀ sk V₁ V₂ cs₁ cs₂, accUpdate V sk A D = .ok (V₁, cs₁) → accUpdate V sk A' D' = .ok (V₂, cs₂) →
        (V₁ = V₂ ↔ sk ∈ bad)) := by
  have key : ∀ sk (A D : List F) V₁ cs₁, accUpdate V sk A D = .ok (V₁, cs₁) →
      prodPlus sk D ≠ 0 ∧ V₁ = (prodPlus sk A * (prodPlus sk D)⁻¹) • V := by
    intro sk A D V₁ cs h
    have h1 := C03_update_acc V sk A D
    rw [h] at h1
    have h2 : accRemoveElements (accAddElements V sk A) sk D = .ok V₁ := h1.symm
    rw [accRemoveElements, batchDeletions, batchAdditions_eq] at h2
    by_cases h0 : prodPlus sk D = 0
    · simp [h0, bind, Except.bind] at h2
    · rw [inv!_ne h0] at h2
      simp only [bind, Except.bind, pure, Except.pure, Except.ok.injEq] at h2
      refine ⟨h0, ?_⟩
      rw [← h2, accAddElements, batchAdditions_eq, smul_smul, mul_comm]
  have iff : ∀ sk V₁ V₂ cs₁ cs₂, accUpdate V sk A D = .ok (V₁, cs₁) → accUpdate V sk A' D' = .ok (V₂, cs₂) →
      (V₁ = V₂ ↔ prodPlus sk (A ++ D') = prodPlus sk (A' ++ D)) := by
    intro sk V₁ V₂ cs₁ cs₂ h₁ h₂
    obtain ⟨d₁, e₁⟩ := key sk A D V₁ cs₁ h₁
    obtain ⟨d₂, e₂⟩ := key sk A' D' V₂ cs₂ h₂
    rw [e₁, e₂, (smul_left_injective F hV).eq_iff, prodPlus_append, prodPlus_append, ← div_eq_mul_inv,
      ← div_eq_mul_inv, div_eq_div_iff d₁ d₂]
  refine ⟨fun hp sk V₁ V₂ cs₁ cs₂ h₁ h₂ => (iff sk V₁ V₂ cs₁ cs₂ h₁ h₂).2 ?_, fun hp => ⟨badKeys (A ++ D') (A' ++ D),
    ?_, fun sk V₁ V₂ cs₁ cs₂ h₁ h₂ => ?_⟩⟩
  · unfold prodPlus; exact (hp.map _).prod_eq
  · simpa using badKeys_card (A ++ D') (A' ++ D)
  · rw [iff sk V₁ V₂ cs₁ cs₂ h₁ h₂, mem_badKeys hp]

/-- C99: the witness of a removed element fails, except for at most as many keys as elements were removed and added:
the condition of `C05_removed_rejected` is met for few keys only. -/
theorem C99_removed_rejected (E : Pairing F G1 G2 GT) (V : G1) (hV : V ≠ 0) (y : F) (A D : List F)
    (hyD : y ∈ D) (hyA : y ∉ A) :
    ∃ bad : Finset F, bad.card ≤ max A.length D.length ∧
      ∀ sk C V' cs, mwVerify E C y (publicKey E sk) V = true → accUpdate V sk A D = .ok (V', cs) →
        (mwVerify E (mwBatchUpdate C y A D cs) y (publicKey E sk) V' = true ↔ sk ∈ bad) := by
  have hp : ¬ (A ++ []).Perm ([] ++ D) := by
    intro h
    have := h.mem_iff (a := y)
    simp [hyD, hyA] at this
  obtain ⟨bad, hc, hb⟩ := (C99_updates V hV A D [] []).2 hp
  refine ⟨bad, by simpa using hc, fun sk C V' cs hw hu => ?_⟩
  rw [C05_removed_rejected E C V V' sk y A D cs hw hyD]
  have h0 : accUpdate V sk [] [] = .ok (V, []) := by
    simp [accUpdate, accUpdateAssign, batchDeletions, batchAdditions, inv!_ne, createCoefficients, vdLoop, vaLoop,
      polyScale, polySub, bind, Except.bind, pure, Except.pure]
  exact hb sk V' V cs [] hu h0

variable [DecidableEq G1]

/-- C99 for the server: for a given deletion log, the accumulators of two epochs `i < j` are equal, and an old
credential passes the check of the later epoch, for at most `j - i` witness keys. -/
theorem C99_epochs (E : Pairing F G1 G2 GT) (params : AccParams G1 G2) (hP : params.p2 ≠ 0) (hK : params.k2 ≠ 0)
    (v : F) (hv : v • params.p1 ≠ 0) (D : List F) (i j : Nat) (hij : i < j) (hj : j ≤ D.length) :
    ∃ bad : Finset F, bad.card ≤ j - i ∧
      ∀ (α sM : F) (ops₁ ops₂ : List (Op F)) (s : Server F G1 G2) (Vi Vj : G1),
        (∀ op ∈ ops₁, op.isQuick = false) → (∀ op ∈ ops₂, op.isDelete = false) →
        (Server.new params α sM v).run (ops₁ ++ ops₂) = .ok s → s.deletions = D →
        s.accumulators[i]? = some Vi → s.accumulators[j]? = some Vj → α ∉ bad →
        Vi ≠ Vj ∧ ∀ y w, credVerify E Vi s.getPublicKeys params y w = .ok () →
          credVerify E Vj s.getPublicKeys params y w ≠ .ok () := by
  have hlen : ((D.take j).drop i).length = j - i := by simp [Nat.min_eq_left hj]
  have hp : ¬ ((D.take j).drop i).Perm [] := by
    intro h
    have := h.length_eq
    rw [hlen] at this; simp at this; omega
  refine ⟨badKeys ((D.take j).drop i) [], ?_, ?_⟩
  · simpa [Nat.min_eq_left hj] using badKeys_card ((D.take j).drop i) []
  intro α sM ops₁ ops₂ s Vi Vj h₁ h₂ h hD hi hj' hα
  rw [mem_badKeys hp, prodPlus_nil] at hα
  refine ⟨fun heq => hα ?_, fun y w hw hw' => ?_⟩
  · have hI := invA_run params α sM v ops₁ ops₂ h₁ h₂ s h
    have hno : ∀ l, (∀ d ∈ l, d ∈ s.deletions) → prodPlus α l ≠ 0 := by
      intro l hl
      rw [Ne, prodPlus_eq_zero]
      exact fun hm => hI.noneg (hl _ hm)
    have hn1 := hno (s.deletions.take i) (fun d hd => List.mem_of_mem_take hd)
    have hn2 := hno ((s.deletions.take j).drop i)
      (fun d hd => List.mem_of_mem_take (List.mem_of_mem_drop hd))
    have hsplit : s.deletions.take j = s.deletions.take i ++ (s.deletions.take j).drop i := by
      conv_lhs => rw [← List.take_append_drop i (s.deletions.take j), List.take_take,
        Nat.min_eq_left hij.le]
    rw [hI.get i (by rw [hD]; omega)] at hi
    rw [hI.get j (by rw [hD]; omega)] at hj'
    have hi := Option.some.inj hi
    have hj' := Option.some.inj hj'
    rw [← hi, ← hj', accAfter, accAfter, (smul_left_injective F hv).eq_iff, inv_inj] at heq
    have hs : prodPlus α (s.deletions.take j) = _ := congrArg (prodPlus α) hsplit
    rw [prodPlus_append, ← heq] at hs
    rw [← hD]
    exact (mul_eq_left₀ hn1).1 hs.symm
  · rcases (C24_stale E params hP hK α sM v ops₁ ops₂ h₁ h₂ s h y w i j hij.le Vi Vj hi hj' hw).1 hw' with h0 | h0
    · exact hα (by rw [← hD]; exact h0)
    · exact hv h0

/-- The premises are met: `[1, 4]` and `[2, 2]` are different multisets; they collide for the key `0` only. -/
example : ¬ ([1, 4] : List ℚ).Perm [2, 2] ∧
    (∀ sk : ℚ, accWithElements (Pairing.field ℚ) sk [1, 4] = accWithElements (Pairing.field ℚ) sk [2, 2] ↔ sk = 0) := by
  refine ⟨by decide, fun sk => ?_⟩
  simp only [accWithElements, batchAdditions_eq, prodPlus_cons, prodPlus_nil, mul_one, Pairing.field, smul_eq_mul]
  constructor
  · intro h; linarith
  · rintro rfl; norm_num

end
end Allo
