import Verif.Lemmas.Poly

/-! Lemmas about `create_coefficients`, `evaluate_delta(s)`. -/

set_option linter.unusedSectionVars false

namespace Allo
open Spec

section
variable {F M : Type} [Field F] [DecidableEq F] [AddCommGroup M] [Module F M]

theorem linProd_aux (js : List F) (p : List F) (y : F) :
    polyVal y (js.foldl (fun poly j => polyMul poly [j, -1]) p) = polyVal y p * prodMinus y js := by
  induction js generalizing p with
  | nil => simp
  | cons j js ih =>
    rw [List.foldl_cons, ih, polyMul_val]
    simp; ring

theorem linProd_val (js : List F) (y : F) : polyVal y (linProd js) = prodMinus y js := by
  rw [linProd, linProd_aux]; simp

theorem linProd_length_aux (js p : List F) (hp : p ≠ []) :
    (js.foldl (fun poly j => polyMul poly [j, -1]) p).length = p.length + js.length := by
  induction js generalizing p with
  | nil => simp
  | cons j js ih =>
    have h : (polyMul p [j, -1]).length = p.length + 1 := by
      rw [polyMul_length _ _ (Or.inl hp)]; simp
    rw [List.foldl_cons, ih _ (by intro h0; simp [h0] at h), h]
    simp; omega

theorem linProd_length (js : List F) : (linProd js).length = js.length + 1 := by
  rw [linProd, linProd_length_aux _ _ (by simp)]; simp; omega

theorem batchDeletions_ok {sk : F} {D : List F} (h : -sk ∉ D) :
    batchDeletions sk D = .ok (prodPlus sk D)⁻¹ := by
  rw [batchDeletions, batchAdditions_eq, inv!_ne]
  rwa [Ne, prodPlus_eq_zero]

theorem batchDeletions_err {sk : F} {D : List F} (h : -sk ∈ D) :
    batchDeletions sk D = .error .unwrapNone := by
  rw [batchDeletions, batchAdditions_eq, prodPlus_eq_zero.2 h, inv!_zero]

theorem prodPlus_take_succ (α : F) (l : List F) (n : Nat) (h : n < l.length) :
    prodPlus α (l.take (n + 1)) = prodPlus α (l.take n) * (l[n] + α) := by
  rw [List.take_add_one, List.getElem?_eq_getElem h, prodPlus_append, Option.toList_some,
    prodPlus_cons, prodPlus_nil, mul_one]

theorem prodMinus_take_succ (y : F) (l : List F) (n : Nat) (h : n < l.length) :
    prodMinus y (l.take (n + 1)) = prodMinus y (l.take n) * (l[n] - y) := by
  rw [List.take_add_one, List.getElem?_eq_getElem h, prodMinus_append, Option.toList_some,
    prodMinus_cons, prodMinus_nil, mul_one]

theorem prodMinus_drop (y : F) (l : List F) (n : Nat) (h : n < l.length) :
    prodMinus y (l.drop n) = (l[n] - y) * prodMinus y (l.drop (n + 1)) := by
  rw [List.drop_eq_getElem_cons h, prodMinus_cons]

/-- partial `v_d` loop -/
theorem vdLoop_aux (sk : F) (D : List F) (h : -sk ∉ D) (n : Nat) (hn : n ≤ D.length) :
    ∃ vd, (List.range n).foldlM (fun vd s => do
        let c ← batchDeletions sk (D.take (s + 1))
        let poly := polyScale (linProd (D.take s)) c
        pure (polyAdd vd poly)) [] = (.ok vd : Rust (List F)) ∧ vd.length = n ∧
      ∀ y, (y + sk) * polyVal y vd
        = 1 - prodMinus y (D.take n) * (prodPlus sk (D.take n))⁻¹ := by
  induction n with
  | zero => exact ⟨[], rfl, rfl, by simp⟩
  | succ n ih =>
    obtain ⟨vd, h1, h2, h3⟩ := ih (by omega)
    have hn' : n < D.length := by omega
    have hs : -sk ∉ D.take (n + 1) := fun hm => h (List.mem_of_mem_take hm)
    have hs' : -sk ∉ D.take n := fun hm => h (List.mem_of_mem_take hm)
    refine ⟨polyAdd vd (polyScale (linProd (D.take n)) (prodPlus sk (D.take (n + 1)))⁻¹), ?_, ?_, ?_⟩
    · rw [List.range_succ, List.foldlM_append, h1]
      simp only [List.foldlM_cons, List.foldlM_nil, bind, Except.bind, pure, Except.pure]
      rw [batchDeletions_ok hs]
    · rw [polyAdd_length, polyScale_length, linProd_length, h2]; simp; omega
    · intro y
      rw [polyAdd_val, polyScale_val, linProd_val, mul_add, h3, prodPlus_take_succ _ _ _ hn',
        prodMinus_take_succ _ _ _ hn']
      have e1 : prodPlus sk (D.take n) ≠ 0 := by rwa [Ne, prodPlus_eq_zero]
      have e2 : D[n] + sk ≠ 0 := by
        intro h0
        exact h ((eq_neg_of_add_eq_zero_left h0) ▸ List.getElem_mem hn')
      field_simp
      ring

theorem vdLoop_ok (sk : F) (D : List F) (h : -sk ∉ D) :
    ∃ vd, vdLoop sk D = .ok vd ∧ vd.length = D.length ∧
      ∀ y, (y + sk) * polyVal y vd = 1 - prodMinus y D * (prodPlus sk D)⁻¹ := by
  have := vdLoop_aux sk D h D.length le_rfl
  rwa [List.take_length] at this

theorem foldlM_err {σ β : Type} (l : List β) (f : σ → β → Rust σ) (e : Abort)
    (h : ∃ b ∈ l, ∀ s, f s b = .error e) (h' : ∀ s, ∀ b ∈ l, (∃ s', f s b = .ok s') ∨ f s b = .error e)
    (s : σ) : l.foldlM f s = .error e := by
  induction l generalizing s with
  | nil => simp at h
  | cons b l ih =>
    rw [List.foldlM_cons]
    rcases h' s b (by simp) with ⟨s', hs⟩ | hs
    · rw [hs]
      obtain ⟨b', hb, hb'⟩ := h
      rcases List.mem_cons.1 hb with rfl | hb
      · rw [hb' s] at hs; simp at hs
      · exact ih ⟨b', hb, hb'⟩ (fun s b hb => h' s b (by simp [hb])) s'
    · rw [hs]; rfl

theorem vaLoop_aux (sk : F) (A : List F) (n : Nat) (hn : n ≤ A.length) :
    let va := (List.range n).foldl (fun va s =>
      let c := if s = 0 then 1 else batchAdditions sk (A.take s)
      let poly := polyScale (linProd (A.drop (s + 1))) c
      polyAdd va poly) []
    va.length = (if n = 0 then 0 else A.length) ∧
      ∀ y, (y + sk) * polyVal y va
        = prodPlus sk (A.take n) * prodMinus y (A.drop n) - prodMinus y A := by
  induction n with
  | zero => simp
  | succ n ih =>
    obtain ⟨h2, h3⟩ := ih (by omega)
    have hn' : n < A.length := by omega
    have hc : (if n = 0 then 1 else batchAdditions sk (A.take n)) = prodPlus sk (A.take n) := by
      split
      · next h => simp [h]
      · rw [batchAdditions_eq]
    rw [List.range_succ, List.foldl_append]
    simp only [List.foldl_cons, List.foldl_nil, hc]
    constructor
    · rw [polyAdd_length, polyScale_length, linProd_length, h2]
      simp; split <;> omega
    · intro y
      rw [polyAdd_val, polyScale_val, linProd_val, mul_add, h3, prodPlus_take_succ _ _ _ hn',
        prodMinus_drop _ _ _ hn']
      ring

theorem vaLoop_ok (sk : F) (A : List F) :
    (vaLoop sk A).length = A.length ∧
      ∀ y, (y + sk) * polyVal y (vaLoop sk A) = prodPlus sk A - prodMinus y A := by
  have h := vaLoop_aux sk A A.length le_rfl
  rw [List.take_length, List.drop_length] at h
  simp only [prodMinus_nil, mul_one] at h
  refine ⟨h.1.trans ?_, h.2⟩
  split
  · next h => exact h.symm
  · rfl

theorem createCoefficients_ok (sk : F) (A D : List F) (h : -sk ∉ D) :
    ∃ cs, createCoefficients sk A D = .ok cs ∧ cs.length = max A.length D.length ∧
      ∀ y, (y + sk) * polyVal y cs
        = prodPlus sk A * (prodPlus sk D)⁻¹ * prodMinus y D - prodMinus y A := by
  obtain ⟨vd, h1, h2, h3⟩ := vdLoop_ok sk D h
  obtain ⟨h4, h5⟩ := vaLoop_ok sk A
  refine ⟨polySub (vaLoop sk A) (polyScale vd (batchAdditions sk A)), ?_, ?_, ?_⟩
  · simp [createCoefficients, h1, bind, Except.bind, pure, Except.pure]
  · rw [polySub_length, polyScale_length, h2, h4]
  · intro y
    rw [polySub_val, polyScale_val, mul_sub, h5, ← mul_assoc, h3, batchAdditions_eq]
    ring

theorem accUpdate_ok (V : M) (sk : F) (A D : List F) (h : -sk ∉ D) :
    ∃ cs, accUpdate V sk A D = .ok ((prodPlus sk A * (prodPlus sk D)⁻¹) • V, cs) ∧
      cs.length = max A.length D.length ∧
      ∀ y, (y + sk) • polyVal y cs
        = (prodPlus sk A * (prodPlus sk D)⁻¹ * prodMinus y D - prodMinus y A) • V := by
  obtain ⟨cs, h1, h2, h3⟩ := createCoefficients_ok sk A D h
  refine ⟨cs.map (fun c => c • V), ?_, ?_, ?_⟩
  · simp [accUpdate, accUpdateAssign, batchDeletions_ok h, h1, batchAdditions_eq, bind, Except.bind,
      pure, Except.pure]
  · simpa using h2
  · intro y
    rw [polyVal_map_smul_pt, ← mul_smul, h3]

theorem accUpdate_err (V : M) (sk : F) (A D : List F) (h : -sk ∈ D) :
    accUpdate V sk A D = .error .unwrapNone := by
  simp [accUpdate, accUpdateAssign, batchDeletions_err h, bind, Except.bind]

/-! ### one delta -/

theorem evaluateDelta_ok (y : F) (A D : List F) (cs : List M) (h : y ∉ D) (hc : cs ≠ []) :
    evaluateDelta y A D cs
      = .ok ⟨prodMinus y A * (prodMinus y D)⁻¹, (prodMinus y D)⁻¹ • polyVal y cs⟩ := by
  have hD : prodMinus y D ≠ 0 := by rwa [Ne, prodMinus_eq_zero]
  simp [evaluateDelta, dad_eq, invert?_ne hD, pg1Eval_eq, hc]

theorem evaluateDelta_removed (y : F) (A D : List F) (cs : List M) (h : y ∈ D) :
    evaluateDelta y A D cs = .error "element was removed" := by
  have hD : prodMinus y D = 0 := by rwa [prodMinus_eq_zero]
  simp [evaluateDelta, dad_eq, hD]

/-- value of the batch update, provided an entry without coefficients has no changes -/
theorem mwBatchUpdate_eq (C : M) (y : F) (A D : List F) (cs : List M) (h : y ∉ D)
    (hc : cs = [] → A = [] ∧ D = []) :
    mwBatchUpdate C y A D cs
      = (prodMinus y A * (prodMinus y D)⁻¹) • C + (prodMinus y D)⁻¹ • polyVal y cs := by
  by_cases h0 : cs = []
  · obtain ⟨rfl, rfl⟩ := hc h0
    subst h0
    simp [mwBatchUpdate, evaluateDelta, dad_eq, invert?_ne (one_ne_zero (α := F)), pg1Eval]
  · simp [mwBatchUpdate, evaluateDelta_ok y A D cs h h0, mwApplyDelta]

theorem nmwBatchUpdate_eq (w : NonMembershipWitness F M) (y : F) (A D : List F) (cs : List M)
    (h : y ∉ D) (hc : cs = [] → A = [] ∧ D = []) :
    nmwBatchUpdate w y A D cs
      = ⟨mwBatchUpdate w.c y A D cs, w.d * (prodMinus y A * (prodMinus y D)⁻¹)⟩ := by
  by_cases h0 : cs = []
  · obtain ⟨rfl, rfl⟩ := hc h0
    subst h0
    simp [nmwBatchUpdate, mwBatchUpdate, evaluateDelta, dad_eq, invert?_ne (one_ne_zero (α := F)),
      pg1Eval]
  · simp [nmwBatchUpdate, mwBatchUpdate, evaluateDelta_ok y A D cs h h0, nmwApplyDelta, mwApplyDelta]

/-! ### many deltas -/

/-- the running sum of the second loop of `evaluate_deltas` at `y` -/
def deltasSum (y : F) (L : List (List F × List F × List M)) : M :=
  ((List.range L.length).map (fun i =>
    ((((L.map (fun t => prodMinus y t.1)).drop (i + 1)).prod
      * ((L.map (fun t => prodMinus y t.2.1)).take i).prod) •
      polyVal y (L.getD i ([], [], [])).2.2))).sum

theorem deltasSum_nil (y : F) : deltasSum y ([] : List (List F × List F × List M)) = 0 := rfl

theorem deltasSum_cons (y : F) (t : List F × List F × List M) (L) :
    deltasSum y (t :: L) = (L.map (fun t => prodMinus y t.1)).prod • polyVal y t.2.2
      + prodMinus y t.2.1 • deltasSum y L := by
  unfold deltasSum
  rw [List.length_cons, List.range_succ_eq_map, List.map_cons, List.sum_cons, List.map_map]
  congr 1
  · simp
  · rw [List.smul_sum, List.map_map]
    congr 1
    apply List.map_congr_left
    intro i _
    simp only [Function.comp, List.map_cons, List.drop_succ_cons, List.take_succ_cons,
      List.prod_cons, List.getD_cons_succ, smul_smul]
    congr 1
    ring

theorem polySum_val (y : F) (n : Nat) (f : Nat → List M) :
    polyVal y ((List.range n).foldl (fun poly i => pg1Add poly (f i)) [])
      = ((List.range n).map (fun i => polyVal y (f i))).sum := by
  induction n with
  | zero => simp
  | succ n ih => simp [List.range_succ, pg1Add_val, ih]

theorem polySum_nil (n : Nat) (f : Nat → List M) :
    (List.range n).foldl (fun poly i => pg1Add poly (f i)) [] = [] ↔ ∀ i < n, f i = [] := by
  induction n with
  | zero => simp
  | succ n ih =>
    rw [List.range_succ, List.foldl_append]
    simp only [List.foldl_cons, List.foldl_nil]
    rw [← List.length_eq_zero_iff, pg1Add_length]
    have : ∀ (a b : List M), max a.length b.length = 0 ↔ a = [] ∧ b = [] := by
      intro a b
      rw [← List.length_eq_zero_iff, ← List.length_eq_zero_iff]; omega
    rw [this, ih]
    constructor
    · rintro ⟨h1, h2⟩ i hi
      rcases Nat.lt_succ_iff_lt_or_eq.1 hi with h | rfl
      · exact h1 i h
      · exact h2
    · intro h
      exact ⟨fun i hi => h i (by omega), h n (by omega)⟩

theorem evaluateDeltas_removed (y : F) (L : List (List F × List F × List M))
    (h : ∃ t ∈ L, y ∈ t.2.1) : evaluateDeltas y L = .error "element was removed" := by
  have : (L.map (fun t => prodMinus y t.2.1)).prod = 0 := by
    rw [List.prod_eq_zero_iff, List.mem_map]
    obtain ⟨t, ht, hy⟩ := h
    exact ⟨t, ht, prodMinus_eq_zero.2 hy⟩
  simp [evaluateDeltas, foldl_mul_one, dad_eq, this]

/-- unfolded form of `evaluate_deltas` -/
theorem evaluateDeltas_ok (y : F) (L : List (List F × List F × List M))
    (h : ∀ t ∈ L, y ∉ t.2.1) (hc : ∃ t ∈ L, t.2.2 ≠ []) :
    evaluateDeltas y L = .ok
      ⟨(L.map (fun t => prodMinus y t.1)).prod * ((L.map (fun t => prodMinus y t.2.1)).prod)⁻¹,
       ((L.map (fun t => prodMinus y t.2.1)).prod)⁻¹ • deltasSum y L⟩ := by
  have h0 : (L.map (fun t => prodMinus y t.2.1)).prod ≠ 0 := by
    rw [Ne, List.prod_eq_zero_iff, List.mem_map]
    rintro ⟨t, ht, hy⟩
    exact h t ht (prodMinus_eq_zero.1 hy)
  have hlen : (L.map (fun t => prodMinus y t.1)).take L.length = L.map (fun t => prodMinus y t.1) := by
    apply List.take_of_length_le; simp
  simp only [evaluateDeltas, foldl_mul_one, dad_eq, invert?_ne h0, hlen]
  rw [pg1Eval_eq, if_neg]
  · simp only
    congr 2
    rw [polySum_val, deltasSum]
    simp only [pg1Scale_val]
  · rw [polySum_nil]
    intro hall
    obtain ⟨t, ht, htc⟩ := hc
    obtain ⟨i, hi, rfl⟩ := List.getElem_of_mem ht
    have := hall i hi
    rw [← List.length_eq_zero_iff, pg1Scale_length, List.length_eq_zero_iff] at this
    simp [hi] at this
    exact htc this

theorem evaluateDeltas_empty (y : F) (L : List (List F × List F × List M))
    (h : ∀ t ∈ L, y ∉ t.2.1) (hc : ∀ t ∈ L, t.2.2 = []) :
    evaluateDeltas y L = .error "polynomial is empty" := by
  have h0 : (L.map (fun t => prodMinus y t.2.1)).prod ≠ 0 := by
    rw [Ne, List.prod_eq_zero_iff, List.mem_map]
    rintro ⟨t, ht, hy⟩
    exact h t ht (prodMinus_eq_zero.1 hy)
  simp only [evaluateDeltas, foldl_mul_one, dad_eq, invert?_ne h0]
  rw [pg1Eval_eq, if_pos]
  rw [polySum_nil]
  intro i hi
  rw [← List.length_eq_zero_iff, pg1Scale_length, List.length_eq_zero_iff]
  simp [hi]
  exact hc _ (List.getElem_mem hi)

theorem fold_batch_closed (y : F) (L : List (List F × List F × List M)) (C : M)
    (h : ∀ t ∈ L, y ∉ t.2.1) (hc : ∀ t ∈ L, t.2.2 = [] → t.1 = [] ∧ t.2.1 = []) :
    L.foldl (fun C t => mwBatchUpdate C y t.1 t.2.1 t.2.2) C
      = ((L.map (fun t => prodMinus y t.1)).prod * ((L.map (fun t => prodMinus y t.2.1)).prod)⁻¹) • C
        + ((L.map (fun t => prodMinus y t.2.1)).prod)⁻¹ • deltasSum y L := by
  induction L generalizing C with
  | nil => simp [deltasSum_nil]
  | cons t L ih =>
    rw [List.foldl_cons, ih _ (fun t ht => h t (by simp [ht])) (fun t ht => hc t (by simp [ht])),
      mwBatchUpdate_eq _ _ _ _ _ (h t (by simp)) (hc t (by simp)), deltasSum_cons]
    have ht : prodMinus y t.2.1 ≠ 0 := by
      rw [Ne, prodMinus_eq_zero]; exact h t (by simp)
    simp only [List.map_cons, List.prod_cons, smul_add, smul_smul, mul_inv]
    rw [show (prodMinus y t.2.1)⁻¹ * (List.map (fun t => prodMinus y t.2.1) L).prod⁻¹ *
      prodMinus y t.2.1 = (List.map (fun t => prodMinus y t.2.1) L).prod⁻¹ by field_simp]
    module

theorem all_empty_val (y : F) (L : List (List F × List F × List M))
    (hc : ∀ t ∈ L, t.2.2 = [] → t.1 = [] ∧ t.2.1 = []) (he : ∀ t ∈ L, t.2.2 = []) :
    (L.map (fun t => prodMinus y t.1)).prod = 1 ∧ (L.map (fun t => prodMinus y t.2.1)).prod = 1 ∧
    deltasSum y L = 0 := by
  induction L with
  | nil => simp [deltasSum_nil]
  | cons t L ih =>
    obtain ⟨h1, h2, h3⟩ := ih (fun t ht => hc t (by simp [ht])) (fun t ht => he t (by simp [ht]))
    have e := he t (by simp)
    obtain ⟨a, d⟩ := hc t (by simp) e
    rw [deltasSum_cons]
    simp [h1, h2, h3, a, d, e]

theorem mwMultiBatch_eq_fold (y : F) (L : List (List F × List F × List M)) (C : M)
    (h : ∀ t ∈ L, y ∉ t.2.1) (hc : ∀ t ∈ L, t.2.2 = [] → t.1 = [] ∧ t.2.1 = []) :
    mwMultiBatchUpdate C y L = L.foldl (fun C t => mwBatchUpdate C y t.1 t.2.1 t.2.2) C := by
  rw [fold_batch_closed y L C h hc]
  by_cases he : ∀ t ∈ L, t.2.2 = []
  · obtain ⟨h1, h2, h3⟩ := all_empty_val y L hc he
    simp [mwMultiBatchUpdate, evaluateDeltas_empty y L h he, h1, h2, h3]
  · push Not at he
    simp [mwMultiBatchUpdate, evaluateDeltas_ok y L h he, mwApplyDelta]

theorem fold_nbatch_closed (y : F) (L : List (List F × List F × List M)) (w : NonMembershipWitness F M)
    (h : ∀ t ∈ L, y ∉ t.2.1) (hc : ∀ t ∈ L, t.2.2 = [] → t.1 = [] ∧ t.2.1 = []) :
    L.foldl (fun w t => nmwBatchUpdate w y t.1 t.2.1 t.2.2) w
      = ⟨L.foldl (fun C t => mwBatchUpdate C y t.1 t.2.1 t.2.2) w.c,
         w.d * ((L.map (fun t => prodMinus y t.1)).prod
            * ((L.map (fun t => prodMinus y t.2.1)).prod)⁻¹)⟩ := by
  induction L generalizing w with
  | nil => simp
  | cons t L ih =>
    rw [List.foldl_cons, ih _ (fun t ht => h t (by simp [ht])) (fun t ht => hc t (by simp [ht])),
      nmwBatchUpdate_eq _ _ _ _ _ (h t (by simp)) (hc t (by simp))]
    simp only [List.map_cons, List.prod_cons, mul_inv, List.foldl_cons]
    congr 1
    ring

theorem nmwMultiBatch_eq_fold (y : F) (L : List (List F × List F × List M))
    (w : NonMembershipWitness F M)
    (h : ∀ t ∈ L, y ∉ t.2.1) (hc : ∀ t ∈ L, t.2.2 = [] → t.1 = [] ∧ t.2.1 = []) :
    nmwMultiBatchUpdate w y L = L.foldl (fun w t => nmwBatchUpdate w y t.1 t.2.1 t.2.2) w := by
  rw [fold_nbatch_closed y L w h hc, fold_batch_closed y L w.c h hc]
  by_cases he : ∀ t ∈ L, t.2.2 = []
  · obtain ⟨h1, h2, h3⟩ := all_empty_val y L hc he
    simp [nmwMultiBatchUpdate, evaluateDeltas_empty y L h he, h1, h2, h3]
  · push Not at he
    simp [nmwMultiBatchUpdate, evaluateDeltas_ok y L h he, nmwApplyDelta]

end
end Allo
