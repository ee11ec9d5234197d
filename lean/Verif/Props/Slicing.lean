import Verif.Props.Accumulator

/-!
# C67: slicing one batch of changes into many `Accumulator::update` calls

The "single-server" update of the crate (src/tests.rs:343-377, benches/updates.rs:46-108) cuts the
additions and the deletions into `chunks(SLICES)`, pads the shorter list of chunks with empty slices,
calls `update_assign` once per pair of slices, and the user applies `batch_update` once per pair.
-/

set_option linter.unusedSectionVars false
set_option linter.unusedVariables false

namespace Allo
open Spec

section
variable {F G1 G2 GT : Type} [Field F] [DecidableEq F] [AddCommGroup G1] [Module F G1]
  [AddCommGroup G2] [Module F G2] [AddCommGroup GT] [Module F GT] [DecidableEq GT]

/-- `slice.chunks(k)` for `k > 0`: consecutive slices of `k` elements, the last possibly shorter
(as used at src/tests.rs:358-361; `chunks(0)` panics in Rust and is not used). -/
def chunks {α : Type} (k : Nat) (l : List α) : List (List α) :=
  if h : k = 0 ∨ l = [] then [] else l.take k :: chunks k (l.drop k)
termination_by l.length
decreasing_by
  rw [not_or] at h
  have := List.length_pos_iff.2 h.2
  simp only [List.length_drop]
  omega

/-- `Vec::resize(n, &[])` when it grows the vector, src/tests.rs:362-367. -/
def padTo {α : Type} (n : Nat) (l : List (List α)) : List (List α) :=
  l ++ List.replicate (n - l.length) []

/-- The list of `(additions, deletions)` pairs passed to `update_assign`, src/tests.rs:358-372. -/
def slicePairs (k : Nat) (A D : List F) : List (List F × List F) :=
  let sa := chunks k A
  let sd := chunks k D
  (padTo sd.length sa).zip (padTo sa.length sd)

/-! ### facts about slicing -/

theorem chunks_flatten {α : Type} (k : Nat) (hk : k ≠ 0) (l : List α) : (chunks k l).flatten = l := by
  induction l using chunks.induct k with
  | case1 l h =>
    rcases h with h | h
    · exact absurd h hk
    · subst h; rw [chunks]; simp
  | case2 l h ih => rw [chunks]; simp [h, ih]

theorem padTo_flatten {α : Type} (n : Nat) (l : List (List α)) : (padTo n l).flatten = l.flatten := by
  simp [padTo]

theorem padTo_length {α : Type} (n : Nat) (l : List (List α)) : (padTo n l).length = max l.length n := by
  simp [padTo]; omega

theorem slicePairs_fst (k : Nat) (A D : List F) :
    (slicePairs k A D).map Prod.fst = padTo (chunks k D).length (chunks k A) := by
  rw [slicePairs, List.map_fst_zip]
  simp only [padTo_length]; omega

theorem slicePairs_snd (k : Nat) (A D : List F) :
    (slicePairs k A D).map Prod.snd = padTo (chunks k A).length (chunks k D) := by
  rw [slicePairs, List.map_snd_zip]
  simp only [padTo_length]; omega

/-- C67: the slices, put back together, are exactly the additions and the deletions, in order. -/
theorem C67_slices_cover (k : Nat) (hk : k ≠ 0) (A D : List F) :
    (slicePairs k A D).flatMap Prod.fst = A ∧ (slicePairs k A D).flatMap Prod.snd = D := by
  constructor
  · rw [List.flatMap_def, slicePairs_fst, padTo_flatten, chunks_flatten k hk]
  · rw [List.flatMap_def, slicePairs_snd, padTo_flatten, chunks_flatten k hk]

/-- C67: no slice is longer than `k`. -/
theorem C67_slices_small (k : Nat) (A D : List F) :
    ∀ b ∈ slicePairs k A D, b.1.length ≤ k ∧ b.2.length ≤ k := by
  have hc : ∀ (l : List F), ∀ c ∈ chunks k l, c.length ≤ k := by
    intro l
    induction l using chunks.induct k with
    | case1 l h => rw [chunks]; simp [h]
    | case2 l h ih =>
      rw [chunks]; simp only [h, dite_false]
      intro c hc
      rcases List.mem_cons.1 hc with rfl | hc
      · simp
      · exact ih c hc
  have hp : ∀ (n : Nat) (l : List F), ∀ c ∈ padTo n (chunks k l), c.length ≤ k := by
    intro n l c hm
    rcases List.mem_append.1 hm with hm | hm
    · exact hc l c hm
    · rw [List.eq_of_mem_replicate hm]; simp
  intro b hb
  have hb' := List.of_mem_zip (show (b.1, b.2) ∈ _ from hb)
  exact ⟨hp _ _ _ hb'.1, hp _ _ _ hb'.2⟩

/-! ### the issuer's side -/

/-- C67: however a batch of changes is cut into pairs of slices, the calls of `update` end in the
accumulator that one call with the concatenated slices would produce; they panic exactly when that
call does (i.e. when `-sk` is among the deletions). -/
theorem C67_accumulator (sk : F) (V : G1) (slices : List (List F × List F)) :
    (updateHistory sk V slices).map Prod.fst
      = (accUpdate V sk (slices.flatMap Prod.fst) (slices.flatMap Prod.snd)).map Prod.fst := by
  induction slices generalizing V with
  | nil =>
    obtain ⟨cs, h, -⟩ := accUpdate_ok V sk [] [] (by simp)
    simp [updateHistory, h, pure, Except.pure, Except.map]
  | cons b rest ih =>
    obtain ⟨a, d⟩ := b
    simp only [List.flatMap_cons]
    by_cases hd : -sk ∈ d
    · rw [accUpdate_err _ _ _ _ (List.mem_append_left _ hd)]
      simp [updateHistory, accUpdate_err _ _ _ _ hd, bind, Except.bind, Except.map]
    · obtain ⟨cs, h, -⟩ := accUpdate_ok V sk a d hd
      have ih := ih ((prodPlus sk a * (prodPlus sk d)⁻¹) • V)
      have e : (updateHistory sk V ((a, d) :: rest)).map Prod.fst
          = (updateHistory sk ((prodPlus sk a * (prodPlus sk d)⁻¹) • V) rest).map Prod.fst := by
        simp only [updateHistory, h, bind, Except.bind, pure, Except.pure]
        cases updateHistory sk ((prodPlus sk a * (prodPlus sk d)⁻¹) • V) rest <;> rfl
      rw [e, ih]
      by_cases hr : -sk ∈ rest.flatMap Prod.snd
      · rw [accUpdate_err _ _ _ _ hr, accUpdate_err _ _ _ _ (List.mem_append_right _ hr)]
      · obtain ⟨cs1, h1, -⟩ := accUpdate_ok ((prodPlus sk a * (prodPlus sk d)⁻¹) • V) sk
          (rest.flatMap Prod.fst) (rest.flatMap Prod.snd) hr
        obtain ⟨cs2, h2, -⟩ := accUpdate_ok V sk (a ++ rest.flatMap Prod.fst)
          (d ++ rest.flatMap Prod.snd) (by simp only [List.mem_append, not_or]; exact ⟨hd, hr⟩)
        rw [h1, h2]
        simp only [Except.map, prodPlus_append, smul_smul, mul_inv]
        congr 2
        ring

/-- The number of coefficients each call publishes. -/
theorem history_sizes (sk : F) (V V' : G1) (slices : List (List F × List F))
    (published : List (List F × List F × List G1))
    (hh : updateHistory sk V slices = .ok (V', published)) :
    published.map (fun t => t.2.2.length) = slices.map (fun b => max b.1.length b.2.length) := by
  induction slices generalizing V published with
  | nil =>
    simp only [updateHistory, pure, Except.pure, Except.ok.injEq, Prod.mk.injEq] at hh
    obtain ⟨-, rfl⟩ := hh
    rfl
  | cons b rest ih =>
    obtain ⟨a, d⟩ := b
    obtain ⟨V1, cs, l', h1, h2, rfl⟩ := updateHistory_cons hh
    have hd : -sk ∉ d := by
      intro hd; rw [accUpdate_err _ _ _ _ hd] at h1; simp at h1
    obtain ⟨cs', h3, h4, -⟩ := accUpdate_ok V sk a d hd
    rw [h3] at h1
    simp only [Except.ok.injEq, Prod.mk.injEq] at h1
    obtain ⟨-, rfl⟩ := h1
    simp [ih _ _ h2, h4]

theorem chunks_pair_sum (k : Nat) (hk : k ≠ 0) (n : Nat) :
    ∀ A D : List F, A.length ≤ n → D.length ≤ n →
      ((slicePairs k A D).map (fun b => max b.1.length b.2.length)).sum = max A.length D.length := by
  have hz : ∀ l : List (List F),
      ((List.replicate l.length ([] : List F)).zip l).map (fun b => max b.1.length b.2.length)
        = l.map List.length := by
    intro l; induction l with
    | nil => rfl
    | cons x l ih => simpa [List.replicate_succ] using ih
  have hz' : ∀ l : List (List F),
      (l.zip (List.replicate l.length ([] : List F))).map (fun b => max b.1.length b.2.length)
        = l.map List.length := by
    intro l; induction l with
    | nil => rfl
    | cons x l ih => simpa [List.replicate_succ] using ih
  have hf : ∀ l : List F, ((chunks k l).map List.length).sum = l.length := by
    intro l
    rw [← List.length_flatten, chunks_flatten k hk]
  have c0 : chunks k ([] : List F) = [] := by rw [chunks]; simp
  induction n with
  | zero =>
    intro A D hA hD
    have hA : A = [] := List.length_eq_zero_iff.1 (by omega)
    have hD : D = [] := List.length_eq_zero_iff.1 (by omega)
    subst hA hD
    simp [slicePairs, c0, padTo]
  | succ n ih =>
    intro A D hA hD
    by_cases hA0 : A = []
    · subst hA0
      rw [slicePairs]
      simp only [c0, padTo, List.length_nil, Nat.zero_sub, List.replicate_zero, List.append_nil,
        List.nil_append, Nat.sub_zero]
      rw [hz, hf]; simp
    · by_cases hD0 : D = []
      · subst hD0
        rw [slicePairs]
        simp only [c0, padTo, List.length_nil, Nat.zero_sub, List.replicate_zero, List.append_nil,
          List.nil_append, Nat.sub_zero]
        rw [hz', hf]; simp
      · have eA : chunks k A = A.take k :: chunks k (A.drop k) := by
          rw [chunks]; simp [hk, hA0]
        have eD : chunks k D = D.take k :: chunks k (D.drop k) := by
          rw [chunks]; simp [hk, hD0]
        have e : slicePairs k A D = (A.take k, D.take k) :: slicePairs k (A.drop k) (D.drop k) := by
          simp only [slicePairs, eA, eD, padTo, List.length_cons, Nat.succ_sub_succ, List.cons_append,
            List.zip_cons_cons]
        have pA := List.length_pos_iff.2 hA0
        have pD := List.length_pos_iff.2 hD0
        rw [e, List.map_cons, List.sum_cons, ih _ _ (by simp only [List.length_drop]; omega)
          (by simp only [List.length_drop]; omega)]
        simp only [List.length_take, List.length_drop]
        omega

/-- C67: slicing costs nothing in size: together the sliced calls publish `max(|A|, |D|)`
coefficients, as many as one unsliced call. -/
theorem C67_size (k : Nat) (hk : k ≠ 0) (sk : F) (V V' : G1) (A D : List F)
    (published : List (List F × List F × List G1)) (V₁ : G1) (cs : List G1)
    (hh : updateHistory sk V (slicePairs k A D) = .ok (V', published))
    (h1 : accUpdate V sk A D = .ok (V₁, cs)) :
    (published.map (fun t => t.2.2.length)).sum = max A.length D.length ∧
    cs.length = max A.length D.length ∧ V' = V₁ := by
  have hd : -sk ∉ D := by
    intro hd; rw [accUpdate_err _ _ _ _ hd] at h1; simp at h1
  obtain ⟨cs', h3, h4, -⟩ := accUpdate_ok V sk A D hd
  refine ⟨?_, ?_, ?_⟩
  · rw [history_sizes _ _ _ _ _ hh, chunks_pair_sum k hk (max A.length D.length) A D (by omega) (by omega)]
  · rw [h3] at h1
    simp only [Except.ok.injEq, Prod.mk.injEq] at h1
    rw [← h1.2, h4]
  · have := C67_accumulator sk V (slicePairs k A D)
    rw [hh, (C67_slices_cover k hk A D).1, (C67_slices_cover k hk A D).2, h1] at this
    simpa [Except.map] using this

/-! ### the user's side -/

/-- C67: applying `batch_update` slice by slice, or `multi_batch_update` to all slices, gives the very
witness that one `batch_update` with the unsliced batch gives; it verifies for the new accumulator. -/
theorem C67_witness (E : Pairing F G1 G2 GT) (sk y : F) (C V V' V₁ : G1)
    (slices : List (List F × List F)) (published : List (List F × List F × List G1)) (cs : List G1)
    (hw : mwVerify E C y (publicKey E sk) V = true) (hy : y ≠ -sk)
    (hyD : ∀ b ∈ slices, y ∉ b.2)
    (hh : updateHistory sk V slices = .ok (V', published))
    (h1 : accUpdate V sk (slices.flatMap Prod.fst) (slices.flatMap Prod.snd) = .ok (V₁, cs)) :
    let once := mwBatchUpdate C y (slices.flatMap Prod.fst) (slices.flatMap Prod.snd) cs
    published.foldl (fun C t => mwBatchUpdate C y t.1 t.2.1 t.2.2) C = once ∧
    mwMultiBatchUpdate C y published = once ∧
    mwVerify E once y (publicKey E sk) V' = true := by
  have hV : V' = V₁ := by
    have := C67_accumulator sk V slices
    rw [hh, h1] at this
    simpa [Except.map] using this
  subst hV
  have h1' : updateHistory sk V [(slices.flatMap Prod.fst, slices.flatMap Prod.snd)]
      = .ok (V', [(slices.flatMap Prod.fst, slices.flatMap Prod.snd, cs)]) := by
    simp [updateHistory, h1, bind, Except.bind, pure, Except.pure]
  obtain ⟨m1, m2⟩ := C07_history E C V V' sk y slices published hw hh hyD
  obtain ⟨m3, m4⟩ := C07_history E C V V' sk y _ _ hw h1' (by
    intro b hb
    rw [List.mem_singleton] at hb
    subst hb
    simp only [List.mem_flatMap, not_exists, not_and]
    exact fun b hb => hyD b hb)
  have hu := C01_unique E V' y sk hy
  exact ⟨hu.unique m2 m4, hu.unique m1 m4, m4⟩

/-- C67 for non-membership witnesses: the point and the scalar are the same too. -/
theorem C67_non_witness (E : Pairing F G1 G2 GT) (sk y : F) (w : NonMembershipWitness F G1) (V V' V₁ : G1)
    (slices : List (List F × List F)) (published : List (List F × List F × List G1)) (cs : List G1)
    (hw : nmwVerify E w y (publicKey E sk) V = true) (hy : y ≠ -sk)
    (hyD : ∀ b ∈ slices, y ∉ b.2)
    (hh : updateHistory sk V slices = .ok (V', published))
    (h1 : accUpdate V sk (slices.flatMap Prod.fst) (slices.flatMap Prod.snd) = .ok (V₁, cs)) :
    let once := nmwBatchUpdate w y (slices.flatMap Prod.fst) (slices.flatMap Prod.snd) cs
    published.foldl (fun w t => nmwBatchUpdate w y t.1 t.2.1 t.2.2) w = once ∧
    nmwMultiBatchUpdate w y published = once ∧
    nmwVerify E once y (publicKey E sk) V' = true := by
  have hV : V' = V₁ := by
    have := C67_accumulator sk V slices
    rw [hh, h1] at this
    simpa [Except.map] using this
  subst hV
  have h1' : updateHistory sk V [(slices.flatMap Prod.fst, slices.flatMap Prod.snd)]
      = .ok (V', [(slices.flatMap Prod.fst, slices.flatMap Prod.snd, cs)]) := by
    simp [updateHistory, h1, bind, Except.bind, pure, Except.pure]
  have hyD' : ∀ b ∈ [(slices.flatMap Prod.fst, slices.flatMap Prod.snd)], y ∉ b.2 := by
    intro b hb
    rw [List.mem_singleton] at hb
    subst hb
    simp only [List.mem_flatMap, not_exists, not_and]
    exact fun b hb => hyD b hb
  obtain ⟨m1, m2, -⟩ := C07_history_non E w V V' sk y slices published hw hh hyD
  obtain ⟨m3, m4, -⟩ := C07_history_non E w V V' sk y _ _ hw h1' hyD'
  -- the scalars agree
  have hd : ∀ (sl : List (List F × List F)) (V : G1) (w : NonMembershipWitness F G1) (pub) (V'),
      updateHistory sk V sl = .ok (V', pub) → (∀ b ∈ sl, y ∉ b.2) →
      (pub.foldl (fun w t => nmwBatchUpdate w y t.1 t.2.1 t.2.2) w).d
        = w.d * prodMinus y (sl.flatMap Prod.fst) * (prodMinus y (sl.flatMap Prod.snd))⁻¹ := by
    intro sl
    induction sl with
    | nil =>
      intro V w pub V' hh _
      simp only [updateHistory, pure, Except.pure, Except.ok.injEq, Prod.mk.injEq] at hh
      obtain ⟨-, rfl⟩ := hh
      simp
    | cons b rest ih =>
      intro V w pub V' hh hyD
      obtain ⟨a, d⟩ := b
      obtain ⟨V1, cs, l', e1, e2, rfl⟩ := updateHistory_cons hh
      have hyd : y ∉ d := hyD (a, d) (by simp)
      rw [List.foldl_cons, ih V1 _ l' V' e2 (fun b hb => hyD b (by simp [hb])),
        nmwBatchUpdate_eq w y a d cs hyd ((coeffs_empty e1).2.2.1)]
      simp only [List.flatMap_cons, prodMinus_append, mul_inv]
      ring
  have hu : ∀ w1 w2 : NonMembershipWitness F G1, w1.d = w2.d →
      nmwVerify E w1 y (publicKey E sk) V' = true → nmwVerify E w2 y (publicKey E sk) V' = true →
      w1 = w2 := by
    intro w1 w2 hd h1 h2
    rw [nmwVerify_iff] at h1 h2
    have h' : y + sk ≠ 0 := fun h0 => hy (eq_neg_of_add_eq_zero_left h0)
    cases w1; cases w2
    simp only at hd h1 h2
    subst hd
    have : (y + sk) • (_ : G1) = (y + sk) • _ := add_right_cancel (h1.trans h2.symm)
    rw [smul_right_injective G1 h' this]
  have d1 := hd slices V w published V' hh hyD
  have d2 := hd _ V w _ V' h1' hyD'
  have key : published.foldl (fun w t => nmwBatchUpdate w y t.1 t.2.1 t.2.2) w
      = nmwBatchUpdate w y (slices.flatMap Prod.fst) (slices.flatMap Prod.snd) cs := by
    refine hu _ _ ?_ m2 (by simpa using m4)
    rw [d1]
    have : _ = _ := d2
    simpa using this.symm
  refine ⟨key, ?_, by simpa using m4⟩
  have hc := (history_fold slices w ((nmwVerify_iff E w V y sk).1 hw) hh hyD).2
  rw [nmwMultiBatch_eq_fold y published w hc.1 hc.2, key]

/-- C67, the scenario of the crate's test: additions and deletions cut into slices of `k`; unless `-sk` is
deleted nothing panics, the accumulator is that of one update, and the user's folded witness verifies. -/
theorem C67_scenario (E : Pairing F G1 G2 GT) (k : Nat) (hk : k ≠ 0) (sk y : F) (V : G1) (A D : List F)
    (hD : -sk ∉ D) (hy : y ≠ -sk) (hyD : y ∉ D) :
    ∃ C V' published cs, mwNew (F := F) y V sk = .ok (some C) ∧
      updateHistory sk V (slicePairs k A D) = .ok (V', published) ∧
      accUpdate V sk A D = .ok (V', cs) ∧
      published.foldl (fun C t => mwBatchUpdate C y t.1 t.2.1 t.2.2) C = mwBatchUpdate C y A D cs ∧
      mwVerify E (published.foldl (fun C t => mwBatchUpdate C y t.1 t.2.1 t.2.2) C) y
        (publicKey E sk) V' = true := by
  have h' : sk + y ≠ 0 := fun h0 => hy (eq_neg_of_add_eq_zero_right h0)
  have hc := C67_slices_cover k hk A D
  have hm : ∀ b ∈ slicePairs k A D, ∀ x ∈ b.2, x ∈ D := by
    intro b hb x hx
    rw [← hc.2]
    exact List.mem_flatMap.2 ⟨b, hb, hx⟩
  obtain ⟨⟨V', published⟩, hh⟩ := C07_history_total sk V (slicePairs k A D)
    (fun b hb h => hD (hm b hb _ h))
  obtain ⟨cs, h1, -⟩ := accUpdate_ok V sk A D hD
  have e := (C67_size k hk sk V V' A D published _ cs hh h1).2.2
  rw [← e] at h1
  have hw : mwVerify E ((sk + y)⁻¹ • V) y (publicKey E sk) V = true := by
    rw [mwVerify_iff, add_comm y sk, smul_smul, mul_inv_cancel₀ h', one_smul]
  have h1' := h1
  rw [← hc.1, ← hc.2] at h1'
  obtain ⟨w1, -, w3⟩ := C67_witness E sk y _ V V' V' (slicePairs k A D) published cs hw hy
    (fun b hb h => hyD (hm b hb _ h)) hh (by simpa [hc.1, hc.2] using h1)
  rw [hc.1, hc.2] at w1 w3
  exact ⟨(sk + y)⁻¹ • V, V', published, cs,
    by simp [mwNew, accRemove, inv!_ne h', bind, Except.bind, pure, Except.pure], hh, h1, w1,
    by rw [w1]; exact w3⟩

/-- A concrete case: three additions, two deletions, slices of two. -/
example : slicePairs 2 ([1, 2, 3] : List ℚ) [5, 7] = [([1, 2], [5, 7]), ([3], [])] := by
  simp [slicePairs, chunks, padTo]

example := C67_scenario (Pairing.field ℚ) 2 (by norm_num) 4 9 60 [1, 2, 3] [5, 7] (by norm_num)
  (by norm_num) (by norm_num)

end
end Allo
