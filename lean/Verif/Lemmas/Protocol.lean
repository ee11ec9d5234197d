import Verif.Lemmas.Collect

/-! `post_update` when each server either answers all chunks or is silent. -/

set_option linter.unusedSectionVars false
namespace Allo
open Spec Finset User

section
variable {F : Type} [Field F] [DecidableEq F]

/-- the evaluation point of server `i` -/
def xOf (F : Type) [Field F] (i : Nat) : F := ((i + 1 : Nat) : F)

/-- shares held by the servers `rs`, with values `g` -/
def sel {T : Type} (rs : List Nat) (g : Nat → T) : List (F × T) := rs.map (fun i => (xOf F i, g i))

theorem ptX_sel {T : Type} (rs : List Nat) (g : Nat → T) (i : Nat) (hi : i < rs.length) :
    ptX (sel (F := F) rs g) i = xOf F rs[i] := by
  simp [ptX, sel, hi]

theorem ptV_sel {M : Type} [AddCommGroup M] [Module F M] (rs : List Nat) (g : Nat → M) (i : Nat)
    (hi : i < rs.length) : ptV (sel (F := F) rs g) i = g rs[i] := by
  simp [ptV, sel, hi]

theorem goodPts_sel {T : Type} {n : Nat} (hc : ∀ i, 0 < i → i ≤ n → (i : F) ≠ 0) (rs : List Nat)
    (hnd : rs.Nodup) (hlt : ∀ i ∈ rs, i < n) (g : Nat → T) (m : Nat) (hm : m ≤ rs.length) :
    GoodPts m (sel (F := F) rs g) := by
  refine ⟨by simpa [sel] using hm, ?_, ?_⟩
  · intro i hi
    rw [ptX_sel rs g i (by omega)]
    exact hc _ (by omega) (by have := hlt _ (List.getElem_mem (show i < rs.length by omega)); omega)
  · intro i hi j hj e
    rw [ptX_sel rs g i (by omega), ptX_sel rs g j (by omega)] at e
    have h1 := hlt _ (List.getElem_mem (show i < rs.length by omega))
    have h2 := hlt _ (List.getElem_mem (show j < rs.length by omega))
    have := cast_inj_of hc (by omega) (by omega) e
    exact (List.Nodup.getElem_inj_iff hnd).1 (by omega)

variable {G1 : Type} [AddCommGroup G1] [Module F G1] [DecidableEq G1]

/-- the answers of `n` servers, of which those with `resp i` answer `c` chunks -/
def answers (n c : Nat) (resp : Nat → Bool) (gD : Nat → Nat → F) (gV : Nat → Nat → G1) :
    List (List F × List G1) :=
  (List.range n).map (fun i => if resp i then ((List.range c).map (gD i), (List.range c).map (gV i))
    else ([], []))

theorem column_answers {T : Type} (n c : Nat) (resp : Nat → Bool) (g : Nat → Nat → T) (j : Nat) (hj : j < c) :
    column ((List.range n).map (xOf F)) ((List.range n).map (fun i => if resp i then (List.range c).map (g i)
      else [])) j = sel ((List.range n).filter resp) (fun i => g i j) := by
  unfold column sel
  rw [List.zip_map', List.filterMap_map]
  generalize List.range n = l
  induction l with
  | nil => rfl
  | cons i l ih =>
    by_cases hr : resp i
    · rw [List.filterMap_cons]
      simp only [Function.comp, hr, if_true, List.getElem?_map, List.getElem?_range hj, Option.map_some]
      rw [List.filter_cons_of_pos hr, List.map_cons, ← ih]
      rfl
    · rw [List.filterMap_cons]
      simp only [Function.comp, hr, Bool.false_eq_true, if_false, List.getElem?_nil, Option.map_none]
      rw [List.filter_cons_of_neg (by simpa using hr), ← ih]
      rfl

theorem firstLen_answers {T : Type} (n c : Nat) (resp : Nat → Bool) (g : Nat → Nat → T)
    (h : ∃ i < n, resp i = true) :
    firstLen ((List.range n).map (fun i => if resp i then (List.range c).map (g i) else [])) = c := by
  by_cases hc : c = 0
  · subst hc
    rw [firstLen_zero]
    intro a ha
    obtain ⟨i, _, rfl⟩ := List.mem_map.1 ha
    simp
  · unfold firstLen
    cases hf : ((List.range n).map (fun i => if resp i then (List.range c).map (g i) else [])).find?
        (fun a => !a.isEmpty) with
    | none =>
      rw [List.find?_eq_none] at hf
      obtain ⟨i, hi, hr⟩ := h
      have := hf _ (List.mem_map.2 ⟨i, List.mem_range.2 hi, rfl⟩)
      simp [hr, hc] at this
    | some b =>
      have h1 := List.find?_some hf
      obtain ⟨i, _, rfl⟩ := List.mem_map.1 (List.mem_of_find?_eq_some hf)
      by_cases hr : resp i
      · simp [hr]
      · simp [hr] at h1

theorem collect_answers (n c : Nat) (resp : Nat → Bool) (gD : Nat → Nat → F) (gV : Nat → Nat → G1)
    (h : ∃ i < n, resp i = true) :
    collect n ((List.range n).map (xOf F)) (answers n c resp gD gV)
      = .ok ((List.range c).map (fun j => sel ((List.range n).filter resp) (fun i => gD i j)),
             (List.range c).map (fun j => sel ((List.range n).filter resp) (fun i => gV i j))) := by
  have e1 : (answers n c resp gD gV).map (·.1)
      = (List.range n).map (fun i => if resp i then (List.range c).map (gD i) else []) := by
    unfold answers
    rw [List.map_map]
    apply List.map_congr_left
    intro i _
    by_cases hr : resp i <;> simp [hr]
  have e2 : (answers n c resp gD gV).map (·.2)
      = (List.range n).map (fun i => if resp i then (List.range c).map (gV i) else []) := by
    unfold answers
    rw [List.map_map]
    apply List.map_congr_left
    intro i _
    by_cases hr : resp i <;> simp [hr]
  have hlen : (answers n c resp gD gV).length = n := by simp [answers]
  have := collect_eq ((List.range n).map (xOf F)) (answers n c resp gD gV) (by simp [hlen])
  rw [hlen, e1, e2, firstLen_answers n c resp gD h, firstLen_answers n c resp gV h] at this
  rw [this, if_pos]
  · congr 2
    · apply List.map_congr_left
      intro j hj
      exact column_answers n c resp gD j (List.mem_range.1 hj)
    · apply List.map_congr_left
      intro j hj
      exact column_answers n c resp gV j (List.mem_range.1 hj)
  · constructor <;> intro p hp <;> obtain ⟨i, _, rfl⟩ := List.mem_map.1 hp <;>
      by_cases hr : resp i <;> simp [hr]

/-- `post_update` as a function of the rebuilt values -/
theorem postUpdate_spec (w : G1) (t n c : Nat) (hc : 1 ≤ c) (resp : Nat → Bool)
    (gD : Nat → Nat → F) (gV : Nat → Nat → G1) (h : ∃ i < n, resp i = true)
    (yShares : List (List F)) (hy : yShares.length = n) (cs : List F) (ch : Option (List F))
    (hcs : shamirCoefficients t (sel ((List.range n).filter resp) (fun i => gD i 0)) = .ok (cs, ch))
    (rD : Nat → Option F) (rV : Nat → Option G1)
    (hD : ∀ j < c, shamirRebuildScalar (sel ((List.range n).filter resp) (fun i => gD i j)) cs ch
      = .ok (rD j))
    (hV : ∀ j < c, shamirRebuildPoint (sel ((List.range n).filter resp) (fun i => gV i j)) cs ch
      = .ok (rV j)) :
    postUpdate w t yShares ((List.range n).map (xOf F)) (answers n c resp gD gV)
      = .ok (loopSpec rD rV (List.range c) w) := by
  unfold postUpdate
  rw [hy, collect_answers n c resp gD gV h]
  simp only [bind, Except.bind]
  rw [idx_lt (show 0 < ((List.range c).map (fun j => sel (F := F) ((List.range n).filter resp)
    (fun i => gD i j))).length by simp; omega)]
  simp only [List.getElem_map, List.getElem_range]
  rw [hcs]
  simp only
  have := rebuildLoop_spec cs ch (fun j => sel ((List.range n).filter resp) (fun i => gD i j))
    (fun j => sel ((List.range n).filter resp) (fun i => gV i j)) c rD rV hD hV c 0 w (by omega)
  rw [← List.range_eq_range'] at this
  exact this

/-- rebuilding works if the answers that are used (the first `t + 1`) are on polynomials, and exactly `t`
answered or server 0 did -/
theorem postUpdate_used (w : G1) (t n c : Nat) (ht : 1 ≤ t) (hc1 : 1 ≤ c)
    (hc : ∀ i, 0 < i → i ≤ n → (i : F) ≠ 0) (resp : Nat → Bool)
    (hD : Nat → F → F) (hV : Nat → F → G1) (pD : ∀ j, PolyFn t (hD j)) (pV : ∀ j, PolyFn t (hV j))
    (hr : t ≤ ((List.range n).filter resp).length)
    (gD : Nat → Nat → F) (gV : Nat → Nat → G1)
    (hgD : ∀ i ∈ ((List.range n).filter resp).take (t + 1), ∀ j < c, gD i j = hD j (xOf F i))
    (hgV : ∀ i ∈ ((List.range n).filter resp).take (t + 1), ∀ j < c, gV i j = hV j (xOf F i))
    (h0 : resp 0 = true ∨ ((List.range n).filter resp).length = t)
    (yShares : List (List F)) (hy : yShares.length = n) :
    postUpdate w t yShares ((List.range n).map (xOf F))
        (answers n c resp gD gV)
      = .ok (loopSpec (fun j => some (hD j 0)) (fun j => some (hV j 0)) (List.range c) w) := by
  set rs := (List.range n).filter resp with hrs
  have hnd : rs.Nodup := List.nodup_range.filter _
  have hlt : ∀ i ∈ rs, i < n := fun i hi => List.mem_range.1 (List.mem_filter.1 hi).1
  have hex : ∃ i < n, resp i = true := by
    have : rs ≠ [] := by intro e; rw [e] at hr; simp at hr; omega
    obtain ⟨i, hi⟩ := List.exists_mem_of_ne_nil rs this
    exact ⟨i, hlt i hi, (List.mem_filter.1 hi).2⟩
  have hfirst : t < rs.length → rs[0]? = some 0 := by
    intro hlt'
    rcases h0 with h0 | h0
    · rw [hrs]
      cases n with
      | zero => simp [hrs] at hlt'
      | succ n => rw [List.range_succ_eq_map, List.filter_cons_of_pos h0]; rfl
    · omega
  have hx0 : t < rs.length → ∀ (T : Type) (g : Nat → T), ptX (sel (F := F) rs g) 0 ^ 2 = 1 := by
    intro hlt' T g
    rw [ptX_sel rs g 0 (by omega)]
    have := hfirst hlt'
    rw [List.getElem?_eq_getElem (by omega)] at this
    rw [Option.some.inj this]
    simp [xOf]
  have hcoef : ∃ cs ch, shamirCoefficients t (sel (F := F) rs (fun i => gD i 0)) = .ok (cs, ch) ∧
      (∀ j < c, shamirRebuildScalar (sel rs (fun i => gD i j)) cs ch = .ok (some (hD j 0))) ∧
      (∀ j < c, shamirRebuildPoint (sel rs (fun i => gV i j)) cs ch = .ok (some (hV j 0))) := by
    have hgen : ∀ (M : Type) [AddCommGroup M] [Module F M] [DecidableEq M] (g : F → M) (f : Nat → M), PolyFn t g →
        (∀ i ∈ rs.take (t + 1), f i = g (xOf F i)) →
        ∃ cs ch, shamirCoefficients t (sel (F := F) rs (fun i => gD i 0)) = .ok (cs, ch) ∧
          shamirRebuildPoint (sel rs f) cs ch = .ok (some (g 0)) := by
      intro M _ _ _ g f hg hfg
      apply rebuild_polyFn t ht (sel (F := F) rs (fun i => gD i 0))
        (sel rs f) g hg (by simpa [sel] using hr) (by simp [sel])
      · exact goodPts_sel hc rs hnd hlt _ _ (by simp [sel])
      · intro i hi
        simp only [sel, List.length_map] at hi
        rw [ptX_sel _ _ _ hi, ptX_sel _ _ _ hi]
      · intro i hi
        simp only [sel, List.length_map] at hi
        rw [ptX_sel _ _ _ (by omega), ptV_sel _ _ _ (by omega)]
        exact hfg _ (List.mem_take_iff_getElem.2 ⟨i, by omega, rfl⟩)
      · intro hl
        simp only [sel, List.length_map] at hl
        exact hx0 hl _ _
    obtain ⟨cs, ch, h1, _⟩ := hgen F (hD 0) (fun i => gD i 0) (pD 0) (fun i hi => hgD i hi 0 (by omega))
    refine ⟨cs, ch, h1, ?_, ?_⟩
    · intro j hj
      obtain ⟨cs', ch', h1', h2'⟩ := hgen F (hD j) (fun i => gD i j) (pD j) (fun i hi => hgD i hi j hj)
      rw [h1] at h1'; injection h1' with h1'; injection h1' with ha hb; subst ha; subst hb
      rw [rebuildScalar_eq]; exact h2'
    · intro j hj
      obtain ⟨cs', ch', h1', h2'⟩ := hgen G1 (hV j) (fun i => gV i j) (pV j) (fun i hi => hgV i hi j hj)
      rw [h1] at h1'; injection h1' with h1'; injection h1' with ha hb; subst ha; subst hb
      exact h2'
  obtain ⟨cs, ch, h1, h2, h3⟩ := hcoef
  exact postUpdate_spec w t n c hc1 resp _ _ hex yShares hy cs ch h1 _ _ h2 h3

/-- honest answers: rebuilding works if exactly `t` answered or server 0 did -/
theorem postUpdate_honest (w : G1) (t n c : Nat) (ht : 1 ≤ t) (hc1 : 1 ≤ c)
    (hc : ∀ i, 0 < i → i ≤ n → (i : F) ≠ 0) (resp : Nat → Bool)
    (hD : Nat → F → F) (hV : Nat → F → G1) (pD : ∀ j, PolyFn t (hD j)) (pV : ∀ j, PolyFn t (hV j))
    (hr : t ≤ ((List.range n).filter resp).length)
    (h0 : resp 0 = true ∨ ((List.range n).filter resp).length = t)
    (yShares : List (List F)) (hy : yShares.length = n) :
    postUpdate w t yShares ((List.range n).map (xOf F))
        (answers n c resp (fun i j => hD j (xOf F i)) (fun i j => hV j (xOf F i)))
      = .ok (loopSpec (fun j => some (hD j 0)) (fun j => some (hV j 0)) (List.range c) w) := by
  exact postUpdate_used w t n c ht hc1 hc resp hD hV pD pV hr _ _ (fun _ _ _ _ => rfl) (fun _ _ _ _ => rfl) h0
    yShares hy

end
end Allo
