import Verif.Props.Silent
import Mathlib.Tactic.IntervalCases
import Mathlib.Data.ZMod.Basic
import Mathlib.Algebra.Field.ZMod

/-!
# C96: `post_update` on arbitrary answers

What `post_update` returns — a witness, an error or a panic — as a function of *any* answers of any servers,
in terms of polynomial interpolation. The specification below does not mention the code's coefficients.
-/

set_option linter.unusedSectionVars false
set_option linter.unusedVariables false
namespace Allo
open Spec Finset User

/-! ## Specification -/
namespace PostSpec

section
variable {F M T : Type} [Field F] [AddCommGroup M] [Module F M]

/-- the values the servers gave for chunk `j`, in the order of the servers -/
def chunkVals (A : List (List T)) (j : Nat) : List T := A.filterMap (fun a => a[j]?)

variable (F) in
/-- the evaluation points `1, 2, …` of the servers whose answer is not empty -/
def respondents (A : List (List T)) : List F :=
  A.zipIdx.filterMap (fun p => if p.1.isEmpty then none else some ((p.2 + 1 : Nat) : F))

/-- the number of chunks in the first answer that is not empty -/
def leadLen (A : List (List T)) : Nat := ((A.find? (fun a => !a.isEmpty)).map List.length).getD 0

open Classical in
/-- the value at 0 of the polynomial of degree less than `t` through the points, if there is one -/
noncomputable def decode (t : Nat) (pts : List (F × M)) : Option M :=
  if h : OnPoly t pts then some (polyVal (0 : F) h.choose) else none

/-- what is made of the values `vals` of one chunk when the points of the respondents are `xs`: only the first
`t` values, and one more if there are more respondents, are used; the extra one is first multiplied by the
square of the first respondent's point (which is 1 if the first server answered). A panic if too few values. -/
noncomputable def rebuilt (t : Nat) (xs : List F) (vals : List M) : Rust (Option M) :=
  if vals.length < min xs.length (t + 1) then .error .index
  else .ok (decode t ((xs.zip (vals.modify t (xs.headD 1 ^ 2 • ·))).take (t + 1)))

open Classical in
/-- chunk after chunk -/
noncomputable def chunkSteps (t : Nat) (xs : List F) (D : List (List F)) (V : List (List M)) :
    List Nat → M → Rust (Except String M)
  | [], w => .ok (.ok w)
  | j :: js, w =>
    match rebuilt t xs (chunkVals D j) with
    | .error e => .error e
    | .ok none => .ok (.error "malicious server")
    | .ok (some d) =>
      if d = 0 then .ok (.error "user has been deleted")
      else match rebuilt t xs (chunkVals V j) with
        | .error e => .error e
        | .ok none => .ok (.error "malicious server")
        | .ok (some v) => chunkSteps t xs D V js (d⁻¹ • (w - v))

open Classical in
/-- the result of `post_update` on the answers `ans`, for a user whose witness was `w` -/
noncomputable def postUpdateResult (t : Nat) (w : M) (ans : List (List F × List M)) :
    Rust (Except String M) :=
  let D := ans.map (·.1)
  let V := ans.map (·.2)
  if (∃ a ∈ D, leadLen D < a.length) ∨ (∃ a ∈ V, leadLen V < a.length) ∨ (respondents F D).length < t then
    .error .index
  else chunkSteps t (respondents F D) D V (List.range (leadLen D)) w

end
end PostSpec
open PostSpec

/-! ## Lemmas -/
section
variable {F M T : Type} [Field F] [DecidableEq F] [AddCommGroup M] [Module F M]

theorem column_vals (xs : List F) (A : List (List T)) (hl : xs.length = A.length) (j : Nat) :
    (column xs A j).map (·.2) = chunkVals A j := by
  unfold column chunkVals
  induction A generalizing xs with
  | nil => cases xs <;> rfl
  | cons a A ih =>
    cases xs with
    | nil => simp at hl
    | cons x xs =>
      simp at hl
      rw [List.zip_cons_cons, List.filterMap_cons, List.filterMap_cons]
      cases a[j]? with
      | none => simpa using ih xs hl
      | some v => simpa using ih xs hl

theorem column_pts (A : List (List T)) : ∀ k,
    (column ((List.range' k A.length).map (xOf F)) A 0).map (·.1)
      = (A.zipIdx k).filterMap (fun p => if p.1.isEmpty then none else some ((p.2 + 1 : Nat) : F)) := by
  unfold column
  induction A with
  | nil => intro k; rfl
  | cons a A ih =>
    intro k
    rw [List.length_cons, List.range'_succ, List.map_cons, List.zip_cons_cons, List.filterMap_cons,
      List.zipIdx_cons, List.filterMap_cons]
    cases a with
    | nil => simpa using ih (k + 1)
    | cons b a => simpa [xOf] using ih (k + 1)

theorem respondents_eq_sel (A : List (List T)) :
    ∃ rs : List Nat, rs.Nodup ∧ (∀ i ∈ rs, i < A.length) ∧ respondents F A = rs.map (xOf F) := by
  refine ⟨(List.range A.length).filter (fun i => !(A.getD i []).isEmpty), List.nodup_range.filter _,
    fun i hi => List.mem_range.1 (List.mem_filter.1 hi).1, ?_⟩
  unfold respondents
  have : A.zipIdx = (List.range A.length).map (fun i => (A.getD i [], i)) := by
    apply List.ext_getElem
    · simp
    · intro i h1 h2
      simp at h1
      simp [h1]
  rw [this, List.filterMap_map]
  generalize List.range A.length = l
  induction l with
  | nil => rfl
  | cons i l ih =>
    rw [List.filterMap_cons]
    by_cases h : (A.getD i []).isEmpty
    · rw [List.filter_cons_of_neg (by simpa using h)]
      simpa only [Function.comp, h, if_true] using ih
    · rw [List.filter_cons_of_pos (by simpa using h), List.map_cons, ← ih]
      simp only [Function.comp, h, xOf]
      rfl

variable [DecidableEq M]

/-- rebuilding only looks at the values -/
theorem rebuildPoint_vals (l l' : List (F × M)) (h : l.map (·.2) = l'.map (·.2)) (cs : List F)
    (ch : Option (List F)) : shamirRebuildPoint l cs ch = shamirRebuildPoint l' cs ch := by
  have hi : ∀ i, (idx l i).map (·.2) = (idx l' i).map (·.2) := by
    intro i
    have := congrArg (fun l => l[i]?) h
    simp only [List.getElem?_map] at this
    unfold idx
    cases h1 : l[i]? <;> cases h2 : l'[i]? <;> simp_all [Except.map]
  have hb : ∀ i {β : Type} (f : M → Rust β), (idx l i >>= fun s => f s.2) = (idx l' i >>= fun s => f s.2) := by
    intro i β f
    have := hi i
    cases h1 : idx l i <;> cases h2 : idx l' i <;> simp_all [Except.map, bind, Except.bind]
  unfold shamirRebuildPoint
  have e1 : (fun (r : M) i => (do
      let s ← idx l i
      let c ← idx cs i
      pure (r + c • s.2) : Rust M)) = fun r i => (do
      let s ← idx l' i
      let c ← idx cs i
      pure (r + c • s.2) : Rust M) := by
    funext r i
    exact hb i (fun v => do let c ← idx cs i; pure (r + c • v))
  rw [e1]
  cases ch with
  | none => rfl
  | some checks =>
    have e2 : (fun (r : M) i => (do
        let s ← idx l i
        let c ← idx checks i
        pure (r + c • s.2) : Rust M)) = fun r i => (do
        let s ← idx l' i
        let c ← idx checks i
        pure (r + c • s.2) : Rust M) := by
      funext r i
      exact hb i (fun v => do let c ← idx checks i; pure (r + c • v))
    simp only [e2]
    congr 1
    funext res
    exact hb cs.length (fun v => do
      let c0 ← idx checks 0
      let checkResult ← (List.range' 1 (cs.length - 1)).foldlM (fun (r : M) i => do
        let s ← idx l' i
        let c ← idx checks i
        pure (r + c • s.2)) (c0 • v)
      if checkResult = res then pure (some res) else pure none)

theorem foldlM_total {σ β : Type} (f : σ → β → Rust σ)
    (h : ∀ s b, (∃ s', f s b = .ok s') ∨ f s b = .error .index) (l : List β) :
    ∀ s, (∃ s', l.foldlM f s = .ok s') ∨ l.foldlM f s = .error .index := by
  induction l with
  | nil => intro s; exact Or.inl ⟨s, rfl⟩
  | cons b l ih =>
    intro s
    rw [List.foldlM_cons]
    rcases h s b with ⟨s', h1⟩ | h1
    · rw [h1]; exact ih s'
    · rw [h1]; exact Or.inr rfl

/-- too few shares: a panic -/
theorem rebuildPoint_short (l : List (F × M)) (cs : List F) (ch : Option (List F))
    (h : l.length < cs.length ∨ (ch ≠ none ∧ l.length = cs.length)) :
    shamirRebuildPoint l cs ch = .error .index := by
  have hidx : ∀ {α : Type} (l : List α) i, (∃ a, idx l i = .ok a) ∨ idx l i = .error .index := by
    intro α l i
    by_cases hi : i < l.length
    · exact Or.inl ⟨_, idx_lt hi⟩
    · exact Or.inr (idx_ge (by omega))
  have hstep : ∀ (r : M) (i : Nat) (ds : List F), (∃ a, (do
      let s ← idx l i
      let c ← idx ds i
      pure (r + c • s.2) : Rust M) = .ok a) ∨ (do
      let s ← idx l i
      let c ← idx ds i
      pure (r + c • s.2) : Rust M) = .error .index := by
    intro r i ds
    rcases hidx l i with ⟨a, ha⟩ | ha <;> rcases hidx ds i with ⟨b, hb⟩ | hb <;>
      simp [ha, hb, bind, Except.bind, pure, Except.pure]
  unfold shamirRebuildPoint
  by_cases hlt : l.length < cs.length
  · have : (List.range cs.length).foldlM (fun (r : M) i => do
        let s ← idx l i
        let c ← idx cs i
        pure (r + c • s.2)) 0 = (.error .index : Rust M) := by
      rcases foldlM_total _ (fun r i => hstep r i cs) (List.range cs.length) (0 : M) with ⟨a, ha⟩ | ha
      · obtain ⟨b, b', hb⟩ := foldlM_step _ _ _ _ ha l.length (List.mem_range.2 hlt)
        simp [idx, bind, Except.bind] at hb
      · exact ha
    rw [this]
    rfl
  · rcases h with h | ⟨h1, h2⟩
    · exact absurd h hlt
    · rw [rebuild_sum l cs (by omega)]
      cases ch with
      | none => exact absurd rfl h1
      | some checks =>
        simp only [bind, Except.bind]
        rw [idx_ge (by omega)]

theorem decode_good (t : Nat) (pts : List (F × M)) (h : GoodPts t pts) (r : M) :
    decode t pts = some r ↔ ∃ A : List M, A.length = t ∧ (∀ p ∈ pts, p.2 = polyVal p.1 A) ∧
      r = polyVal (0 : F) A := by
  have huniq : ∀ A B : List M, A.length = t → B.length = t → (∀ p ∈ pts, p.2 = polyVal p.1 A) →
      (∀ p ∈ pts, p.2 = polyVal p.1 B) → polyVal (0 : F) A = polyVal (0 : F) B := by
    intro A B hA hB h1 h2
    apply polyVal_unique (range t) (ptX pts) h.injOn A B (by simp [hA]) (by simp [hB])
    intro i hi
    rw [mem_range] at hi
    have hl : i < pts.length := by have := h.len; omega
    rw [← ptX_lt hl, ← h1 _ (List.getElem_mem hl), h2 _ (List.getElem_mem hl)]
  unfold decode
  constructor
  · intro he
    split at he
    · next hp => 
      injection he with he
      exact ⟨_, hp.choose_spec.1, hp.choose_spec.2, he.symm⟩
    · cases he
  · rintro ⟨A, h1, h2, rfl⟩
    have hp : OnPoly t pts := ⟨A, h1, h2⟩
    rw [dif_pos hp]
    exact congrArg some (huniq _ _ hp.choose_spec.1 h1 hp.choose_spec.2 h2)

theorem decode_sum (t : Nat) (pts : List (F × M)) (h : GoodPts t pts) (hp : OnPoly t pts) :
    decode t pts = some (∑ i ∈ range t, lagr (range t) (ptX pts) 0 i • ptV pts i) := by
  obtain ⟨A, hA, hv⟩ := hp
  rw [decode_good t pts h]
  refine ⟨A, hA, hv, ?_⟩
  rw [← lagr_polyVal (range t) (ptX pts) h.injOn 0 A (by simp [hA])]
  apply sum_congr rfl
  intro i hi
  rw [mem_range] at hi
  have hl : i < pts.length := by have := h.len; omega
  rw [← ptX_lt hl, ← ptV_lt hl, hv _ (List.getElem_mem hl)]

theorem decode_exact (t : Nat) (pts : List (F × M)) (h : GoodPts t pts) (hl : pts.length = t) :
    decode t pts = some (∑ i ∈ range t, lagr (range t) (ptX pts) 0 i • ptV pts i) := by
  apply decode_sum t pts h
  obtain ⟨A, hA1, hA2, hA3⟩ := exists_polyVal (range t) (ptX pts) h.injOn (ptV pts)
  refine ⟨A, by simpa using hA1, fun p hp => ?_⟩
  obtain ⟨i, hi, rfl⟩ := List.getElem_of_mem hp
  rw [ptV_lt hi, ptX_lt hi, hA3 i (mem_range.2 (by omega))]

theorem decode_extra (t : Nat) (pts : List (F × M)) (h : GoodPts (t + 1) pts) (hl : pts.length = t + 1) :
    decode t pts = if ptV pts t = ∑ i ∈ range t, lagr (range t) (ptX pts) (ptX pts t) i • ptV pts i
      then some (∑ i ∈ range t, lagr (range t) (ptX pts) 0 i • ptV pts i) else none := by
  have hiff := onPoly_check_iff t pts h
  rw [List.take_of_length_le (by omega)] at hiff
  by_cases hp : OnPoly t pts
  · rw [if_pos (hiff.1 hp), decode_sum t pts (h.mono (by omega)) hp]
  · rw [if_neg (fun e => hp (hiff.2 e))]
    unfold decode
    rw [dif_neg hp]

/-- rebuilding one chunk -/
theorem rebuilt_eq (t : Nat) (ht : 1 ≤ t) (pts : List (F × T)) (hl : t ≤ pts.length)
    (hg : GoodPts (min pts.length (t + 1)) pts) (cs : List F) (ch : Option (List F))
    (hc : shamirCoefficients t pts = .ok (cs, ch)) (l : List (F × M)) :
    shamirRebuildPoint l cs ch = rebuilt t (pts.map (·.1)) (l.map (·.2)) := by
  set xs := pts.map (·.1) with hxs
  have hxl : xs.length = pts.length := by simp [hxs]
  have hpx : ∀ i, ptX pts i = xs.getD i 0 := fun i => rfl
  have hcase : (pts.length = t ∧ cs = (List.range t).map (lagr (range t) (ptX pts) 0) ∧ ch = none) ∨
      (t + 1 ≤ pts.length ∧ GoodPts (t + 1) pts ∧ cs = (List.range t).map (lagr (range t) (ptX pts) 0) ∧
        ch = some ((List.range t).map (checkEntry t (t - 1) (ptX pts)))) := by
    by_cases he : pts.length = t
    · rw [shamirCoefficients_exact t pts (hg.mono (by omega)) he] at hc
      injection hc with hc
      injection hc with h1 h2
      exact Or.inl ⟨he, h1.symm, h2.symm⟩
    · have hg' := hg.mono (show t + 1 ≤ min pts.length (t + 1) by omega)
      rw [shamirCoefficients_extra t ht pts hg'] at hc
      injection hc with hc
      injection hc with h1 h2
      exact Or.inr ⟨by omega, hg', h1.symm, h2.symm⟩
  unfold rebuilt
  rw [List.length_map, hxl]
  by_cases hs : l.length < min pts.length (t + 1)
  · rw [if_pos hs]
    apply rebuildPoint_short
    rcases hcase with ⟨h1, h2, h3⟩ | ⟨h1, -, h2, h3⟩
    · left; rw [h2]; simp; omega
    · rw [h2, h3]; simp; omega
  · rw [if_neg hs]
    -- relabel with the respondents' points
    set l' : List (F × M) := l.zipIdx.map (fun p => (xs.getD p.2 0, p.1.2)) with hl'
    have hl2 : l'.length = l.length := by simp [hl']
    have hlab : l.map (·.2) = l'.map (·.2) := by
      apply List.ext_getElem
      · simp [hl']
      · intro i h1 h2; simp [hl']
    have hX : ∀ i < l.length, ptX l' i = ptX pts i := by
      intro i hi
      rw [hpx, ← ptX_lt (by omega)]
      simp [hl']
    have hV : ∀ i < l.length, ptV l' i = (l.map (·.2)).getD i 0 := by
      intro i hi
      rw [← ptV_lt (by omega)]
      simp [hl', hi]
    rw [rebuildPoint_vals l l' hlab]
    set q : List (F × M) := (xs.zip ((l.map (·.2)).modify t (xs.headD 1 ^ 2 • ·))).take (t + 1) with hq
    have hql : q.length = min pts.length (t + 1) := by simp [hq, hxl]; omega
    have hqX : ∀ i < q.length, ptX q i = ptX pts i := by
      intro i hi
      have hi' := hi
      rw [hql] at hi'
      rw [← ptX_lt hi, hpx]
      have : i < xs.length := by omega
      simp [hq, this]
    have hqV : ∀ i < q.length, ptV q i = if i = t then xs.headD 1 ^ 2 • ptV l' i else ptV l' i := by
      intro i hi
      have hi' := hi
      rw [hql] at hi'
      have h2 : i < l.length := by omega
      rw [← ptV_lt hi, hV i h2]
      simp only [hq, List.getElem_take, List.getElem_zip, List.getElem_modify, List.getElem_map]
      by_cases he : t = i
      · subst he; simp [h2]
      · rw [if_neg he, if_neg (fun e => he e.symm)]; simp [h2]
    have hgq : ∀ m ≤ min pts.length (t + 1), GoodPts m q := by
      intro m hm
      refine ⟨by omega, fun i hi => ?_, fun i hi j hj e => ?_⟩
      · rw [hqX i (by omega)]; exact hg.ne0 i (by omega)
      · rw [hqX i (by omega), hqX j (by omega)] at e
        exact hg.inj i (by omega) j (by omega) e
    have hhead : xs.headD 1 = ptX pts 0 := by
      rw [hpx]
      have : 0 < xs.length := by omega
      cases hh : xs with
      | nil => rw [hh] at this; simp at this
      | cons a b => rfl
    have hsum : ∀ z : F, ∑ i ∈ range t, lagr (range t) (ptX q) z i • ptV q i
        = ∑ i ∈ range t, lagr (range t) (ptX pts) z i • ptV l' i := by
      intro z
      apply sum_congr rfl
      intro i hi
      rw [mem_range] at hi
      rw [hqV i (by omega), if_neg (by omega)]
      congr 1
      unfold lagr
      apply prod_congr rfl
      intro j hj
      simp only [mem_erase, mem_range] at hj
      rw [hqX i (by omega), hqX j (by omega)]
    rcases hcase with ⟨h1, h2, h3⟩ | ⟨h1, hg', h2, h3⟩
    · rw [h2, h3, rebuild_nocheck t l' _ (by omega), decode_exact t q (hgq t (by omega)) (by omega), hsum]
    · rw [h2, h3, rebuild_check_general t ht l' pts hg' (fun i hi => hX i (by omega)) (by omega),
        decode_extra t q (hgq (t + 1) (by omega)) (by omega), hsum, hsum, hqV t (by omega), if_pos rfl,
        hqX t (by omega), hhead]

end

section
variable {F G1 G2 : Type} [Field F] [DecidableEq F] [AddCommGroup G1] [Module F G1] [DecidableEq G1]

theorem rebuildLoop_eq (t : Nat) (ht : 1 ≤ t) (xs : List F) (hxt : t ≤ xs.length) (cs : List F)
    (ch : Option (List F))
    (hr : ∀ (M : Type) [AddCommGroup M] [Module F M] [DecidableEq M] (l : List (F × M)),
      shamirRebuildPoint l cs ch = rebuilt t xs (l.map (·.2)))
    (D : List (List F)) (V : List (List G1)) (colD : Nat → List (F × F)) (colV : Nat → List (F × G1))
    (hD : ∀ j, (colD j).map (·.2) = chunkVals D j) (hV : ∀ j, (colV j).map (·.2) = chunkVals V j) (c : Nat)
    (hc : ∀ a ∈ V, a.length ≤ c) (m : Nat) :
    ∀ i w, rebuildLoop cs ch ((List.range c).map colV) i ((List.range' i m).map colD) w
        = chunkSteps t xs D V (List.range' i m) w := by
  induction m with
  | zero => intro i w; rfl
  | succ m ih =>
    intro i w
    rw [List.range'_succ, List.map_cons]
    unfold rebuildLoop chunkSteps
    rw [rebuildScalar_eq, hr F, hD]
    simp only [bind, Except.bind]
    cases h1 : rebuilt t xs (chunkVals D i) with
    | error e => rfl
    | ok r =>
      cases r with
      | none => rfl
      | some d =>
        simp only
        by_cases h0 : d = 0
        · simp [h0, pure, Except.pure]
        · rw [if_neg h0, if_neg h0]
          by_cases hi : i < c
          · rw [idx_lt (by simpa using hi)]
            simp only [List.getElem_map, List.getElem_range]
            rw [hr G1, hV]
            cases h2 : rebuilt t xs (chunkVals V i) with
            | error e => rfl
            | ok r2 =>
              cases r2 with
              | none => rfl
              | some v =>
                simp only
                rw [inv!_ne h0]
                exact ih (i + 1) _
          · rw [idx_ge (by simpa using hi)]
            have : chunkVals V i = [] := by
              unfold chunkVals
              rw [List.filterMap_eq_nil_iff]
              intro a ha
              rw [List.getElem?_eq_none]
              have := hc a ha
              omega
            rw [this]
            unfold rebuilt
            rw [if_pos (by simp; omega)]

/-- C96: for every old witness, every threshold `t ≥ 1` and **all** answers — wrong values, wrong lengths,
missing, from any number of servers — `post_update` returns exactly `postUpdateResult`: it panics if some answer
is longer than the first non-empty one, if fewer than `t` servers answer, or if a later chunk lacks values it
needs; otherwise it goes through the chunks, and each rebuilt pair `(d, v)` is the pair of values at 0 of the
polynomials of degree `< t` through the used shares — `"malicious server"` if there is no such polynomial,
`"user has been deleted"` if `d = 0`, else the witness becomes `d⁻¹ • (w - v)`. -/
theorem C96_total (w : G1) (t : Nat) (ht : 1 ≤ t) (ans : List (List F × List G1))
    (hc : ∀ i, 0 < i → i ≤ ans.length → (i : F) ≠ 0) (yShares : List (List F))
    (hy : yShares.length = ans.length) :
    postUpdate w t yShares ((List.range ans.length).map (fun i => ((i + 1 : Nat) : F))) ans
      = postUpdateResult t w ans := by
  unfold postUpdate postUpdateResult
  have hxeq : (List.range ans.length).map (fun i => ((i + 1 : Nat) : F)) = (List.range ans.length).map (xOf F) := rfl
  set xs := (List.range ans.length).map (xOf F) with hxs
  rw [hxeq, hy, collect_eq xs ans (by simp [hxs])]
  have hpts : (column xs (ans.map (·.1)) 0).map (·.1) = respondents F (ans.map (·.1)) := by
    have := column_pts (F := F) (ans.map (·.1)) 0
    rw [List.length_map, ← List.range_eq_range'] at this
    exact this
  have hplen : (column xs (ans.map (·.1)) 0).length = (respondents F (ans.map (·.1))).length := by
    rw [← hpts, List.length_map]
  have hfl : ∀ {T : Type} (A : List (List T)), firstLen A = leadLen A := fun A => rfl
  simp only [hfl]
  by_cases hshape : (∀ p ∈ ans, p.1.length ≤ leadLen (ans.map (·.1))) ∧
      ∀ p ∈ ans, p.2.length ≤ leadLen (ans.map (·.2))
  · rw [if_pos hshape]
    simp only [bind, Except.bind]
    by_cases hl0 : leadLen (ans.map (·.1)) = 0
    · have hall := firstLen_zero.1 hl0
      have hcol := column_all_empty xs _ hall 0
      rw [if_pos]
      · rw [hl0]
        simp [idx]
      · right; right
        rw [← hplen, hcol]
        exact ht
    · rw [idx_lt (by simp; omega)]
      simp only [List.getElem_map, List.getElem_range]
      by_cases hlt : (respondents F (ans.map (·.1))).length < t
      · rw [if_pos (Or.inr (Or.inr hlt))]
        unfold shamirCoefficients
        rw [if_pos (by omega)]
      · rw [if_neg]
        · have hg : GoodPts (min (column xs (ans.map (·.1)) 0).length (t + 1)) (column xs (ans.map (·.1)) 0) := by
            obtain ⟨rs, h1, h2, h3⟩ := respondents_eq_sel (F := F) (ans.map (·.1))
            simp only [List.length_map] at h2
            have := goodPts_sel (T := Unit) hc rs h1 h2 (fun _ => ())
              (min (column xs (ans.map (·.1)) 0).length (t + 1)) (by rw [hplen, h3]; simp)
            have hX : ptX (column xs (ans.map (·.1)) 0) = ptX (sel (F := F) rs (fun _ => ())) := by
              apply ptX_congr
              rw [hpts, h3]
              simp [sel]
            refine ⟨by omega, ?_, ?_⟩
            · rw [hX]; exact this.ne0
            · rw [hX]; exact this.inj
          have hco : ∃ cs ch, shamirCoefficients t (column xs (ans.map (·.1)) 0) = .ok (cs, ch) := by
            by_cases he : (column xs (ans.map (·.1)) 0).length = t
            · exact ⟨_, _, shamirCoefficients_exact t _ (hg.mono (by omega)) he⟩
            · exact ⟨_, _, shamirCoefficients_extra t ht _ (hg.mono (by omega))⟩
          obtain ⟨cs, ch, hco⟩ := hco
          rw [hco]
          simp only
          rw [List.range_eq_range' (n := leadLen (ans.map (·.1)))]
          apply rebuildLoop_eq t ht _ (by omega) cs ch _ (ans.map (·.1)) (ans.map (·.2))
            (column xs (ans.map (·.1))) (column xs (ans.map (·.2)))
            (column_vals xs _ (by simp [hxs])) (column_vals xs _ (by simp [hxs])) _ _
          · intro M _ _ _ l
            rw [← hpts]
            exact rebuilt_eq t ht _ (by omega) hg cs ch hco l
          · intro a ha
            obtain ⟨p, hp, rfl⟩ := List.mem_map.1 ha
            exact hshape.2 p hp
        · rintro (⟨a, ha, h⟩ | ⟨a, ha, h⟩ | h)
          · obtain ⟨p, hp, rfl⟩ := List.mem_map.1 ha
            have := hshape.1 p hp
            omega
          · obtain ⟨p, hp, rfl⟩ := List.mem_map.1 ha
            have := hshape.2 p hp
            omega
          · exact hlt h
  · rw [if_neg hshape, if_pos]
    · rfl
    · by_contra hn
      push Not at hn
      apply hshape
      refine ⟨fun p hp => hn.1 _ (List.mem_map_of_mem hp), fun p hp => hn.2.1 _ (List.mem_map_of_mem hp)⟩

theorem foldl_congr_mem {α β : Type} (f g : α → β → α) (l : List β) :
    ∀ a, (∀ a, ∀ b ∈ l, f a b = g a b) → l.foldl f a = l.foldl g a := by
  induction l with
  | nil => intro a _; rfl
  | cons b l ih =>
    intro a h
    rw [List.foldl_cons, List.foldl_cons, h a b (by simp)]
    exact ih _ (fun a b hb => h a b (by simp [hb]))

theorem loopSpec_ok_iff (rD : Nat → Option F) (rV : Nat → Option G1) (js : List Nat) (W : G1) : ∀ w,
    loopSpec rD rV js w = .ok W ↔ ∃ (d : Nat → F) (v : Nat → G1),
      (∀ j ∈ js, rD j = some (d j) ∧ d j ≠ 0 ∧ rV j = some (v j)) ∧
      W = js.foldl (fun C j => (d j)⁻¹ • (C - v j)) w := by
  intro w
  constructor
  · intro h
    refine ⟨fun j => (rD j).getD 0, fun j => (rV j).getD 0, ?_⟩
    induction js generalizing w with
    | nil => 
      simp only [loopSpec] at h
      injection h with h
      exact ⟨by simp, h.symm⟩
    | cons j js ih =>
      unfold loopSpec at h
      cases h1 : rD j with
      | none => rw [h1] at h; cases h
      | some d =>
        rw [h1] at h
        simp only at h
        by_cases h0 : d = 0
        · rw [if_pos h0] at h; cases h
        · rw [if_neg h0] at h
          cases h2 : rV j with
          | none => rw [h2] at h; cases h
          | some v =>
            rw [h2] at h
            obtain ⟨a, b⟩ := ih _ h
            refine ⟨?_, ?_⟩
            · intro k hk
              rcases List.mem_cons.1 hk with rfl | hk
              · simp [h1, h2, h0]
              · exact a k hk
            · rw [List.foldl_cons, b]
              simp [h1, h2]
  · rintro ⟨d, v, h, rfl⟩
    have := loopSpec_congr rD (fun j => some (d j)) rV (fun j => some (v j)) js (fun j hj => (h j hj).1)
      (fun j hj => (h j hj).2.2) w
    rw [this, loopSpec_honest, if_pos (fun j hj => (h j hj).2.1)]

theorem chunkSteps_eq (t : Nat) (xs : List F) (D : List (List F)) (V : List (List G1)) (rD : Nat → Option F)
    (rV : Nat → Option G1) (js : List Nat) (hD : ∀ j ∈ js, rebuilt t xs (chunkVals D j) = .ok (rD j))
    (hV : ∀ j ∈ js, rebuilt t xs (chunkVals V j) = .ok (rV j)) :
    ∀ w, chunkSteps t xs D V js w = .ok (loopSpec rD rV js w) := by
  induction js with
  | nil => intro w; rfl
  | cons j js ih =>
    intro w
    unfold chunkSteps loopSpec
    rw [hD j (by simp), hV j (by simp)]
    cases rD j with
    | none => rfl
    | some d =>
      simp only
      by_cases h0 : d = 0
      · rw [if_pos h0, if_pos h0]
      · rw [if_neg h0, if_neg h0]
        cases rV j with
        | none => rfl
        | some v => exact ih (fun k hk => hD k (by simp [hk])) (fun k hk => hV k (by simp [hk])) _

/-- when all answer `c ≥ 1` chunks -/
theorem rebuilt_full {M : Type} [AddCommGroup M] [Module F M] [DecidableEq M] (t : Nat) (ht : 1 ≤ t)
    (A : List (List M)) (hn : t ≤ A.length) (c : Nat) (hA : ∀ a ∈ A, a.length = c)
    (hc : ∀ i, 0 < i → i ≤ A.length → (i : F) ≠ 0) (j : Nat) (hj : j < c) :
    ∃ r : Option M, rebuilt t ((List.range A.length).map (xOf F)) (chunkVals A j) = .ok r ∧
      ∀ m, r = some m ↔ ∃ P : List M, P.length = t ∧ (∀ i < min A.length (t + 1),
        (A.getD i [])[j]? = some (polyVal ((i + 1 : Nat) : F) P)) ∧ m = polyVal (0 : F) P := by
  have hvals : chunkVals A j = A.map (fun a => a.getD j 0) := by
    unfold chunkVals
    rw [List.filterMap_eq_map_iff_forall_eq_some]
    intro a ha
    have := hA a ha
    simp [show j < a.length by omega]
  have hpos : 0 < A.length := by omega
  have hhead : ((List.range A.length).map (xOf F)).headD 1 = 1 := by
    obtain ⟨n, hn'⟩ : ∃ n, A.length = n + 1 := ⟨A.length - 1, by omega⟩
    rw [hn', List.range_succ_eq_map]
    simp [xOf]
  have hmod : ((chunkVals A j).modify t (((List.range A.length).map (xOf F)).headD 1 ^ 2 • ·)) = chunkVals A j := by
    rw [hhead]
    simp only [one_pow, one_smul]
    exact List.modify_id _ _
  refine ⟨decode t ((((List.range A.length).map (xOf F)).zip (chunkVals A j)).take (t + 1)), ?_, ?_⟩
  · unfold rebuilt
    rw [if_neg (by rw [hvals]; simp), hmod]
  · intro m
    have hgood : GoodPts t ((((List.range A.length).map (xOf F)).zip (chunkVals A j)).take (t + 1)) := by
      rw [hvals]
      have hX : ∀ i < t, ptX ((((List.range A.length).map (xOf F)).zip (A.map (fun a => a.getD j 0))).take (t + 1)) i
          = ((i + 1 : Nat) : F) := by
        intro i hi
        rw [← ptX_lt (by simp; omega)]
        simp [xOf]
      refine ⟨by simp; omega, fun i hi => ?_, fun i hi k hk e => ?_⟩
      · rw [hX i hi]; exact hc _ (by omega) (by omega)
      · rw [hX i hi, hX k hk] at e
        have := cast_inj_of hc (by omega) (by omega) e
        omega
    rw [decode_good t _ hgood]
    constructor
    · rintro ⟨P, hP, hv, rfl⟩
      refine ⟨P, hP, fun i hi => ?_, rfl⟩
      have hi' : i < A.length := by omega
      have hm : (((i + 1 : Nat) : F), A[i].getD j 0) ∈
          ((((List.range A.length).map (xOf F)).zip (chunkVals A j)).take (t + 1)) := by
        rw [hvals, List.mem_take_iff_getElem]
        exact ⟨i, by simp; omega, by simp [xOf]⟩
      have := hv _ hm
      simp only at this
      rw [← this]
      have hl := hA A[i] (List.getElem_mem hi')
      simp [hi', hl, hj]
    · rintro ⟨P, hP, hv, rfl⟩
      refine ⟨P, hP, fun p hp => ?_, rfl⟩
      rw [hvals, List.mem_take_iff_getElem] at hp
      obtain ⟨i, hi, rfl⟩ := hp
      simp at hi
      have := hv i (by omega)
      have hl := hA A[i] (List.getElem_mem (by omega))
      simp [show i < A.length by omega, hl, hj] at this
      simp [xOf, this, hl, hj]

/-- C96: all of the `n ≥ t` servers answer the same number `c ≥ 1` of chunks, with arbitrary contents. Then
`post_update` does not panic, and it accepts, with result `W`, exactly if for each chunk the `d` values and the
`v` values of the first `t + 1` servers (of all, if `n = t`) lie on polynomials of degree `< t` whose values at 0
are `d j ≠ 0` and `v j`, and `W` is obtained from the old witness by the steps `w ↦ (d j)⁻¹ • (w - v j)`. -/
theorem C96_accept_iff (w : G1) (t c : Nat) (ht : 1 ≤ t) (hc1 : 1 ≤ c) (ans : List (List F × List G1))
    (hn : t ≤ ans.length) (hans : ∀ a ∈ ans, a.1.length = c ∧ a.2.length = c)
    (hc : ∀ i, 0 < i → i ≤ ans.length → (i : F) ≠ 0) (yShares : List (List F))
    (hy : yShares.length = ans.length) :
    (∃ r, postUpdate w t yShares ((List.range ans.length).map (fun i => ((i + 1 : Nat) : F))) ans = .ok r) ∧
    ∀ W, postUpdate w t yShares ((List.range ans.length).map (fun i => ((i + 1 : Nat) : F))) ans = .ok (.ok W) ↔
      ∃ (P : Nat → List F) (Q : Nat → List G1),
        (∀ j < c, (P j).length = t ∧ (Q j).length = t ∧ polyVal (0 : F) (P j) ≠ 0 ∧
          ∀ i < min ans.length (t + 1), ∃ a, ans[i]? = some a ∧
            a.1[j]? = some (polyVal ((i + 1 : Nat) : F) (P j)) ∧
            a.2[j]? = some (polyVal ((i + 1 : Nat) : F) (Q j))) ∧
        W = (List.range c).foldl (fun C j => (polyVal (0 : F) (P j))⁻¹ • (C - polyVal (0 : F) (Q j))) w := by
  rw [C96_total w t ht ans hc yShares hy]
  have hD : ∀ a ∈ ans.map (·.1), a.length = c := by
    intro a ha; obtain ⟨p, hp, rfl⟩ := List.mem_map.1 ha; exact (hans p hp).1
  have hV : ∀ a ∈ ans.map (·.2), a.length = c := by
    intro a ha; obtain ⟨p, hp, rfl⟩ := List.mem_map.1 ha; exact (hans p hp).2
  have hlead : ∀ {T : Type} (A : List (List T)), 0 < A.length → (∀ a ∈ A, a.length = c) → leadLen A = c := by
    intro T A h0 h
    cases A with
    | nil => simp at h0
    | cons a A =>
      have h1 := h a (by simp)
      unfold leadLen
      have h2 : a.isEmpty = false := by
        cases a with
        | nil => simp at h1; omega
        | cons _ _ => rfl
      rw [List.find?_cons_of_pos (by simp [h2])]
      simp [h1]
  have hresp : respondents F (ans.map (·.1)) = (List.range ans.length).map (xOf F) := by
    unfold respondents
    rw [List.filterMap_eq_map_iff_forall_eq_some (g := fun p : List F × Nat => xOf F p.2)|>.2]
    · apply List.ext_getElem <;> simp
    · rintro ⟨a, i⟩ hp
      have := hD a (List.fst_mem_of_mem_zipIdx hp)
      cases a with
      | nil => simp at this; omega
      | cons b a => rfl
  have h0 : 0 < ans.length := by omega
  unfold postUpdateResult
  simp only [hlead _ (show 0 < (ans.map (·.1)).length by simpa using h0) hD,
    hlead _ (show 0 < (ans.map (·.2)).length by simpa using h0) hV, hresp]
  rw [if_neg]
  · have eD := fun j hj => rebuilt_full (F := F) t ht (ans.map (·.1)) (by simpa using hn) c hD (by simpa using hc) j hj
    have eV := fun j hj => rebuilt_full (F := F) t ht (ans.map (·.2)) (by simpa using hn) c hV (by simpa using hc) j hj
    simp only [List.length_map] at eD eV
    choose! rD hD1 hD2 using eD
    choose! rV hV1 hV2 using eV
    have hsteps := chunkSteps_eq t ((List.range ans.length).map (xOf F)) (ans.map (·.1)) (ans.map (·.2)) rD rV
      (List.range c) (fun j hj => hD1 j (List.mem_range.1 hj)) (fun j hj => hV1 j (List.mem_range.1 hj)) w
    rw [hsteps]
    refine ⟨⟨_, rfl⟩, fun W => ?_⟩
    rw [Except.ok.injEq, loopSpec_ok_iff]
    have hget1 : ∀ i j : Nat, i < ans.length → ∀ x, ((ans.map (·.1)).getD i [])[j]? = some x ↔
        ∃ a, ans[i]? = some a ∧ a.1[j]? = some x := by
      intro i j hi x
      simp [hi]
    have hget2 : ∀ i j : Nat, i < ans.length → ∀ x, ((ans.map (·.2)).getD i [])[j]? = some x ↔
        ∃ a, ans[i]? = some a ∧ a.2[j]? = some x := by
      intro i j hi x
      simp [hi]
    constructor
    · rintro ⟨d, v, h, rfl⟩
      have e1 : ∀ j < c, ∃ P : List F, P.length = t ∧ (∀ i < min ans.length (t + 1),
          ((ans.map (·.1)).getD i [])[j]? = some (polyVal ((i + 1 : Nat) : F) P)) ∧ d j = polyVal (0 : F) P :=
        fun j hj => (hD2 j hj _).1 (h j (List.mem_range.2 hj)).1
      have e2 : ∀ j < c, ∃ P : List G1, P.length = t ∧ (∀ i < min ans.length (t + 1),
          ((ans.map (·.2)).getD i [])[j]? = some (polyVal ((i + 1 : Nat) : F) P)) ∧ v j = polyVal (0 : F) P :=
        fun j hj => (hV2 j hj _).1 (h j (List.mem_range.2 hj)).2.2
      choose! P hP using e1
      choose! Q hQ using e2
      refine ⟨P, Q, fun j hj => ⟨(hP j hj).1, (hQ j hj).1, ?_, fun i hi => ?_⟩, ?_⟩
      · rw [← (hP j hj).2.2]; exact (h j (List.mem_range.2 hj)).2.1
      · have h1 := (hget1 i j (by omega) _).1 ((hP j hj).2.1 i hi)
        have h2 := (hget2 i j (by omega) _).1 ((hQ j hj).2.1 i hi)
        obtain ⟨a, ha, ha'⟩ := h1
        obtain ⟨b, hb, hb'⟩ := h2
        rw [ha] at hb
        cases hb
        exact ⟨a, ha, ha', hb'⟩
      · apply foldl_congr_mem
        intro C j hj
        rw [List.mem_range] at hj
        rw [(hP j hj).2.2, (hQ j hj).2.2]
    · rintro ⟨P, Q, h, rfl⟩
      refine ⟨fun j => polyVal (0 : F) (P j), fun j => polyVal (0 : F) (Q j), fun j hj => ?_, rfl⟩
      rw [List.mem_range] at hj
      obtain ⟨h1, h2, h3, h4⟩ := h j hj
      refine ⟨(hD2 j hj _).2 ⟨P j, h1, fun i hi => ?_, rfl⟩, h3, (hV2 j hj _).2 ⟨Q j, h2, fun i hi => ?_, rfl⟩⟩
      · obtain ⟨a, ha, ha1, ha2⟩ := h4 i hi
        exact (hget1 i j (by omega) _).2 ⟨a, ha, ha1⟩
      · obtain ⟨a, ha, ha1, ha2⟩ := h4 i hi
        exact (hget2 i j (by omega) _).2 ⟨a, ha, ha2⟩
  · rintro (⟨a, ha, h⟩ | ⟨a, ha, h⟩ | h)
    · have := hD a ha; omega
    · have := hV a ha; omega
    · simp at h; omega

/-! ### the hypotheses are met -/

local instance pu_prime7 : Fact (Nat.Prime 7) := ⟨by decide⟩

/-- three servers, threshold 2, the `d` shares on `1 + 2x` and the `v` shares on `x`: accepted, `5 ↦ (5 - 0) / 1` -/
def okAns : List (List (ZMod 7) × List (ZMod 7)) := [([3], [1]), ([5], [2]), ([0], [3])]

example : postUpdate (F := ZMod 7) (5 : ZMod 7) 2 [[], [], []]
    ((List.range 3).map (fun i => ((i + 1 : Nat) : ZMod 7))) okAns = .ok (.ok 5) :=
  ((C96_accept_iff (5 : ZMod 7) 2 1 (by norm_num) (by norm_num) okAns (by decide) (by decide)
    (fun i h1 h2 => by
      have h3 : i ≤ 3 := h2
      interval_cases i <;> decide) [[], [], []] rfl).2 5).2
    ⟨fun _ => [1, 2], fun _ => [0, 1], fun j hj => ⟨rfl, rfl, by show polyVal (0 : ZMod 7) [1, 2] ≠ (0 : ZMod 7); decide, fun i hi => by
      have h3 : i < 3 := hi
      have : j = 0 := by omega
      subst this
      interval_cases i
      · exact ⟨_, rfl, by decide, by decide⟩
      · exact ⟨_, rfl, by decide, by decide⟩
      · exact ⟨_, rfl, by decide, by decide⟩⟩, by decide +kernel⟩

/-- the first two servers skip the second chunk: the third value of chunk 0 exists, chunk 1 has one value: a panic -/
example : postUpdate (F := ZMod 7) (5 : ZMod 7) 2 [[], [], []]
    ((List.range 3).map (fun i => ((i + 1 : Nat) : ZMod 7)))
    [([3, 1], [1, 1]), ([5], [2]), ([0], [3])] = .error .index := by decide +kernel

end
end Allo
