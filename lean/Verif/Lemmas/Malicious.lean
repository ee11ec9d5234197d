import Verif.Lemmas.UserUpdate
import Verif.Props.Shamir

/-! Answers of which some are not honest. -/

set_option linter.unusedSectionVars false
set_option linter.unusedVariables false
namespace Allo
open Spec Finset User

section
variable {F : Type} [Field F] [DecidableEq F]

theorem sel_fst {T : Type} (rs : List Nat) (g : Nat → T) :
    (sel (F := F) rs g).map (·.1) = rs.map (xOf F) := by simp [sel]

theorem xOf_nodup {n : Nat} (hc : ∀ i, 0 < i → i ≤ n → (i : F) ≠ 0) :
    ((List.range n).map (xOf F)).Nodup := by
  rw [List.nodup_map_iff_inj_on List.nodup_range]
  intro i hi j hj e
  rw [List.mem_range] at hi hj
  have := cast_inj_of hc (show i + 1 ≤ n from hi) (show j + 1 ≤ n from hj) e
  omega

theorem xOf_ne_zero {n : Nat} (hc : ∀ i, 0 < i → i ≤ n → (i : F) ≠ 0) :
    (0 : F) ∉ (List.range n).map (xOf F) := by
  intro h
  obtain ⟨i, hi, e⟩ := List.mem_map.1 h
  rw [List.mem_range] at hi
  exact hc (i + 1) (by omega) (by omega) e

/-- one wrong value among the first `t + 1` is noticed or harmless -/
theorem rebuild_liar {T M : Type} [AddCommGroup M] [Module F M] [DecidableEq M] (t n : Nat) (ht : 1 ≤ t)
    (hn : t < n) (hc : ∀ i, 0 < i → i ≤ n → (i : F) ≠ 0) (g0 : Nat → T) (h : F → M) (hp : PolyFn t h)
    (g : Nat → M) (l : Nat) (hg : ∀ i ≤ t, i ≠ l → g i = h (xOf F i)) :
    ∃ cs ch r, shamirCoefficients t (sel (F := F) (List.range n) g0) = .ok (cs, ch) ∧
      shamirRebuildPoint (sel (List.range n) g) cs ch = .ok r ∧
      (r = none ∨ r = some (h 0)) ∧ (t < l → r = some (h 0)) := by
  obtain ⟨A, hA, hhA⟩ := hp
  have hfst : (sel (F := F) (List.range n) g).map (·.1) = (List.range n).map (xOf F) := sel_fst _ _
  have hlen : (sel (F := F) (List.range n) g).length = n := by simp [sel]
  obtain ⟨cs, ch, r, h1, h2, h3, h4⟩ := C35_exact t ht (sel (F := F) (List.range n) g0)
    (sel (List.range n) g) (by omega) (by rw [sel_fst, sel_fst])
    (by rw [List.map_take, hfst]; exact fun h0 => xOf_ne_zero hc (List.mem_of_mem_take h0))
    (by rw [List.map_take, hfst]; exact (xOf_nodup hc).sublist (List.take_sublist _ _))
    (by rw [hfst]; cases n with
      | zero => omega
      | succ n => rw [List.range_succ_eq_map]; simp [xOf])
  have hval : ∀ B : List M, (∀ p ∈ (sel (F := F) (List.range n) g).take (t + 1), p.2 = polyVal p.1 B) ↔
      ∀ i ≤ t, g i = polyVal (xOf F i) B := by
    intro B
    constructor
    · intro h i hi
      exact h (xOf F i, g i) (List.mem_take_iff_getElem.2 ⟨i, by simp [sel]; omega, by simp [sel]⟩)
    · intro h p hp
      obtain ⟨i, hi, rfl⟩ := List.mem_take_iff_getElem.1 hp
      have := h i (by omega)
      simpa [sel] using this
  refine ⟨cs, some ch, r, h1, h2, ?_, ?_⟩
  · by_cases hr : r = none
    · exact Or.inl hr
    · right
      obtain ⟨B, hB, hBv⟩ := h3.1 hr
      rw [h4 B hB hBv]
      rw [hval] at hBv
      congr 1
      rw [hhA]
      apply polyVal_unique ((range (t + 1)).erase l) (xOf F)
      · intro i hi j hj e
        have hi := mem_range.1 (mem_of_mem_erase hi)
        have hj := mem_range.1 (mem_of_mem_erase hj)
        have := cast_inj_of hc (show i + 1 ≤ n by omega) (show j + 1 ≤ n by omega) e
        omega
      · have := pred_card_le_card_erase (s := range (t + 1)) (a := l)
        simp at this; omega
      · have := pred_card_le_card_erase (s := range (t + 1)) (a := l)
        simp at this; omega
      · intro i hi
        obtain ⟨hil, hi⟩ := mem_erase.1 hi
        rw [mem_range] at hi
        rw [← hBv i (by omega), hg i (by omega) hil, hhA]
  · intro hl
    rw [h4 A hA ((hval A).2 (fun i hi => by rw [hg i hi (by omega), hhA])), hhA]

variable {G1 G2 : Type} [AddCommGroup G1] [Module F G1] [DecidableEq G1] [AddCommGroup G2] [Module F G2]

theorem filter_all (n : Nat) : (List.range n).filter (fun _ => true) = List.range n := List.filter_true _

theorem postUpdate_liar (w : G1) (t n c : Nat) (ht : 1 ≤ t) (hn : t < n) (hc1 : 1 ≤ c)
    (hc : ∀ i, 0 < i → i ≤ n → (i : F) ≠ 0)
    (hD : Nat → F → F) (hV : Nat → F → G1) (pD : ∀ j, PolyFn t (hD j)) (pV : ∀ j, PolyFn t (hV j))
    (gD : Nat → Nat → F) (gV : Nat → Nat → G1) (l : Nat)
    (hgD : ∀ i ≤ t, i ≠ l → ∀ j < c, gD i j = hD j (xOf F i))
    (hgV : ∀ i ≤ t, i ≠ l → ∀ j < c, gV i j = hV j (xOf F i))
    (yShares : List (List F)) (hy : yShares.length = n) :
    let res := loopSpec (fun j => some (hD j 0)) (fun j => some (hV j 0)) (List.range c) w
    ∃ res', postUpdate w t yShares ((List.range n).map (xOf F)) (answers n c (fun _ => true) gD gV)
        = .ok res' ∧ (res' = res ∨ res' = .error "malicious server") ∧ (t < l → res' = res) := by
  intro res
  obtain ⟨cs, ch, _, h1, _⟩ := rebuild_liar t n ht hn hc (fun i => gD i 0) (hD 0) (pD 0) (fun i => gD i 0) l
    (fun i hi hil => hgD i hi hil 0 (by omega))
  have hDr : ∀ j, ∃ r, j < c → (shamirRebuildScalar (sel (List.range n) (fun i => gD i j)) cs ch = .ok r ∧
      (r = none ∨ r = some (hD j 0)) ∧ (t < l → r = some (hD j 0))) := by
    intro j
    by_cases hj : j < c
    · obtain ⟨cs', ch', r, h1', h2, h3, h4⟩ := rebuild_liar t n ht hn hc (fun i => gD i 0) (hD j) (pD j)
        (fun i => gD i j) l (fun i hi hil => hgD i hi hil j hj)
      rw [h1] at h1'; injection h1' with h1'; injection h1' with ha hb; subst ha; subst hb
      exact ⟨r, fun _ => ⟨by rw [rebuildScalar_eq]; exact h2, h3, h4⟩⟩
    · exact ⟨none, fun h => absurd h hj⟩
  have hVr : ∀ j, ∃ r, j < c → (shamirRebuildPoint (sel (List.range n) (fun i => gV i j)) cs ch = .ok r ∧
      (r = none ∨ r = some (hV j 0)) ∧ (t < l → r = some (hV j 0))) := by
    intro j
    by_cases hj : j < c
    · obtain ⟨cs', ch', r, h1', h2, h3, h4⟩ := rebuild_liar t n ht hn hc (fun i => gD i 0) (hV j) (pV j)
        (fun i => gV i j) l (fun i hi hil => hgV i hi hil j hj)
      rw [h1] at h1'; injection h1' with h1'; injection h1' with ha hb; subst ha; subst hb
      exact ⟨r, fun _ => ⟨h2, h3, h4⟩⟩
    · exact ⟨none, fun h => absurd h hj⟩
  choose rD hrD using hDr
  choose rV hrV using hVr
  have := postUpdate_spec w t n c hc1 (fun _ => true) gD gV ⟨0, by omega, rfl⟩ yShares hy cs ch
    (by rw [filter_all]; exact h1) rD rV (fun j hj => by rw [filter_all]; exact (hrD j hj).1)
    (fun j hj => by rw [filter_all]; exact (hrV j hj).1)
  refine ⟨_, this, ?_, ?_⟩
  · exact loopSpec_sound rD rV (fun j => hD j 0) (fun j => hV j 0) (List.range c)
      (fun j hj => (hrD j (List.mem_range.1 hj)).2.1) (fun j hj => (hrV j (List.mem_range.1 hj)).2.1) w
  · intro hl
    exact loopSpec_congr _ _ _ _ (List.range c) (fun j hj => (hrD j (List.mem_range.1 hj)).2.2 hl)
      (fun j hj => (hrV j (List.mem_range.1 hj)).2.2 hl) w

/-- any list of answers of the right shape is of the form `answers` -/
theorem answers_of (n c : Nat) (ans : List (List F × List G1)) (hn : ans.length = n)
    (hl : ∀ p ∈ ans, p.1.length = c ∧ p.2.length = c) :
    ans = answers n c (fun _ => true) (fun i j => (ans.getD i ([], [])).1.getD j 0)
      (fun i j => (ans.getD i ([], [])).2.getD j 0) := by
  unfold answers
  apply List.ext_getElem
  · simp [hn]
  · intro i h1 h2
    obtain ⟨ha, hb⟩ := hl _ (List.getElem_mem h1)
    simp only [if_true, List.getElem_map, List.getElem_range]
    ext1
    · simp only [List.getD_eq_getElem?_getD, List.getElem?_eq_getElem h1, Option.getD_some]
      apply List.ext_getElem
      · simp [ha]
      · intro j h3 h4; simp [h3]
    · simp only [List.getD_eq_getElem?_getD, List.getElem?_eq_getElem h1, Option.getD_some]
      apply List.ext_getElem
      · simp [hb]
      · intro j h3 h4; simp [h3]

/-- what a user prepares, and what honest servers answer, in closed form -/
theorem honest_setup (seed : Nat → Nat) (hseed : ∀ d, 1 ≤ d → 1 ≤ seed d) (u : User F G1 G2)
    (s : Server F G1 G2) (hlen : s.accumulators.length = s.deletions.length + 1) (n t : Nat)
    (ht : 2 ≤ t) (hn : t ≤ n) (he1 : 1 ≤ u.epoch) (he2 : u.epoch < s.getEpoch) (rand : Nat → Nat → F)
    (upd : UserUpdate F) (hp : u.prepareForUpdate seed s.getEpoch n t rand = .ok (.ok upd)) :
    ∃ k, 2 ≤ k ∧ upd.epochDiff = s.getEpoch - u.epoch ∧ upd.yShares.length = n ∧
      upd.yValues = (List.range n).map (xOf F) ∧
      ∀ i < n, ∃ ys, upd.yShares[i]? = some ys ∧ s.update upd.epochDiff ys =
        .ok ((List.range (nChunks k (s.getEpoch - u.epoch))).map (fun j =>
            dAns (shVec t k u.id rand (xOf F i)) (chunkAt k (s.published (s.getEpoch - u.epoch)) j)),
          (List.range (nChunks k (s.getEpoch - u.epoch))).map (fun j =>
            vAnsP (shVec t k u.id rand (xOf F i)) (chunkAt k (s.published (s.getEpoch - u.epoch)) j))) := by
  obtain ⟨k, upd', hk, hk3, hprep, hed, hyv, hyl, _, hys, _⟩ := prepareForUpdate_ok seed hseed u s.getEpoch
    n t ht hn he2 rand
  rw [hp] at hprep
  injection hprep with hprep
  injection hprep with hprep
  subst hprep
  refine ⟨k - 1, by omega, hed, hyl, hyv, fun i hi => ?_⟩
  refine ⟨shVec t (k - 1) u.id rand (xOf F i), ?_, ?_⟩
  · rw [hys, List.getElem?_map, List.getElem?_range hi]; rfl
  · rw [hed]
    have hd : s.getEpoch - u.epoch ≤ s.deletions.length := by rw [Server.getEpoch]; omega
    have := update_published s hlen (s.getEpoch - u.epoch) hd
      (shVec t (k - 1) u.id rand (xOf F i))
      (by intro e; have := congrArg List.length e; simp at this; omega)
      (s.deletions.length + 1) (by omega)
    unfold Server.update
    rw [this, shVec_length]

end
end Allo
