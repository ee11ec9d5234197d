import Verif.Props.Malicious
import Verif.Props.Secrecy
import Verif.Props.Examples

/-!
# C74: what lying servers learn from the outcome of an update

Servers that lie may see whether the client's update succeeded (the client complains, retries, or shows an
up-to-date credential). Whether that tells them something about the secret id depends on how many lie.
-/

set_option linter.unusedSectionVars false
set_option linter.unusedVariables false
namespace Allo
open Spec Finset User

section
variable {F G1 G2 GT : Type} [Field F] [DecidableEq F] [AddCommGroup G1] [Module F G1]
  [DecidableEq G1] [AddCommGroup G2] [Module F G2] [AddCommGroup GT] [Module F GT]

/-- server `i ∈ L` adds `δ i` to the first scalar of its answer, everything else stays -/
def tamperFirst (L : Finset Nat) (δ : Nat → F) (ans : List (List F × List G1)) : List (List F × List G1) :=
  ans.mapIdx (fun i a => if i ∈ L then (a.1.modify 0 (· + δ i), a.2) else a)

theorem tamperFirst_differs (L : Finset Nat) (δ : Nat → F) (n c : Nat) (gD : Nat → Nat → F)
    (gV : Nat → Nat → G1) :
    DiffersOn L (answers n c (fun _ => true) gD gV) (tamperFirst L δ (answers n c (fun _ => true) gD gV)) := by
  refine ⟨by simp [tamperFirst, answers], fun i hi hiL => ?_, ?_⟩
  · have hi' : i < n := by simpa [answers] using hi
    simp [tamperFirst, answers, hi', hiL]
  · intro p hp q hq
    obtain ⟨i, _, rfl⟩ := List.mem_map.1 hq
    obtain ⟨j, hj, rfl⟩ := List.mem_mapIdx.1 hp
    simp only [answers, List.getElem_map, List.getElem_range, if_true]
    split <;> simp

theorem tamperFirst_answers (L : Finset Nat) (δ : Nat → F) (n c : Nat) (gD : Nat → Nat → F)
    (gV : Nat → Nat → G1) :
    tamperFirst L δ (answers n c (fun _ => true) gD gV)
      = answers n c (fun _ => true) (fun i j => if i ∈ L ∧ j = 0 then gD i j + δ i else gD i j) gV := by
  apply List.ext_getElem
  · simp [tamperFirst, answers]
  · intro i h1 h2
    simp only [tamperFirst, answers, List.getElem_mapIdx, List.getElem_map, List.getElem_range, if_true]
    by_cases hiL : i ∈ L
    · simp only [hiL, if_true, true_and]
      congr 1
      apply List.ext_getElem
      · simp
      · intro j h3 h4
        rw [List.getElem_modify]
        by_cases hj : j = 0
        · subst hj; simp
        · simp [hj, Ne.symm hj]
    · simp [hiL]

/-- `honest_closed` with the chunk size named -/
theorem honest_closed_k (seed : Nat → Nat) (hseed : ∀ d, 1 ≤ d → 1 ≤ seed d) (u : User F G1 G2)
    (s : Server F G1 G2) (hlen : s.accumulators.length = s.deletions.length + 1) (n t : Nat)
    (ht : 2 ≤ t) (hn : t ≤ n) (he1 : 1 ≤ u.epoch) (he2 : u.epoch < s.getEpoch) (rand : Nat → Nat → F)
    (upd : UserUpdate F) (hp : u.prepareForUpdate seed s.getEpoch n t rand = .ok (.ok upd)) (k : Nat)
    (hk : chunkSize (s.getEpoch - u.epoch) (seed (s.getEpoch - u.epoch)) = .ok (k + 1)) :
    2 ≤ k ∧ upd.epochDiff = s.getEpoch - u.epoch ∧ upd.yShares.length = n ∧
      upd.yShares = (List.range n).map (fun i => shVec t k u.id rand (xOf F i)) ∧
      upd.yValues = (List.range n).map (xOf F) ∧ 1 ≤ nChunks k (s.getEpoch - u.epoch) ∧
      ∀ honest, HonestAnswers s n upd honest ↔ honest = answers n (nChunks k (s.getEpoch - u.epoch))
        (fun _ => true)
        (fun i j => dAns (shVec t k u.id rand (xOf F i)) (chunkAt k (s.published (s.getEpoch - u.epoch)) j))
        (fun i j => vAnsP (shVec t k u.id rand (xOf F i)) (chunkAt k (s.published (s.getEpoch - u.epoch)) j)) := by
  obtain ⟨k', upd', hk', hk3, hprep, hed, hyv, hyl, _, hys, _⟩ := prepareForUpdate_ok seed hseed u s.getEpoch
    n t ht hn he2 rand
  rw [hp] at hprep
  injection hprep with hprep
  injection hprep with hprep
  subst hprep
  rw [hk] at hk'
  injection hk' with hk'
  subst hk'
  rw [Nat.add_sub_cancel] at hys
  refine ⟨by omega, hed, hyl, hys, hyv, nChunks_pos _ _ (by omega) (by omega), fun honest => ?_⟩
  have hd : s.getEpoch - u.epoch ≤ s.deletions.length := by rw [Server.getEpoch]; omega
  have hupd : ∀ i, s.update upd.epochDiff (shVec t k u.id rand (xOf F i)) =
        .ok ((List.range (nChunks k (s.getEpoch - u.epoch))).map (fun j =>
            dAns (shVec t k u.id rand (xOf F i)) (chunkAt k (s.published (s.getEpoch - u.epoch)) j)),
          (List.range (nChunks k (s.getEpoch - u.epoch))).map (fun j =>
            vAnsP (shVec t k u.id rand (xOf F i)) (chunkAt k (s.published (s.getEpoch - u.epoch)) j))) := by
    intro i
    rw [hed]
    have := update_published s hlen (s.getEpoch - u.epoch) hd
      (shVec t k u.id rand (xOf F i))
      (by intro e; have := congrArg List.length e; simp at this; omega)
      (s.deletions.length + 1) (by omega)
    unfold Server.update
    rw [this, shVec_length]
  have hget : ∀ i < n, upd.yShares[i]? = some (shVec t k u.id rand (xOf F i)) := by
    intro i hi
    rw [hys, List.getElem?_map, List.getElem?_range hi]; rfl
  constructor
  · rintro ⟨hl, h⟩
    apply List.ext_getElem
    · simp [answers, hl]
    · intro i h1 h2
      obtain ⟨ys, a, e1, e2, e3⟩ := h i (by omega)
      rw [hget i (by omega)] at e1
      cases e1
      rw [hupd] at e3
      injection e3 with e3
      rw [List.getElem?_eq_getElem h1] at e2
      injection e2 with e2
      rw [e2, ← e3]
      simp [answers]
  · rintro rfl
    exact ⟨by simp [answers], fun i hi => ⟨_, _, hget i hi, by simp [answers, hi], hupd i⟩⟩

/-- polynomial of degree `< t` that is 1 at 0 and vanishes at fewer than `t` servers -/
theorem exists_indicator (t n : Nat) (hc : ∀ i, 0 < i → i ≤ n → (i : F) ≠ 0) (S : Finset Nat)
    (hSn : ∀ i ∈ S, i < n) (hS : S.card < t) :
    ∃ E : F → F, PolyFn t E ∧ E 0 = 1 ∧ ∀ i ∈ S, E (xOf F i) = 0 := by
  obtain ⟨δ, -, hδ⟩ := exists_vanishing t n hc S hSn hS (1 : F)
  refine ⟨fun z => polyVal z (sharePoly t 1 δ), sharePoly_polyFn t (by omega) _ _, ?_, hδ⟩
  exact sharePoly_zero t 1 δ

/-- C74 (leak): suppose fewer than `t` of the answers that are used are honest (one lying server suffices when
`n = t`, two among the first `t + 1` otherwise). For any `guess`, the liars can, from public data alone (before
any user or randomness is chosen), fix numbers `δ` to add to the first scalar of their honest answers such
that every present user's update ends in "user has been deleted" exactly if its secret id has the same
product over the first deletions of the window as `guess`; otherwise it ends in `Ok`. -/
theorem C74_selective_failure (params : AccParams G1 G2) (α sM v : F) (ops : List (Server.Op F))
    (srv : Server F G1 G2) (h : (Server.new params α sM v).run ops = .ok srv) (seed : Nat → Nat)
    (hseed : ∀ d, 1 ≤ d → 1 ≤ seed d) (n t : Nat) (ht : 2 ≤ t) (hn : t ≤ n)
    (hc : ∀ i, 0 < i → i ≤ n → (i : F) ≠ 0) (epoch : Nat) (he1 : 1 ≤ epoch) (he2 : epoch < srv.getEpoch)
    (L : Finset Nat) (hL : ((range (min n (t + 1))) \ L).card < t) (guess : F) :
    ∃ (m : Nat) (δ : Nat → F), 1 ≤ m ∧ ∀ (u : User F G1 G2), u.epoch = epoch →
      u.id ∉ srv.deletions.drop (epoch - 1) → ∀ (rand : Nat → Nat → F) (upd : UserUpdate F),
      u.prepareForUpdate seed srv.getEpoch n t rand = .ok (.ok upd) →
      ∀ honest, HonestAnswers srv n upd honest → ∀ w : G1,
      DiffersOn L honest (tamperFirst L δ honest) ∧
      (postUpdate w t upd.yShares upd.yValues (tamperFirst L δ honest) = .ok (.error "user has been deleted") ↔
        prodMinus u.id ((srv.deletions.drop (epoch - 1)).take m)
          = prodMinus guess ((srv.deletions.drop (epoch - 1)).take m)) ∧
      (postUpdate w t upd.yShares upd.yValues (tamperFirst L δ honest) ≠ .ok (.error "user has been deleted") →
        ∃ W, postUpdate w t upd.yShares upd.yValues (tamperFirst L δ honest) = .ok (.ok W)) := by
  have hlen := accs_length_run params α sM v ops srv h
  obtain ⟨k', hk', -, hk3, -⟩ := C32_chunk_size (srv.getEpoch - epoch) (seed (srv.getEpoch - epoch)) (by omega)
    (hseed _ (by omega))
  obtain ⟨k, rfl⟩ : ∃ k, k' = k + 1 := ⟨k' - 1, by omega⟩
  set S := (range (min n (t + 1))) \ L with hS
  have hSn : ∀ i ∈ S, i < n := fun i hi => by
    have := Finset.mem_range.1 (Finset.mem_sdiff.1 hi).1; omega
  obtain ⟨E, hE1, hE0, hES⟩ := exists_indicator t n hc S hSn hL
  set win := srv.deletions.drop (epoch - 1) with hwin
  set γ := prodMinus guess (win.take k) with hγ
  refine ⟨k, fun i => - γ * E (xOf F i), by omega, ?_⟩
  rintro u rfl hid rand upd hp honest hhon w
  obtain ⟨hk2, hed, hyl, -, hyv, hc1, hh⟩ := honest_closed_k seed hseed u srv hlen n t ht hn he1 he2 rand upd hp
    k hk'
  have hd : srv.getEpoch - u.epoch ≤ srv.deletions.length := by rw [Server.getEpoch]; omega
  have hdrop : srv.deletions.length - (srv.getEpoch - u.epoch) = u.epoch - 1 := by
    rw [Server.getEpoch] at *; omega
  have hfst : (srv.published (srv.getEpoch - u.epoch)).map (·.1) = win := by
    rw [published_fst srv hlen, hdrop]
  rw [(hh _).1 hhon]
  refine ⟨tamperFirst_differs _ _ _ _ _ _, ?_⟩
  rw [tamperFirst_answers]
  set c := nChunks k (srv.getEpoch - u.epoch) with hcdef
  set D : Nat → F → F := fun j z =>
    dAns (shVec t k u.id rand z) (chunkAt k (srv.published (srv.getEpoch - u.epoch)) j) with hD
  set V : Nat → F → G1 := fun j z =>
    vAnsP (shVec t k u.id rand z) (chunkAt k (srv.published (srv.getEpoch - u.epoch)) j) with hV
  have pD : ∀ j, PolyFn t (D j) := fun j => dAns_polyFn t k (by omega) u.id rand _
  have pV : ∀ j, PolyFn t (V j) := fun j => vAnsP_polyFn t k (by omega) u.id rand _
  let D' : Nat → F → F := fun j z => if j = 0 then D j z + (-γ) • E z else D j z
  have pD' : ∀ j, PolyFn t (D' j) := by
    intro j
    by_cases hj : j = 0
    · simp only [D', hj, if_true]
      exact (pD 0).add (hE1.const_smul _)
    · simp only [D', hj, if_false]
      exact pD j
  have hused := postUpdate_used w t n c (by omega) hc1 hc (fun _ => true) D' V pD' pV
    (by rw [filter_all, List.length_range]; omega)
    (fun i j => if i ∈ L ∧ j = 0 then D j (xOf F i) + (- γ * E (xOf F i)) else D j (xOf F i))
    (fun i j => V j (xOf F i))
    (fun i hi j hj => by
      rw [filter_all] at hi
      have hit : i < min n (t + 1) := by
        obtain ⟨i', hi', rfl⟩ := List.mem_take_iff_getElem.1 hi
        simp only [List.length_range] at hi'
        simp only [List.getElem_range]; omega
      by_cases hj0 : j = 0
      · by_cases hiL : i ∈ L
        · simp [D', hj0, hiL]
        · have := hES i (Finset.mem_sdiff.2 ⟨Finset.mem_range.2 hit, hiL⟩)
          simp [D', hj0, hiL, this]
      · simp [D', hj0]) (fun i hi j hj => rfl) (Or.inl rfl) upd.yShares hyl
  rw [hyv, hused, loopSpec_honest]
  have hDv : ∀ j, D j 0 = prodMinus u.id ((chunkAt k (srv.published (srv.getEpoch - u.epoch)) j).map (·.1)) := by
    intro j
    simp only [hD, shVec_zero]
    exact dAns_powers _ _ _ (chunkAt_length _ _ _)
  have hDne : ∀ j, D j 0 ≠ 0 := by
    intro j
    rw [hDv, Ne, prodMinus_eq_zero]
    intro hm
    apply hid
    rw [← hfst]
    obtain ⟨p, hp', e⟩ := List.mem_map.1 hm
    exact List.mem_map.2 ⟨p, List.mem_of_mem_drop (List.mem_of_mem_take hp'), e⟩
  have hD0 : D 0 0 = prodMinus u.id (win.take k) := by
    rw [hDv, ← hfst]
    simp [chunkAt, List.map_take]
  have hall : (∀ j ∈ List.range c, D' j 0 ≠ 0) ↔ D 0 0 ≠ γ := by
    have h0 : D' 0 0 = D 0 0 - γ := by simp [D', hE0]; ring
    constructor
    · intro hj e
      exact hj 0 (List.mem_range.2 (by omega)) (by rw [h0, e, sub_self])
    · intro hne j _
      by_cases hj : j = 0
      · subst hj
        rw [h0]; exact sub_ne_zero.2 hne
      · simp only [D', hj, if_false]
        exact hDne j
  rw [← hD0]
  by_cases he : D 0 0 = γ
  · rw [if_neg (fun h' => hall.1 h' he)]
    exact ⟨⟨fun _ => he, fun _ => rfl⟩, fun hne => absurd rfl hne⟩
  · rw [if_pos (hall.2 he)]
    refine ⟨⟨fun h' => ?_, fun h' => absurd h' he⟩, fun _ => ⟨_, rfl⟩⟩
    injection h' with h'
    cases h'

/-- C74 (leak, one deletion since): with exactly one deletion since the user's epoch the liars test a guess of
the secret id: "user has been deleted" exactly if the id is the guess. -/
theorem C74_guess (params : AccParams G1 G2) (α sM v : F) (ops : List (Server.Op F))
    (srv : Server F G1 G2) (h : (Server.new params α sM v).run ops = .ok srv) (seed : Nat → Nat)
    (hseed : ∀ d, 1 ≤ d → 1 ≤ seed d) (n t : Nat) (ht : 2 ≤ t) (hn : t ≤ n)
    (hc : ∀ i, 0 < i → i ≤ n → (i : F) ≠ 0) (epoch : Nat) (he1 : 1 ≤ epoch)
    (he2 : srv.getEpoch = epoch + 1) (L : Finset Nat) (hL : ((range (min n (t + 1))) \ L).card < t)
    (guess : F) :
    ∃ δ : Nat → F, ∀ (u : User F G1 G2), u.epoch = epoch →
      u.id ∉ srv.deletions.drop (epoch - 1) → ∀ (rand : Nat → Nat → F) (upd : UserUpdate F),
      u.prepareForUpdate seed srv.getEpoch n t rand = .ok (.ok upd) →
      ∀ honest, HonestAnswers srv n upd honest → ∀ w : G1,
      DiffersOn L honest (tamperFirst L δ honest) ∧
      (postUpdate w t upd.yShares upd.yValues (tamperFirst L δ honest)
        = .ok (.error "user has been deleted") ↔ u.id = guess) := by
  obtain ⟨m, δ, hm, hδ⟩ := C74_selective_failure params α sM v ops srv h seed hseed n t ht hn hc epoch he1
    (by omega) L hL guess
  refine ⟨δ, fun u hu hid rand upd hp honest hhon w => ?_⟩
  obtain ⟨h1, h2, -⟩ := hδ u hu hid rand upd hp honest hhon w
  refine ⟨h1, h2.trans ?_⟩
  have hl : (srv.deletions.drop (epoch - 1)).length = 1 := by
    have hlen := accs_length_run params α sM v ops srv h
    rw [Server.getEpoch] at he2
    rw [List.length_drop]; omega
  obtain ⟨y, hy⟩ := List.length_eq_one_iff.1 hl
  rw [hy, List.take_of_length_le (by simpa using hm)]
  simp only [prodMinus_cons, prodMinus_nil, mul_one]
  constructor
  · intro e; linear_combination -e
  · rintro rfl; rfl

/-! ## with at most one liar among the answers used the outcome reveals nothing -/

/-- one wrong value among the first `t + 1`: rebuilding fails exactly if it is wrong -/
theorem rebuild_liar_iff {T M : Type} [AddCommGroup M] [Module F M] [DecidableEq M] (t n : Nat) (ht : 1 ≤ t)
    (hn : t < n) (hc : ∀ i, 0 < i → i ≤ n → (i : F) ≠ 0) (g0 : Nat → T) (h : F → M) (hp : PolyFn t h)
    (g : Nat → M) (l : Nat) (hg : ∀ i ≤ t, i ≠ l → g i = h (xOf F i)) :
    ∃ cs ch r, shamirCoefficients t (sel (F := F) (List.range n) g0) = .ok (cs, ch) ∧
      shamirRebuildPoint (sel (List.range n) g) cs ch = .ok r ∧
      ((∀ i ≤ t, g i = h (xOf F i)) → r = some (h 0)) ∧ ((∃ i ≤ t, g i ≠ h (xOf F i)) → r = none) := by
  obtain ⟨A, hA, hhA⟩ := hp
  have hfst : (sel (F := F) (List.range n) g).map (·.1) = (List.range n).map (xOf F) := sel_fst _ _
  have hlen : (sel (F := F) (List.range n) g).length = n := by simp [sel]
  obtain ⟨cs, ch, r, h1, h2, h3, h4⟩ := C35_exact t ht (sel (F := F) (List.range n) g0)
    (sel (List.range n) g) (by omega) (by rw [sel_fst, sel_fst])
    (by rw [List.map_take, hfst]; exact fun h0 => xOf_ne_zero hc (List.mem_of_mem_take h0))
    (by rw [List.map_take, hfst]; exact (xOf_nodup hc).sublist (List.take_sublist _ _))
    (by rw [hfst]; cases n with
      | zero => omega
      | succ n => rw [List.range_succ_eq_map]; simp [xOf])
  have hval : ∀ B : List M, (∀ p ∈ (sel (F := F) (List.range n) g).take (t + 1), p.2 = polyVal p.1 B) ↔
      ∀ i ≤ t, g i = polyVal (xOf F i) B := by
    intro B
    constructor
    · intro h i hi
      exact h (xOf F i, g i) (List.mem_take_iff_getElem.2 ⟨i, by simp [sel]; omega, by simp [sel]⟩)
    · intro h p hp
      obtain ⟨i, hi, rfl⟩ := List.mem_take_iff_getElem.1 hp
      have := h i (by omega)
      simpa [sel] using this
  refine ⟨cs, some ch, r, h1, h2, fun hall => ?_, ?_⟩
  · rw [h4 A hA ((hval A).2 (fun i hi => by rw [hall i hi, hhA])), hhA]
  · rintro ⟨i, hi, hne⟩
    by_contra hr
    obtain ⟨B, hB, hBv⟩ := h3.1 hr
    rw [hval] at hBv
    apply hne
    rw [hBv i hi, hhA]
    apply polyVal_unique ((range (t + 1)).erase l) (xOf F)
    · intro i hi j hj e
      have hi := mem_range.1 (mem_of_mem_erase hi)
      have hj := mem_range.1 (mem_of_mem_erase hj)
      have := cast_inj_of hc (show i + 1 ≤ n by omega) (show j + 1 ≤ n by omega) e
      omega
    · have := pred_card_le_card_erase (s := range (t + 1)) (a := l)
      simp at this; omega
    · have := pred_card_le_card_erase (s := range (t + 1)) (a := l)
      simp at this; omega
    · intro j hj
      obtain ⟨hjl, hj⟩ := mem_erase.1 hj
      rw [mem_range] at hj
      rw [← hBv j (by omega), hg j (by omega) hjl, hhA]

/-- the rebuilding loop when no value is zero: `Ok` if everything is rebuilt, else "malicious server" -/
theorem loopSpec_present (rD : Nat → Option F) (rV : Nat → Option G1) (js : List Nat)
    (hD : ∀ j ∈ js, rD j ≠ some 0) (w : G1) :
    ((∀ j ∈ js, rD j ≠ none ∧ rV j ≠ none) → ∃ W, loopSpec rD rV js w = .ok W) ∧
    ((∃ j ∈ js, rD j = none ∨ rV j = none) → loopSpec rD rV js w = .error "malicious server") := by
  induction js generalizing w with
  | nil => exact ⟨fun _ => ⟨w, rfl⟩, fun ⟨j, hj, _⟩ => by simp at hj⟩
  | cons j js ih =>
    unfold loopSpec
    cases hd : rD j with
    | none => exact ⟨fun h => absurd hd (h j (by simp)).1, fun _ => rfl⟩
    | some d =>
      have h0 : d ≠ 0 := fun e => hD j (by simp) (by rw [hd, e])
      simp only [h0, if_false]
      cases hv : rV j with
      | none => exact ⟨fun h => absurd hv (h j (by simp)).2, fun _ => rfl⟩
      | some v =>
        obtain ⟨i1, i2⟩ := ih (fun k hk => hD k (by simp [hk])) (d⁻¹ • (w - v))
        refine ⟨fun h => i1 (fun k hk => h k (by simp [hk])), fun ⟨k, hk, hk'⟩ => i2 ?_⟩
        rcases List.mem_cons.1 hk with rfl | hk
        · rcases hk' with hk' | hk'
          · rw [hd] at hk'; cases hk'
          · rw [hv] at hk'; cases hk'
        · exact ⟨k, hk, hk'⟩

/-- C74 (detection is exact): more servers than the threshold, a user that has not been deleted, and at most
one liar among the first `t + 1` servers (any number among the others). The update succeeds exactly if the
first `t + 1` answers are the honest ones; otherwise it reports a malicious server. -/
theorem C74_accepted_iff (params : AccParams G1 G2) (α sM v : F) (ops : List (Server.Op F))
    (srv : Server F G1 G2) (h : (Server.new params α sM v).run ops = .ok srv) (seed : Nat → Nat)
    (hseed : ∀ d, 1 ≤ d → 1 ≤ seed d) (u : User F G1 G2) (n t : Nat) (ht : 2 ≤ t) (hn : t < n)
    (hc : ∀ i, 0 < i → i ≤ n → (i : F) ≠ 0) (he1 : 1 ≤ u.epoch) (he2 : u.epoch < srv.getEpoch)
    (hid : u.id ∉ srv.deletions.drop (u.epoch - 1)) (rand : Nat → Nat → F) (upd : UserUpdate F)
    (hp : u.prepareForUpdate seed srv.getEpoch n t rand = .ok (.ok upd)) (w : G1)
    (honest ans : List (List F × List G1)) (hhon : HonestAnswers srv n upd honest) (L : Finset Nat)
    (hdiff : DiffersOn L honest ans) (hL : (L.filter (· ≤ t)).card ≤ 1) :
    ((∃ W, postUpdate w t upd.yShares upd.yValues ans = .ok (.ok W)) ↔
      ans.take (t + 1) = honest.take (t + 1)) ∧
    (postUpdate w t upd.yShares upd.yValues ans = .ok (.error "malicious server") ↔
      ans.take (t + 1) ≠ honest.take (t + 1)) := by
  have hlen := accs_length_run params α sM v ops srv h
  obtain ⟨k, hk, hed, hyl, hyv, hc1, hh⟩ :=
    honest_closed seed hseed u srv hlen n t ht (by omega) he1 he2 rand upd hp
  have hd : srv.getEpoch - u.epoch ≤ srv.deletions.length := by rw [Server.getEpoch]; omega
  have hdrop : srv.deletions.length - (srv.getEpoch - u.epoch) = u.epoch - 1 := by
    rw [Server.getEpoch] at *; omega
  have hfst : (srv.published (srv.getEpoch - u.epoch)).map (·.1) = srv.deletions.drop (u.epoch - 1) := by
    rw [published_fst srv hlen, hdrop]
  set c := nChunks k (srv.getEpoch - u.epoch) with hcdef
  set D : Nat → F → F := fun j z =>
    dAns (shVec t k u.id rand z) (chunkAt k (srv.published (srv.getEpoch - u.epoch)) j) with hD
  set V : Nat → F → G1 := fun j z =>
    vAnsP (shVec t k u.id rand z) (chunkAt k (srv.published (srv.getEpoch - u.epoch)) j) with hV
  have pD : ∀ j, PolyFn t (D j) := fun j => dAns_polyFn t k (by omega) u.id rand _
  have pV : ∀ j, PolyFn t (V j) := fun j => vAnsP_polyFn t k (by omega) u.id rand _
  have hDne : ∀ j, D j 0 ≠ 0 := by
    intro j
    simp only [hD, shVec_zero]
    rw [dAns_powers _ _ _ (chunkAt_length _ _ _), Ne, prodMinus_eq_zero]
    intro hm
    apply hid
    rw [← hfst]
    obtain ⟨p, hp', e⟩ := List.mem_map.1 hm
    exact List.mem_map.2 ⟨p, List.mem_of_mem_drop (List.mem_of_mem_take hp'), e⟩
  obtain rfl := (hh _).1 hhon
  obtain ⟨hl1, hl2, hl3⟩ := hdiff
  have hnl : ans.length = n := by rw [hl1]; simp [answers]
  obtain ⟨l, hlu⟩ : ∃ l, ∀ i ≤ t, i ≠ l → i ∉ L := by
    rcases Finset.eq_empty_or_nonempty (L.filter (· ≤ t)) with he | ⟨l, hl⟩
    · refine ⟨t + 1, fun i hi _ hm => ?_⟩
      have : i ∈ L.filter (· ≤ t) := Finset.mem_filter.2 ⟨hm, hi⟩
      rw [he] at this
      simp at this
    · exact ⟨l, fun i hi hil hm => hil
        (Finset.card_le_one.1 hL i (Finset.mem_filter.2 ⟨hm, hi⟩) l hl)⟩
  have hshape : ∀ p ∈ ans, p.1.length = c ∧ p.2.length = c := fun p hp' => by
    have := hl3 p hp' ((List.range c).map (fun j => D j (xOf F 0)), (List.range c).map (fun j => V j (xOf F 0)))
      (List.mem_map.2 ⟨0, List.mem_range.2 (by omega), by simp [hD, hV]⟩)
    simpa using this
  have hans := answers_of n c ans hnl hshape
  set gD : Nat → Nat → F := fun i j => (ans.getD i ([], [])).1.getD j 0 with hgD
  set gV : Nat → Nat → G1 := fun i j => (ans.getD i ([], [])).2.getD j 0 with hgV
  have hgi : ∀ i ≤ t, i ≠ l → ans.getD i ([], []) = ((List.range c).map (fun j => D j (xOf F i)),
      (List.range c).map (fun j => V j (xOf F i))) := by
    intro i hi hil
    rw [List.getD_eq_getElem?_getD, hl2 i (by simp [answers]; omega) (hlu i hi hil)]
    simp [answers, show i < n by omega, hD, hV]
  have hgD1 : ∀ i ≤ t, i ≠ l → ∀ j < c, gD i j = D j (xOf F i) := fun i hi hil j hj => by
    simp only [hgD, hgi i hi hil]; simp [hj]
  have hgV1 : ∀ i ≤ t, i ≠ l → ∀ j < c, gV i j = V j (xOf F i) := fun i hi hil j hj => by
    simp only [hgV, hgi i hi hil]; simp [hj]
  obtain ⟨cs, ch, _, h1, _⟩ := rebuild_liar t n (by omega) hn hc (fun i => gD i 0) (D 0) (pD 0)
    (fun i => gD i 0) l (fun i hi hil => hgD1 i hi hil 0 (by omega))
  have hDr : ∀ j, ∃ r, j < c → (shamirRebuildScalar (sel (List.range n) (fun i => gD i j)) cs ch = .ok r ∧
      ((∀ i ≤ t, gD i j = D j (xOf F i)) → r = some (D j 0)) ∧
      ((∃ i ≤ t, gD i j ≠ D j (xOf F i)) → r = none)) := by
    intro j
    by_cases hj : j < c
    · obtain ⟨cs', ch', r, h1', h2, h3, h4⟩ := rebuild_liar_iff t n (by omega) hn hc (fun i => gD i 0) (D j)
        (pD j) (fun i => gD i j) l (fun i hi hil => hgD1 i hi hil j hj)
      rw [h1] at h1'; injection h1' with h1'; injection h1' with ha hb; subst ha; subst hb
      exact ⟨r, fun _ => ⟨by rw [rebuildScalar_eq]; exact h2, h3, h4⟩⟩
    · exact ⟨none, fun h => absurd h hj⟩
  have hVr : ∀ j, ∃ r, j < c → (shamirRebuildPoint (sel (List.range n) (fun i => gV i j)) cs ch = .ok r ∧
      ((∀ i ≤ t, gV i j = V j (xOf F i)) → r = some (V j 0)) ∧
      ((∃ i ≤ t, gV i j ≠ V j (xOf F i)) → r = none)) := by
    intro j
    by_cases hj : j < c
    · obtain ⟨cs', ch', r, h1', h2, h3, h4⟩ := rebuild_liar_iff t n (by omega) hn hc (fun i => gD i 0) (V j)
        (pV j) (fun i => gV i j) l (fun i hi hil => hgV1 i hi hil j hj)
      rw [h1] at h1'; injection h1' with h1'; injection h1' with ha hb; subst ha; subst hb
      exact ⟨r, fun _ => ⟨h2, h3, h4⟩⟩
    · exact ⟨none, fun h => absurd h hj⟩
  choose rD hrD using hDr
  choose rV hrV using hVr
  have hpost := postUpdate_spec w t n c hc1 (fun _ => true) gD gV ⟨0, by omega, rfl⟩ upd.yShares hyl cs ch
    (by rw [filter_all]; exact h1) rD rV (fun j hj => by rw [filter_all]; exact (hrD j hj).1)
    (fun j hj => by rw [filter_all]; exact (hrV j hj).1)
  rw [← hans, ← hyv] at hpost
  -- equality of the first answers, value by value
  have heq : ans.take (t + 1) = (answers n c (fun _ => true) (fun i j => D j (xOf F i))
        (fun i j => V j (xOf F i))).take (t + 1) ↔
      ∀ j < c, (∀ i ≤ t, gD i j = D j (xOf F i)) ∧ (∀ i ≤ t, gV i j = V j (xOf F i)) := by
    constructor
    · intro he j hj
      have hi : ∀ i ≤ t, ans.getD i ([], []) = ((List.range c).map (fun j => D j (xOf F i)),
          (List.range c).map (fun j => V j (xOf F i))) := by
        intro i hi
        have := congrArg (fun l => l[i]?) he
        simp only [List.getElem?_take, show i < t + 1 by omega, if_true] at this
        rw [List.getD_eq_getElem?_getD, this]
        simp [answers, show i < n by omega]
      exact ⟨fun i hi' => by simp only [hgD, hi i hi']; simp [hj],
        fun i hi' => by simp only [hgV, hi i hi']; simp [hj]⟩
    · intro hall
      have hans' : ans.take (t + 1) = (answers n c (fun _ => true) gD gV).take (t + 1) :=
        congrArg (List.take (t + 1)) hans
      rw [hans']
      apply List.ext_getElem
      · simp [answers]
      · intro i h3 h4
        have hit : i ≤ t := by
          rw [List.length_take] at h3; omega
        simp only [List.getElem_take, answers, List.getElem_map, List.getElem_range, if_true]
        congr 1
        · apply List.map_congr_left
          intro j hj
          exact (hall j (List.mem_range.1 hj)).1 i hit
        · apply List.map_congr_left
          intro j hj
          exact (hall j (List.mem_range.1 hj)).2 i hit
  obtain ⟨g1, g2⟩ := loopSpec_present rD rV (List.range c) (fun j hj => by
    rw [List.mem_range] at hj
    by_cases hq : ∀ i ≤ t, gD i j = D j (xOf F i)
    · rw [(hrD j hj).2.1 hq]
      intro e
      exact hDne j (Option.some.inj e)
    · push Not at hq
      rw [(hrD j hj).2.2 hq]
      simp) w
  by_cases hall : ∀ j < c, (∀ i ≤ t, gD i j = D j (xOf F i)) ∧ (∀ i ≤ t, gV i j = V j (xOf F i))
  · obtain ⟨W, hW⟩ := g1 (fun j hj => by
      rw [List.mem_range] at hj
      rw [(hrD j hj).2.1 (hall j hj).1, (hrV j hj).2.1 (hall j hj).2]
      simp)
    rw [hpost, hW]
    refine ⟨⟨fun _ => heq.2 hall, fun _ => ⟨W, rfl⟩⟩, ⟨fun e => ?_, fun hne => absurd (heq.2 hall) hne⟩⟩
    injection e with e
    cases e
  · have := g2 (by
      push Not at hall
      obtain ⟨j, hj, hj'⟩ := hall
      refine ⟨j, List.mem_range.2 hj, ?_⟩
      by_cases hq : ∀ i ≤ t, gD i j = D j (xOf F i)
      · exact Or.inr ((hrV j hj).2.2 (hj' hq))
      · push Not at hq
        exact Or.inl ((hrD j hj).2.2 hq))
    rw [hpost, this]
    refine ⟨⟨fun ⟨W, hW⟩ => ?_, fun e => absurd (heq.1 e) hall⟩, ⟨fun _ e => hall (heq.1 e), fun _ => rfl⟩⟩
    injection hW with hW
    cases hW

/-- what the servers in `L` see: the share vectors sent to them -/
def jointView (L : Finset Nat) (upd : UserUpdate F) (i : Nat) : Option (List F) :=
  if i ∈ L then upd.yShares[i]? else none

/-- the servers in `L` answer as the strategy `A` says, which looks at all they see together -/
def attackAnswers (L : Finset Nat) (A : (Nat → Option (List F)) → Nat → List F × List G1)
    (upd : UserUpdate F) (honest : List (List F × List G1)) : List (List F × List G1) :=
  honest.mapIdx (fun i a => if i ∈ L then A (jointView L upd) i else a)

/-- C74 (no leak): fewer than `t` colluding servers, at most one of them among the first `t + 1`, and any joint
strategy `A` of theirs that answers with the right number of values. For two present users with the same
epoch there is a translation of the sharing randomness under which what the colluders see is the same and the
update of the one succeeds exactly if that of the other does. So seeing the outcome tells them nothing. -/
theorem C74_no_leak (params : AccParams G1 G2) (α sM v : F) (ops : List (Server.Op F))
    (srv : Server F G1 G2) (h : (Server.new params α sM v).run ops = .ok srv) (seed : Nat → Nat)
    (hseed : ∀ d, 1 ≤ d → 1 ≤ seed d) (u u' : User F G1 G2) (n t : Nat) (ht : 2 ≤ t) (hn : t < n)
    (hc : ∀ i, 0 < i → i ≤ n → (i : F) ≠ 0) (he1 : 1 ≤ u.epoch) (he2 : u.epoch < srv.getEpoch)
    (hee : u'.epoch = u.epoch) (hid : u.id ∉ srv.deletions.drop (u.epoch - 1))
    (hid' : u'.id ∉ srv.deletions.drop (u.epoch - 1)) (L : Finset Nat) (hLn : ∀ i ∈ L, i < n)
    (hcard : L.card < t) (hL : (L.filter (· ≤ t)).card ≤ 1)
    (A : (Nat → Option (List F)) → Nat → List F × List G1)
    (hA : ∀ (u₀ : User F G1 G2) (rand : Nat → Nat → F) (upd : UserUpdate F)
      (honest : List (List F × List G1)), u₀.epoch = u.epoch →
      u₀.prepareForUpdate seed srv.getEpoch n t rand = .ok (.ok upd) → HonestAnswers srv n upd honest →
      DiffersOn L honest (attackAnswers L A upd honest)) (w w' : G1) :
    ∃ φ : Equiv.Perm (Nat → Nat → F), ∀ rand : Nat → Nat → F, ∃ upd upd' honest honest',
      u.prepareForUpdate seed srv.getEpoch n t rand = .ok (.ok upd) ∧
      u'.prepareForUpdate seed srv.getEpoch n t (φ rand) = .ok (.ok upd') ∧
      HonestAnswers srv n upd honest ∧ HonestAnswers srv n upd' honest' ∧
      upd'.epochDiff = upd.epochDiff ∧ jointView L upd' = jointView L upd ∧
      ((∃ W, postUpdate w t upd.yShares upd.yValues (attackAnswers L A upd honest) = .ok (.ok W)) ↔
        ∃ W, postUpdate w' t upd'.yShares upd'.yValues (attackAnswers L A upd' honest') = .ok (.ok W)) := by
  have hlen := accs_length_run params α sM v ops srv h
  obtain ⟨δ, -, hδ⟩ := C37_secrecy seed hseed u u' srv.getEpoch n t ht (by omega) hc he2 hee L hLn hcard
  refine ⟨Equiv.addRight δ, fun rand => ?_⟩
  obtain ⟨upd, upd', hp, hp', hed, -, hview⟩ := hδ rand
  obtain ⟨k, hk, hed1, hyl, hyv, hc1, hh⟩ :=
    honest_closed seed hseed u srv hlen n t ht (by omega) he1 he2 rand upd hp
  obtain ⟨k', hk', hed1', hyl', hyv', hc1', hh'⟩ :=
    honest_closed seed hseed u' srv hlen n t ht (by omega) (by omega) (by omega) _ upd' hp'
  have hjv : jointView L upd' = jointView L upd := by
    funext i
    unfold jointView
    split
    · next hi => exact hview i hi
    · rfl
  refine ⟨upd, upd', _, _, hp, hp', (hh _).2 rfl, (hh' _).2 rfl, hed, hjv, ?_⟩
  set honest := answers n (nChunks k (srv.getEpoch - u.epoch)) (fun _ => true)
    (fun i j => dAns (shVec t k u.id rand (xOf F i)) (chunkAt k (srv.published (srv.getEpoch - u.epoch)) j))
    (fun i j => vAnsP (shVec t k u.id rand (xOf F i)) (chunkAt k (srv.published (srv.getEpoch - u.epoch)) j))
    with hhon
  have H := (hh honest).2 rfl
  set honest' := answers n (nChunks k' (srv.getEpoch - u'.epoch)) (fun _ => true)
    (fun i j => dAns (shVec t k' u'.id (fun j k => rand j k + δ j k) (xOf F i))
      (chunkAt k' (srv.published (srv.getEpoch - u'.epoch)) j))
    (fun i j => vAnsP (shVec t k' u'.id (fun j k => rand j k + δ j k) (xOf F i))
      (chunkAt k' (srv.published (srv.getEpoch - u'.epoch)) j)) with hhon'
  have H' := (hh' honest').2 rfl
  have key : ∀ (x : UserUpdate F) (hx : List (List F × List G1)), HonestAnswers srv n x hx →
      ((attackAnswers L A x hx).take (t + 1) = hx.take (t + 1) ↔
        ∀ i ∈ L, i ≤ t → srv.update x.epochDiff ((jointView L x i).getD []) = .ok (A (jointView L x) i)) := by
    intro x hx ⟨hxl, hxa⟩
    constructor
    · intro e i hi hit
      obtain ⟨ys, a, e1, e2, e3⟩ := hxa i (by omega)
      have := congrArg (fun l => l[i]?) e
      simp only [List.getElem?_take, show i < t + 1 by omega, if_true, attackAnswers, List.getElem?_mapIdx,
        e2, Option.map_some, hi] at this
      have hj : jointView L x i = some ys := by simp [jointView, hi, e1]
      rw [hj, Option.getD_some, e3, Option.some.inj this]
    · intro hall
      apply List.ext_getElem?
      intro i
      simp only [List.getElem?_take]
      by_cases hit : i < t + 1
      · simp only [hit, if_true, attackAnswers, List.getElem?_mapIdx]
        obtain ⟨ys, a, e1, e2, e3⟩ := hxa i (by omega)
        rw [e2]
        by_cases hi : i ∈ L
        · have := hall i hi (by omega)
          have hj : jointView L x i = some ys := by simp [jointView, hi, e1]
          rw [hj, Option.getD_some, e3] at this
          simp only [Option.map_some, hi, if_true]
          injection this with this
          rw [this]
        · simp [hi]
      · simp [hit]
  rw [(C74_accepted_iff params α sM v ops srv h seed hseed u n t ht hn hc he1 he2 hid rand upd hp w honest _ H L
      (hA u rand upd honest rfl hp H) hL).1,
    (C74_accepted_iff params α sM v ops srv h seed hseed u' n t ht hn hc (by omega) (by omega) (by rwa [hee])
      _ upd' hp' w' honest' _ H' L (hA u' _ upd' honest' hee hp' H') hL).1,
    key upd honest H, key upd' honest' H', hjv, hed]

end

/-- C74 (leak): 4 servers, threshold 2, servers 0 and 1 lie. They can make the update of `exUser` (id 3, one
deletion behind) fail exactly if its id is 3, and likewise for 5: the first guess is right, the second wrong. -/
example : ∃ (srv : Server ℚ ℚ ℚ) (upd : UserUpdate ℚ) (honest : List (List ℚ × List ℚ)),
    HonestAnswers srv 4 upd honest ∧
    (∃ δ, postUpdate (6 / 7 : ℚ) 2 upd.yShares upd.yValues (tamperFirst {0, 1} δ honest)
      = .ok (.error "user has been deleted")) ∧
    (∃ δ, postUpdate (6 / 7 : ℚ) 2 upd.yShares upd.yValues (tamperFirst {0, 1} δ honest)
      ≠ .ok (.error "user has been deleted")) := by
  obtain ⟨srv, upd, honest, h1, he, h2, h3, -⟩ := exSession_ok
  obtain ⟨srv', -, h1', -, -, hd, -⟩ := exUpdateRun
  rw [h1] at h1'
  injection h1' with h1'
  subst h1'
  have hid : exUser.id ∉ srv.deletions.drop (1 - 1) := by rw [hd]; decide
  refine ⟨srv, upd, honest, h3, ?_, ?_⟩
  · obtain ⟨δ, hδ⟩ := C74_guess exParams 4 9 6 exPre srv h1 (fun _ => 1) (fun _ _ => le_refl _) 4 2 (le_refl _)
      (by norm_num) (cast_ne_zero_of_pos 4) 1 (le_refl _) he {0, 1} (by decide) 3
    exact ⟨δ, (hδ exUser rfl hid _ upd h2 honest h3 _).2.2 rfl⟩
  · obtain ⟨δ, hδ⟩ := C74_guess exParams 4 9 6 exPre srv h1 (fun _ => 1) (fun _ _ => le_refl _) 4 2 (le_refl _)
      (by norm_num) (cast_ne_zero_of_pos 4) 1 (le_refl _) he {0, 1} (by decide) 5
    refine ⟨δ, fun h => ?_⟩
    have h35 := (hδ exUser rfl hid _ upd h2 honest h3 _).2.1 h
    rw [show exUser.id = (3 : ℚ) from rfl] at h35
    norm_num at h35

/-- C74 (no leak): hypotheses met by 4 servers, threshold 2, server 0 lying with the constant answer `([7], [8])`,
users with ids 3 and 5. -/
example : ∃ (srv : Server ℚ ℚ ℚ) (φ : Equiv.Perm (Nat → Nat → ℚ)), ∀ rand, ∃ upd upd' honest honest',
    exUser.prepareForUpdate (fun _ => 1) srv.getEpoch 4 2 rand = .ok (.ok upd) ∧
    { exUser with id := 5 }.prepareForUpdate (fun _ => 1) srv.getEpoch 4 2 (φ rand) = .ok (.ok upd') ∧
    jointView {0} upd' = jointView {0} upd ∧
    ((∃ W : ℚ, postUpdate (6 / 7) 2 upd.yShares upd.yValues
        (attackAnswers {0} (fun _ _ => ([7], [8])) upd honest) = .ok (.ok W)) ↔
      ∃ W : ℚ, postUpdate (6 / 7) 2 upd'.yShares upd'.yValues
        (attackAnswers {0} (fun _ _ => ([7], [8])) upd' honest') = .ok (.ok W)) := by
  obtain ⟨srv, -, -, h1, he, -⟩ := exSession_ok
  obtain ⟨srv', -, h1', -, -, hd, -⟩ := exUpdateRun
  rw [h1] at h1'
  injection h1' with h1'
  subst h1'
  obtain ⟨φ, hφ⟩ := C74_no_leak exParams 4 9 6 exPre srv h1 (fun _ => 1) (fun _ _ => le_refl _) exUser
    { exUser with id := 5 } 4 2 (le_refl _) (by norm_num) (cast_ne_zero_of_pos 4) (le_refl _)
    (by rw [he]; decide) rfl (by rw [hd]; decide) (by rw [hd]; decide) {0} (by decide) (by decide) (by decide)
    (fun _ _ => ([7], [8])) (by
      intro u₀ rand upd honest hu hp hh
      have hu : u₀.epoch = 1 := hu
      obtain ⟨k, hk, -, -, -, -, hhon⟩ := honest_closed (fun _ => 1) (fun _ _ => le_refl _) u₀ srv
        (accs_length_run exParams 4 9 6 exPre srv h1) 4 2 (le_refl _) (by norm_num) (by omega) (by omega) rand
        upd hp
      have hc1 : nChunks k (srv.getEpoch - u₀.epoch) = 1 := by
        rw [he, hu]
        unfold nChunks
        rw [show 2 - 1 + k - 1 = k by omega, Nat.div_self (by omega)]
      rw [hc1] at hhon
      rw [(hhon _).1 hh]
      refine ⟨by simp [attackAnswers, answers], fun i hi hiL => ?_, ?_⟩
      · have hi' : i < 4 := by simpa [answers] using hi
        simp only [attackAnswers, List.getElem?_mapIdx, if_neg hiL]
        simp
      · intro p hp' q hq
        obtain ⟨i, _, rfl⟩ := List.mem_map.1 hq
        obtain ⟨j, hj, rfl⟩ := List.mem_mapIdx.1 hp'
        simp only [answers, List.getElem_map, List.getElem_range, if_true]
        split <;> simp) (6 / 7) (6 / 7)
  refine ⟨srv, φ, fun rand => ?_⟩
  obtain ⟨upd, upd', honest, honest', a1, a2, -, -, -, a3, a4⟩ := hφ rand
  exact ⟨upd, upd', honest, honest', a1, a2, a3, a4⟩

end Allo
