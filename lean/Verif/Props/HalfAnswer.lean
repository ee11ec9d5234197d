import Verif.Props.Malicious

/-!
# C122: servers that send only the points of their answer

An answer of `Server::update` has two parts, a list of scalars and a list of points. `post_update` computes the
interpolation coefficients from the scalars it got and uses them, by position, for the points. It never checks
that each server sent both parts.
-/

set_option linter.unusedSectionVars false
set_option linter.unusedVariables false
namespace Allo
open Spec Finset User

section
variable {F G1 G2 GT : Type} [Field F] [DecidableEq F] [AddCommGroup G1] [Module F G1]
  [DecidableEq G1] [AddCommGroup G2] [Module F G2] [AddCommGroup GT] [Module F GT]

/-- `ans` are answers in which the servers in `H` leave out all scalars and send points of their choice, as many
as expected; the others answer honestly. -/
def HalfAnswers (H : Finset Nat) (honest ans : List (List F × List G1)) : Prop :=
  ans.length = honest.length ∧ (∀ i < honest.length, i ∉ H → ans[i]? = honest[i]?) ∧
  ∀ i ∈ H, ∀ a, honest[i]? = some a → ∃ q, ans[i]? = some ([], q) ∧ q.length = a.2.length

/-- the closed form of half answers -/
def halfAns (n c : Nat) (resp : Nat → Bool) (gD : Nat → Nat → F) (gV : Nat → Nat → G1) :
    List (List F × List G1) :=
  (List.range n).map (fun i => (if resp i then (List.range c).map (gD i) else [], (List.range c).map (gV i)))

theorem collect_halfAns (n c : Nat) (resp : Nat → Bool) (gD : Nat → Nat → F) (gV : Nat → Nat → G1)
    (h : ∃ i < n, resp i = true) :
    collect n ((List.range n).map (xOf F)) (halfAns n c resp gD gV)
      = .ok ((List.range c).map (fun j => sel ((List.range n).filter resp) (fun i => gD i j)),
             (List.range c).map (fun j => sel (List.range n) (fun i => gV i j))) := by
  have e1 : (halfAns n c resp gD gV).map (·.1)
      = (List.range n).map (fun i => if resp i then (List.range c).map (gD i) else []) := by
    unfold halfAns
    rw [List.map_map]
    rfl
  have e2 : (halfAns n c resp gD gV).map (·.2)
      = (List.range n).map (fun i => if (fun _ => true : Nat → Bool) i then (List.range c).map (gV i) else []) := by
    unfold halfAns
    rw [List.map_map]
    rfl
  have hlen : (halfAns n c resp gD gV).length = n := by simp [halfAns]
  have := collect_eq ((List.range n).map (xOf F)) (halfAns n c resp gD gV) (by simp [hlen])
  rw [hlen, e1, e2, firstLen_answers n c resp gD h,
    firstLen_answers n c (fun _ => true) gV (by obtain ⟨i, hi, -⟩ := h; exact ⟨i, hi, rfl⟩)] at this
  rw [this, if_pos]
  · congr 2
    · apply List.map_congr_left
      intro j hj
      exact column_answers n c resp gD j (List.mem_range.1 hj)
    · apply List.map_congr_left
      intro j hj
      rw [column_answers n c (fun _ => true) gV j (List.mem_range.1 hj), filter_all]
  · constructor <;> intro p hp <;> obtain ⟨i, _, rfl⟩ := List.mem_map.1 hp <;>
      by_cases hr : resp i <;> simp [hr]

/-- `post_update` on half answers as a function of the rebuilt values -/
theorem postUpdate_halfAns (w : G1) (t n c : Nat) (hc : 1 ≤ c) (resp : Nat → Bool)
    (gD : Nat → Nat → F) (gV : Nat → Nat → G1) (h : ∃ i < n, resp i = true)
    (yShares : List (List F)) (hy : yShares.length = n) (cs : List F) (ch : Option (List F))
    (hcs : shamirCoefficients t (sel ((List.range n).filter resp) (fun i => gD i 0)) = .ok (cs, ch))
    (rD : Nat → Option F) (rV : Nat → Option G1)
    (hD : ∀ j < c, shamirRebuildScalar (sel ((List.range n).filter resp) (fun i => gD i j)) cs ch
      = .ok (rD j))
    (hV : ∀ j < c, shamirRebuildPoint (sel (List.range n) (fun i => gV i j)) cs ch = .ok (rV j)) :
    postUpdate w t yShares ((List.range n).map (xOf F)) (halfAns n c resp gD gV)
      = .ok (loopSpec rD rV (List.range c) w) := by
  unfold postUpdate
  rw [hy, collect_halfAns n c resp gD gV h]
  simp only [bind, Except.bind]
  rw [idx_lt (show 0 < ((List.range c).map (fun j => sel (F := F) ((List.range n).filter resp)
    (fun i => gD i j))).length by simp; omega)]
  simp only [List.getElem_map, List.getElem_range]
  rw [hcs]
  simp only
  have := rebuildLoop_spec cs ch (fun j => sel ((List.range n).filter resp) (fun i => gD i j))
    (fun j => sel (List.range n) (fun i => gV i j)) c rD rV hD hV c 0 w (by omega)
  rw [← List.range_eq_range'] at this
  exact this

/-- the interpolation points of the scalars that were sent -/
def halfX (F : Type) [Field F] (rs : List Nat) : Nat → F := ptX (sel (F := F) rs (fun _ => ()))

theorem ptX_sel_halfX {T : Type} (rs : List Nat) (g : Nat → T) : ptX (sel (F := F) rs g) = halfX F rs :=
  ptX_congr _ _ (by rw [sel_fst, sel_fst])

theorem halfX_good {n : Nat} (hc : ∀ i, 0 < i → i ≤ n → (i : F) ≠ 0) (rs : List Nat) (hnd : rs.Nodup)
    (hlt : ∀ i ∈ rs, i < n) : GoodPts rs.length (sel (F := F) rs (fun _ => ())) :=
  goodPts_sel hc rs hnd hlt _ _ le_rfl

/-- exactly `t` servers send scalars: no check, and the points of the first `t` servers are used -/
theorem postUpdate_half (w : G1) (t n c : Nat) (ht : 1 ≤ t) (hn : t ≤ n) (hc1 : 1 ≤ c)
    (hc : ∀ i, 0 < i → i ≤ n → (i : F) ≠ 0) (resp : Nat → Bool)
    (hr : ((List.range n).filter resp).length = t) (hD : Nat → F → F) (pD : ∀ j, PolyFn t (hD j))
    (gV : Nat → Nat → G1) (yShares : List (List F)) (hy : yShares.length = n) :
    postUpdate w t yShares ((List.range n).map (xOf F)) (halfAns n c resp (fun i j => hD j (xOf F i)) gV)
      = .ok (loopSpec (fun j => some (hD j 0)) (fun j => some (∑ i ∈ range t,
          lagr (range t) (halfX F ((List.range n).filter resp)) 0 i • gV i j)) (List.range c) w) := by
  set rs := (List.range n).filter resp with hrs
  have hnd : rs.Nodup := List.nodup_range.filter _
  have hlt : ∀ i ∈ rs, i < n := fun i hi => List.mem_range.1 (List.mem_filter.1 hi).1
  have hex : ∃ i < n, resp i = true := by
    have : rs ≠ [] := by intro e; rw [e] at hr; simp at hr; omega
    obtain ⟨i, hi⟩ := List.exists_mem_of_ne_nil rs this
    exact ⟨i, hlt i hi, (List.mem_filter.1 hi).2⟩
  have hgood : ∀ {T : Type} (g : Nat → T), GoodPts t (sel (F := F) rs g) := fun g =>
    goodPts_sel hc rs hnd hlt g t (by omega)
  have hcs := shamirCoefficients_exact t (sel (F := F) rs (fun i => hD 0 (xOf F i))) (hgood _)
    (by simp [sel, hr])
  rw [ptX_sel_halfX] at hcs
  apply postUpdate_halfAns w t n c hc1 resp _ gV hex yShares hy _ _ hcs
  · intro j hj
    rw [rebuildScalar_eq, rebuild_nocheck t _ _ (by simp [sel, ← hrs, hr])]
    congr 2
    have hinj := (hgood (fun _ => ())).injOn
    rw [← (pD j).interp (range t) (by simp) (halfX F rs) hinj 0]
    apply sum_congr rfl
    intro i hi
    rw [mem_range] at hi
    rw [← ptX_sel_halfX rs (fun i => hD j (xOf F i)), ptX_sel rs _ _ (by omega), ptV_sel rs _ _ (by omega)]
  · intro j hj
    rw [rebuild_nocheck t _ _ (by simpa [sel] using hn)]
    congr 2
    apply sum_congr rfl
    intro i hi
    rw [mem_range] at hi
    rw [ptV_sel _ _ _ (by simp; omega)]
    simp

/-- half answers in closed form -/
theorem half_closed (n c : Nat) (H : Finset Nat) (D : Nat → Nat → F) (V : Nat → Nat → G1)
    (ans : List (List F × List G1)) (h : HalfAnswers H (answers n c (fun _ => true) D V) ans) :
    ans = halfAns n c (fun i => decide (i ∉ H)) D
      (fun i j => (ans.getD i ([], [])).2.getD j 0) := by
  obtain ⟨h1, h2, h3⟩ := h
  have hl : (answers n c (fun _ => true) D V).length = n := by simp [answers]
  rw [hl] at h1 h2
  have hget : ∀ i < n, (answers n c (fun _ => true) D V)[i]? = some ((List.range c).map (D i),
      (List.range c).map (V i)) := by
    intro i hi; simp [answers, hi]
  apply List.ext_getElem
  · simp [halfAns, h1]
  · intro i hi1 hi2
    have hi : i < n := by omega
    have hlist : ∀ q : List G1, q.length = c → q = (List.range c).map (fun j => q.getD j 0) := by
      intro q hq
      apply List.ext_getElem
      · simp [hq]
      · intro j h3 h4; simp [h3]
    simp only [halfAns, List.getElem_map, List.getElem_range, decide_not, Bool.not_eq_true', decide_eq_false_iff_not]
    by_cases hH : i ∈ H
    · obtain ⟨q, hq, hql⟩ := h3 i hH _ (hget i hi)
      rw [List.getElem?_eq_getElem hi1] at hq
      have hq := Option.some.inj hq
      rw [List.getD_eq_getElem?_getD, List.getElem?_eq_getElem hi1, Option.getD_some, hq]
      simp only [hH, not_true_eq_false, if_false]
      rw [← hlist q (by simpa using hql)]
    · have hq := h2 i hi hH
      rw [hget i hi, List.getElem?_eq_getElem hi1] at hq
      have hq := Option.some.inj hq
      rw [List.getD_eq_getElem?_getD, List.getElem?_eq_getElem hi1, Option.getD_some, hq]
      simp only [hH, not_false_eq_true, if_true]
      rw [← hlist _ (by simp)]

theorem filter_not_mem_length (n t : Nat) (H : Finset Nat) (hH : ((range n) \ H).card = t) :
    ((List.range n).filter (fun i => decide (i ∉ H))).length = t := by
  rw [← hH]
  have : (range n) \ H = ((List.range n).filter (fun i => decide (i ∉ H))).toFinset := by
    ext i; simp
  rw [this, List.toFinset_card_of_nodup (List.nodup_range.filter _)]

/-- the situation of C122, in closed form -/
theorem half_core (params : AccParams G1 G2) (α sM v : F) (ops : List (Server.Op F))
    (srv : Server F G1 G2) (h : (Server.new params α sM v).run ops = .ok srv) (seed : Nat → Nat)
    (hseed : ∀ d, 1 ≤ d → 1 ≤ seed d) (u : User F G1 G2) (n t : Nat) (ht : 2 ≤ t) (hn : t ≤ n)
    (hc : ∀ i, 0 < i → i ≤ n → (i : F) ≠ 0) (he1 : 1 ≤ u.epoch) (he2 : u.epoch < srv.getEpoch)
    (rand : Nat → Nat → F) (upd : UserUpdate F)
    (hp : u.prepareForUpdate seed srv.getEpoch n t rand = .ok (.ok upd)) (w : G1) (H : Finset Nat)
    (hH : ((range n) \ H).card = t) (honest : List (List F × List G1))
    (hhon : HonestAnswers srv n upd honest) :
    ∃ (c : Nat) (d : Nat → F) (V : Nat → F → G1), (∀ j, PolyFn t (V j)) ∧
      (∀ a ∈ honest, a.2.length = c + 1) ∧ honest.length = n ∧
      (∀ i < n, ∀ j < c + 1, (honest.getD i ([], [])).2.getD j 0 = V j (xOf F i)) ∧
      ((∀ j < c + 1, d j ≠ 0) ↔ u.id ∉ srv.deletions.drop (u.epoch - 1)) ∧
      postUpdate w t upd.yShares upd.yValues honest =
        .ok (loopSpec (fun j => some (d j)) (fun j => some (V j 0)) (List.range (c + 1)) w) ∧
      ∀ ans, HalfAnswers H honest ans → postUpdate w t upd.yShares upd.yValues ans =
        .ok (loopSpec (fun j => some (d j)) (fun j => some (∑ i ∈ range t,
          lagr (range t) (halfX F ((List.range n).filter (fun i => decide (i ∉ H)))) 0 i •
            (ans.getD i ([], [])).2.getD j 0)) (List.range (c + 1)) w) := by
  have hlen := accs_length_run params α sM v ops srv h
  obtain ⟨k, hk, hed, hyl, hyv, hc1, hh⟩ :=
    honest_closed seed hseed u srv hlen n t ht hn he1 he2 rand upd hp
  obtain ⟨c, hcc⟩ : ∃ c, nChunks k (srv.getEpoch - u.epoch) = c + 1 :=
    ⟨nChunks k (srv.getEpoch - u.epoch) - 1, by omega⟩
  have hhon' := (hh _).1 hhon
  rw [hcc] at hhon'
  have pD : ∀ j, PolyFn t (fun z => dAns (shVec t k u.id rand z)
      (chunkAt k (srv.published (srv.getEpoch - u.epoch)) j)) := fun j => dAns_polyFn t k (by omega) u.id rand _
  have pV : ∀ j, PolyFn t (fun z => vAnsP (shVec t k u.id rand z)
      (chunkAt k (srv.published (srv.getEpoch - u.epoch)) j)) := fun j => vAnsP_polyFn t k (by omega) u.id rand _
  refine ⟨c, fun j => dAns (shVec t k u.id rand 0) (chunkAt k (srv.published (srv.getEpoch - u.epoch)) j),
    fun j z => vAnsP (shVec t k u.id rand z) (chunkAt k (srv.published (srv.getEpoch - u.epoch)) j), pV, ?_, ?_, ?_, ?_, ?_, ?_⟩
  · intro a ha
    rw [hhon'] at ha
    obtain ⟨i, -, rfl⟩ := List.mem_map.1 ha
    simp
  · exact hhon.1
  · intro i hi j hj
    rw [hhon']
    simp [answers, hi, hj]
  · have hd : srv.getEpoch - u.epoch ≤ srv.deletions.length := by rw [Server.getEpoch]; omega
    have := loop_closed srv hlen (srv.getEpoch - u.epoch) hd t k (by omega) u.id rand w
    rw [loopSpec_honest, hcc, show srv.deletions.length - (srv.getEpoch - u.epoch) = u.epoch - 1 by
      rw [Server.getEpoch] at *; omega] at this
    constructor
    · intro hj hid
      rw [if_pos (fun j hj' => hj j (List.mem_range.1 hj')), if_pos hid] at this
      cases this
    · intro hid
      by_contra hcon
      rw [if_neg (fun hj => hcon (fun j hj' => hj j (List.mem_range.2 hj'))), if_neg hid] at this
      cases this
  · rw [hhon', hyv]
    exact postUpdate_honest w t n _ (by omega) (by omega) hc (fun _ => true) _ _ pD pV
      (by rw [filter_all, List.length_range]; omega) (Or.inl rfl) upd.yShares hyl
  · intro ans hans
    rw [hhon'] at hans
    conv_lhs => rw [half_closed n (c + 1) H _ _ ans hans, hyv]
    exact postUpdate_half w t n (c + 1) (by omega) hn (by omega) hc _ (filter_not_mem_length n t H hH)
      (fun j z => dAns (shVec t k u.id rand z) (chunkAt k (srv.published (srv.getEpoch - u.epoch)) j)) pD _
      upd.yShares hyl

/-- C122: if all but `t` of the servers leave out the scalars, `post_update` notices nothing, whatever points they
send: the result is "user has been deleted" if the user was deleted since its recorded epoch, and `Ok`
otherwise. -/
theorem C122_not_noticed (params : AccParams G1 G2) (α sM v : F) (ops : List (Server.Op F))
    (srv : Server F G1 G2) (h : (Server.new params α sM v).run ops = .ok srv) (seed : Nat → Nat)
    (hseed : ∀ d, 1 ≤ d → 1 ≤ seed d) (u : User F G1 G2) (n t : Nat) (ht : 2 ≤ t) (hn : t ≤ n)
    (hc : ∀ i, 0 < i → i ≤ n → (i : F) ≠ 0) (he1 : 1 ≤ u.epoch) (he2 : u.epoch < srv.getEpoch)
    (rand : Nat → Nat → F) (upd : UserUpdate F)
    (hp : u.prepareForUpdate seed srv.getEpoch n t rand = .ok (.ok upd)) (w : G1) (H : Finset Nat)
    (hH : ((range n) \ H).card = t) (honest ans : List (List F × List G1))
    (hhon : HonestAnswers srv n upd honest) (hans : HalfAnswers H honest ans) :
    (u.id ∈ srv.deletions.drop (u.epoch - 1) →
      postUpdate w t upd.yShares upd.yValues ans = .ok (.error "user has been deleted")) ∧
    (u.id ∉ srv.deletions.drop (u.epoch - 1) →
      ∃ W, postUpdate w t upd.yShares upd.yValues ans = .ok (.ok W)) := by
  obtain ⟨c, d, V, -, -, -, -, hd, -, hpost⟩ := half_core params α sM v ops srv h seed hseed u n t ht hn hc he1 he2
    rand upd hp w H hH honest hhon
  rw [hpost ans hans, loopSpec_honest]
  constructor
  · intro hid
    rw [if_neg]
    intro hj
    exact hd.1 (fun j hj' => hj j (List.mem_range.2 hj')) hid
  · intro hid
    rw [if_pos (fun j hj => hd.2 hid j (List.mem_range.1 hj))]
    exact ⟨_, rfl⟩

/-- C122: if one of the servers that leave out the scalars is among the first `t`, it alone chooses the new
witness: whatever the other points are, for every `W` there is exactly one value of its last point for
which `post_update` returns `Ok(W)`. -/
theorem C122_control (params : AccParams G1 G2) (α sM v : F) (ops : List (Server.Op F))
    (srv : Server F G1 G2) (h : (Server.new params α sM v).run ops = .ok srv) (seed : Nat → Nat)
    (hseed : ∀ d, 1 ≤ d → 1 ≤ seed d) (u : User F G1 G2) (n t : Nat) (ht : 2 ≤ t) (hn : t ≤ n)
    (hc : ∀ i, 0 < i → i ≤ n → (i : F) ≠ 0) (he1 : 1 ≤ u.epoch) (he2 : u.epoch < srv.getEpoch)
    (rand : Nat → Nat → F) (upd : UserUpdate F)
    (hp : u.prepareForUpdate seed srv.getEpoch n t rand = .ok (.ok upd)) (w : G1) (H : Finset Nat)
    (hH : ((range n) \ H).card = t) (honest ans : List (List F × List G1))
    (hhon : HonestAnswers srv n upd honest) (hans : HalfAnswers H honest ans)
    (l : Nat) (hl : l ∈ H) (hlt : l < t) (hid : u.id ∉ srv.deletions.drop (u.epoch - 1)) (W : G1) :
    ∃! p, postUpdate w t upd.yShares upd.yValues
      (ans.modify l (fun a => (a.1, a.2.dropLast ++ [p]))) = .ok (.ok W) := by
  obtain ⟨c, d, V, -, hal, hnl, -, hd, -, hpost⟩ := half_core params α sM v ops srv h seed hseed u n t ht hn hc
    he1 he2 rand upd hp w H hH honest hhon
  have hd := hd.2 hid
  have hmod : ∀ p, HalfAnswers H honest (ans.modify l (fun a => (a.1, a.2.dropLast ++ [p]))) := by
    intro p
    obtain ⟨h1, h2, h3⟩ := hans
    refine ⟨by simpa using h1, fun i hi hiH => ?_, fun i hi a ha => ?_⟩
    · rw [List.getElem?_modify_ne (h := show l ≠ i by rintro rfl; exact hiH hl)]
      exact h2 i hi hiH
    · obtain ⟨q, hq, hql⟩ := h3 i hi a ha
      by_cases hil : i = l
      · subst hil
        refine ⟨q.dropLast ++ [p], by rw [List.getElem?_modify_eq, hq]; rfl, ?_⟩
        have := hal a (List.mem_of_getElem? ha)
        simp; omega
      · exact ⟨q, by rw [List.getElem?_modify_ne (h := Ne.symm hil), hq], hql⟩
  have hq : ∃ q, ans[l]? = some ([], q) ∧ q.length = c + 1 := by
    have hll : l < honest.length := by omega
    obtain ⟨q, hq, hql⟩ := hans.2.2 l hl _ (List.getElem?_eq_getElem hll)
    exact ⟨q, hq, by rw [hql, hal _ (List.getElem_mem hll)]⟩
  obtain ⟨q, hq, hql⟩ := hq
  set x := halfX F ((List.range n).filter (fun i => decide (i ∉ H))) with hx
  have hrl := filter_not_mem_length n t H hH
  have hgood := halfX_good hc ((List.range n).filter (fun i => decide (i ∉ H))) (List.nodup_range.filter _)
    (fun i hi => List.mem_range.1 (List.mem_filter.1 hi).1)
  rw [hrl] at hgood
  have hlam : lagr (range t) x 0 l ≠ 0 :=
    lagr_ne_zero _ _ hgood.injOn 0 l (mem_range.2 hlt) (fun j hj _ e => hgood.ne0 j (mem_range.1 hj) e.symm)
  -- the value used for chunk `j`
  set val : Nat → G1 := fun j => ∑ i ∈ range t, lagr (range t) x 0 i • (ans.getD i ([], [])).2.getD j 0 with hval
  set rest : G1 := ∑ i ∈ (range t).erase l, lagr (range t) x 0 i • (ans.getD i ([], [])).2.getD c 0 with hrest
  have hgetne : ∀ p i, i ≠ l → (ans.modify l (fun a => (a.1, a.2.dropLast ++ [p]))).getD i ([], [])
      = ans.getD i ([], []) := by
    intro p i hi
    rw [List.getD_eq_getElem?_getD, List.getElem?_modify_ne (h := Ne.symm hi), List.getD_eq_getElem?_getD]
  have hgetl : ∀ p, (ans.modify l (fun a => (a.1, a.2.dropLast ++ [p]))).getD l ([], []) = ([], q.dropLast ++ [p]) := by
    intro p
    rw [List.getD_eq_getElem?_getD, List.getElem?_modify_eq, hq]; rfl
  have hres : ∀ p, postUpdate w t upd.yShares upd.yValues (ans.modify l (fun a => (a.1, a.2.dropLast ++ [p])))
      = .ok (.ok ((d c)⁻¹ • ((List.range c).foldl (fun C j => (d j)⁻¹ • (C - val j)) w
          - (rest + lagr (range t) x 0 l • p)))) := by
    intro p
    rw [hpost _ (hmod p), loopSpec_honest, if_pos (fun j hj => hd j (List.mem_range.1 hj)), List.range_succ,
      List.foldl_append, List.foldl_cons, List.foldl_nil]
    congr 4
    · apply List.foldl_ext
      intro C j hj
      rw [List.mem_range] at hj
      congr 2
      apply sum_congr rfl
      intro i hi
      congr 1
      by_cases hil : i = l
      · subst hil
        rw [hgetl, List.getD_eq_getElem?_getD (l := ans), hq]
        simp only [Option.getD_some, List.getD_eq_getElem?_getD]
        rw [List.getElem?_append_left (by simp; omega), List.getElem?_dropLast, if_pos (by omega)]
      · rw [hgetne p i hil]
    · rw [← Finset.add_sum_erase _ _ (mem_range.2 hlt), add_comm]
      congr 1
      · apply sum_congr rfl
        intro i hi
        rw [hgetne p i (ne_of_mem_erase hi)]
      · rw [hgetl]
        simp only [List.getD_eq_getElem?_getD]
        rw [List.getElem?_append_right (by simp; omega)]
        simp [hql]
  have hdc := hd c (by omega)
  set C0 := (List.range c).foldl (fun C j => (d j)⁻¹ • (C - val j)) w with hC0
  refine ⟨(lagr (range t) x 0 l)⁻¹ • (C0 - rest - d c • W), ?_, ?_⟩
  · simp only [hres]
    rw [smul_smul, mul_inv_cancel₀ hlam, one_smul]
    congr 2
    rw [show C0 - (rest + (C0 - rest - d c • W)) = d c • W by abel, smul_smul, inv_mul_cancel₀ hdc, one_smul]
  · intro p hp'
    simp only [hres] at hp'
    have hp' := Except.ok.inj (Except.ok.inj hp')
    rw [← hp', smul_smul, mul_inv_cancel₀ hdc, one_smul,
      show C0 - rest - (C0 - (rest + lagr (range t) x 0 l • p)) = lagr (range t) x 0 l • p by abel,
      smul_smul, inv_mul_cancel₀ hlam, one_smul]

/-- C122: it is harmless if exactly the servers after the first `t` leave out their scalars: their points are
not used, and the result is that of the honest answers. -/
theorem C122_harmless (params : AccParams G1 G2) (α sM v : F) (ops : List (Server.Op F))
    (srv : Server F G1 G2) (h : (Server.new params α sM v).run ops = .ok srv) (seed : Nat → Nat)
    (hseed : ∀ d, 1 ≤ d → 1 ≤ seed d) (u : User F G1 G2) (n t : Nat) (ht : 2 ≤ t) (hn : t ≤ n)
    (hc : ∀ i, 0 < i → i ≤ n → (i : F) ≠ 0) (he1 : 1 ≤ u.epoch) (he2 : u.epoch < srv.getEpoch)
    (rand : Nat → Nat → F) (upd : UserUpdate F)
    (hp : u.prepareForUpdate seed srv.getEpoch n t rand = .ok (.ok upd)) (w : G1) (H : Finset Nat)
    (hH : ∀ i < n, i ∈ H ↔ t ≤ i) (honest ans : List (List F × List G1))
    (hhon : HonestAnswers srv n upd honest) (hans : HalfAnswers H honest ans) :
    postUpdate w t upd.yShares upd.yValues ans = postUpdate w t upd.yShares upd.yValues honest := by
  have hset : (range n) \ H = range t := by
    ext i
    simp only [mem_sdiff, mem_range]
    constructor
    · rintro ⟨h1, h2⟩
      rw [hH i h1] at h2
      omega
    · intro hi
      exact ⟨by omega, by rw [hH i (by omega)]; omega⟩
  obtain ⟨c, d, V, pV, hal, hnl, hV, -, hpost0, hpost⟩ := half_core params α sM v ops srv h seed hseed u n t ht hn hc
    he1 he2 rand upd hp w H (by rw [hset]; simp) honest hhon
  rw [hpost ans hans, hpost0]
  congr 1
  apply loopSpec_congr
  · intro j _; rfl
  · intro j hj
    rw [List.mem_range] at hj
    have hrs : (List.range n).filter (fun i => decide (i ∉ H)) = List.range t := by
      obtain ⟨m, rfl⟩ : ∃ m, n = t + m := ⟨n - t, by omega⟩
      rw [List.range_add, List.filter_append, List.filter_eq_self.2, List.filter_eq_nil_iff.2, List.append_nil]
      · intro i hi
        obtain ⟨j, hj, rfl⟩ := List.mem_map.1 hi
        rw [List.mem_range] at hj
        simp [hH (t + j) (by omega)]
      · intro i hi
        rw [List.mem_range] at hi
        simp [hH i (by omega)]; omega
    rw [hrs]
    have hgood := halfX_good (F := F) (n := n) hc (List.range t) List.nodup_range
      (fun i hi => by have := List.mem_range.1 hi; omega)
    simp only [List.length_range] at hgood
    congr 1
    rw [← (pV j).interp (range t) (by simp) (halfX F (List.range t)) hgood.injOn 0]
    apply sum_congr rfl
    intro i hi
    rw [mem_range] at hi
    congr 1
    have hx : halfX F (List.range t) i = xOf F i := by
      rw [halfX, ptX_sel _ _ _ (by simpa using hi)]; simp
    have e := hans.2.1 i (by omega) (by rw [hH i (by omega)]; omega)
    rw [hx, ← hV i (by omega) j hj, List.getD_eq_getElem?_getD (l := ans), e, ← List.getD_eq_getElem?_getD (l := honest)]

/-- C122: so a single server out of `t + 1`, if it is one of the first `t`, spoils the update of a member without
being noticed: whatever the user's witness was, for all but one value of its last point `post_update` returns
`Ok` of a point that is not a witness for the accumulator `V`, the current one or any other. -/
theorem C122_one_server (params : AccParams G1 G2) (α sM v : F) (ops : List (Server.Op F))
    (srv : Server F G1 G2) (h : (Server.new params α sM v).run ops = .ok srv) (seed : Nat → Nat)
    (hseed : ∀ d, 1 ≤ d → 1 ≤ seed d) (u : User F G1 G2) (t : Nat) (ht : 2 ≤ t)
    (hc : ∀ i, 0 < i → i ≤ t + 1 → (i : F) ≠ 0) (he1 : 1 ≤ u.epoch) (he2 : u.epoch < srv.getEpoch)
    (rand : Nat → Nat → F) (upd : UserUpdate F)
    (hp : u.prepareForUpdate seed srv.getEpoch (t + 1) t rand = .ok (.ok upd)) (w : G1)
    (l : Nat) (hlt : l < t) (honest ans : List (List F × List G1))
    (hhon : HonestAnswers srv (t + 1) upd honest) (hans : HalfAnswers {l} honest ans)
    (hid : u.id ∉ srv.deletions.drop (u.epoch - 1)) (hα : u.id + α ≠ 0) (V : G1) :
    ∃ p₀, ∀ p ≠ p₀, ∃ W, postUpdate w t upd.yShares upd.yValues
      (ans.modify l (fun a => (a.1, a.2.dropLast ++ [p]))) = .ok (.ok W) ∧ ¬ IsWitness α V u.id W := by
  have hcard : ((range (t + 1)) \ {l}).card = t := by
    rw [Finset.card_sdiff_of_subset (by simp; omega)]; simp
  have hctl := C122_control params α sM v ops srv h seed hseed u (t + 1) t ht (by omega) hc he1 he2 rand upd hp w {l}
    hcard honest ans hhon hans l (by simp) hlt hid
  obtain ⟨p₀, hp₀, -⟩ := hctl ((u.id + α)⁻¹ • V)
  refine ⟨p₀, fun p hpp => ?_⟩
  have hmod : HalfAnswers {l} honest (ans.modify l (fun a => (a.1, a.2.dropLast ++ [p]))) := by
    obtain ⟨h1, h2, h3⟩ := hans
    refine ⟨by simpa using h1, fun i hi hiH => ?_, fun i hi a ha => ?_⟩
    · rw [List.getElem?_modify_ne (h := show l ≠ i by rintro rfl; exact hiH (by simp))]
      exact h2 i hi hiH
    · obtain ⟨q, hq, hql⟩ := h3 i hi a ha
      obtain rfl := Finset.mem_singleton.1 hi
      refine ⟨q.dropLast ++ [p], by rw [List.getElem?_modify_eq, hq]; rfl, ?_⟩
      obtain ⟨c, -, -, -, hal, -⟩ := half_core params α sM v ops srv h seed hseed u (t + 1) t ht (by omega) hc
        he1 he2 rand upd hp w {i} hcard honest hhon
      have := hal a (List.mem_of_getElem? ha)
      simp; omega
  obtain ⟨W, hW⟩ := (C122_not_noticed params α sM v ops srv h seed hseed u (t + 1) t ht (by omega) hc he1 he2 rand upd
    hp w {l} hcard honest _ hhon hmod).2 hid
  refine ⟨W, hW, fun hw => hpp ?_⟩
  have hWe : W = (u.id + α)⁻¹ • V := by
    unfold IsWitness at hw
    rw [← hw, smul_smul]
    rw [inv_mul_cancel₀ hα, one_smul]
  obtain ⟨p₁, -, huniq⟩ := hctl W
  rw [huniq p hW, huniq p₀ (by rw [hWe]; exact hp₀)]

/-! ## more than `t` servers send scalars -/

theorem half_loop_ok_iff (d : Nat → F) (rV : Nat → Option G1) (js : List Nat) (hd : ∀ j ∈ js, d j ≠ 0) (w : G1) :
    (∃ W, loopSpec (fun j => some (d j)) rV js w = .ok W) ↔ ∀ j ∈ js, rV j ≠ none := by
  induction js generalizing w with
  | nil => simp [loopSpec]
  | cons j js ih =>
    unfold loopSpec
    simp only [hd j (by simp), if_false]
    cases hv : rV j with
    | none => simp [hv]
    | some v =>
      simp only [List.mem_cons, forall_eq_or_imp, hv, ne_eq, reduceCtorEq, not_false_eq_true, true_and]
      exact ih (fun j' hj' => hd j' (by simp [hj'])) _

/-- rebuilding looks at the values only -/
theorem rebuildPoint_values {M : Type} [AddCommGroup M] [Module F M] [DecidableEq M] (a b : List (F × M))
    (h : a.map (·.2) = b.map (·.2)) (cs ch : List F) (h1 : cs.length < a.length) (h2 : 1 ≤ cs.length)
    (h3 : ch.length = cs.length) :
    shamirRebuildPoint a cs (some ch) = shamirRebuildPoint b cs (some ch) := by
  have hl : a.length = b.length := by simpa using congrArg List.length h
  have hv : ptV a = ptV b := by funext i; simp [ptV, h]
  rw [rebuildPoint_some a cs ch h1 (by omega) (by omega), rebuildPoint_some b cs ch (by omega) (by omega) (by omega), hv]

/-- C122: more than `t` servers, the first among them, send scalars, and the server `l < t` leaves them out.
Then, whatever the other points are, there is exactly one list of points for which `post_update` accepts the
answers; so the check does not protect, although the server cannot choose the result. -/
theorem C122_accepted_once (params : AccParams G1 G2) (α sM v : F) (ops : List (Server.Op F))
    (srv : Server F G1 G2) (h : (Server.new params α sM v).run ops = .ok srv) (seed : Nat → Nat)
    (hseed : ∀ d, 1 ≤ d → 1 ≤ seed d) (u : User F G1 G2) (n t : Nat) (ht : 2 ≤ t) (hn : t ≤ n)
    (hc : ∀ i, 0 < i → i ≤ n → (i : F) ≠ 0) (he1 : 1 ≤ u.epoch) (he2 : u.epoch < srv.getEpoch)
    (rand : Nat → Nat → F) (upd : UserUpdate F)
    (hp : u.prepareForUpdate seed srv.getEpoch n t rand = .ok (.ok upd)) (w : G1) (H : Finset Nat)
    (hH : t < ((range n) \ H).card) (h0 : 0 ∉ H) (honest ans : List (List F × List G1))
    (hhon : HonestAnswers srv n upd honest) (hans : HalfAnswers H honest ans)
    (l : Nat) (hl : l ∈ H) (hlt : l < t) (hid : u.id ∉ srv.deletions.drop (u.epoch - 1)) :
    ∃! q : List G1, (∀ a, honest[l]? = some a → q.length = a.2.length) ∧
      ∃ W, postUpdate w t upd.yShares upd.yValues (ans.set l ([], q)) = .ok (.ok W) := by
  have hlen := accs_length_run params α sM v ops srv h
  obtain ⟨k, hk, hed, hyl, hyv, hc1, hh⟩ :=
    honest_closed seed hseed u srv hlen n t ht hn he1 he2 rand upd hp
  set c := nChunks k (srv.getEpoch - u.epoch) with hcc
  have hhon' := (hh _).1 hhon
  set D : Nat → F → F := fun j z =>
    dAns (shVec t k u.id rand z) (chunkAt k (srv.published (srv.getEpoch - u.epoch)) j) with hDdef
  have pD : ∀ j, PolyFn t (D j) := fun j => dAns_polyFn t k (by omega) u.id rand _
  have hnl : honest.length = n := hhon.1
  have hd : ∀ j ∈ List.range c, D j 0 ≠ 0 := by
    have hd : srv.getEpoch - u.epoch ≤ srv.deletions.length := by rw [Server.getEpoch]; omega
    have := loop_closed srv hlen (srv.getEpoch - u.epoch) hd t k (by omega) u.id rand w
    rw [loopSpec_honest, ← hcc, show srv.deletions.length - (srv.getEpoch - u.epoch) = u.epoch - 1 by
      rw [Server.getEpoch] at *; omega, if_neg hid] at this
    by_contra hcon
    rw [if_neg hcon] at this
    cases this
  set rs := (List.range n).filter (fun i => decide (i ∉ H)) with hrs
  have hrl : t < rs.length := by rw [hrs, filter_not_mem_length n _ H rfl]; exact hH
  have hnd : rs.Nodup := List.nodup_range.filter _
  have hltn : ∀ i ∈ rs, i < n := fun i hi => List.mem_range.1 (List.mem_filter.1 hi).1
  have htn : t < n := lt_of_lt_of_le hH (by
    have := Finset.card_le_card (Finset.sdiff_subset (s := range n) (t := H)); simpa using this)
  have hgood : ∀ {T : Type} (g : Nat → T), GoodPts (t + 1) (sel (F := F) rs g) := fun g =>
    goodPts_sel hc rs hnd hltn g (t + 1) (by omega)
  have hx0 : halfX F rs 0 = 1 := by
    rw [halfX, ptX_sel rs _ 0 (by omega)]
    have : rs[0]? = some 0 := by
      rw [hrs]
      obtain ⟨m, rfl⟩ : ∃ m, n = m + 1 := ⟨n - 1, by omega⟩
      rw [List.range_succ_eq_map, List.filter_cons_of_pos (by simpa using h0)]; rfl
    rw [List.getElem?_eq_getElem (by omega)] at this
    rw [Option.some.inj this]; simp [xOf]
  set x := halfX F rs with hx
  have hgx := hgood (fun _ => ())
  -- what happens for any points
  have hpost : ∀ gV : Nat → Nat → G1, postUpdate w t upd.yShares upd.yValues
      (halfAns n c (fun i => decide (i ∉ H)) (fun i j => D j (xOf F i)) gV)
      = .ok (loopSpec (fun j => some (D j 0)) (fun j =>
          if gV t j = ∑ i ∈ range t, lagr (range t) x (x t) i • gV i j
          then some (∑ i ∈ range t, lagr (range t) x 0 i • gV i j) else none) (List.range c) w) := by
    intro gV
    have hcs := shamirCoefficients_extra t (by omega) (sel (F := F) rs (fun i => D 0 (xOf F i))) (hgood _)
    rw [ptX_sel_halfX] at hcs
    rw [hyv]
    apply postUpdate_halfAns w t n c hc1 _ _ gV ⟨0, by omega, by simpa using h0⟩ upd.yShares hyl _ _ hcs
    · intro j hj
      have := rebuild_polyFn t (by omega) (sel (F := F) rs (fun i => D 0 (xOf F i)))
        (sel rs (fun i => D j (xOf F i))) (D j) (pD j) (by simp [sel]; omega) (by simp [sel])
        (goodPts_sel hc rs hnd hltn _ _ (by simp [sel]))
        (fun i hi => by rw [ptX_sel_halfX, ptX_sel_halfX])
        (fun i hi => by
          have hi' : i < rs.length := by simp [sel] at hi; omega
          rw [ptV_sel rs _ _ hi', ptX_sel rs _ _ hi'])
        (fun _ => by rw [ptX_sel_halfX, ← hx, hx0, one_pow])
      obtain ⟨cs, ch, e1, e2⟩ := this
      rw [hcs] at e1
      injection e1 with e1
      injection e1 with ea eb
      subst ea; subst eb
      rw [rebuildScalar_eq]
      exact e2
    · intro j hj
      have hval := rebuildPoint_values (sel (F := F) (List.range n) (fun i => gV i j))
        ((List.range n).map (fun i => (x i, gV i j))) (by simp [sel])
        ((List.range t).map (lagr (range t) x 0)) ((List.range t).map (checkEntry t (t - 1) x))
        (by simpa [sel] using htn) (by simp; omega) (by simp)
      rw [hval]
      have hptX : ∀ i ≤ t, ptX ((List.range n).map (fun i => (x i, gV i j))) i = x i := by
        intro i hi
        simp [ptX, show i < n by omega]
      have hptV : ∀ i ≤ t, ptV ((List.range n).map (fun i => (x i, gV i j))) i = gV i j := by
        intro i hi
        simp [ptV, show i < n by omega]
      have := rebuild_check_general t (by omega) ((List.range n).map (fun i => (x i, gV i j)))
        (sel (F := F) rs (fun _ => ())) hgx hptX (by simpa using htn)
      rw [show ptX (sel (F := F) rs (fun _ => ())) = x from rfl, hx0, one_pow, one_smul, hptV t le_rfl] at this
      rw [this]
      have e : ∀ z, ∑ i ∈ range t, lagr (range t) x z i • ptV ((List.range n).map (fun i => (x i, gV i j))) i
          = ∑ i ∈ range t, lagr (range t) x z i • gV i j := by
        intro z
        apply sum_congr rfl
        intro i hi
        rw [hptV i (le_of_lt (mem_range.1 hi))]
      rw [e, e]
  have hlam : lagr (range t) x (x t) l ≠ 0 :=
    lagr_ne_zero _ _ (hgx.mono (by omega)).injOn _ l (mem_range.2 hlt) (fun j hj _ e => by
      have := hgx.inj t (by omega) j (by have := mem_range.1 hj; omega) e
      have := mem_range.1 hj; omega)
  have hhl : honest[l]? = some ((List.range c).map (fun j => D j (xOf F l)), (List.range c).map (fun j =>
      vAnsP (shVec t k u.id rand (xOf F l)) (chunkAt k (srv.published (srv.getEpoch - u.epoch)) j))) := by
    rw [hhon']; simp [answers, show l < n by omega, hDdef]
  have hlq : ∀ q : List G1, (∀ a, honest[l]? = some a → q.length = a.2.length) ↔ q.length = c := by
    intro q; rw [hhl]; simp
  have hal : ans.length = n := by rw [hans.1, hnl]
  have hset : ∀ q : List G1, q.length = c → HalfAnswers H honest (ans.set l ([], q)) := by
    intro q hq
    refine ⟨by simpa using hans.1, fun i hi hiH => ?_, fun i hi a ha => ?_⟩
    · rw [List.getElem?_set_ne (by rintro rfl; exact hiH hl)]
      exact hans.2.1 i hi hiH
    · by_cases hil : l = i
      · subst hil
        rw [hhl] at ha
        obtain rfl := Option.some.inj ha
        exact ⟨q, by rw [List.getElem?_set_self (by omega)], by simpa using hq⟩
      · rw [List.getElem?_set_ne hil]
        exact hans.2.2 i hi a ha
  set gV : Nat → Nat → G1 := fun i j => (ans.getD i ([], [])).2.getD j 0 with hgV
  have hget : ∀ (q : List G1) (i j : Nat), ((ans.set l ([], q)).getD i ([], [])).2.getD j 0
      = if i = l then q.getD j 0 else gV i j := by
    intro q i j
    by_cases hil : i = l
    · subst hil
      rw [if_pos rfl, List.getD_eq_getElem?_getD (l := ans.set _ _), List.getElem?_set_self (by omega)]; rfl
    · rw [if_neg hil, List.getD_eq_getElem?_getD (l := ans.set _ _), List.getElem?_set_ne (Ne.symm hil),
        ← List.getD_eq_getElem?_getD]
  have hacc : ∀ q : List G1, q.length = c →
      ((∃ W, postUpdate w t upd.yShares upd.yValues (ans.set l ([], q)) = .ok (.ok W)) ↔
        ∀ j < c, gV t j = ∑ i ∈ (range t).erase l, lagr (range t) x (x t) i • gV i j
          + lagr (range t) x (x t) l • q.getD j 0) := by
    intro q hq
    have hcl := half_closed n c H (fun i j => D j (xOf F i)) _ _ (by rw [← hhon']; exact hset q hq)
    rw [hcl, hpost]
    simp only [Except.ok.injEq]
    rw [half_loop_ok_iff (fun j => D j 0) _ _ hd]
    have hs : ∀ j, ∑ i ∈ range t, lagr (range t) x (x t) i • ((ans.set l ([], q)).getD i ([], [])).2.getD j 0
        = ∑ i ∈ (range t).erase l, lagr (range t) x (x t) i • gV i j + lagr (range t) x (x t) l • q.getD j 0 := by
      intro j
      rw [← Finset.sum_erase_add _ _ (mem_range.2 hlt), hget, if_pos rfl]
      congr 1
      apply sum_congr rfl
      intro i hi
      rw [hget, if_neg (ne_of_mem_erase hi)]
    have ht' : ∀ j, ((ans.set l ([], q)).getD t ([], [])).2.getD j 0 = gV t j := by
      intro j; rw [hget, if_neg (by omega)]
    simp only [hs, ht', List.mem_range, ne_eq, ite_eq_right_iff, reduceCtorEq, imp_false, not_not]
  refine ⟨(List.range c).map (fun j => (lagr (range t) x (x t) l)⁻¹ • (gV t j -
      ∑ i ∈ (range t).erase l, lagr (range t) x (x t) i • gV i j)), ⟨(hlq _).2 (by simp), ?_⟩, ?_⟩
  · rw [hacc _ (by simp)]
    intro j hj
    simp only [List.getD_eq_getElem?_getD, List.getElem?_map, List.getElem?_range hj, Option.map_some,
      Option.getD_some]
    rw [smul_smul, mul_inv_cancel₀ hlam, one_smul]; abel
  · rintro q ⟨hq1, hq2⟩
    rw [hlq] at hq1
    rw [hacc q hq1] at hq2
    apply List.ext_getElem
    · simp [hq1]
    · intro j h1 h2
      have := hq2 j (by omega)
      simp only [List.getElem_map, List.getElem_range]
      rw [this, add_sub_cancel_left, smul_smul, inv_mul_cancel₀ hlam, one_smul]
      simp [h1]

end
end Allo
