import Verif.Props.Silent
import Verif.Props.PostUpdate

/-!
# C124: some servers are silent and others lie

The answers of the servers in `Q` do not arrive, and those in `L` lie. `r` lists the servers whose answers arrive, in
order; `post_update` uses the first `t + 1` of them.
-/

set_option linter.unusedSectionVars false
set_option linter.unusedVariables false
namespace Allo
open Spec Finset User

section
variable {F G1 G2 GT : Type} [Field F] [DecidableEq F] [AddCommGroup G1] [Module F G1]
  [DecidableEq G1] [AddCommGroup G2] [Module F G2] [AddCommGroup GT] [Module F GT]

section chk
variable {M : Type} [AddCommGroup M] [Module F M] [DecidableEq M]

/-- what is rebuilt from the values `f` of the servers `rs`, at points `X` -/
def chkRebuild (t : Nat) (X : Nat → F) (rs : List Nat) (f : Nat → M) : Option M :=
  if X 0 ^ 2 • f (rs.getD t 0) = ∑ i ∈ range t, lagr (range t) X (X t) i • f (rs.getD i 0)
  then some (∑ i ∈ range t, lagr (range t) X 0 i • f (rs.getD i 0)) else none

/-- the points `X 0, …, X t` are different and not 0 -/
structure GoodX (t : Nat) (X : Nat → F) : Prop where
  ne0 : ∀ i ≤ t, X i ≠ 0
  inj : ∀ i ≤ t, ∀ j ≤ t, X i = X j → i = j

theorem GoodX.injOn {t : Nat} {X : Nat → F} (h : GoodX t X) : Set.InjOn X (range t) := by
  intro i hi j hj e
  simp only [coe_range, Set.mem_Iio] at hi hj
  exact h.inj i (by omega) j (by omega) e

theorem GoodX.lagr_t {t : Nat} {X : Nat → F} (h : GoodX t X) (p : Nat) (hp : p < t) : lagr (range t) X (X t) p ≠ 0 :=
  lagr_ne_zero _ _ h.injOn _ _ (mem_range.2 hp) (fun j hj _ e => by
    have hj := mem_range.1 hj
    have := h.inj t le_rfl j (by omega) e
    omega)

/-- a sum in which only the term `p` differs -/
theorem sum_one_off (t p : Nat) (hp : p < t) (c : Nat → F) (f g : Nat → M) (h : ∀ i < t, i ≠ p → f i = g i) :
    ∑ i ∈ range t, c i • f i = ∑ i ∈ range t, c i • g i + c p • (f p - g p) := by
  rw [← sub_eq_iff_eq_add', ← sum_sub_distrib, sum_eq_single p]
  · rw [smul_sub]
  · intro i hi hip
    rw [h i (mem_range.1 hi) hip, sub_self]
  · intro hn; exact absurd (mem_range.2 hp) hn

theorem chk_first (t : Nat) (X : Nat → F) (hX : GoodX t X) (rs : List Nat) (f : Nat → M) (g : F → M)
    (hg : PolyFn t g) (h : ∀ i < t, f (rs.getD i 0) = g (X i)) :
    (chkRebuild t X rs f = none ∨ chkRebuild t X rs f = some (g 0)) ∧
    (chkRebuild t X rs f = some (g 0) ↔ X 0 ^ 2 • f (rs.getD t 0) = g (X t)) := by
  have hs : ∀ z, ∑ i ∈ range t, lagr (range t) X z i • f (rs.getD i 0) = g z := by
    intro z
    rw [← hg.interp (range t) (by simp) X hX.injOn z]
    exact sum_congr rfl (fun i hi => by rw [h i (mem_range.1 hi)])
  unfold chkRebuild
  rw [hs, hs]
  by_cases he : X 0 ^ 2 • f (rs.getD t 0) = g (X t)
  · rw [if_pos he]; exact ⟨Or.inr rfl, fun _ => he, fun _ => rfl⟩
  · rw [if_neg he]; exact ⟨Or.inl rfl, fun h => (by cases h), fun h => absurd h he⟩

theorem chk_liar (t : Nat) (X : Nat → F) (hX : GoodX t X) (hX0 : X 0 ^ 2 = 1) (rs : List Nat) (f : Nat → M) (g : F → M)
    (hg : PolyFn t g) (p : Nat) (h : ∀ i ≤ t, i ≠ p → f (rs.getD i 0) = g (X i)) :
    (chkRebuild t X rs f = none ∨ chkRebuild t X rs f = some (g 0)) ∧ (t < p → chkRebuild t X rs f = some (g 0)) := by
  by_cases hp : p < t
  · refine ⟨?_, fun h => by omega⟩
    have hs : ∀ z, ∑ i ∈ range t, lagr (range t) X z i • f (rs.getD i 0)
        = g z + lagr (range t) X z p • (f (rs.getD p 0) - g (X p)) := by
      intro z
      rw [sum_one_off t p hp (lagr (range t) X z) (fun i => f (rs.getD i 0)) (fun i => g (X i))
        (fun i hi hip => h i (by omega) hip), hg.interp (range t) (by simp) X hX.injOn z]
    unfold chkRebuild
    rw [hs, hs, hX0, one_smul, h t le_rfl (by omega)]
    by_cases he : g (X t) = g (X t) + lagr (range t) X (X t) p • (f (rs.getD p 0) - g (X p))
    · right
      rw [if_pos he]
      have := (smul_eq_zero.1 (left_eq_add.1 he)).resolve_left (hX.lagr_t p hp)
      rw [this, smul_zero, add_zero]
    · left; rw [if_neg he]
  · have := chk_first t X hX rs f g hg (fun i hi => h i (by omega) (by omega))
    refine ⟨this.1, fun htp => this.2.2 ?_⟩
    rw [hX0, one_smul]
    exact h t le_rfl (by omega)

theorem chk_unique (t : Nat) (X : Nat → F) (hX : GoodX t X) (rs : List Nat) (f f' : Nat → M) (p : Nat) (hp : p < t)
    (h : ∀ i ≤ t, i ≠ p → f (rs.getD i 0) = f' (rs.getD i 0)) (h1 : chkRebuild t X rs f ≠ none)
    (h2 : chkRebuild t X rs f' ≠ none) : f (rs.getD p 0) = f' (rs.getD p 0) := by
  have key : ∀ f : Nat → M, chkRebuild t X rs f ≠ none → X 0 ^ 2 • f (rs.getD t 0)
      = ∑ i ∈ range t, lagr (range t) X (X t) i • f (rs.getD i 0) := by
    intro f hf
    by_contra hn
    exact hf (if_neg hn)
  have e1 := key f h1
  have e2 := key f' h2
  rw [sum_one_off t p hp (lagr (range t) X (X t)) (fun i => f (rs.getD i 0)) (fun i => f' (rs.getD i 0))
    (fun i hi hip => h i (by omega) hip), h t le_rfl (by omega), e2] at e1
  exact sub_eq_zero.1 ((smul_eq_zero.1 (left_eq_add.1 e1)).resolve_left (hX.lagr_t p hp))

end chk

/-- `post_update` when more than `t` servers answer, with any contents of the right lengths -/
theorem postUpdate_checked (w : G1) (t n c : Nat) (ht : 1 ≤ t) (hc1 : 1 ≤ c)
    (hc : ∀ i, 0 < i → i ≤ n → (i : F) ≠ 0) (resp : Nat → Bool)
    (hr : t < ((List.range n).filter resp).length) (gD : Nat → Nat → F) (gV : Nat → Nat → G1)
    (yShares : List (List F)) (hy : yShares.length = n) :
    let rs := (List.range n).filter resp
    let X := fun i => xOf F (rs.getD i 0)
    GoodX t X ∧
    postUpdate w t yShares ((List.range n).map (xOf F)) (answers n c resp gD gV)
      = .ok (loopSpec (fun j => chkRebuild t X rs (fun i => gD i j)) (fun j => chkRebuild t X rs (fun i => gV i j))
          (List.range c) w) := by
  intro rs X
  have hnd : rs.Nodup := List.nodup_range.filter _
  have hlt : ∀ i ∈ rs, i < n := fun i hi => List.mem_range.1 (List.mem_filter.1 hi).1
  have hex : ∃ i < n, resp i = true := by
    have : rs ≠ [] := by intro e; rw [show (List.range n).filter resp = rs from rfl, e] at hr; simp at hr
    obtain ⟨i, hi⟩ := List.exists_mem_of_ne_nil rs this
    exact ⟨i, hlt i hi, (List.mem_filter.1 hi).2⟩
  have hr' : t < rs.length := hr
  have hg : ∀ {T : Type} (f : Nat → T), GoodPts (t + 1) (sel (F := F) rs f) := fun f =>
    goodPts_sel hc rs hnd hlt f _ (by omega)
  have hXi : ∀ {T : Type} (f : Nat → T), ∀ i ≤ t, ptX (sel (F := F) rs f) i = X i := by
    intro T f i hi
    rw [ptX_sel _ _ _ (by omega)]
    simp [X, show i < rs.length by omega]
  have hgX : GoodX t X := by
    have := hg (fun i => gD i 0)
    refine ⟨fun i hi => ?_, fun i hi j hj e => ?_⟩
    · rw [← hXi (fun i => gD i 0) i hi]; exact this.ne0 i (by omega)
    · rw [← hXi (fun i => gD i 0) i hi, ← hXi (fun i => gD i 0) j hj] at e
      exact this.inj i (by omega) j (by omega) e
  refine ⟨hgX, ?_⟩
  have hl : ∀ z, ∀ i, lagr (range t) (ptX (sel (F := F) rs (fun i => gD i 0))) z i = lagr (range t) X z i ∨ t ≤ i := by
    intro z i
    by_cases hi : i < t
    · left
      unfold lagr
      apply prod_congr rfl
      intro j hj
      have := mem_range.1 (mem_of_mem_erase hj)
      rw [hXi _ j (by omega), hXi _ i (by omega)]
    · right; omega
  have hgen : ∀ (M : Type) [AddCommGroup M] [Module F M] [DecidableEq M] (f : Nat → M),
      shamirRebuildPoint (sel (F := F) rs f)
        ((List.range t).map (lagr (range t) (ptX (sel (F := F) rs (fun i => gD i 0))) 0))
        (some ((List.range t).map (checkEntry t (t - 1) (ptX (sel (F := F) rs (fun i => gD i 0))))))
        = .ok (chkRebuild t X rs f) := by
    intro M _ _ _ f
    rw [rebuild_check_general t ht _ _ (hg _) (fun i hi => by rw [hXi _ i hi, hXi _ i hi]) (by simpa [sel] using hr')]
    have hsum : ∀ z, ∑ i ∈ range t, lagr (range t) (ptX (sel (F := F) rs (fun i => gD i 0))) z i • ptV (sel (F := F) rs f) i
        = ∑ i ∈ range t, lagr (range t) X z i • f (rs.getD i 0) := by
      intro z
      apply sum_congr rfl
      intro i hi
      have hi := mem_range.1 hi
      rw [(hl z i).resolve_right (by omega), ptV_sel _ _ _ (by omega)]
      simp [show i < rs.length by omega]
    rw [hsum, hsum, hXi _ t le_rfl, hXi _ 0 (by omega), ptV_sel _ _ _ hr']
    unfold chkRebuild
    simp [hr']
  exact postUpdate_spec w t n c hc1 resp gD gV hex yShares hy _ _ (shamirCoefficients_extra t ht _ (hg _)) _ _
    (fun j hj => by rw [rebuildScalar_eq]; exact hgen F _) (fun j hj => hgen G1 _)

/-- the common setting of the theorems below -/
theorem silentLiar_setup (params : AccParams G1 G2) (α sM v : F) (ops : List (Server.Op F))
    (srv : Server F G1 G2) (h : (Server.new params α sM v).run ops = .ok srv) (seed : Nat → Nat)
    (hseed : ∀ d, 1 ≤ d → 1 ≤ seed d) (u : User F G1 G2) (n t : Nat) (ht : 2 ≤ t)
    (hc : ∀ i, 0 < i → i ≤ n → (i : F) ≠ 0) (he1 : 1 ≤ u.epoch) (he2 : u.epoch < srv.getEpoch)
    (rand : Nat → Nat → F) (upd : UserUpdate F)
    (hp : u.prepareForUpdate seed srv.getEpoch n t rand = .ok (.ok upd)) (w : G1) (Q : Finset Nat)
    (r : List Nat) (hr : r = (List.range n).filter (fun i => decide (i ∉ Q))) (hrl : t < r.length)
    (honest : List (List F × List G1)) (hhon : HonestAnswers srv n upd honest) :
    ∃ (c : Nat) (D : Nat → F → F) (V : Nat → F → G1), 1 ≤ c ∧ (∀ j, PolyFn t (D j)) ∧ (∀ j, PolyFn t (V j)) ∧
      honest = answers n c (fun _ => true) (fun i j => D j (xOf F i)) (fun i j => V j (xOf F i)) ∧
      postUpdate w t upd.yShares upd.yValues honest
        = .ok (loopSpec (fun j => some (D j 0)) (fun j => some (V j 0)) (List.range c) w) ∧
      GoodX t (fun i => xOf F (r.getD i 0)) ∧
      ∀ (L : Finset Nat) (ans : List (List F × List G1)), DiffersOn L honest ans →
        (∀ p ∈ ans, p.1.length = c ∧ p.2.length = c) ∧ ans.length = n ∧
        (∀ i < n, i ∉ L → ∀ j < c, (ans.getD i ([], [])).1.getD j 0 = D j (xOf F i) ∧
          (ans.getD i ([], [])).2.getD j 0 = V j (xOf F i)) ∧
        postUpdate w t upd.yShares upd.yValues (silence Q ans) = .ok (loopSpec
          (fun j => chkRebuild t (fun i => xOf F (r.getD i 0)) r (fun i => (ans.getD i ([], [])).1.getD j 0))
          (fun j => chkRebuild t (fun i => xOf F (r.getD i 0)) r (fun i => (ans.getD i ([], [])).2.getD j 0))
          (List.range c) w) := by
  have hlen := accs_length_run params α sM v ops srv h
  have hrn : r.length ≤ n := by
    rw [hr]; refine le_trans (List.length_filter_le _ _) (by simp)
  obtain ⟨k, hk, hed, hyl, hyv, hc1, hh⟩ :=
    honest_closed seed hseed u srv hlen n t ht (by omega) he1 he2 rand upd hp
  set c := nChunks k (srv.getEpoch - u.epoch) with hcdef
  set D : Nat → F → F := fun j z =>
    dAns (shVec t k u.id rand z) (chunkAt k (srv.published (srv.getEpoch - u.epoch)) j) with hD
  set V : Nat → F → G1 := fun j z =>
    vAnsP (shVec t k u.id rand z) (chunkAt k (srv.published (srv.getEpoch - u.epoch)) j) with hV
  have pD : ∀ j, PolyFn t (D j) := fun j => dAns_polyFn t k (by omega) u.id rand _
  have pV : ∀ j, PolyFn t (V j) := fun j => vAnsP_polyFn t k (by omega) u.id rand _
  have hhon' : honest = answers n c (fun _ => true) (fun i j => D j (xOf F i)) (fun i j => V j (xOf F i)) := (hh _).1 hhon
  have hck := fun gD gV => postUpdate_checked (G1 := G1) w t n c (by omega) hc1 hc (fun i => decide (i ∉ Q))
    (by rw [← hr]; exact hrl) gD gV upd.yShares hyl
  rw [← hr, ← hyv] at hck
  refine ⟨c, D, V, hc1, pD, pV, hhon', ?_, (hck (fun _ _ => 0) (fun _ _ => 0)).1, ?_⟩
  · rw [hyv, hhon']
    exact postUpdate_honest w t n c (by omega) hc1 hc (fun _ => true) D V pD pV
      (by rw [filter_all, List.length_range]; omega) (Or.inl rfl) upd.yShares hyl
  · rintro L ans ⟨hl1, hl2, hl3⟩
    have hnl : honest.length = n := by simp [hhon', answers]
    have h0 : honest[0]? = some ((List.range c).map (fun j => D j (xOf F 0)),
        (List.range c).map (fun j => V j (xOf F 0))) := by
      simp [hhon', answers, show 0 < n by omega]
    have hlen' : ∀ p ∈ ans, p.1.length = c ∧ p.2.length = c := fun p hp' => by
      have := hl3 p hp' _ (List.mem_of_getElem? h0)
      simpa using this
    have hans := answers_of n c ans (by omega) hlen'
    refine ⟨hlen', by omega, ?_, ?_⟩
    · intro i hi hiL j hj
      have : ans.getD i ([], []) = ((List.range c).map (fun j => D j (xOf F i)),
          (List.range c).map (fun j => V j (xOf F i))) := by
        rw [List.getD_eq_getElem?_getD, hl2 i (by omega) hiL]
        simp [hhon', answers, hi]
      rw [this]; simp [hj]
    · have := (hck (fun i j => (ans.getD i ([], [])).1.getD j 0) (fun i j => (ans.getD i ([], [])).2.getD j 0)).2
      rw [← silence_answers, ← hans] at this
      exact this

/-- **C124** (the first server answers). Besides the liars some servers are silent, not the first one, and more than
`t` answer, with at most one liar among the first `t + 1` of these: `post_update` returns what it returns for the
complete honest answers or `"malicious server"`; the former if there is no liar among them. -/
theorem C124_first_answers (params : AccParams G1 G2) (α sM v : F) (ops : List (Server.Op F))
    (srv : Server F G1 G2) (h : (Server.new params α sM v).run ops = .ok srv) (seed : Nat → Nat)
    (hseed : ∀ d, 1 ≤ d → 1 ≤ seed d) (u : User F G1 G2) (n t : Nat) (ht : 2 ≤ t)
    (hc : ∀ i, 0 < i → i ≤ n → (i : F) ≠ 0) (he1 : 1 ≤ u.epoch) (he2 : u.epoch < srv.getEpoch)
    (rand : Nat → Nat → F) (upd : UserUpdate F)
    (hp : u.prepareForUpdate seed srv.getEpoch n t rand = .ok (.ok upd)) (w : G1) (Q : Finset Nat) (h0 : 0 ∉ Q)
    (r : List Nat) (hr : r = (List.range n).filter (fun i => decide (i ∉ Q))) (hrl : t < r.length)
    (honest ans : List (List F × List G1)) (hhon : HonestAnswers srv n upd honest)
    (L : Finset Nat) (hdiff : DiffersOn L honest ans) (p : Nat)
    (hL : ∀ i ≤ t, i ≠ p → ∀ l, r[i]? = some l → l ∉ L) :
    ∃ res, postUpdate w t upd.yShares upd.yValues honest = .ok res ∧
      (postUpdate w t upd.yShares upd.yValues (silence Q ans) = .ok res ∨
        postUpdate w t upd.yShares upd.yValues (silence Q ans) = .ok (.error "malicious server")) ∧
      (t < p → postUpdate w t upd.yShares upd.yValues (silence Q ans) = .ok res) := by
  obtain ⟨c, D, V, hc1, pD, pV, hh, hres, hX, hall⟩ := silentLiar_setup params α sM v ops srv h seed hseed u n t ht hc
    he1 he2 rand upd hp w Q r hr hrl honest hhon
  obtain ⟨-, -, hgood, hpost⟩ := hall L ans hdiff
  refine ⟨_, hres, ?_⟩
  have hX0 : xOf F (r.getD 0 0) ^ 2 = 1 := by
    have : r.getD 0 0 = 0 := by
      cases n with
      | zero => rw [hr] at hrl; simp at hrl
      | succ n => rw [hr, List.range_succ_eq_map, List.filter_cons_of_pos (by simpa using h0)]; rfl
    rw [this]; simp [xOf]
  have hrn : ∀ i ≤ t, r.getD i 0 < n := by
    intro i hi
    have : r.getD i 0 ∈ r := by
      rw [List.getD_eq_getElem?_getD, List.getElem?_eq_getElem (by omega), Option.getD_some]
      exact List.getElem_mem _
    rw [hr] at this
    rw [hr]
    exact List.mem_range.1 (List.mem_filter.1 this).1
  have hu : ∀ i ≤ t, i ≠ p → r.getD i 0 ∉ L := by
    intro i hi hip
    apply hL i hi hip
    rw [List.getD_eq_getElem?_getD, List.getElem?_eq_getElem (by omega), Option.getD_some]
  have cD : ∀ j ∈ List.range c, _ := fun j hj => chk_liar t _ hX hX0 r
    (fun i => (ans.getD i ([], [])).1.getD j 0) (D j) (pD j) p
    (fun i hi hip => (hgood _ (hrn i hi) (hu i hi hip) j (List.mem_range.1 hj)).1)
  have cV : ∀ j ∈ List.range c, _ := fun j hj => chk_liar t _ hX hX0 r
    (fun i => (ans.getD i ([], [])).2.getD j 0) (V j) (pV j) p
    (fun i hi hip => (hgood _ (hrn i hi) (hu i hi hip) j (List.mem_range.1 hj)).2)
  rw [hpost]
  refine ⟨?_, fun htp => ?_⟩
  · rcases loopSpec_sound _ _ (fun j => D j 0) (fun j => V j 0) (List.range c) (fun j hj => (cD j hj).1)
      (fun j hj => (cV j hj).1) w with e | e
    · left; rw [e]
    · right; rw [e]
  · rw [loopSpec_congr _ _ _ _ (List.range c) (fun j hj => (cD j hj).2 htp) (fun j hj => (cV j hj).2 htp) w]

/-- **C124** (so an accepted result is right). If the user's witness was valid at its recorded epoch, an accepted one is
valid for the current accumulator, and the user has not been deleted since. -/
theorem C124_accepted_is_valid (params : AccParams G1 G2) (α sM v : F) (ops : List (Server.Op F))
    (hq : ∀ op ∈ ops, op.isQuick = false)
    (srv : Server F G1 G2) (h : (Server.new params α sM v).run ops = .ok srv) (seed : Nat → Nat)
    (hseed : ∀ d, 1 ≤ d → 1 ≤ seed d) (u : User F G1 G2) (n t : Nat) (ht : 2 ≤ t)
    (hc : ∀ i, 0 < i → i ≤ n → (i : F) ≠ 0) (he1 : 1 ≤ u.epoch) (he2 : u.epoch < srv.getEpoch)
    (rand : Nat → Nat → F) (upd : UserUpdate F)
    (hp : u.prepareForUpdate seed srv.getEpoch n t rand = .ok (.ok upd)) (w : G1) (Q : Finset Nat) (h0 : 0 ∉ Q)
    (r : List Nat) (hr : r = (List.range n).filter (fun i => decide (i ∉ Q))) (hrl : t < r.length)
    (honest ans : List (List F × List G1)) (hhon : HonestAnswers srv n upd honest)
    (L : Finset Nat) (hdiff : DiffersOn L honest ans) (p : Nat)
    (hL : ∀ i ≤ t, i ≠ p → ∀ l, r[i]? = some l → l ∉ L) (Ve : G1)
    (hVe : srv.accumulators[u.epoch - 1]? = some Ve) (hw : IsWitness α Ve u.id w) (W : G1)
    (hok : postUpdate w t upd.yShares upd.yValues (silence Q ans) = .ok (.ok W)) :
    ∃ V, srv.getAccumulator = .ok V ∧ IsWitness α V u.id W ∧ u.id ∉ srv.deletions.drop (u.epoch - 1) := by
  obtain ⟨res, h1, h2, -⟩ := C124_first_answers params α sM v ops srv h seed hseed u n t ht hc he1 he2 rand upd hp w Q h0
    r hr hrl honest ans hhon L hdiff p hL
  have hrn : r.length ≤ n := by
    rw [hr]; refine le_trans (List.length_filter_le _ _) (by simp)
  have : res = .ok W := by
    rcases h2 with h2 | h2 <;> rw [hok] at h2 <;> injection h2 with h2
    · exact h2.symm
    · cases h2
  subst this
  refine C38_accepted_is_valid params α sM v ops [] hq (by simp) srv (by simpa using h) seed hseed u n t ht (by omega) hc
    he1 he2 rand upd hp w Ve hVe hw honest honest hhon ∅ ⟨rfl, fun _ _ _ => rfl, fun a ha q hq' => ?_⟩ (by simp) W h1
  obtain ⟨c, D, V, hc1, pD, pV, hh, -⟩ := silentLiar_setup params α sM v ops srv h seed hseed u n t ht hc
    he1 he2 rand upd hp w Q r hr hrl honest hhon
  rw [hh] at ha hq'
  simp only [answers, List.mem_map] at ha hq'
  obtain ⟨i, -, rfl⟩ := ha
  obtain ⟨i', -, rfl⟩ := hq'
  simp

/-- **C124** (whichever servers are silent). If the first `t` servers that answer are honest, the result is the right
one or `"malicious server"`, whatever the others answer. But if the first server is silent it is right only because the
next one lies: the answer of the `(t + 1)`-th server that is accepted is its honest answer divided by the square of the
point of the first server that answers (the honest one is rejected, `C41_first_silent_rejected`). -/
theorem C124_spare_must_lie (params : AccParams G1 G2) (α sM v : F) (ops : List (Server.Op F))
    (srv : Server F G1 G2) (h : (Server.new params α sM v).run ops = .ok srv) (seed : Nat → Nat)
    (hseed : ∀ d, 1 ≤ d → 1 ≤ seed d) (u : User F G1 G2) (n t : Nat) (ht : 2 ≤ t)
    (hc : ∀ i, 0 < i → i ≤ n → (i : F) ≠ 0) (he1 : 1 ≤ u.epoch) (he2 : u.epoch < srv.getEpoch)
    (rand : Nat → Nat → F) (upd : UserUpdate F)
    (hp : u.prepareForUpdate seed srv.getEpoch n t rand = .ok (.ok upd)) (w : G1) (Q : Finset Nat)
    (r : List Nat) (hr : r = (List.range n).filter (fun i => decide (i ∉ Q))) (hrl : t < r.length)
    (honest ans : List (List F × List G1)) (hhon : HonestAnswers srv n upd honest)
    (L : Finset Nat) (hdiff : DiffersOn L honest ans) (hL : ∀ i < t, ∀ l, r[i]? = some l → l ∉ L) :
    ∃ res, postUpdate w t upd.yShares upd.yValues honest = .ok res ∧
      (postUpdate w t upd.yShares upd.yValues (silence Q ans) = .ok res ∨
        postUpdate w t upd.yShares upd.yValues (silence Q ans) = .ok (.error "malicious server")) ∧
      ((∃ W, postUpdate w t upd.yShares upd.yValues (silence Q ans) = .ok (.ok W)) ↔
        (∃ W, res = .ok W) ∧ ∃ a q, ans[r[t]]? = some a ∧ honest[r[t]]? = some q ∧
          a.1.map (((r[0] + 1 : Nat) : F) ^ 2 * ·) = q.1 ∧ a.2.map (((r[0] + 1 : Nat) : F) ^ 2 • ·) = q.2) := by
  obtain ⟨c, D, V, hc1, pD, pV, hh, hres, hX, hall⟩ := silentLiar_setup params α sM v ops srv h seed hseed u n t ht hc
    he1 he2 rand upd hp w Q r hr hrl honest hhon
  obtain ⟨hlen', hn', hgood, hpost⟩ := hall L ans hdiff
  refine ⟨_, hres, ?_⟩
  have hsub : ∀ i ∈ r, i < n := fun i hi => by
    rw [hr] at hi; exact List.mem_range.1 (List.mem_filter.1 hi).1
  have hmem : ∀ i (hi : i < r.length), r[i] < n := by
    intro i hi
    exact hsub _ (List.getElem_mem _)
  have hget : ∀ i (hi : i < r.length), r.getD i 0 = r[i] := by
    intro i hi
    rw [List.getD_eq_getElem?_getD, List.getElem?_eq_getElem hi, Option.getD_some]
  have hu : ∀ i < t, r.getD i 0 ∉ L := by
    intro i hi
    apply hL i hi
    rw [List.getD_eq_getElem?_getD, List.getElem?_eq_getElem (by omega), Option.getD_some]
  have cD : ∀ j ∈ List.range c, _ := fun j hj => chk_first t _ hX r
    (fun i => (ans.getD i ([], [])).1.getD j 0) (D j) (pD j)
    (fun i hi => (hgood _ (by rw [hget i (by omega)]; exact hmem i _) (hu i hi) j (List.mem_range.1 hj)).1)
  have cV : ∀ j ∈ List.range c, _ := fun j hj => chk_first t _ hX r
    (fun i => (ans.getD i ([], [])).2.getD j 0) (V j) (pV j)
    (fun i hi => (hgood _ (by rw [hget i (by omega)]; exact hmem i _) (hu i hi) j (List.mem_range.1 hj)).2)
  rw [hpost]
  refine ⟨?_, ?_⟩
  · rcases loopSpec_sound _ _ (fun j => D j 0) (fun j => V j 0) (List.range c) (fun j hj => (cD j hj).1)
      (fun j hj => (cV j hj).1) w with e | e
    · left; rw [e]
    · right; rw [e]
  · have hrt := hmem t hrl
    have hat : ans[r[t]]? = some (ans.getD r[t] ([], [])) := by
      rw [List.getD_eq_getElem?_getD, List.getElem?_eq_getElem (by omega), Option.getD_some]
    have hal := hlen' _ (List.mem_of_getElem? hat)
    have hqt : honest[r[t]]? = some ((List.range c).map (fun j => D j (xOf F r[t])),
        (List.range c).map (fun j => V j (xOf F r[t]))) := by
      simp [hh, answers, hrt]
    simp only [hget t hrl, hget 0 (by omega)] at cD cV
    have hiff : (∃ a q, ans[r[t]]? = some a ∧ honest[r[t]]? = some q ∧
          a.1.map (((r[0] + 1 : Nat) : F) ^ 2 * ·) = q.1 ∧ a.2.map (((r[0] + 1 : Nat) : F) ^ 2 • ·) = q.2) ↔
        ∀ j ∈ List.range c, xOf F r[0] ^ 2 • (ans.getD r[t] ([], [])).1.getD j 0 = D j (xOf F r[t]) ∧
          xOf F r[0] ^ 2 • (ans.getD r[t] ([], [])).2.getD j 0 = V j (xOf F r[t]) := by
      rw [hat, hqt]
      generalize ans.getD r[t] ([], []) = A at hal
      obtain ⟨A1, A2⟩ := A
      obtain ⟨l1, l2⟩ := hal
      simp only at l1 l2
      constructor
      · rintro ⟨a, q, e1, e2, e3, e4⟩ j hj
        obtain rfl := Option.some.inj e1
        obtain rfl := Option.some.inj e2
        have hj := List.mem_range.1 hj
        constructor
        · have := congrArg (fun l => l.getD j 0) e3
          simpa [hj, l1, xOf] using this
        · have := congrArg (fun l => l.getD j 0) e4
          simpa [hj, l2, xOf] using this
      · intro hj
        refine ⟨_, _, rfl, rfl, ?_, ?_⟩
        · apply List.ext_getElem
          · simp [l1]
          · intro j h1 h2
            simp only [List.length_map, List.length_range] at h2
            have := (hj j (List.mem_range.2 h2)).1
            simpa [l1, h2, xOf] using this
        · apply List.ext_getElem
          · simp [l2]
          · intro j h1 h2
            simp only [List.length_map, List.length_range] at h2
            have := (hj j (List.mem_range.2 h2)).2
            simpa [l2, h2, xOf] using this
    rw [hiff]
    clear hiff
    constructor
    · rintro ⟨W, hW⟩
      have hW := Except.ok.inj hW
      obtain ⟨d, v', hdv, -⟩ := (loopSpec_ok_iff _ _ _ _ w).1 hW
      have hD' : ∀ j (hj : j ∈ List.range c), chkRebuild t (fun i => xOf F (r.getD i 0)) r
          (fun i => (ans.getD i ([], [])).1.getD j 0) = some (D j 0) := by
        intro j hj
        refine (cD j hj).1.resolve_left (fun hn => ?_)
        have := (hdv j hj).1
        rw [hn] at this; cases this
      have hV' : ∀ j (hj : j ∈ List.range c), chkRebuild t (fun i => xOf F (r.getD i 0)) r
          (fun i => (ans.getD i ([], [])).2.getD j 0) = some (V j 0) := by
        intro j hj
        refine (cV j hj).1.resolve_left (fun hn => ?_)
        have := (hdv j hj).2.2
        rw [hn] at this; cases this
      refine ⟨⟨W, ?_⟩, fun j hj => ⟨(cD j hj).2.1 (hD' j hj), (cV j hj).2.1 (hV' j hj)⟩⟩
      rw [← hW]
      exact (loopSpec_congr _ _ _ _ (List.range c) hD' hV' w).symm
    · rintro ⟨⟨W, hW⟩, hj⟩
      refine ⟨W, ?_⟩
      rw [loopSpec_congr _ _ _ _ (List.range c) (fun j hj' => (cD j hj').2.2 (hj j hj').1)
        (fun j hj' => (cV j hj').2.2 (hj j hj').2) w, hW]

/-- **C124** (a liar among the first `t`). Whichever servers are silent, if all servers that answer are honest but one of
the first `t` of them, at most one of all answers it might give is accepted. -/
theorem C124_one_answer (params : AccParams G1 G2) (α sM v : F) (ops : List (Server.Op F))
    (srv : Server F G1 G2) (h : (Server.new params α sM v).run ops = .ok srv) (seed : Nat → Nat)
    (hseed : ∀ d, 1 ≤ d → 1 ≤ seed d) (u : User F G1 G2) (n t : Nat) (ht : 2 ≤ t)
    (hc : ∀ i, 0 < i → i ≤ n → (i : F) ≠ 0) (he1 : 1 ≤ u.epoch) (he2 : u.epoch < srv.getEpoch)
    (rand : Nat → Nat → F) (upd : UserUpdate F)
    (hp : u.prepareForUpdate seed srv.getEpoch n t rand = .ok (.ok upd)) (w : G1) (Q : Finset Nat)
    (r : List Nat) (hr : r = (List.range n).filter (fun i => decide (i ∉ Q))) (hrl : t < r.length)
    (honest ans ans' : List (List F × List G1)) (hhon : HonestAnswers srv n upd honest)
    (p : Nat) (hpt : p < t) (hdiff : DiffersOn {r[p]} honest ans) (hdiff' : DiffersOn {r[p]} honest ans')
    (W W' : G1) (hok : postUpdate w t upd.yShares upd.yValues (silence Q ans) = .ok (.ok W))
    (hok' : postUpdate w t upd.yShares upd.yValues (silence Q ans') = .ok (.ok W')) : ans = ans' ∧ W = W' := by
  obtain ⟨c, D, V, hc1, pD, pV, hh, hres, hX, hall⟩ := silentLiar_setup params α sM v ops srv h seed hseed u n t ht hc
    he1 he2 rand upd hp w Q r hr hrl honest hhon
  obtain ⟨hlen, hn, hgood, hpost⟩ := hall _ ans hdiff
  obtain ⟨hlen', hn', hgood', hpost'⟩ := hall _ ans' hdiff'
  have hnd : r.Nodup := by rw [hr]; exact List.nodup_range.filter _
  have hsub : ∀ i ∈ r, i < n := fun i hi => by
    rw [hr] at hi; exact List.mem_range.1 (List.mem_filter.1 hi).1
  have hmem : ∀ i (hi : i < r.length), r[i] < n := by
    intro i hi
    exact hsub _ (List.getElem_mem _)
  have hget : ∀ i (hi : i < r.length), r.getD i 0 = r[i] := by
    intro i hi
    rw [List.getD_eq_getElem?_getD, List.getElem?_eq_getElem hi, Option.getD_some]
  have hsame : ∀ i ≤ t, i ≠ p → r.getD i 0 < n ∧ r.getD i 0 ∉ ({r[p]} : Finset Nat) := by
    intro i hi hip
    rw [hget i (by omega)]
    refine ⟨hmem _ _, fun hm => hip ?_⟩
    exact (List.Nodup.getElem_inj_iff hnd).1 (Finset.mem_singleton.1 hm)
  rw [hpost] at hok
  rw [hpost'] at hok'
  obtain ⟨d, v', hdv, -⟩ := (loopSpec_ok_iff _ _ _ _ w).1 (Except.ok.inj hok)
  obtain ⟨d', v'', hdv', -⟩ := (loopSpec_ok_iff _ _ _ _ w).1 (Except.ok.inj hok')
  have hD : ∀ j < c, (ans.getD r[p] ([], [])).1.getD j 0 = (ans'.getD r[p] ([], [])).1.getD j 0 := by
    intro j hj
    have := chk_unique t _ hX r (fun i => (ans.getD i ([], [])).1.getD j 0) (fun i => (ans'.getD i ([], [])).1.getD j 0)
      p hpt (fun i hi hip => by
        obtain ⟨a, b⟩ := hsame i hi hip
        simp only [(hgood _ a b j hj).1, (hgood' _ a b j hj).1])
      (by rw [(hdv j (List.mem_range.2 hj)).1]; simp) (by rw [(hdv' j (List.mem_range.2 hj)).1]; simp)
    simpa only [hget p (by omega)] using this
  have hV : ∀ j < c, (ans.getD r[p] ([], [])).2.getD j 0 = (ans'.getD r[p] ([], [])).2.getD j 0 := by
    intro j hj
    have := chk_unique t _ hX r (fun i => (ans.getD i ([], [])).2.getD j 0) (fun i => (ans'.getD i ([], [])).2.getD j 0)
      p hpt (fun i hi hip => by
        obtain ⟨a, b⟩ := hsame i hi hip
        simp only [(hgood _ a b j hj).2, (hgood' _ a b j hj).2])
      (by rw [(hdv j (List.mem_range.2 hj)).2.2]; simp) (by rw [(hdv' j (List.mem_range.2 hj)).2.2]; simp)
    simpa only [hget p (by omega)] using this
  have hall : ans = ans' := by
    apply List.ext_getElem
    · omega
    · intro i h1 h2
      by_cases hip : i = r[p]
      · have e : ∀ (l : List (List F × List G1)) (hl : i < l.length), l.getD r[p] ([], []) = l[i] := by
          intro l hl
          rw [← hip, List.getD_eq_getElem?_getD, List.getElem?_eq_getElem hl, Option.getD_some]
        rw [e ans h1, e ans' h2] at hD hV
        have l1 := hlen _ (List.getElem_mem h1)
        have l2 := hlen' _ (List.getElem_mem h2)
        apply Prod.ext
        · apply List.ext_getElem
          · omega
          · intro j a b
            have := hD j (by omega)
            simpa [a, b] using this
        · apply List.ext_getElem
          · omega
          · intro j a b
            have := hV j (by omega)
            simpa [a, b] using this
      · have hl1 := hdiff.1
        have hl1' := hdiff'.1
        have a := hdiff.2.1 i (by omega) (by simpa using hip)
        have b := hdiff'.2.1 i (by omega) (by simpa using hip)
        rw [List.getElem?_eq_getElem h1] at a
        rw [List.getElem?_eq_getElem h2, ← a] at b
        exact (Option.some.inj b).symm
  subst hall
  rw [hok] at hok'
  exact ⟨rfl, by injection hok' with h1; injection h1⟩

/-- an answer plus `k` times another -/
def addTimes (k : F) (a q : List F × List G1) : List F × List G1 :=
  (List.zipWith (fun x y => x + k * y) a.1 q.1, List.zipWith (fun x y => x + k • y) a.2 q.2)

/-- server `p` adds to its answer a multiple of the answer of the spare server: what is rebuilt -/
theorem chk_lie {M : Type} [AddCommGroup M] [Module F M] [DecidableEq M]
    (t : Nat) (X : Nat → F) (hX : GoodX t X) (rs : List Nat) (f : Nat → M) (g : F → M)
    (hg : PolyFn t g) (p : Nat) (hp : p < t) (k : F) (hk : k = (X 0 ^ 2 - 1) / lagr (range t) X (X t) p)
    (h : ∀ i ≤ t, i ≠ p → f (rs.getD i 0) = g (X i)) (hf : f (rs.getD p 0) = g (X p) + k • g (X t)) :
    chkRebuild t X rs f = some (g 0 + (lagr (range t) X 0 p * k) • g (X t)) := by
  have hs : ∀ z, ∑ i ∈ range t, lagr (range t) X z i • f (rs.getD i 0)
      = g z + (lagr (range t) X z p * k) • g (X t) := by
    intro z
    rw [sum_one_off t p hp (lagr (range t) X z) (fun i => f (rs.getD i 0)) (fun i => g (X i))
      (fun i hi hip => h i (by omega) hip), hg.interp (range t) (by simp) X hX.injOn z, hf, add_sub_cancel_left, smul_smul]
  unfold chkRebuild
  rw [hs, hs, if_pos]
  rw [h t le_rfl (by omega), hk, mul_div_cancel₀ _ (hX.lagr_t p hp), sub_smul, one_smul, add_sub_cancel]

theorem loopSpec_some (rD : Nat → Option F) (rV : Nat → Option G1) (d : Nat → F) (v : Nat → G1) (js : List Nat)
    (hD : ∀ j ∈ js, rD j = some (d j)) (hV : ∀ j ∈ js, rV j = some (v j)) : ∀ w,
    (∃ W, loopSpec rD rV js w = .ok W) ∨ loopSpec rD rV js w = .error "user has been deleted" := by
  induction js with
  | nil => intro w; exact .inl ⟨w, rfl⟩
  | cons j js ih =>
    intro w
    simp only [loopSpec, hD j (by simp), hV j (by simp)]
    by_cases h0 : d j = 0
    · rw [if_pos h0]; exact .inr rfl
    · rw [if_neg h0]
      exact ih (fun i hi => hD i (by simp [hi])) (fun i hi => hV i (by simp [hi])) _

/-- **C124** (which answer that is). The one answer of server `r[p]` that is accepted is its honest answer plus `k` times
the honest answer of the spare server `r[t]`; the factor `k` depends on which servers are silent only, and it is not 0
exactly if the square of the point of the first server that answers is not 1, so only if the first server is silent. -/
theorem C124_accepted_lie (n t : Nat) (ht : 2 ≤ t) (hc : ∀ i, 0 < i → i ≤ n → (i : F) ≠ 0) (Q : Finset Nat)
    (r : List Nat) (hr : r = (List.range n).filter (fun i => decide (i ∉ Q))) (hrl : t < r.length) (p : Nat) (hpt : p < t) :
    ∃ k : F, (k = 0 ↔ ((r[0] + 1 : Nat) : F) ^ 2 = 1) ∧
    ∀ (params : AccParams G1 G2) (α sM v : F) (ops : List (Server.Op F))
      (srv : Server F G1 G2), (Server.new params α sM v).run ops = .ok srv → ∀ (seed : Nat → Nat),
      (∀ d, 1 ≤ d → 1 ≤ seed d) → ∀ (u : User F G1 G2), 1 ≤ u.epoch → u.epoch < srv.getEpoch →
      ∀ (rand : Nat → Nat → F) (upd : UserUpdate F), u.prepareForUpdate seed srv.getEpoch n t rand = .ok (.ok upd) →
      ∀ (w : G1) (honest : List (List F × List G1)), HonestAnswers srv n upd honest →
      ∃ a q, honest[r[p]]? = some a ∧ honest[r[t]]? = some q ∧ DiffersOn {r[p]} honest (honest.set r[p] (addTimes k a q)) ∧
        ((∃ W, postUpdate w t upd.yShares upd.yValues (silence Q (honest.set r[p] (addTimes k a q))) = .ok (.ok W)) ∨
          postUpdate w t upd.yShares upd.yValues (silence Q (honest.set r[p] (addTimes k a q)))
            = .ok (.error "user has been deleted")) := by
  have hget : ∀ i (hi : i < r.length), r.getD i 0 = r[i] := by
    intro i hi
    rw [List.getD_eq_getElem?_getD, List.getElem?_eq_getElem hi, Option.getD_some]
  have hnd : r.Nodup := by rw [hr]; exact List.nodup_range.filter _
  have hsub : ∀ i ∈ r, i < n := fun i hi => by
    rw [hr] at hi; exact List.mem_range.1 (List.mem_filter.1 hi).1
  have hmem : ∀ i (hi : i < r.length), r[i] < n := by
    intro i hi
    exact hsub _ (List.getElem_mem _)
  have hX : GoodX t (fun i => xOf F (r.getD i 0)) := by
    have := (postUpdate_checked (F := F) (G1 := F) 0 t n 1 (by omega) le_rfl hc (fun i => decide (i ∉ Q))
      (by rw [← hr]; exact hrl) (fun _ _ => 0) (fun _ _ => 0) (List.replicate n []) (by simp)).1
    rw [← hr] at this
    exact this
  set X : Nat → F := fun i => xOf F (r.getD i 0) with hXd
  refine ⟨(X 0 ^ 2 - 1) / lagr (range t) X (X t) p, ?_, ?_⟩
  · rw [div_eq_zero_iff, or_iff_left (hX.lagr_t p hpt), sub_eq_zero]
    simp only [hXd, hget 0 (by omega), xOf]
  generalize hk : (X 0 ^ 2 - 1) / lagr (range t) X (X t) p = k
  intro params α sM v ops srv h seed hseed u he1 he2 rand upd hp w honest hhon
  obtain ⟨c, D, V, hc1, pD, pV, hh, hres, -, hall⟩ := silentLiar_setup params α sM v ops srv h seed hseed u n t ht hc
    he1 he2 rand upd hp w Q r hr hrl honest hhon
  have hq : ∀ i < n, honest[i]? = some ((List.range c).map (fun j => D j (xOf F i)),
        (List.range c).map (fun j => V j (xOf F i))) := by
    intro i hi
    simp [hh, answers, hi]
  have hnl : honest.length = n := by simp [hh, answers]
  have hrp := hmem p (by omega)
  have hrt := hmem t hrl
  refine ⟨_, _, hq _ hrp, hq _ hrt, ?_⟩
  set lie := addTimes k ((List.range c).map (fun j => D j (xOf F r[p])), (List.range c).map (fun j => V j (xOf F r[p])))
    ((List.range c).map (fun j => D j (xOf F r[t])), (List.range c).map (fun j => V j (xOf F r[t]))) with hlie
  have hl : ∀ q ∈ honest, q.1.length = c ∧ q.2.length = c := by
    intro q hq'
    rw [hh] at hq'
    simp only [answers, List.mem_map] at hq'
    obtain ⟨i, -, rfl⟩ := hq'
    simp
  have hll : lie.1.length = c ∧ lie.2.length = c := by simp [hlie, addTimes]
  have hdiff : DiffersOn {r[p]} honest (honest.set r[p] lie) := by
    refine ⟨by simp, fun i hi hip => ?_, fun a ha q hq' => ?_⟩
    · rw [List.getElem?_set_ne (by simpa [eq_comm] using hip)]
    · have h1 := hl q hq'
      rcases List.mem_or_eq_of_mem_set ha with ha | rfl
      · have h2 := hl a ha
        omega
      · omega
  refine ⟨hdiff, ?_⟩
  obtain ⟨-, -, hgood, hpost⟩ := hall _ _ hdiff
  have hsame : ∀ i ≤ t, i ≠ p → r.getD i 0 < n ∧ r.getD i 0 ∉ ({r[p]} : Finset Nat) := by
    intro i hi hip
    rw [hget i (by omega)]
    refine ⟨hmem _ _, fun hm => hip ?_⟩
    exact (List.Nodup.getElem_inj_iff hnd).1 (Finset.mem_singleton.1 hm)
  have hset : (honest.set r[p] lie).getD r[p] ([], []) = lie := by
    rw [List.getD_eq_getElem?_getD, List.getElem?_set_self (by omega), Option.getD_some]
  have e1 : ∀ j ∈ List.range c, _ := fun j hj => chk_lie t X hX r
    (fun i => ((honest.set r[p] lie).getD i ([], [])).1.getD j 0) (D j) (pD j) p hpt k hk.symm
    (fun i hi hip => (hgood _ (hsame i hi hip).1 (hsame i hi hip).2 j (List.mem_range.1 hj)).1)
    (by
      have hj := List.mem_range.1 hj
      simp only [hXd, hget p (by omega), hget t hrl, hset]
      simp [hlie, addTimes, hj])
  have e2 : ∀ j ∈ List.range c, _ := fun j hj => chk_lie t X hX r
    (fun i => ((honest.set r[p] lie).getD i ([], [])).2.getD j 0) (V j) (pV j) p hpt k hk.symm
    (fun i hi hip => (hgood _ (hsame i hi hip).1 (hsame i hi hip).2 j (List.mem_range.1 hj)).2)
    (by
      have hj := List.mem_range.1 hj
      simp only [hXd, hget p (by omega), hget t hrl, hset]
      simp [hlie, addTimes, hj])
  rw [hpost]
  rcases loopSpec_some _ _ _ _ (List.range c) e1 e2 w with ⟨W, e⟩ | e
  · exact .inl ⟨W, by rw [e]⟩
  · exact .inr (by rw [e])

/-- **C124** (threshold 2: a liar that knows the user's id). The answer of the spare server, which the liar needs for
that, is what the server gets by asking its own `update` with shares that it computes from the id and the shares it was
sent: so with threshold 2, if the first server is silent, one liar that knows (or guesses) the id always passes the check. -/
theorem C124_two_known_id (n : Nat) (hc : ∀ i, 0 < i → i ≤ n → (i : F) ≠ 0) (i l : Nat) (hi : i < n) (hl : l < n) :
    ∃ other : F → List F → List F,
    ∀ (params : AccParams G1 G2) (α sM v : F) (ops : List (Server.Op F))
      (srv : Server F G1 G2), (Server.new params α sM v).run ops = .ok srv → ∀ (seed : Nat → Nat),
      (∀ d, 1 ≤ d → 1 ≤ seed d) → ∀ (u : User F G1 G2), 1 ≤ u.epoch → u.epoch < srv.getEpoch →
      ∀ (rand : Nat → Nat → F) (upd : UserUpdate F), u.prepareForUpdate seed srv.getEpoch n 2 rand = .ok (.ok upd) →
      2 ≤ n → ∀ (honest : List (List F × List G1)), HonestAnswers srv n upd honest →
      ∃ ys q, upd.yShares[i]? = some ys ∧ honest[l]? = some q ∧
        srv.update upd.epochDiff (other u.id ys) = .ok q := by
  refine ⟨fun y ys => ys.mapIdx (fun j s => y ^ (j + 1) + xOf F l * ((s - y ^ (j + 1)) / xOf F i)), ?_⟩
  intro params α sM v ops srv h seed hseed u he1 he2 rand upd hp hn honest hhon
  have hlen := accs_length_run params α sM v ops srv h
  obtain ⟨k', upd', hk', hk3, hprep, hed, hyv, hyl, _, hys, _⟩ := prepareForUpdate_ok seed hseed u srv.getEpoch
    n 2 le_rfl hn he2 rand
  rw [hp] at hprep
  injection hprep with hprep
  injection hprep with hprep
  subst hprep
  obtain ⟨ys, q, e1, e2, e3⟩ := hhon.2 l hl
  have hgi : ∀ i < n, upd.yShares[i]? = some (shVec 2 (k' - 1) u.id rand (xOf F i)) := by
    intro i hi
    rw [hys]; simp [hi, xOf]
  refine ⟨_, q, hgi i hi, e2, ?_⟩
  rw [hgi l hl] at e1
  obtain rfl := Option.some.inj e1
  rw [← e3]
  congr 1
  have hx : xOf F i ≠ 0 := hc (i + 1) (by omega) (by omega)
  apply List.ext_getElem
  · simp
  · intro j h1 h2
    simp only [shVec, List.getElem_mapIdx, List.getElem_map, List.getElem_range, sharePoly]
    simp only [polyVal, Nat.reduceSub, List.range_one, List.map_cons, List.map_nil, smul_eq_mul]
    field_simp
    ring

end
end Allo
