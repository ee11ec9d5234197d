import Verif.Props.Malicious

/-!
# C41: silent and lagging servers
-/

set_option linter.unusedSectionVars false
set_option linter.unusedVariables false
namespace Allo
open Spec Finset User

section
variable {F G1 G2 GT : Type} [Field F] [DecidableEq F] [AddCommGroup G1] [Module F G1]
  [DecidableEq G1] [AddCommGroup G2] [Module F G2] [AddCommGroup GT] [Module F GT]

/-- the honest answers, with empty vectors from the servers in `Q` -/
def silence (Q : Finset Nat) (honest : List (List F × List G1)) : List (List F × List G1) :=
  honest.mapIdx (fun i a => if i ∈ Q then ([], []) else a)

theorem silence_answers (Q : Finset Nat) (n c : Nat) (gD : Nat → Nat → F) (gV : Nat → Nat → G1) :
    silence Q (answers n c (fun _ => true) gD gV) = answers n c (fun i => decide (i ∉ Q)) gD gV := by
  unfold silence answers
  apply List.ext_getElem
  · simp
  · intro i h1 h2
    by_cases hq : i ∈ Q <;> simp [hq]

theorem filter_card (n : Nat) (Q : Finset Nat) :
    ((List.range n).filter (fun i => decide (i ∉ Q))).length = (range n \ Q).card := by
  have h : ((List.range n).filter (fun i => decide (i ∉ Q))).toFinset = range n \ Q := by
    ext i; simp
  rw [← h, List.toFinset_card_of_nodup (List.nodup_range.filter _)]

/-- C41: if some servers other than the first give empty answers and at least `t` answer honestly,
`post_update` returns the same as with all answers. -/
theorem C41_silent_ok (params : AccParams G1 G2) (α sM v : F) (ops : List (Server.Op F))
    (srv : Server F G1 G2) (h : (Server.new params α sM v).run ops = .ok srv) (seed : Nat → Nat)
    (hseed : ∀ d, 1 ≤ d → 1 ≤ seed d) (u : User F G1 G2) (n t : Nat) (ht : 2 ≤ t) (hn : t ≤ n)
    (hc : ∀ i, 0 < i → i ≤ n → (i : F) ≠ 0) (he1 : 1 ≤ u.epoch) (he2 : u.epoch < srv.getEpoch)
    (rand : Nat → Nat → F) (upd : UserUpdate F)
    (hp : u.prepareForUpdate seed srv.getEpoch n t rand = .ok (.ok upd)) (w : G1) (Q : Finset Nat)
    (h0 : 0 ∉ Q) (hQ : t ≤ (range n \ Q).card) :
    ∃ honest res, HonestAnswers srv n upd honest ∧
      postUpdate w t upd.yShares upd.yValues honest = .ok res ∧
      postUpdate w t upd.yShares upd.yValues (silence Q honest) = .ok res := by
  have hlen := accs_length_run params α sM v ops srv h
  obtain ⟨k, hk, hed, hyl, hyv, hc1, hh⟩ :=
    honest_closed seed hseed u srv hlen n t ht (by omega) he1 he2 rand upd hp
  set D : Nat → F → F := fun j z =>
    dAns (shVec t k u.id rand z) (chunkAt k (srv.published (srv.getEpoch - u.epoch)) j) with hD
  set V : Nat → F → G1 := fun j z =>
    vAnsP (shVec t k u.id rand z) (chunkAt k (srv.published (srv.getEpoch - u.epoch)) j) with hV
  refine ⟨_, loopSpec (fun j => some (D j 0)) (fun j => some (V j 0))
    (List.range (nChunks k (srv.getEpoch - u.epoch))) w, (hh _).2 rfl, ?_, ?_⟩
  · rw [hyv]
    exact postUpdate_honest w t n _ (by omega) hc1 hc (fun _ => true) D V
      (fun j => dAns_polyFn t k (by omega) u.id rand _) (fun j => vAnsP_polyFn t k (by omega) u.id rand _)
      (by rw [filter_all, List.length_range]; omega) (Or.inl rfl) upd.yShares hyl
  · rw [hyv, silence_answers]
    exact postUpdate_honest w t n _ (by omega) hc1 hc (fun i => decide (i ∉ Q)) D V
      (fun j => dAns_polyFn t k (by omega) u.id rand _) (fun j => vAnsP_polyFn t k (by omega) u.id rand _)
      (by rw [filter_card]; exact hQ) (Or.inl (by simpa using h0)) upd.yShares hyl

/-- C41: when exactly `t` servers answer there is no check and it does not matter which ones are silent. -/
theorem C41_silent_exact (params : AccParams G1 G2) (α sM v : F) (ops : List (Server.Op F))
    (srv : Server F G1 G2) (h : (Server.new params α sM v).run ops = .ok srv) (seed : Nat → Nat)
    (hseed : ∀ d, 1 ≤ d → 1 ≤ seed d) (u : User F G1 G2) (n t : Nat) (ht : 2 ≤ t) (hn : t ≤ n)
    (hc : ∀ i, 0 < i → i ≤ n → (i : F) ≠ 0) (he1 : 1 ≤ u.epoch) (he2 : u.epoch < srv.getEpoch)
    (rand : Nat → Nat → F) (upd : UserUpdate F)
    (hp : u.prepareForUpdate seed srv.getEpoch n t rand = .ok (.ok upd)) (w : G1) (Q : Finset Nat)
    (hQ : t = (range n \ Q).card) :
    ∃ honest res, HonestAnswers srv n upd honest ∧
      postUpdate w t upd.yShares upd.yValues honest = .ok res ∧
      postUpdate w t upd.yShares upd.yValues (silence Q honest) = .ok res := by
  have hlen := accs_length_run params α sM v ops srv h
  obtain ⟨k, hk, hed, hyl, hyv, hc1, hh⟩ :=
    honest_closed seed hseed u srv hlen n t ht (by omega) he1 he2 rand upd hp
  set D : Nat → F → F := fun j z =>
    dAns (shVec t k u.id rand z) (chunkAt k (srv.published (srv.getEpoch - u.epoch)) j) with hD
  set V : Nat → F → G1 := fun j z =>
    vAnsP (shVec t k u.id rand z) (chunkAt k (srv.published (srv.getEpoch - u.epoch)) j) with hV
  refine ⟨_, loopSpec (fun j => some (D j 0)) (fun j => some (V j 0))
    (List.range (nChunks k (srv.getEpoch - u.epoch))) w, (hh _).2 rfl, ?_, ?_⟩
  · rw [hyv]
    exact postUpdate_honest w t n _ (by omega) hc1 hc (fun _ => true) D V
      (fun j => dAns_polyFn t k (by omega) u.id rand _) (fun j => vAnsP_polyFn t k (by omega) u.id rand _)
      (by rw [filter_all, List.length_range]; omega) (Or.inl rfl) upd.yShares hyl
  · rw [hyv, silence_answers]
    exact postUpdate_honest w t n _ (by omega) hc1 hc (fun i => decide (i ∉ Q)) D V
      (fun j => dAns_polyFn t k (by omega) u.id rand _) (fun j => vAnsP_polyFn t k (by omega) u.id rand _)
      (by rw [filter_card]; omega) (Or.inr (by rw [filter_card]; omega)) upd.yShares hyl

/-- C41 (failure): if the *first* server is silent, more than `t` others answer honestly, the first of
those, `r 0`, has `(r 0 + 1)² ≠ 1`, and the `(t+1)`-th one's first share is not 0, then the honest answers are
reported as `Err("malicious server")`. `r` lists the answering servers. -/
theorem C41_first_silent_rejected (params : AccParams G1 G2) (α sM v : F) (ops : List (Server.Op F))
    (srv : Server F G1 G2) (h : (Server.new params α sM v).run ops = .ok srv) (seed : Nat → Nat)
    (hseed : ∀ d, 1 ≤ d → 1 ≤ seed d) (u : User F G1 G2) (n t : Nat) (ht : 2 ≤ t) (hn : t ≤ n)
    (hc : ∀ i, 0 < i → i ≤ n → (i : F) ≠ 0) (he1 : 1 ≤ u.epoch) (he2 : u.epoch < srv.getEpoch)
    (rand : Nat → Nat → F) (upd : UserUpdate F)
    (hp : u.prepareForUpdate seed srv.getEpoch n t rand = .ok (.ok upd)) (w : G1) (Q : Finset Nat)
    (r : List Nat) (hr : r = (List.range n).filter (fun i => decide (i ∉ Q))) (hrl : t < r.length)
    (hx : ((r[0] + 1 : Nat) : F) ^ 2 ≠ 1)
    (honest : List (List F × List G1)) (hhon : HonestAnswers srv n upd honest)
    (hne : ∃ p x, honest[r[t]]? = some p ∧ p.1[0]? = some x ∧ x ≠ 0) :
    postUpdate w t upd.yShares upd.yValues (silence Q honest) = .ok (.error "malicious server") := by
  have hlen := accs_length_run params α sM v ops srv h
  obtain ⟨k, hk, hed, hyl, hyv, hc1, hh⟩ :=
    honest_closed seed hseed u srv hlen n t ht (by omega) he1 he2 rand upd hp
  have hhon := (hh _).1 hhon
  subst hhon
  rw [hyv, silence_answers]
  set c := nChunks k (srv.getEpoch - u.epoch) with hcdef
  set D : Nat → F → F := fun j z =>
    dAns (shVec t k u.id rand z) (chunkAt k (srv.published (srv.getEpoch - u.epoch)) j) with hD
  set V : Nat → F → G1 := fun j z =>
    vAnsP (shVec t k u.id rand z) (chunkAt k (srv.published (srv.getEpoch - u.epoch)) j) with hV
  have pD : ∀ j, PolyFn t (D j) := fun j => dAns_polyFn t k (by omega) u.id rand _
  have hlt : ∀ i ∈ r, i < n := fun i hi => by
    rw [hr] at hi; exact List.mem_range.1 (List.mem_filter.1 hi).1
  have hnd : r.Nodup := by rw [hr]; exact List.nodup_range.filter _
  -- the first share of the (t+1)-th responder
  have hval : D 0 (xOf F r[t]) ≠ 0 := by
    obtain ⟨p, x, h1, h2, h3⟩ := hne
    have hrt := hlt _ (List.getElem_mem hrl)
    simp only [answers, List.getElem?_map, List.getElem?_range hrt, Option.map_some, if_true,
      Option.some.injEq] at h1
    subst h1
    simp only [List.getElem?_map, List.getElem?_range (show 0 < c by omega), Option.map_some,
      Option.some.injEq] at h2
    subst h2; exact h3
  -- rebuilding the first chunk fails
  have hg : GoodPts (t + 1) (sel (F := F) r (fun i => D 0 (xOf F i))) :=
    goodPts_sel hc r hnd hlt _ _ (by omega)
  have hcoef := shamirCoefficients_extra t (by omega) _ hg
  have hreb : ∀ (f : Nat → F), (∀ i ∈ r, f i = D 0 (xOf F i)) → shamirRebuildScalar (sel r f)
      ((List.range t).map (lagr (range t) (ptX (sel (F := F) r (fun i => D 0 (xOf F i)))) 0))
      (some ((List.range t).map (checkEntry t (t - 1) (ptX (sel (F := F) r (fun i => D 0 (xOf F i))))))) = .ok none := by
    intro f hf
    rw [rebuildScalar_eq, rebuild_check_general t (by omega) _ _ hg (fun i hi => by
      rw [ptX_sel _ _ _ (by omega), ptX_sel _ _ _ (by omega)]) (by simpa [sel] using hrl), if_neg]
    rw [ptX_sel _ _ _ (by omega), ptX_sel _ _ _ (by omega), ptV_sel _ _ _ hrl, hf _ (List.getElem_mem hrl)]
    have hint := (pD 0).interp (range t) (by simp)
      (ptX (sel (F := F) r (fun i => D 0 (xOf F i)))) (hg.mono (by omega)).injOn (xOf F r[t])
    have : ∑ i ∈ range t, lagr (range t) (ptX (sel (F := F) r (fun i => D 0 (xOf F i)))) (xOf F r[t]) i •
        ptV (sel (F := F) r f) i = D 0 (xOf F r[t]) := by
      rw [← hint]
      apply sum_congr rfl
      intro i hi
      rw [mem_range] at hi
      rw [ptV_sel _ _ _ (by omega), ptX_sel _ _ _ (by omega), hf _ (List.getElem_mem _)]
    rw [this]
    intro e
    have e' : (xOf F r[0] ^ 2 - 1) * D 0 (xOf F r[t]) = 0 := by
      rw [sub_mul, one_mul, sub_eq_zero]; exact e
    rcases mul_eq_zero.1 e' with e' | e'
    · exact hx (sub_eq_zero.1 e')
    · exact hval e'
  unfold postUpdate
  have hex : ∃ i < n, decide (i ∉ Q) = true := by
    have hm : ∀ i ∈ r, i < n ∧ decide (i ∉ Q) = true := fun i hi => by
      rw [hr] at hi
      exact ⟨List.mem_range.1 (List.mem_filter.1 hi).1, (List.mem_filter.1 hi).2⟩
    exact ⟨r[t], hm _ (List.getElem_mem hrl)⟩
  rw [hyl, collect_answers n c _ _ _ hex]
  simp only [bind, Except.bind]
  rw [idx_lt (show 0 < ((List.range c).map (fun j => sel (F := F)
    ((List.range n).filter (fun i => decide (i ∉ Q))) (fun i => D j (xOf F i)))).length by simp; omega)]
  simp only [List.getElem_map, List.getElem_range]
  rw [← hr, hcoef]
  simp only
  obtain ⟨m, hm⟩ : ∃ m, c = m + 1 := ⟨c - 1, by omega⟩
  simp only [hm, List.range_succ_eq_map, List.map_cons]
  unfold rebuildLoop
  simp only [bind, Except.bind]
  rw [hreb _ (fun i _ => rfl)]
  rfl

/-! ### lagging servers in `User::update` -/

theorem filter_range_length {T : Type} (l : List T) (p : T → Bool) :
    ((List.range l.length).filter (fun i => (l[i]?).any p)).length = (l.filter p).length := by
  induction l with
  | nil => rfl
  | cons a l ih =>
    rw [List.length_cons, List.range_succ_eq_map, List.filter_cons, List.filter_map, List.filter_cons]
    have e : ((fun i => ((a :: l)[i]?).any p) ∘ Nat.succ) = fun i => (l[i]?).any p := by
      funext i; simp
    rw [e]
    by_cases h : p a <;> simp [h, ih]

/-- C41: `update` when some servers lag so far behind that they have fewer deletions than the requested number
of epochs, all others have the current log, the first server is one of those, and at least `t` are: the
result is exactly the one with all servers up to date (so C25 and C26 apply). -/
theorem C41_lagging_ok (params : AccParams G1 G2) (α sM v : F) (ops : List (Server.Op F))
    (srv : Server F G1 G2) (h : (Server.new params α sM v).run ops = .ok srv) (seed : Nat → Nat)
    (hseed : ∀ d, 1 ≤ d → 1 ≤ seed d) (u : User F G1 G2) (hw : u.witness ≠ none)
    (s0 : Server F G1 G2) (rest : List (Server F G1 G2)) (t : Nat) (ht : 2 ≤ t)
    (hc : ∀ i, 0 < i → i ≤ (s0 :: rest).length → (i : F) ≠ 0) (he1 : 1 ≤ u.epoch)
    (he2 : u.epoch < srv.getEpoch)
    (h0 : s0.accumulators = srv.accumulators ∧ s0.deletions = srv.deletions)
    (hs : ∀ s' ∈ rest, (s'.accumulators = srv.accumulators ∧ s'.deletions = srv.deletions) ∨
      s'.deletions.length < srv.getEpoch - u.epoch)
    (hcount : t ≤ ((s0 :: rest).filter
      (fun s' => decide (srv.getEpoch - u.epoch ≤ s'.deletions.length))).length)
    (rand : Nat → Nat → F) :
    u.update seed (s0 :: rest) t rand = u.update seed (List.replicate (s0 :: rest).length srv) t rand := by
  have hlen := accs_length_run params α sM v ops srv h
  obtain ⟨w, hw⟩ := Option.ne_none_iff_exists'.1 hw
  rw [Server.getEpoch] at he2
  set n := (s0 :: rest).length with hnn
  have hn : t ≤ n := le_trans hcount (List.length_filter_le _ _)
  obtain ⟨V, hV⟩ : ∃ V, srv.accumulators.getLast? = some V := by
    cases e : srv.accumulators.getLast? with
    | none => rw [List.getLast?_eq_none_iff] at e; rw [e] at hlen; simp at hlen
    | some V => exact ⟨V, rfl⟩
  rw [update_core seed hseed u w hw srv hlen V hV (List.replicate n srv)
    (fun s' hs' => by rw [List.eq_of_mem_replicate hs']; exact ⟨rfl, rfl⟩) t ht
    (by rw [List.length_replicate]; exact hn) (by rw [List.length_replicate]; exact hc) he1 he2 rand]
  set d := srv.accumulators.length - u.epoch with hd
  have hdle : d ≤ srv.deletions.length := by omega
  have hep : s0.getEpoch = srv.accumulators.length := by rw [Server.getEpoch, h0.1]
  obtain ⟨k, upd, hk, hk3, hprep, hed, hyv, hyl, _, hys, _⟩ := prepareForUpdate_ok seed hseed u s0.getEpoch
    n t ht hn (by omega) rand
  rw [hep, ← hd] at hed
  set resp : Nat → Bool := fun i => ((s0 :: rest)[i]?).any (fun s' => decide (d ≤ s'.deletions.length))
    with hresp
  have hans : (List.range n).mapM (fun i => do
        let sv ← idx (s0 :: rest) i
        let ys ← idx ((List.range n).map (fun i => shVec t (k - 1) u.id rand ((i + 1 : Nat) : F))) i
        sv.update d ys)
      = .ok (answers n (nChunks (k - 1) d) resp
          (fun i j => dAns (shVec t (k - 1) u.id rand (xOf F i)) (chunkAt (k - 1) (srv.published d) j))
          (fun i j => vAnsP (shVec t (k - 1) u.id rand (xOf F i)) (chunkAt (k - 1) (srv.published d) j))) := by
    unfold answers
    apply mapM_ok
    intro i hi
    rw [List.mem_range] at hi
    rw [idx_lt hi, idx_lt (show i < ((List.range n).map
      (fun i => shVec t (k - 1) u.id rand ((i + 1 : Nat) : F))).length by simpa using hi)]
    simp only [bind, Except.bind, List.getElem_map, List.getElem_range]
    have hri : resp i = decide (d ≤ ((s0 :: rest)[i]).deletions.length) := by
      rw [hresp]; simp only [List.getElem?_eq_getElem hi, Option.any_some]
    rw [hri]
    have hcase : ((s0 :: rest)[i].accumulators = srv.accumulators ∧
        (s0 :: rest)[i].deletions = srv.deletions) ∨ (s0 :: rest)[i].deletions.length < d := by
      rcases List.mem_cons.1 (List.getElem_mem hi) with e | e
      · rw [e]; exact Or.inl h0
      · exact hs _ e
    rcases hcase with ⟨h1, h2⟩ | hlag
    · rw [if_pos (by rw [h2]; simpa using hdle)]
      have hp : ((s0 :: rest)[i]).published d = srv.published d := by
        unfold Server.published; rw [h1, h2]
      have := update_published (s0 :: rest)[i] (by rw [h1, h2]; exact hlen) d (by rw [h2]; exact hdle)
        (shVec t (k - 1) u.id rand ((i + 1 : Nat) : F))
        (by intro e; have := congrArg List.length e; simp at this; omega)
        ((s0 :: rest)[i].deletions.length + 1) (by rw [h2]; omega)
      unfold Server.update
      rw [this, hp, shVec_length]
      rfl
    · rw [if_neg (by simpa using hlag)]
      unfold Server.update Server.updateFuel
      rw [if_pos hlag]
      rfl
  unfold User.update
  rw [hw]
  simp only [bind, Except.bind]
  rw [idx_lt (show 0 < (s0 :: rest).length by simp)]
  simp only [List.getElem_cons_zero, ← hnn, hprep, hys, hed]
  simp only [bind, Except.bind] at hans
  rw [hans]
  simp only
  have hpost := postUpdate_honest w.witness t n (nChunks (k - 1) d) (by omega)
    (nChunks_pos _ _ (by omega) (by omega)) hc resp
    (fun j z => dAns (shVec t (k - 1) u.id rand z) (chunkAt (k - 1) (srv.published d) j))
    (fun j z => vAnsP (shVec t (k - 1) u.id rand z) (chunkAt (k - 1) (srv.published d) j))
    (fun j => dAns_polyFn t (k - 1) (by omega) u.id rand _)
    (fun j => vAnsP_polyFn t (k - 1) (by omega) u.id rand _)
    (by
      rw [hresp, hnn, filter_range_length]
      exact hcount)
    (Or.inl (by simp [hresp, h0.2, hdle]))
    ((List.range n).map (fun i => shVec t (k - 1) u.id rand ((i + 1 : Nat) : F)))
    (by rw [List.length_map, List.length_range])
  rw [hyv]
  rw [show (List.range n).map (fun i => ((i + 1 : Nat) : F)) = (List.range n).map (xOf F) from rfl, hpost,
    loop_closed srv hlen d hdle t (k - 1) (by omega),
    show srv.deletions.length - d = u.epoch - 1 by omega]
  by_cases hdel : u.id ∈ srv.deletions.drop (u.epoch - 1)
  · rw [if_pos hdel, if_pos hdel]; rfl
  · rw [if_neg hdel, if_neg hdel]
    simp only [Server.getAccumulator, h0.1, hV, unwrap]
    rfl

/-! ### C58: servers with a different log of sufficient length -/

/-- C58: more servers than the threshold; the first server is up to date, and the servers whose log is not the
current one (for instance because they lag by a few deletions and so answer for the wrong window), all
with at least as many deletions as requested, include at most one of the first `t + 1`. Then `update` behaves
as with up-to-date servers, or returns `Err("malicious server")` and leaves the user as it was. -/
theorem C58_wrong_window (params : AccParams G1 G2) (α sM v : F) (ops : List (Server.Op F))
    (srv : Server F G1 G2) (h : (Server.new params α sM v).run ops = .ok srv) (seed : Nat → Nat)
    (hseed : ∀ d, 1 ≤ d → 1 ≤ seed d) (u : User F G1 G2) (hw : u.witness ≠ none)
    (s0 : Server F G1 G2) (rest : List (Server F G1 G2)) (t : Nat) (ht : 2 ≤ t)
    (hn : t < (s0 :: rest).length)
    (hc : ∀ i, 0 < i → i ≤ (s0 :: rest).length → (i : F) ≠ 0) (he1 : 1 ≤ u.epoch)
    (he2 : u.epoch < srv.getEpoch)
    (h0 : s0.accumulators = srv.accumulators ∧ s0.deletions = srv.deletions) (L : Finset Nat)
    (hL : (L.filter (· ≤ t)).card ≤ 1)
    (hs : ∀ i s', (s0 :: rest)[i]? = some s' →
      (i ∉ L → s'.accumulators = srv.accumulators ∧ s'.deletions = srv.deletions) ∧
      s'.accumulators.length = s'.deletions.length + 1 ∧
      srv.getEpoch - u.epoch ≤ s'.deletions.length)
    (rand : Nat → Nat → F) :
    u.update seed (s0 :: rest) t rand = u.update seed (List.replicate (s0 :: rest).length srv) t rand ∨
    u.update seed (s0 :: rest) t rand = .ok (u, .error "malicious server") := by
  have hlen := accs_length_run params α sM v ops srv h
  obtain ⟨w, hw⟩ := Option.ne_none_iff_exists'.1 hw
  rw [Server.getEpoch] at he2
  set n := (s0 :: rest).length with hnn
  obtain ⟨V, hV⟩ : ∃ V, srv.accumulators.getLast? = some V := by
    cases e : srv.accumulators.getLast? with
    | none => rw [List.getLast?_eq_none_iff] at e; rw [e] at hlen; simp at hlen
    | some V => exact ⟨V, rfl⟩
  rw [update_core seed hseed u w hw srv hlen V hV (List.replicate n srv)
    (fun s' hs' => by rw [List.eq_of_mem_replicate hs']; exact ⟨rfl, rfl⟩) t ht
    (by rw [List.length_replicate]; omega) (by rw [List.length_replicate]; exact hc) he1 he2 rand]
  set d := srv.accumulators.length - u.epoch with hd
  have hdle : d ≤ srv.deletions.length := by omega
  have hep : s0.getEpoch = srv.accumulators.length := by rw [Server.getEpoch, h0.1]
  obtain ⟨k, upd, hk, hk3, hprep, hed, hyv, hyl, _, hys, _⟩ := prepareForUpdate_ok seed hseed u s0.getEpoch
    n t ht (by omega) (by omega) rand
  rw [hep, ← hd] at hed
  set pub : Nat → List (F × G1) := fun i => (((s0 :: rest)[i]?).map (fun s' => s'.published d)).getD []
    with hpub
  have hans : (List.range n).mapM (fun i => do
        let sv ← idx (s0 :: rest) i
        let ys ← idx ((List.range n).map (fun i => shVec t (k - 1) u.id rand ((i + 1 : Nat) : F))) i
        sv.update d ys)
      = .ok (answers n (nChunks (k - 1) d) (fun _ => true)
          (fun i j => dAns (shVec t (k - 1) u.id rand (xOf F i)) (chunkAt (k - 1) (pub i) j))
          (fun i j => vAnsP (shVec t (k - 1) u.id rand (xOf F i)) (chunkAt (k - 1) (pub i) j))) := by
    unfold answers
    simp only [if_true]
    apply mapM_ok
    intro i hi
    rw [List.mem_range] at hi
    rw [idx_lt hi, idx_lt (show i < ((List.range n).map
      (fun i => shVec t (k - 1) u.id rand ((i + 1 : Nat) : F))).length by simpa using hi)]
    simp only [bind, Except.bind, List.getElem_map, List.getElem_range]
    obtain ⟨-, h2, h3⟩ := hs i _ (List.getElem?_eq_getElem hi)
    rw [Server.getEpoch] at h3
    have := update_published (s0 :: rest)[i] h2 d h3
      (shVec t (k - 1) u.id rand ((i + 1 : Nat) : F))
      (by intro e; have := congrArg List.length e; simp at this; omega)
      ((s0 :: rest)[i].deletions.length + 1) (by omega)
    unfold Server.update
    rw [this, shVec_length]
    simp only [hpub, List.getElem?_eq_getElem hi, Option.map_some, Option.getD_some]
    rfl
  have hpi : ∀ i ≤ t, i ∉ L → pub i = srv.published d := by
    intro i hi hiL
    have hin : i < (s0 :: rest).length := by omega
    obtain ⟨h1, -, -⟩ := hs i _ (List.getElem?_eq_getElem hin)
    obtain ⟨h1, h2⟩ := h1 hiL
    simp only [hpub, List.getElem?_eq_getElem hin, Option.map_some, Option.getD_some]
    unfold Server.published; rw [h1, h2]
  obtain ⟨l, hlu⟩ : ∃ l, ∀ i ≤ t, i ≠ l → i ∉ L := by
    rcases Finset.eq_empty_or_nonempty (L.filter (· ≤ t)) with he | ⟨l, hl⟩
    · refine ⟨t + 1, fun i hi _ hm => ?_⟩
      have : i ∈ L.filter (· ≤ t) := Finset.mem_filter.2 ⟨hm, hi⟩
      rw [he] at this
      simp at this
    · refine ⟨l, fun i hi hil hm => hil ?_⟩
      exact Finset.card_le_one.1 hL i (Finset.mem_filter.2 ⟨hm, hi⟩) l hl
  obtain ⟨res', r1, r2, -⟩ := postUpdate_liar w.witness t n (nChunks (k - 1) d) (by omega) hn
    (nChunks_pos _ _ (by omega) (by omega)) hc
    (fun j z => dAns (shVec t (k - 1) u.id rand z) (chunkAt (k - 1) (srv.published d) j))
    (fun j z => vAnsP (shVec t (k - 1) u.id rand z) (chunkAt (k - 1) (srv.published d) j))
    (fun j => dAns_polyFn t (k - 1) (by omega) u.id rand _)
    (fun j => vAnsP_polyFn t (k - 1) (by omega) u.id rand _)
    (fun i j => dAns (shVec t (k - 1) u.id rand (xOf F i)) (chunkAt (k - 1) (pub i) j))
    (fun i j => vAnsP (shVec t (k - 1) u.id rand (xOf F i)) (chunkAt (k - 1) (pub i) j)) l
    (fun i hi hil j _ => by simp only [hpi i hi (hlu i hi hil)])
    (fun i hi hil j _ => by simp only [hpi i hi (hlu i hi hil)])
    ((List.range n).map (fun i => shVec t (k - 1) u.id rand ((i + 1 : Nat) : F)))
    (by rw [List.length_map, List.length_range])
  rw [loop_closed srv hlen d hdle t (k - 1) (by omega),
    show srv.deletions.length - d = u.epoch - 1 by omega] at r2
  unfold User.update
  rw [hw]
  simp only [bind, Except.bind]
  rw [idx_lt (show 0 < (s0 :: rest).length by simp)]
  simp only [List.getElem_cons_zero, ← hnn, hprep, hys, hed]
  simp only [bind, Except.bind] at hans
  rw [hans]
  simp only
  rw [hyv]
  rw [show (List.range n).map (fun i => ((i + 1 : Nat) : F)) = (List.range n).map (xOf F) from rfl, r1]
  rcases r2 with r2 | r2
  · left
    rw [r2]
    by_cases hdel : u.id ∈ srv.deletions.drop (u.epoch - 1)
    · rw [if_pos hdel, if_pos hdel]; rfl
    · rw [if_neg hdel, if_neg hdel]
      simp only [Server.getAccumulator, h0.1, hV, unwrap]
      rfl
  · right
    rw [r2]
    rfl

/-- C58 (failure): with `n = t` one server that lags by a single deletion is enough for `update` to return `Ok` and
store an invalid witness. Server 0 has the log `[2, 1]`, server 1 only `[2]`; user 3 was enrolled at epoch 2. -/
theorem C58_exact_threshold_lagging_corrupts :
    ∃ (srv srv' : Server ℚ ℚ ℚ) (u u' : User ℚ ℚ ℚ) (V₂ V₃ : ℚ),
      (Server.new exParams 4 9 6).run [.add 1, .add 2, .add 3, .delete 2] = .ok srv' ∧
      srv'.run [.delete 1] = .ok srv ∧ srv'.getAccumulator = .ok V₂ ∧ srv.getAccumulator = .ok V₃ ∧
      u.id = 3 ∧ u.epoch = 2 ∧ u.checkWitness (Pairing.field ℚ) exParams V₂ = .ok () ∧
      u.update (fun _ => 1) [srv, srv'] 2 (fun _ _ => 1) = .ok (u', .ok ()) ∧
      u'.checkWitness (Pairing.field ℚ) exParams V₃ ≠ .ok () := by
  let u : User ℚ ℚ ℚ := ⟨3, some ⟨10, 1 / 7, (10 * exParams.k1 + exParams.k0) / 12⟩, 1,
    ⟨4, 9 * exParams.k2⟩, 2⟩
  have hp : exParams.p2 ≠ 0 := by norm_num [exParams]
  have hk : exParams.k2 ≠ 0 := by norm_num [exParams]
  have hu : u.checkWitness (Pairing.field ℚ) exParams 1 = .ok () := by
    rw [(C23_check_witness (Pairing.field ℚ) exParams hp hk 4 9 u (by norm_num [u, exParams]) 1).1]
    exact ⟨_, rfl, by norm_num [IsWitness, u], by norm_num [u, exParams]⟩
  have hrun : (match (Server.new exParams 4 9 6).run [.add 1, .add 2, .add 3, .delete 2] with
      | .ok srv' => (match srv'.run [.delete 1] with
        | .ok srv => decide (srv'.accumulators = [6, 1]) && decide (srv.accumulators = [6, 1, 1/5]) &&
          (match u.update (fun _ => 1) [srv, srv'] 2 (fun _ _ => 1) with
          | .ok (u', .ok ()) => decide (u'.id = 3) && decide (u'.publicKeys.witnessKey = 4) &&
            decide (u'.publicKeys.signKey = 9 * exParams.k2) &&
            (match u'.witness with | some w => decide ((3 + 4) * w.witness ≠ 1/5) | none => false)
          | _ => false)
        | .error _ => false)
      | .error _ => false) = true := by decide +kernel
  split at hrun
  · next srv' h1 =>
    split at hrun
    · next srv h2 =>
      simp only [Bool.and_eq_true, decide_eq_true_eq] at hrun
      obtain ⟨⟨ha1, ha2⟩, hrun⟩ := hrun
      split at hrun
      · next u' h3 =>
        simp only [Bool.and_eq_true, decide_eq_true_eq] at hrun
        obtain ⟨⟨⟨hid, hk1⟩, hk2⟩, hrun⟩ := hrun
        refine ⟨srv, srv', u, u', 1, 1/5, h1, h2, ?_, ?_, rfl, rfl, hu, h3, ?_⟩
        · rw [Server.getAccumulator, ha1]; rfl
        · rw [Server.getAccumulator, ha2]; rfl
        · rw [Ne, (C23_check_witness (Pairing.field ℚ) exParams hp hk 4 9 u' (by
            cases hpk : u'.publicKeys with
            | mk a b =>
              rw [hpk] at hk1 hk2
              simp only at hk1 hk2
              rw [hk1, hk2]; norm_num [exParams]) (1/5)).1]
          rintro ⟨w, hw1, hw2, -⟩
          rw [hw1] at hrun
          simp only [decide_eq_true_eq] at hrun
          apply hrun
          unfold IsWitness at hw2
          rw [hid] at hw2
          exact hw2
      · simp at hrun
    · simp at hrun
  · simp at hrun

end
end Allo
