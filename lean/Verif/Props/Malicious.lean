import Verif.Lemmas.Malicious
import Verif.Props.Update

/-!
# C38 – C41: wrong, missing and malformed answers in the update protocol
-/

set_option linter.unusedSectionVars false
set_option linter.unusedVariables false
namespace Allo
open Spec Finset User

section
variable {F G1 G2 GT : Type} [Field F] [DecidableEq F] [AddCommGroup G1] [Module F G1]
  [DecidableEq G1] [AddCommGroup G2] [Module F G2] [AddCommGroup GT] [Module F GT]

/-- `honest` is what `n` up-to-date servers answer to the prepared request `upd`. -/
def HonestAnswers (srv : Server F G1 G2) (n : Nat) (upd : UserUpdate F)
    (honest : List (List F × List G1)) : Prop :=
  honest.length = n ∧ ∀ i < n, ∃ ys a, upd.yShares[i]? = some ys ∧ honest[i]? = some a ∧
    srv.update upd.epochDiff ys = .ok a

/-- `ans` has the same shape as `honest` and the same content except for the servers in `L`. -/
def DiffersOn (L : Finset Nat) (honest ans : List (List F × List G1)) : Prop :=
  ans.length = honest.length ∧ (∀ i < honest.length, i ∉ L → ans[i]? = honest[i]?) ∧
  ∀ p ∈ ans, ∀ q ∈ honest, p.1.length = q.1.length ∧ p.2.length = q.2.length

/-- the closed form of the honest answers -/
theorem honest_closed (seed : Nat → Nat) (hseed : ∀ d, 1 ≤ d → 1 ≤ seed d) (u : User F G1 G2)
    (s : Server F G1 G2) (hlen : s.accumulators.length = s.deletions.length + 1) (n t : Nat)
    (ht : 2 ≤ t) (hn : t ≤ n) (he1 : 1 ≤ u.epoch) (he2 : u.epoch < s.getEpoch) (rand : Nat → Nat → F)
    (upd : UserUpdate F) (hp : u.prepareForUpdate seed s.getEpoch n t rand = .ok (.ok upd)) :
    ∃ k, 2 ≤ k ∧ upd.epochDiff = s.getEpoch - u.epoch ∧ upd.yShares.length = n ∧
      upd.yValues = (List.range n).map (xOf F) ∧ 1 ≤ nChunks k (s.getEpoch - u.epoch) ∧
      ∀ honest, HonestAnswers s n upd honest ↔ honest = answers n (nChunks k (s.getEpoch - u.epoch))
        (fun _ => true)
        (fun i j => dAns (shVec t k u.id rand (xOf F i)) (chunkAt k (s.published (s.getEpoch - u.epoch)) j))
        (fun i j => vAnsP (shVec t k u.id rand (xOf F i)) (chunkAt k (s.published (s.getEpoch - u.epoch)) j)) := by
  obtain ⟨k, hk, hed, hyl, hyv, hys⟩ := honest_setup seed hseed u s hlen n t ht hn he1 he2 rand upd hp
  refine ⟨k, hk, hed, hyl, hyv, nChunks_pos _ _ (by omega) (by omega), fun honest => ?_⟩
  constructor
  · rintro ⟨hl, h⟩
    apply List.ext_getElem
    · simp [answers, hl]
    · intro i h1 h2
      obtain ⟨ys, a, e1, e2, e3⟩ := h i (by omega)
      obtain ⟨ys', e1', e3'⟩ := hys i (by omega)
      rw [e1] at e1'
      cases e1'
      rw [e3] at e3'
      injection e3' with e3'
      rw [List.getElem?_eq_getElem h1] at e2
      injection e2 with e2
      rw [e2, e3']
      simp [answers]
  · rintro rfl
    refine ⟨by simp [answers], fun i hi => ?_⟩
    obtain ⟨ys, e1, e3⟩ := hys i hi
    exact ⟨ys, _, e1, by simp [answers, hi], e3⟩

/-! ## C38: at most one liar among the first `t + 1` servers -/

/-- C38: more servers than the threshold. Let any set `L` of servers answer arbitrarily (right number of
chunks), with at most one of them among the first `t + 1`. Then `post_update` returns either exactly the
result for honest answers or `Err("malicious server")`; if no liar is among the first `t + 1`, the honest
result. (Honest answers exist, and `post_update` does not panic on them.) -/
theorem C38_one_liar (params : AccParams G1 G2) (α sM v : F) (ops : List (Server.Op F))
    (srv : Server F G1 G2) (h : (Server.new params α sM v).run ops = .ok srv) (seed : Nat → Nat)
    (hseed : ∀ d, 1 ≤ d → 1 ≤ seed d) (u : User F G1 G2) (n t : Nat) (ht : 2 ≤ t) (hn : t < n)
    (hc : ∀ i, 0 < i → i ≤ n → (i : F) ≠ 0) (he1 : 1 ≤ u.epoch) (he2 : u.epoch < srv.getEpoch)
    (rand : Nat → Nat → F) (upd : UserUpdate F)
    (hp : u.prepareForUpdate seed srv.getEpoch n t rand = .ok (.ok upd)) (w : G1) :
    ∃ honest res, HonestAnswers srv n upd honest ∧
      postUpdate w t upd.yShares upd.yValues honest = .ok res ∧
      ∀ (L : Finset Nat) (ans : List (List F × List G1)), DiffersOn L honest ans →
        (L.filter (· ≤ t)).card ≤ 1 →
        (postUpdate w t upd.yShares upd.yValues ans = .ok res ∨
         postUpdate w t upd.yShares upd.yValues ans = .ok (.error "malicious server")) ∧
        ((∀ i ∈ L, t < i) → postUpdate w t upd.yShares upd.yValues ans = .ok res) := by
  have hlen := accs_length_run params α sM v ops srv h
  obtain ⟨k, hk, hed, hyl, hyv, hc1, hh⟩ :=
    honest_closed seed hseed u srv hlen n t ht (by omega) he1 he2 rand upd hp
  set c := nChunks k (srv.getEpoch - u.epoch) with hcdef
  set D : Nat → F → F := fun j z =>
    dAns (shVec t k u.id rand z) (chunkAt k (srv.published (srv.getEpoch - u.epoch)) j) with hD
  set V : Nat → F → G1 := fun j z =>
    vAnsP (shVec t k u.id rand z) (chunkAt k (srv.published (srv.getEpoch - u.epoch)) j) with hV
  have pD : ∀ j, PolyFn t (D j) := fun j => dAns_polyFn t k (by omega) u.id rand _
  have pV : ∀ j, PolyFn t (V j) := fun j => vAnsP_polyFn t k (by omega) u.id rand _
  set honest := answers n c (fun _ => true) (fun i j => D j (xOf F i)) (fun i j => V j (xOf F i)) with hhon
  refine ⟨honest, loopSpec (fun j => some (D j 0)) (fun j => some (V j 0)) (List.range c) w,
    (hh _).2 rfl, ?_, ?_⟩
  · rw [hyv]
    exact postUpdate_honest w t n c (by omega) hc1 hc (fun _ => true) D V pD pV
      (by rw [filter_all, List.length_range]; omega) (Or.inl rfl) upd.yShares hyl
  · intro L ans hdiff hL
    obtain ⟨hl1, hl2, hl3⟩ := hdiff
    have hnl : honest.length = n := by simp [hhon, answers]
    obtain ⟨l, hlu, hlt⟩ : ∃ l, (∀ i ≤ t, i ≠ l → i ∉ L) ∧ ((∀ i ∈ L, t < i) → t < l) := by
      rcases Finset.eq_empty_or_nonempty (L.filter (· ≤ t)) with he | ⟨l, hl⟩
      · refine ⟨t + 1, fun i hi _ hm => ?_, fun _ => by omega⟩
        have : i ∈ L.filter (· ≤ t) := Finset.mem_filter.2 ⟨hm, hi⟩
        rw [he] at this
        simp at this
      · refine ⟨l, fun i hi hil hm => hil ?_, fun h => h l (Finset.mem_filter.1 hl).1⟩
        exact Finset.card_le_one.1 hL i (Finset.mem_filter.2 ⟨hm, hi⟩) l hl
    have h0 : honest[0]? = some ((List.range c).map (fun j => D j (xOf F 0)),
        (List.range c).map (fun j => V j (xOf F 0))) := by
      simp [hhon, answers, show 0 < n by omega]
    have hans := answers_of n c ans (by omega) (fun p hp' => by
      have := hl3 p hp' _ (List.mem_of_getElem? h0)
      simpa using this)
    have hgi : ∀ i ≤ t, i ≠ l → ans.getD i ([], []) = ((List.range c).map (fun j => D j (xOf F i)),
        (List.range c).map (fun j => V j (xOf F i))) := by
      intro i hi hil
      rw [List.getD_eq_getElem?_getD, hl2 i (by omega) (hlu i hi hil)]
      simp [hhon, answers, show i < n by omega]
    obtain ⟨res', r1, r2, r3⟩ := postUpdate_liar w t n c (by omega) hn hc1 hc D V pD pV
      (fun i j => (ans.getD i ([], [])).1.getD j 0) (fun i j => (ans.getD i ([], [])).2.getD j 0) l
      (fun i hi hil j hj => by simp only [hgi i hi hil]; simp [hj])
      (fun i hi hil j hj => by simp only [hgi i hi hil]; simp [hj]) upd.yShares hyl
    rw [← hans, ← hyv] at r1
    refine ⟨?_, fun hall => by rw [r1, r3 (hlt hall)]⟩
    rcases r2 with r2 | r2
    · left; rw [r1, r2]
    · right; rw [r1, r2]

/-- C38: so a witness that is accepted in spite of the liars is the right one: if the user's witness was valid
at its recorded epoch, the accepted one is valid for the current accumulator, and the user has not been
deleted in between. -/
theorem C38_accepted_is_valid (params : AccParams G1 G2) (α sM v : F)
    (ops₁ ops₂ : List (Server.Op F)) (h₁ : ∀ op ∈ ops₁, op.isQuick = false)
    (h₂ : ∀ op ∈ ops₂, op.isDelete = false) (srv : Server F G1 G2)
    (h : (Server.new params α sM v).run (ops₁ ++ ops₂) = .ok srv) (seed : Nat → Nat)
    (hseed : ∀ d, 1 ≤ d → 1 ≤ seed d) (u : User F G1 G2) (n t : Nat) (ht : 2 ≤ t) (hn : t < n)
    (hc : ∀ i, 0 < i → i ≤ n → (i : F) ≠ 0) (he1 : 1 ≤ u.epoch) (he2 : u.epoch < srv.getEpoch)
    (rand : Nat → Nat → F) (upd : UserUpdate F)
    (hp : u.prepareForUpdate seed srv.getEpoch n t rand = .ok (.ok upd)) (w : G1) (Ve : G1)
    (hVe : srv.accumulators[u.epoch - 1]? = some Ve) (hw : IsWitness α Ve u.id w)
    (honest ans : List (List F × List G1)) (hhon : HonestAnswers srv n upd honest) (L : Finset Nat)
    (hdiff : DiffersOn L honest ans) (hL : (L.filter (· ≤ t)).card ≤ 1) (W : G1)
    (hok : postUpdate w t upd.yShares upd.yValues ans = .ok (.ok W)) :
    ∃ V, srv.getAccumulator = .ok V ∧ IsWitness α V u.id W ∧ u.id ∉ srv.deletions.drop (u.epoch - 1) := by
  have hI := invA_run params α sM v ops₁ ops₂ h₁ h₂ srv h
  have hlen := hI.length
  obtain ⟨honest', res, a1, a2, a3⟩ := C38_one_liar params α sM v _ srv h seed hseed u n t ht hn hc he1 he2
    rand upd hp w
  obtain ⟨k, hk, hed, hyl, hyv, hc1, hh⟩ :=
    honest_closed seed hseed u srv hlen n t ht (by omega) he1 he2 rand upd hp
  have e1 := (hh _).1 hhon
  have e2 := (hh _).1 a1
  rw [← e1] at e2
  subst e2
  have hres : res = .ok W := by
    rcases (a3 L ans hdiff hL).1 with h' | h' <;> rw [hok] at h' <;> injection h' with h'
    · exact h'.symm
    · cases h'
  have hd : srv.getEpoch - u.epoch ≤ srv.deletions.length := by rw [Server.getEpoch]; omega
  rw [e1, hyv, postUpdate_honest w t n _ (by omega) hc1 hc (fun _ => true) _ _
      (fun j => dAns_polyFn t k (by omega) u.id rand _) (fun j => vAnsP_polyFn t k (by omega) u.id rand _)
      (by rw [filter_all, List.length_range]; omega) (Or.inl rfl) upd.yShares hyl,
    loop_closed srv hlen _ hd t k (by omega), hres] at a2
  rw [Server.getEpoch] at he2
  rw [show srv.deletions.length - (srv.getEpoch - u.epoch) = u.epoch - 1 by rw [Server.getEpoch]; omega] at a2
  injection a2 with a2
  split at a2
  · cases a2
  · next hid =>
    injection a2 with a2
    refine ⟨_, by rw [Server.getAccumulator, hI.last]; rfl, ?_, hid⟩
    have hi : u.epoch - 1 ≤ srv.deletions.length := by omega
    rw [hI.get _ hi] at hVe
    have hVe := Option.some.inj hVe
    have hch := chain_published hI (u.epoch - 1) hi
    rw [hVe, show srv.deletions.length - (u.epoch - 1) = srv.getEpoch - u.epoch by
      rw [Server.getEpoch]; omega] at hch
    have hfst : (srv.published (srv.getEpoch - u.epoch)).map (·.1) = srv.deletions.drop (u.epoch - 1) := by
      rw [published_fst srv hlen]
      congr 1; rw [Server.getEpoch]; omega
    have haff := followLog_affine α u.id _ _ _ w hch (by rw [hfst]; exact hid)
    unfold IsWitness at *
    rw [← a2, haff, hw, sub_self, smul_zero, add_zero]

/-! ## C39: too few honest answers among those that are used -/

/-- C39: if fewer than `t` of the answers that are used (those of the first `t + 1` servers, or all `n = t`)
are honest, the others can choose theirs so that `post_update` returns `Ok` of any point they like, or
reports a present user as deleted. In particular any one server when `n = t`, and any two of the first
`t + 1` when `n > t`. The user's secret id plays no role, nor does whether it was deleted. -/
theorem C39_control (params : AccParams G1 G2) (α sM v : F) (ops : List (Server.Op F))
    (srv : Server F G1 G2) (h : (Server.new params α sM v).run ops = .ok srv) (seed : Nat → Nat)
    (hseed : ∀ d, 1 ≤ d → 1 ≤ seed d) (u : User F G1 G2) (n t : Nat) (ht : 2 ≤ t) (hn : t ≤ n)
    (hc : ∀ i, 0 < i → i ≤ n → (i : F) ≠ 0) (he1 : 1 ≤ u.epoch) (he2 : u.epoch < srv.getEpoch)
    (rand : Nat → Nat → F) (upd : UserUpdate F)
    (hp : u.prepareForUpdate seed srv.getEpoch n t rand = .ok (.ok upd)) (w : G1) (L : Finset Nat)
    (hL : ((range (min n (t + 1))) \ L).card < t) (W : G1) :
    ∃ honest, HonestAnswers srv n upd honest ∧
      (∃ ans, DiffersOn L honest ans ∧ postUpdate w t upd.yShares upd.yValues ans = .ok (.ok W)) ∧
      (∃ ans, DiffersOn L honest ans ∧
        postUpdate w t upd.yShares upd.yValues ans = .ok (.error "user has been deleted")) := by
  have hlen := accs_length_run params α sM v ops srv h
  obtain ⟨k, hk, hed, hyl, hyv, hc1, hh⟩ :=
    honest_closed seed hseed u srv hlen n t ht (by omega) he1 he2 rand upd hp
  set c := nChunks k (srv.getEpoch - u.epoch) with hcdef
  set D : Nat → F → F := fun j z =>
    dAns (shVec t k u.id rand z) (chunkAt k (srv.published (srv.getEpoch - u.epoch)) j) with hD
  set V : Nat → F → G1 := fun j z =>
    vAnsP (shVec t k u.id rand z) (chunkAt k (srv.published (srv.getEpoch - u.epoch)) j) with hV
  set honest := answers n c (fun _ => true) (fun i j => D j (xOf F i)) (fun i j => V j (xOf F i)) with hhon
  refine ⟨honest, (hh _).2 rfl, ?_⟩
  -- polynomials through the honest values with a chosen value at 0
  set S := (range (min n (t + 1))) \ L with hS
  have hSn : ∀ i ∈ S, i < n := fun i hi => by
    have := Finset.mem_range.1 (Finset.mem_sdiff.1 hi).1; omega
  have hpoly : ∀ (M : Type) [AddCommGroup M] [Module F M] (f : Nat → M) (a : M),
      ∃ g : F → M, PolyFn t g ∧ g 0 = a ∧ ∀ i ∈ S, g (xOf F i) = f i := by
    intro M _ _ f a
    obtain ⟨A, hA1, -, hA3⟩ := exists_polyVal (M := M) (insert 0 (S.image (· + 1)))
      (fun i => ((i : Nat) : F)) (by
        have hle : ∀ i ∈ insert 0 (S.image (· + 1)), i ≤ n := by
          intro i hi
          rcases Finset.mem_insert.1 hi with rfl | hi
          · omega
          · obtain ⟨j, hj, rfl⟩ := Finset.mem_image.1 hi
            have := hSn j hj
            omega
        intro i hi j hj e
        exact cast_inj_of hc (hle i hi) (hle j hj) e) (fun i => if i = 0 then a else f (i - 1))
    have hle : A.length ≤ t := by
      rw [hA1]
      refine le_trans (Finset.card_insert_le _ _) ?_
      have := Finset.card_image_le (s := S) (f := (· + 1))
      omega
    refine ⟨fun z => polyVal z A, ⟨A ++ List.replicate (t - A.length) 0, by simp; omega, fun z => ?_⟩, ?_, ?_⟩
    · have : ∀ m, polyVal z (List.replicate m (0 : M)) = 0 := by
        intro m; induction m with
        | zero => rfl
        | succ m ih => rw [List.replicate_succ, polyVal, ih]; simp
      rw [polyVal_append, this]; simp
    · have := hA3 0 (Finset.mem_insert_self _ _)
      simpa using this
    · intro i hi
      have := hA3 (i + 1) (Finset.mem_insert_of_mem (Finset.mem_image.2 ⟨i, hi, rfl⟩))
      simpa [xOf] using this
  -- the forged answers for given targets
  have hforge : ∀ (a : Nat → F) (b : Nat → G1), ∃ ans, DiffersOn L honest ans ∧
      postUpdate w t upd.yShares upd.yValues ans
        = .ok (loopSpec (fun j => some (a j)) (fun j => some (b j)) (List.range c) w) := by
    intro a b
    choose gD hgD1 hgD2 hgD3 using fun j => hpoly F (fun i => D j (xOf F i)) (a j)
    choose gV hgV1 hgV2 hgV3 using fun j => hpoly G1 (fun i => V j (xOf F i)) (b j)
    refine ⟨answers n c (fun _ => true)
      (fun i j => if i ∈ L then gD j (xOf F i) else D j (xOf F i))
      (fun i j => if i ∈ L then gV j (xOf F i) else V j (xOf F i)), ⟨?_, ?_, ?_⟩, ?_⟩
    · simp [hhon, answers]
    · intro i hi hiL
      have hi' : i < n := by simpa [hhon, answers] using hi
      simp [hhon, answers, hi', hiL]
    · intro p hp q hq
      obtain ⟨i, _, rfl⟩ := List.mem_map.1 hp
      rw [hhon] at hq
      obtain ⟨j, _, rfl⟩ := List.mem_map.1 hq
      simp
    · rw [hyv]
      have hmem : ∀ i ∈ ((List.range n).filter (fun _ => true)).take (t + 1), i ∉ L → i ∈ S := by
        intro i hi hiL
        rw [filter_all] at hi
        obtain ⟨i', hi', rfl⟩ := List.mem_take_iff_getElem.1 hi
        simp only [List.length_range] at hi'
        simp only [List.getElem_range] at hiL ⊢
        exact Finset.mem_sdiff.2 ⟨Finset.mem_range.2 (by omega), hiL⟩
      have := postUpdate_used w t n c (by omega) hc1 hc (fun _ => true) gD gV hgD1 hgV1
        (by rw [filter_all, List.length_range]; omega)
        (fun i j => if i ∈ L then gD j (xOf F i) else D j (xOf F i))
        (fun i j => if i ∈ L then gV j (xOf F i) else V j (xOf F i))
        (fun i hi j hj => by
          by_cases hiL : i ∈ L
          · simp only [if_pos hiL]
          · simp only [if_neg hiL]
            rw [hgD3 j i (hmem i hi hiL)])
        (fun i hi j hj => by
          by_cases hiL : i ∈ L
          · simp only [if_pos hiL]
          · simp only [if_neg hiL]
            rw [hgV3 j i (hmem i hi hiL)]) (Or.inl rfl) upd.yShares hyl
      rw [this]
      simp only [hgD2, hgV2]
  constructor
  · obtain ⟨ans, h1, h2⟩ := hforge (fun _ => 1) (fun j => if j = c - 1 then w - W else 0)
    refine ⟨ans, h1, ?_⟩
    rw [h2, loopSpec_honest, if_pos (fun _ _ => one_ne_zero)]
    obtain ⟨m, hm⟩ : ∃ m, c = m + 1 := ⟨c - 1, by omega⟩
    rw [hm, List.range_succ, List.foldl_append]
    have hpre : ∀ m' ≤ m, (List.range m').foldl (fun (C : G1) j =>
        (1 : F)⁻¹ • (C - if j = m + 1 - 1 then w - W else 0)) w = w := by
      intro m' hm'
      induction m' with
      | zero => rfl
      | succ m' ih =>
        rw [List.range_succ, List.foldl_append, ih (by omega)]
        simp [show m' ≠ m by omega]
    rw [hpre m le_rfl]
    simp
  · obtain ⟨ans, h1, h2⟩ := hforge (fun _ => 0) (fun _ => 0)
    refine ⟨ans, h1, ?_⟩
    rw [h2, loopSpec_honest, if_neg]
    intro h
    exact h 0 (List.mem_range.2 (by omega)) rfl

/-- the two cases named in C39: one server of `n = t`; two of the first `t + 1` servers of `n > t` -/
example (t n l l' : Nat) (hl : l ≤ t) (hl' : l' ≤ t) (hne : l ≠ l') (hn : t < n) :
    (∀ m < t, ((range (min t (t + 1))) \ {m}).card < t) ∧
    ((range (min n (t + 1))) \ {l, l'}).card < t := by
  constructor
  · intro m hm
    rw [Finset.card_sdiff_of_subset (by simp; omega)]
    simp; omega
  · rw [Finset.card_sdiff_of_subset (by intro x hx; simp at hx ⊢; omega), Finset.card_pair hne]
    simp; omega

/-! ## C40: malformed answers -/

/-- C40: if some answer (in either component) is longer than the first non-empty one, or all answers are empty,
`post_update` panics, whatever else the servers say: one malicious server can crash the client. -/
theorem C40_malformed_panics (w : G1) (t : Nat) (yShares : List (List F)) (yValues : List F)
    (ans : List (List F × List G1)) (hl : yShares.length = ans.length)
    (hx : yValues.length = ans.length)
    (h : (∃ p ∈ ans, ∃ q, (ans.map (·.1)).find? (fun a => !a.isEmpty) = some q ∧ q.length < p.1.length) ∨
      (∃ p ∈ ans, ∃ q, (ans.map (·.2)).find? (fun a => !a.isEmpty) = some q ∧ q.length < p.2.length) ∨
      (∀ p ∈ ans, p.1 = [])) :
    postUpdate w t yShares yValues ans = .error .index := by
  unfold postUpdate
  rw [hl]
  have hcol := collect_eq yValues ans hx
  rcases h with ⟨p, hp, q, hq, hlt⟩ | ⟨p, hp, q, hq, hlt⟩ | h
  · rw [hcol, if_neg]
    · rfl
    · rintro ⟨h1, -⟩
      have := h1 p hp
      unfold firstLen at this
      rw [hq] at this
      simp at this; omega
  · rw [hcol, if_neg]
    · rfl
    · rintro ⟨-, h1⟩
      have := h1 p hp
      unfold firstLen at this
      rw [hq] at this
      simp at this; omega
  · have h0 : firstLen (ans.map (·.1)) = 0 := by
      rw [firstLen_zero]
      intro a ha
      obtain ⟨p, hp, rfl⟩ := List.mem_map.1 ha
      exact h p hp
    rw [hcol, h0]
    split
    · simp [bind, Except.bind, idx]
    · rfl


theorem foldlM_step {σ β : Type} (f : σ → β → Rust σ) (l : List β) (s s' : σ)
    (h : l.foldlM f s = .ok s') (b : β) (hb : b ∈ l) : ∃ a a', f a b = .ok a' := by
  induction l generalizing s with
  | nil => simp at hb
  | cons x l ih =>
    rw [List.foldlM_cons] at h
    cases hx : f s x with
    | error e => rw [hx] at h; cases h
    | ok s1 =>
      rw [hx] at h
      rcases List.mem_cons.1 hb with rfl | hb
      · exact ⟨s, s1, hx⟩
      · exact ih s1 h hb

/-- rebuilding needs at least as many shares as there are coefficients, one more with the check -/
theorem rebuildScalar_len (shares : List (F × F)) (cs : List F) (ch : Option (List F)) (r : Option F)
    (h : shamirRebuildScalar shares cs ch = .ok r) :
    cs.length ≤ shares.length ∧ (ch ≠ none → cs.length < shares.length) := by
  unfold shamirRebuildScalar at h
  simp only [bind, Except.bind] at h
  split at h
  · cases h
  · next r0 hr0 =>
    constructor
    · by_contra hcon
      obtain ⟨a, a', ha⟩ := foldlM_step _ _ _ _ hr0 shares.length (List.mem_range.2 (by omega))
      simp [idx] at ha
    · intro hch
      split at h
      · split at h
        · cases h
        · split at h
          · cases h
          · next x hx =>
            by_contra hcon
            rw [idx, List.getElem?_eq_none (by omega)] at hx
            cases hx
      · exact absurd rfl hch

theorem rebuildLoop_short (cs : List F) (ch : Option (List F)) (vC : List (List (F × G1))) :
    ∀ (dC : List (List (F × F))) (i : Nat) (w W : G1), rebuildLoop cs ch vC i dC w = .ok (.ok W) →
      ∀ sh ∈ dC, cs.length ≤ sh.length ∧ (ch ≠ none → cs.length < sh.length) := by
  intro dC
  induction dC with
  | nil => intro i w W h sh hs; simp at hs
  | cons a dC ih =>
    intro i w W h sh hs
    unfold rebuildLoop at h
    simp only [bind, Except.bind, pure, Except.pure] at h
    split at h
    · cases h
    · next r hr =>
      rcases List.mem_cons.1 hs with rfl | hs
      · exact rebuildScalar_len _ _ _ _ hr
      · split at h
        · split at h
          · simp at h
          · split at h
            · cases h
            · split at h
              · cases h
              · split at h
                · split at h
                  · cases h
                  · exact ih _ _ _ h sh hs
                · simp at h
        · simp at h

/-- number of answers that contain chunk `j` -/
theorem column_length (xs : List F) (A : List (List F)) (j : Nat) (hl : xs.length = A.length) :
    (column xs A j).length = (A.filter (fun a => j < a.length)).length := by
  unfold column
  induction A generalizing xs with
  | nil => cases xs <;> rfl
  | cons a A ih =>
    cases xs with
    | nil => simp at hl
    | cons x xs =>
      rw [List.zip_cons_cons, List.filterMap_cons]
      by_cases h : j < a.length
      · rw [List.filter_cons_of_pos (by simpa using h)]
        simp [h, ih xs (by simpa using hl)]
      · rw [List.filter_cons_of_neg (by simpa using h)]
        simp [List.getElem?_eq_none (Nat.le_of_not_lt h), ih xs (by simpa using hl)]

theorem coefficients_len {T : Type} (t : Nat) (sh : List (F × T)) (cs : List F) (ch : Option (List F))
    (h : shamirCoefficients t sh = .ok (cs, ch)) :
    cs.length = t ∧ (t < sh.length → ch ≠ none) := by
  unfold shamirCoefficients at h
  split at h
  · cases h
  · simp only [bind, Except.bind] at h
    split at h
    · cases h
    · next cs' hcs =>
      have hlen : cs'.length = t := by
        have : ∀ (l : List Nat) (cs' : List F) (f : Nat → Rust F), l.mapM f = .ok cs' → cs'.length = l.length := by
          intro l
          induction l with
          | nil => intro cs' f h; cases h; rfl
          | cons x l ih =>
            intro cs' f h
            rw [List.mapM_cons] at h
            simp only [bind, Except.bind, pure, Except.pure] at h
            split at h
            · cases h
            · split at h
              · cases h
              · next ys hys => cases h; simp [ih _ _ hys]
        simpa using this _ _ _ hcs
      split at h
      · split at h
        · cases h
        · cases h; exact ⟨hlen, fun _ => by simp⟩
      · next hgt => cases h; exact ⟨hlen, fun h' => absurd h' hgt⟩

/-- C40: an accepted result needs enough complete answers: if `post_update` returns `Ok`, then for every chunk
of the first non-empty answer at least `t` answers contain it, and if more than `t` answers contain the
first chunk, more than `t` contain every chunk. So with `n = t` (or `n = t + 1`) a server that leaves out
chunks, or a first server that answers more chunks than all others, never leads to acceptance. -/
theorem C40_ok_needs_enough (w W : G1) (t : Nat) (yShares : List (List F)) (yValues : List F)
    (ans : List (List F × List G1)) (hl : yShares.length = ans.length)
    (hx : yValues.length = ans.length)
    (h : postUpdate w t yShares yValues ans = .ok (.ok W)) :
    ∃ q, (ans.map (·.1)).find? (fun a => !a.isEmpty) = some q ∧ ∀ j < q.length,
      t ≤ ((ans.map (·.1)).filter (fun a => j < a.length)).length ∧
      (t < ((ans.map (·.1)).filter (fun a => 0 < a.length)).length →
        t < ((ans.map (·.1)).filter (fun a => j < a.length)).length) := by
  unfold postUpdate at h
  rw [hl, collect_eq yValues ans hx] at h
  split at h
  · next hcond =>
    simp only [bind, Except.bind] at h
    split at h
    · cases h
    · next first hfirst =>
      split at h
      · cases h
      · next p hp =>
        obtain ⟨cs, ch⟩ := p
        have hpos : 0 < firstLen (ans.map (·.1)) := by
          by_contra hcon
          rw [show firstLen (ans.map (·.1)) = 0 by omega] at hfirst
          simp [idx] at hfirst
        obtain ⟨q, hq⟩ : ∃ q, (ans.map (·.1)).find? (fun a => !a.isEmpty) = some q := by
          unfold firstLen at hpos
          cases hf : (ans.map (·.1)).find? (fun a => !a.isEmpty) with
          | none => rw [hf] at hpos; simp at hpos
          | some q => exact ⟨q, rfl⟩
        have hfl : firstLen (ans.map (·.1)) = q.length := by unfold firstLen; rw [hq]; rfl
        rw [hfl] at hfirst h
        rw [idx_lt (by simp; omega)] at hfirst
        injection hfirst with hfirst
        simp only [List.getElem_map, List.getElem_range] at hfirst
        obtain ⟨hcl, hch⟩ := coefficients_len t first cs ch hp
        refine ⟨q, hq, fun j hj => ?_⟩
        have hs := rebuildLoop_short cs ch _ _ _ _ _ h
          (column yValues (ans.map (·.1)) j) (List.mem_map.2 ⟨j, List.mem_range.2 hj, rfl⟩)
        rw [column_length _ _ _ (by simpa using hx), hcl] at hs
        refine ⟨hs.1, fun h0 => hs.2 (hch ?_)⟩
        rw [← hfirst, column_length _ _ _ (by simpa using hx)]
        exact h0
  · cases h

/-- C40: a concrete crash: two honest servers with one chunk, the third one answers two chunks -/
example : (∃ p ∈ [([(3 : ℚ)], [(1 : ℚ)]), ([4], [2]), ([5, 5], [3, 3])], ∃ q,
    ([([(3 : ℚ)], [(1 : ℚ)]), ([4], [2]), ([5, 5], [3, 3])].map (·.1)).find? (fun a => !a.isEmpty) = some q ∧
      q.length < p.1.length) :=
  ⟨([5, 5], [3, 3]), by simp, [3], by simp, by simp⟩

end
end Allo
