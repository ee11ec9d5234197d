import Verif.Props.Order

/-!
# C114: answers to two prepared updates, mixed

A user that asks again (after a timeout, say) calls `prepare_for_update` once more, which draws fresh coefficients. The
state it keeps for `post_update` says nothing about them: what is returned depends on the answers only. If the answers of
some servers belong to the first request and those of others to the second, then with more than `t` servers this is
noticed (but for a negligible fraction of the coefficients), and with exactly `t` servers it never is.
-/

set_option linter.unusedSectionVars false
set_option linter.unusedVariables false
namespace Allo
open Spec Finset User Server Rom

section
variable {F G1 G2 GT : Type} [Field F] [DecidableEq F] [AddCommGroup G1] [Module F G1]
  [DecidableEq G1] [AddCommGroup G2] [Module F G2] [AddCommGroup GT] [Module F GT] [DecidableEq GT]

/-- The list with the entries of `b` at the positions in `B`, and those of `a` at the others. -/
def mixAt {α : Type} (B : Nat → Bool) (a b : List α) : List α :=
  (a.zip b).zipIdx.map (fun p => if B p.2 then p.1.2 else p.1.1)

theorem mixAt_range {α : Type} (B : Nat → Bool) (n : Nat) (f g : Nat → α) :
    mixAt B ((List.range n).map f) ((List.range n).map g) = (List.range n).map (fun i => if B i then g i else f i) := by
  unfold mixAt
  apply List.ext_getElem
  · simp
  · intro i h1 h2
    simp

/-- The coefficients of the sharing polynomials: `x l j` for the coefficient of degree `l + 1 < t` of number `j < m`,
and `r` for all others. -/
def withRows {t m : Nat} (x : Fin (t - 1) → Fin m → F) (r : Nat → Nat → F) (j l : Nat) : F :=
  if h : 1 ≤ l ∧ l - 1 < t - 1 ∧ j < m then x ⟨l - 1, h.2.1⟩ ⟨j, h.2.2⟩ else r j l

/-- not all power sums of few points vanish -/
theorem exists_power (D : Finset Nat) (x : Nat → F) (hx : Set.InjOn x D) (h0 : ∀ i ∈ D, x i ≠ 0) (t : Nat)
    (hD : D.card + 1 ≤ t) (w : Nat → F) (a : Nat) (ha : a ∈ D) (hw : w a ≠ 0) :
    ∃ l < t - 1, ∑ i ∈ D, w i * x i ^ (l + 1) ≠ 0 := by
  by_contra hcon
  push Not at hcon
  obtain ⟨A, hA, -, hAv⟩ := exists_polyVal D x hx (fun i => if i = a then (x a)⁻¹ else 0)
  have h1 : ∑ i ∈ D, w i * (x i * polyVal (x i) A) = w a := by
    rw [Finset.sum_eq_single a]
    · rw [hAv a ha, if_pos rfl, mul_inv_cancel₀ (h0 a ha), mul_one]
    · intro i hi hne
      rw [hAv i hi, if_neg hne]; ring
    · intro h; exact absurd ha h
  have h2 : ∑ i ∈ D, w i * (x i * polyVal (x i) A) = 0 := by
    simp only [polyVal_eq_finsum, Finset.mul_sum]
    rw [Finset.sum_comm]
    refine Finset.sum_eq_zero (fun l hl => ?_)
    have := hcon l (by have := Finset.mem_range.1 hl; omega)
    calc ∑ i ∈ D, w i * (x i * (x i ^ l • A.getD l 0))
        = (∑ i ∈ D, w i * x i ^ (l + 1)) * A.getD l 0 := by
          rw [Finset.sum_mul]
          refine Finset.sum_congr rfl (fun i _ => ?_)
          rw [smul_eq_mul, pow_succ]; ring
      _ = 0 := by rw [this, zero_mul]
  exact hw (h1.symm.trans h2)

/-- the share vector as a function of the coefficients of one degree -/
theorem shVec_row {t m : Nat} (k : Nat) (id : F) (x : Fin (t - 1) → Fin m → F) (r : Nat → Nat → F) (l0 : Fin (t - 1))
    (row : Fin m → F) (z : F) :
    shVec t k id (withRows (Function.update x l0 row) r) z
      = (List.range k).map (affVec m (z ^ (l0.1 + 1)) (fun j => polyVal z (sharePoly t (id ^ (j + 1))
          (withRows (Function.update x l0 (fun _ => 0)) r j))) row) := by
  unfold shVec
  refine List.map_congr_left (fun j _ => ?_)
  unfold affVec
  simp only [sharePoly_sum]
  rw [add_assoc]
  congr 1
  rw [← Finset.add_sum_erase _ _ (Finset.mem_range.2 l0.2), ← Finset.add_sum_erase (range (t - 1)) (fun l =>
    withRows (Function.update x l0 (fun _ => 0)) r j (l + 1) * z ^ (l + 1)) (Finset.mem_range.2 l0.2)]
  have e : ∀ l ∈ (range (t - 1)).erase l0.1, withRows (Function.update x l0 row) r j (l + 1) * z ^ (l + 1)
      = withRows (Function.update x l0 (fun _ => 0)) r j (l + 1) * z ^ (l + 1) := by
    intro l hl
    obtain ⟨hne, hl⟩ := Finset.mem_erase.1 hl
    congr 1
    unfold withRows
    split
    · rename_i h
      have : (⟨l + 1 - 1, h.2.1⟩ : Fin (t - 1)) ≠ l0 := by
        intro e; exact hne (by have := congrArg Fin.val e; simpa using this)
      rw [Function.update_of_ne this, Function.update_of_ne this]
    · rfl
  rw [Finset.sum_congr rfl e]
  have e0 : ∀ row : Fin m → F, withRows (Function.update x l0 row) r j (l0.1 + 1)
      = if h : j < m then row ⟨j, h⟩ else r j (l0.1 + 1) := by
    intro row
    unfold withRows
    by_cases h : j < m
    · rw [dif_pos ⟨by omega, by simp, h⟩, dif_pos h]
      have : (⟨l0.1 + 1 - 1, by simp⟩ : Fin (t - 1)) = l0 := Fin.ext (by simp)
      rw [this, Function.update_self]
    · rw [dif_neg (by tauto), dif_neg h]
  simp only [e0]
  by_cases h : j < m
  · simp only [h, dif_pos]; ring
  · simp only [h, dif_neg, not_false_iff]; ring

/-- answers are affine in the share vector -/
theorem dot_comb (s : Finset Nat) (w : Nat → F) (h1 : ∑ i ∈ s, w i = 1) (p : List F) (l k : Nat) (hp : p.length = l + 1)
    (hk : l ≤ k) (Z : Nat → Nat → F) :
    dot p (1 :: (List.range k).map (fun j => ∑ i ∈ s, w i * Z i j))
      = ∑ i ∈ s, w i * dot p (1 :: (List.range k).map (Z i)) := by
  simp only [dot_fn p l k hp hk, mul_add, Finset.sum_add_distrib]
  rw [← Finset.sum_mul, h1, one_mul]
  congr 1
  simp only [Finset.mul_sum]
  rw [Finset.sum_comm]
  refine Finset.sum_congr rfl (fun i _ => Finset.sum_congr rfl (fun j _ => by ring))

theorem dAns_comb (s : Finset Nat) (w : Nat → F) (h1 : ∑ i ∈ s, w i = 1) (P : List (F × G1)) (k : Nat)
    (hk : P.length ≤ k) (Z : Nat → Nat → F) :
    dAns ((List.range k).map (fun j => ∑ i ∈ s, w i * Z i j)) P = ∑ i ∈ s, w i • dAns ((List.range k).map (Z i)) P := by
  unfold dAns
  simp only [smul_eq_mul]
  exact dot_comb s w h1 _ P.length k (by rw [linProd_length, List.length_map]) hk Z

theorem vAnsP_comb (s : Finset Nat) (w : Nat → F) (h1 : ∑ i ∈ s, w i = 1) (P : List (F × G1)) (k : Nat)
    (hk : P.length ≤ k) (Z : Nat → Nat → F) :
    vAnsP ((List.range k).map (fun j => ∑ i ∈ s, w i * Z i j)) P = ∑ i ∈ s, w i • vAnsP ((List.range k).map (Z i)) P := by
  unfold vAnsP
  simp only [Finset.smul_sum]
  rw [Finset.sum_comm]
  refine Finset.sum_congr rfl (fun l hl => ?_)
  have hl := Finset.mem_range.1 hl
  rw [dot_comb s w h1 _ l k (by rw [linProd_length, List.length_take, List.length_map]; omega) (by omega),
    Finset.sum_smul]
  exact Finset.sum_congr rfl (fun i _ => by rw [smul_smul])

theorem xOf_injOn {n : Nat} (hc : ∀ i : Nat, 0 < i → i ≤ n → (i : F) ≠ 0) : Set.InjOn (xOf F) (range n : Finset Nat) := by
  intro i hi j hj e
  have hi := Finset.mem_range.1 hi
  have hj := Finset.mem_range.1 hj
  have := cast_inj_of hc (i := i + 1) (j := j + 1) (by omega) (by omega) e
  omega

/-- exactly `t` servers: any values are interpolated -/
theorem postUpdate_exact (w : G1) (n c : Nat) (hn : 1 ≤ n) (hc1 : 1 ≤ c) (hc : ∀ i : Nat, 0 < i → i ≤ n → (i : F) ≠ 0)
    (gD : Nat → Nat → F) (gV : Nat → Nat → G1) (yShares : List (List F)) (hy : yShares.length = n) :
    postUpdate w n yShares ((List.range n).map (xOf F)) (answers n c (fun _ => true) gD gV)
      = .ok (followPieces w
          ((List.range c).map (fun j => ∑ i ∈ range n, lagr (range n) (xOf F) 0 i • gD i j))
          ((List.range c).map (fun j => ∑ i ∈ range n, lagr (range n) (xOf F) 0 i • gV i j))) := by
  have hpoly : ∀ (M : Type) [AddCommGroup M] [Module F M] (f : Nat → M),
      ∃ g : F → M, PolyFn n g ∧ (∀ i < n, f i = g (xOf F i)) ∧ g 0 = ∑ i ∈ range n, lagr (range n) (xOf F) 0 i • f i := by
    intro M _ _ f
    obtain ⟨A, hA1, hA2, hA3⟩ := exists_polyVal (M := M) (range n) (xOf F) (xOf_injOn hc) f
    exact ⟨fun z => polyVal z A, ⟨A, by rw [hA1, card_range], fun _ => rfl⟩,
      fun i hi => (hA3 i (Finset.mem_range.2 hi)).symm, hA2 0⟩
  choose hD hD1 hD2 hD3 using fun j => hpoly F (fun i => gD i j)
  choose hV hV1 hV2 hV3 using fun j => hpoly G1 (fun i => gV i j)
  rw [postUpdate_used w n n c hn hc1 hc (fun _ => true) hD hV hD1 hV1 (by simp) gD gV
    (fun i hi j _ => hD2 j i (by have := List.mem_of_mem_take hi; simpa using this))
    (fun i hi j _ => hV2 j i (by have := List.mem_of_mem_take hi; simpa using this)) (Or.inl rfl) yShares hy,
    loopSpec_pieces]
  simp only [hD3, hV3]

/-- more than `t` servers: an inconsistency of the `d` values of the first chunk is noticed -/
theorem postUpdate_inconsistent (w : G1) (t n c : Nat) (ht : 1 ≤ t) (hn : t + 1 ≤ n) (hc1 : 1 ≤ c)
    (hc : ∀ i : Nat, 0 < i → i ≤ n → (i : F) ≠ 0) (gD : Nat → Nat → F) (gV : Nat → Nat → G1) (yShares : List (List F))
    (hy : yShares.length = n)
    (hne : gD t 0 ≠ ∑ i ∈ range t, lagr (range t) (xOf F) (xOf F t) i • gD i 0) :
    postUpdate w t yShares ((List.range n).map (xOf F)) (answers n c (fun _ => true) gD gV)
      = .ok (.error "malicious server") := by
  have hrs : (List.range n).filter (fun _ => true) = List.range n := List.filter_true _
  have hgp : ∀ (T : Type) (g : Nat → T), GoodPts (t + 1) (sel (F := F) (List.range n) g) := fun T g =>
    goodPts_sel hc (List.range n) List.nodup_range (fun i hi => List.mem_range.1 hi) g (t + 1) (by simpa using hn)
  have hX : ∀ (T : Type) (g : Nat → T), ∀ i ≤ t, ptX (sel (F := F) (List.range n) g) i = xOf F i := by
    intro T g i hi
    rw [ptX_sel _ _ _ (by simp; omega)]; simp
  have hcoef := shamirCoefficients_extra t ht (sel (F := F) (List.range n) (fun i => gD i 0)) (hgp _ _)
  have hgen : ∀ (M : Type) [AddCommGroup M] [Module F M] [DecidableEq M] (f : Nat → M), ∃ r,
      shamirRebuildPoint (sel (List.range n) f)
        ((List.range t).map (lagr (range t) (ptX (sel (F := F) (List.range n) (fun i => gD i 0))) 0))
        (some ((List.range t).map (checkEntry t (t - 1) (ptX (sel (F := F) (List.range n) (fun i => gD i 0)))))) = .ok r ∧
      (f t ≠ ∑ i ∈ range t, lagr (range t) (xOf F) (xOf F t) i • f i → r = none) := by
    intro M _ _ _ f
    refine ⟨_, rebuild_check_general t ht (sel (List.range n) f) (sel (F := F) (List.range n) (fun i => gD i 0)) (hgp _ _)
      (fun i hi => by rw [hX _ _ i hi, hX _ _ i hi]) (by simp [sel]; omega), fun hf => if_neg ?_⟩
    intro h
    apply hf
    rw [hX _ _ 0 (by omega), hX _ _ t le_rfl, ptV_sel _ _ _ (by simp; omega)] at h
    rw [show xOf F 0 = 1 by simp [xOf], one_pow, one_smul] at h
    simp only [List.getElem_range] at h
    rw [h]
    refine Finset.sum_congr rfl (fun i hi => ?_)
    have hi := Finset.mem_range.1 hi
    rw [ptV_sel _ _ _ (by simp; omega), lagr, lagr]
    simp only [List.getElem_range]
    congr 1
    refine Finset.prod_congr rfl (fun j hj => ?_)
    have hj := Finset.mem_range.1 (Finset.mem_of_mem_erase hj)
    rw [hX _ _ i (by omega), hX _ _ j (by omega)]
  choose rD hrD1 hrD2 using fun j => hgen F (fun i => gD i j)
  choose rV hrV1 hrV2 using fun j => hgen G1 (fun i => gV i j)
  have := postUpdate_spec w t n c hc1 (fun _ => true) gD gV ⟨0, by omega, rfl⟩ yShares hy _ _
    (by rw [hrs]; exact hcoef) rD rV (fun j _ => by rw [hrs, rebuildScalar_eq]; exact hrD1 j)
    (fun j _ => by rw [hrs]; exact hrV1 j)
  rw [this]
  obtain ⟨c', rfl⟩ : ∃ c', c = c' + 1 := ⟨c - 1, by omega⟩
  rw [List.range_succ_eq_map, loopSpec, hrD2 0 hne]

/-- the mixed answers -/
theorem mixed_closed (seed : Nat → Nat) (hseed : ∀ d, 1 ≤ d → 1 ≤ seed d) (u : User F G1 G2)
    (e : Nat) (he : u.epoch < e) (s : Server F G1 G2)
    (hlen : s.accumulators.length = s.deletions.length + 1) (servers : List (Server F G1 G2))
    (hs : ∀ s' ∈ servers, s'.accumulators = s.accumulators ∧ s'.deletions = s.deletions)
    (t : Nat) (ht : 2 ≤ t) (hn : t ≤ servers.length) (m : Nat) (hm1 : 1 ≤ m) (hm : m ≤ s.deletions.length) :
    ∃ k, 1 ≤ k ∧ ∀ (r₁ r₂ : Nat → Nat → F) (upd₁ upd₂ : UserUpdate F),
      u.prepareForUpdate seed e servers.length t r₁ = .ok (.ok upd₁) →
      u.prepareForUpdate seed e servers.length t r₂ = .ok (.ok upd₂) →
      upd₂.yShares.length = servers.length ∧ upd₂.yValues = (List.range servers.length).map (xOf F) ∧
      (∃ a, AnsweredBy servers m upd₁ a) ∧ (∃ a, AnsweredBy servers m upd₂ a) ∧
      ∀ (B : Nat → Bool) a₁ a₂, AnsweredBy servers m upd₁ a₁ → AnsweredBy servers m upd₂ a₂ →
        mixAt B a₁ a₂ = answers servers.length (nChunks k m) (fun _ => true)
          (fun i j => dAns (if B i then shVec t k u.id r₂ (xOf F i) else shVec t k u.id r₁ (xOf F i))
            (chunkAt k (s.published m) j))
          (fun i j => vAnsP (if B i then shVec t k u.id r₂ (xOf F i) else shVec t k u.id r₁ (xOf F i))
            (chunkAt k (s.published m) j)) := by
  obtain ⟨k', upd', hk', hk3, -⟩ := prepareForUpdate_ok seed hseed u e servers.length t ht hn he (fun _ _ => (0 : F))
  refine ⟨k' - 1, by omega, fun r₁ r₂ upd₁ upd₂ hp₁ hp₂ => ?_⟩
  obtain ⟨k₁, -, -, -, hc₁, -, h₁⟩ := answered_closed seed hseed u e he s hlen servers hs t ht hn r₁ upd₁ hp₁ m hm1 hm
  obtain ⟨k₂, -, hl₂, hv₂, hc₂, -, h₂⟩ := answered_closed seed hseed u e he s hlen servers hs t ht hn r₂ upd₂ hp₂ m hm1 hm
  have e₁ : k₁ = k' - 1 := by rw [hk'] at hc₁; injection hc₁ with h; omega
  have e₂ : k₂ = k' - 1 := by rw [hk'] at hc₂; injection hc₂ with h; omega
  subst e₁
  rw [e₂] at h₂
  refine ⟨hl₂, hv₂, ⟨_, (h₁ _).2 rfl⟩, ⟨_, (h₂ _).2 rfl⟩, fun B a₁ a₂ ha₁ ha₂ => ?_⟩
  rw [(h₁ _).1 ha₁, (h₂ _).1 ha₂, answers, answers, mixAt_range, answers]
  refine List.map_congr_left (fun i _ => ?_)
  by_cases hB : B i = true
  · simp only [hB, if_true]
  · simp only [hB, if_true]; rfl

/-- **C114** (no session). The state kept between `prepare_for_update` and `post_update` plays no part: two updates
prepared by any users, for any epochs, thresholds and coefficients, but for the same number of servers, can be exchanged when the
answers are processed. -/
theorem C114_session_free (seed seed' : Nat → Nat) (hseed : ∀ d, 1 ≤ d → 1 ≤ seed d) (hseed' : ∀ d, 1 ≤ d → 1 ≤ seed' d)
    (u u' : User F G1 G2) (e e' : Nat) (he : u.epoch < e) (he' : u'.epoch < e') (n t t' : Nat) (ht : 2 ≤ t) (hn : t ≤ n)
    (ht' : 2 ≤ t') (hn' : t' ≤ n) (r r' : Nat → Nat → F) (upd upd' : UserUpdate F)
    (hp : u.prepareForUpdate seed e n t r = .ok (.ok upd)) (hp' : u'.prepareForUpdate seed' e' n t' r' = .ok (.ok upd'))
    (w : G1) (t₀ : Nat) (ans : List (List F × List G1)) :
    postUpdate w t₀ upd.yShares upd.yValues ans = postUpdate w t₀ upd'.yShares upd'.yValues ans := by
  obtain ⟨_, _, -, -, h, -, hv, hl, -⟩ := prepareForUpdate_ok seed hseed u e n t ht hn he r
  obtain ⟨_, _, -, -, h', -, hv', hl', -⟩ := prepareForUpdate_ok seed' hseed' u' e' n t' ht' hn' he' r'
  rw [hp] at h; cases h
  rw [hp'] at h'; cases h'
  unfold postUpdate
  rw [hv, hv', hl, hl']

variable [Fintype F]

theorem le_prob_row {ι Y : Type} [Fintype ι] [DecidableEq ι] [Fintype Y] [Nonempty Y] (l0 : ι) (p : (ι → Y) → Prop)
    (c : ℚ) (h : ∀ x, c ≤ prob (fun y => p (Function.update x l0 y))) : c ≤ prob p := by
  classical
  rw [prob_eq_avg, avg_update l0, avg_comm]
  have : ∀ x : ι → Y, c ≤ avg (fun y : Y => if p (Function.update x l0 y) then (1 : ℚ) else 0) := by
    intro x
    have := h x
    rwa [prob_eq_avg] at this
  exact (avg_const c).symm.le.trans (avg_mono this)

theorem le_prob_not {X : Type} [Fintype X] [Nonempty X] (A B : X → Prop) (c : ℚ) (h : ∀ x, ¬ B x → A x) (hB : prob B ≤ c) :
    1 - c ≤ prob A := by
  classical
  have e : prob (fun _ : X => True) = 1 := by
    rw [prob_eq_avg]; simp only [if_true]; exact avg_const 1
  have := prob_le_add' (A := fun _ : X => True) (B := A) (C := B) (fun x _ => by
    by_cases hx : B x
    · exact Or.inr hx
    · exact Or.inl (h x hx))
  rw [e] at this
  linarith

/-- a mixture is an affine function of the coefficients of one degree -/
theorem mixed_row {t m : Nat} (k : Nat) (id : F) (x : Fin (t - 1) → Fin m → F) (r r₁ : Nat → Nat → F) (l0 : Fin (t - 1))
    (B : Nat → Bool) (row : Fin m → F) (i : Nat) :
    (if B i then shVec t k id (withRows (Function.update x l0 row) r) (xOf F i) else shVec t k id r₁ (xOf F i))
      = (List.range k).map (affVec m (if B i then xOf F i ^ (l0.1 + 1) else 0)
          (if B i then (fun j => polyVal (xOf F i) (sharePoly t (id ^ (j + 1))
            (withRows (Function.update x l0 (fun _ => 0)) r j)))
            else fun j => polyVal (xOf F i) (sharePoly t (id ^ (j + 1)) (r₁ j))) row) := by
  by_cases hB : B i = true
  · simp only [hB, if_true]
    exact shVec_row k id x r l0 row (xOf F i)
  · simp only [hB]
    unfold shVec affVec
    simp

/-- **C114** (more servers than the threshold). `n ≥ t + 1` servers with one log; the coefficients of the first request are
arbitrary, and of the second one those of the first `m` sharing polynomials are drawn at random (`m` being the number of
deletions asked for). The servers in `B` answered the second request, the others the first, and both kinds are
among the first `t + 1`: `post_update` returns "malicious server", with probability at least `1 - 1/|F|`. -/
theorem C114_mixed_detected (s : Server F G1 G2)
    (hlen : s.accumulators.length = s.deletions.length + 1) (servers : List (Server F G1 G2))
    (hs : ∀ s' ∈ servers, s'.accumulators = s.accumulators ∧ s'.deletions = s.deletions)
    (seed : Nat → Nat) (hseed : ∀ d, 1 ≤ d → 1 ≤ seed d) (u : User F G1 G2) (e : Nat) (he : u.epoch < e)
    (t : Nat) (ht : 2 ≤ t) (hn : t + 1 ≤ servers.length)
    (hc : ∀ i : Nat, 0 < i → i ≤ servers.length → (i : F) ≠ 0) (m : Nat) (hm1 : 1 ≤ m) (hm : m ≤ s.deletions.length)
    (w : G1) (r₁ r : Nat → Nat → F) (B : Nat → Bool) (i₁ i₂ : Nat) (h₁ : i₁ ≤ t) (h₂ : i₂ ≤ t) (hB₁ : B i₁ = false)
    (hB₂ : B i₂ = true) :
    1 - 1 / (Nat.card F : ℚ) ≤ prob (fun x : Fin (t - 1) → Fin m → F => ∃ upd₁ upd₂ ans₁ ans₂,
      u.prepareForUpdate seed e servers.length t r₁ = .ok (.ok upd₁) ∧
      u.prepareForUpdate seed e servers.length t (withRows x r) = .ok (.ok upd₂) ∧
      AnsweredBy servers m upd₁ ans₁ ∧ AnsweredBy servers m upd₂ ans₂ ∧
      postUpdate w t upd₂.yShares upd₂.yValues (mixAt B ans₁ ans₂) = .ok (.error "malicious server")) := by
  classical
  obtain ⟨k, hk, hmix⟩ := mixed_closed seed hseed u e he s hlen servers hs t ht (by omega) m hm1 hm
  -- the weights of the check
  set wt : Nat → F := fun i => if i < t then lagr (range t) (xOf F) (xOf F t) i else -1 with hwt
  have hinj := xOf_injOn (F := F) hc
  have hinjt : Set.InjOn (xOf F) (range (t + 1) : Finset Nat) := fun i hi j hj e => by
    have hi := Finset.mem_range.1 hi
    have hj := Finset.mem_range.1 hj
    exact hinj (Finset.mem_coe.2 (Finset.mem_range.2 (by omega))) (Finset.mem_coe.2 (Finset.mem_range.2 (by omega))) e
  have hx0 : ∀ i < t + 1, xOf F i ≠ 0 := fun i hi => hc _ (by omega) (by omega)
  have hinjt' : Set.InjOn (xOf F) (range t : Finset Nat) := hinjt.mono (by
    intro i hi; have := Finset.mem_range.1 hi; exact Finset.mem_coe.2 (Finset.mem_range.2 (by omega)))
  have hw0 : ∀ i < t + 1, wt i ≠ 0 := by
    intro i hi
    simp only [hwt]
    split
    · rename_i h
      refine lagr_ne_zero _ _ hinjt' _ _ (Finset.mem_range.2 h) (fun j hj hji e => ?_)
      have hj := Finset.mem_range.1 hj
      have := hinjt (Finset.mem_coe.2 (Finset.mem_range.2 (by omega : t < t + 1)))
        (Finset.mem_coe.2 (Finset.mem_range.2 (by omega : j < t + 1))) e
      omega
    · simp
  have hchk : ∀ f : Nat → F, (∑ i ∈ range (t + 1), wt i * f i = 0) ↔
      f t = ∑ i ∈ range t, lagr (range t) (xOf F) (xOf F t) i • f i := by
    intro f
    rw [Finset.sum_range_succ]
    have : ∑ i ∈ range t, wt i * f i = ∑ i ∈ range t, lagr (range t) (xOf F) (xOf F t) i • f i :=
      Finset.sum_congr rfl (fun i hi => by simp only [hwt, Finset.mem_range.1 hi, if_true, smul_eq_mul])
    rw [this]
    simp only [hwt, lt_irrefl, if_false]
    constructor
    · intro h; linear_combination -h
    · intro h; linear_combination -h
  have hpow0 : ∀ l < t, ∑ i ∈ range (t + 1), wt i * xOf F i ^ l = 0 := by
    intro l hl
    rw [hchk (fun i => xOf F i ^ l)]
    simp only [smul_eq_mul]
    rw [lagr_pow (range t) (xOf F) hinjt' (xOf F t) l (by simpa using hl)]
  -- some degree at which the second request matters
  have hex : ∃ l < t - 1, ∑ i ∈ (range (t + 1)).filter (fun i => B i = true), wt i * xOf F i ^ (l + 1) ≠ 0 := by
    by_cases hcard : ((range (t + 1)).filter (fun i => B i = true)).card + 1 ≤ t
    · refine exists_power _ (xOf F) (hinjt.mono (by intro i hi; exact (Finset.mem_filter.1 hi).1))
        (fun i hi => hx0 i (Finset.mem_range.1 (Finset.mem_filter.1 hi).1)) t hcard wt i₂
        (Finset.mem_filter.2 ⟨Finset.mem_range.2 (by omega), hB₂⟩) (hw0 i₂ (by omega))
    · have hsum := Finset.card_filter_add_card_filter_not (s := range (t + 1)) (fun i => B i = true)
      rw [card_range] at hsum
      obtain ⟨l, hl, hne⟩ := exists_power ((range (t + 1)).filter (fun i => ¬ B i = true)) (xOf F)
        (hinjt.mono (by intro i hi; exact (Finset.mem_filter.1 hi).1))
        (fun i hi => hx0 i (Finset.mem_range.1 (Finset.mem_filter.1 hi).1)) t (by omega) wt i₁
        (Finset.mem_filter.2 ⟨Finset.mem_range.2 (by omega), by simp [hB₁]⟩) (hw0 i₁ (by omega))
      refine ⟨l, hl, fun h => hne ?_⟩
      have := Finset.sum_filter_add_sum_filter_not (range (t + 1)) (fun i => B i = true)
        (fun i => wt i * xOf F i ^ (l + 1))
      rw [hpow0 (l + 1) (by omega), h, zero_add] at this
      exact this
  obtain ⟨l, hl, hne⟩ := hex
  obtain ⟨k', upd₁, -, -, hp₁, -⟩ := prepareForUpdate_ok seed hseed u e servers.length t ht (by omega) he r₁
  refine le_prob_row (⟨l, hl⟩ : Fin (t - 1)) _ _ (fun x => ?_)
  set P := chunkAt k (s.published m) 0 with hP
  set bi : Nat → F := fun i => if B i then xOf F i ^ (l + 1) else 0 with hbi
  set ci : Nat → Nat → F := fun i => (if B i then (fun j => polyVal (xOf F i) (sharePoly t (u.id ^ (j + 1))
            (withRows (Function.update x (⟨l, hl⟩ : Fin (t - 1)) (fun _ => 0)) r j)))
            else fun j => polyVal (xOf F i) (sharePoly t (u.id ^ (j + 1)) (r₁ j))) with hci
  refine le_prob_not _ (fun row : Fin m → F => ∑ i ∈ range (t + 1), wt i *
    dAns ((List.range k).map (affVec m (bi i) (ci i) row)) P = 0) _ (fun row hrow => ?_) ?_
  · obtain ⟨k₂, upd₂, -, -, hp₂, -⟩ := prepareForUpdate_ok seed hseed u e servers.length t ht (by omega) he
      (withRows (Function.update x (⟨l, hl⟩ : Fin (t - 1)) row) r)
    obtain ⟨hl₂, hv₂, ⟨a₁, ha₁⟩, ⟨a₂, ha₂⟩, hall⟩ := hmix r₁ _ upd₁ upd₂ hp₁ hp₂
    refine ⟨upd₁, upd₂, a₁, a₂, hp₁, hp₂, ha₁, ha₂, ?_⟩
    rw [hall B a₁ a₂ ha₁ ha₂, hv₂]
    refine postUpdate_inconsistent w t servers.length (nChunks k m) (by omega) hn (nChunks_pos _ _ hk hm1) hc _ _ _ hl₂ ?_
    intro h
    apply hrow
    rw [hchk (fun i => dAns ((List.range k).map (affVec m (bi i) (ci i) row)) P)]
    simp only [mixed_row] at h
    exact h
  · have hPl := published_length s hlen m hm
    have h1 := chunkAt_pos k hk (s.published m) 0 (by rw [hPl]; exact nChunks_pos _ _ hk hm1)
    have h2 := chunkAt_le k (s.published m) 0
    rw [hPl, ← hP] at h2
    rw [← hP] at h1
    have key := prob_coord_le (⟨P.length - 1, by omega⟩ : Fin m) 1 (fun row : Fin m → F => ∑ i ∈ range (t + 1), wt i *
      dAns ((List.range k).map (affVec m (bi i) (ci i) row)) P = 0) (fun row S hS => ?_)
    · simpa using key
    · rw [Finset.card_le_one]
      choose ei hei using fun i => dAns_coord P k h1 (chunkAt_length _ _ _) (affVec m (bi i) (ci i) row)
      have hval : ∀ y i, dAns ((List.range k).map (affVec m (bi i) (ci i)
          (Function.update row (⟨P.length - 1, by omega⟩ : Fin m) y))) P
          = (-1) ^ P.length * (bi i * y + ci i (P.length - 1)) + ei i := by
        intro y i
        obtain ⟨u1, u2⟩ := affVec_update m (bi i) (ci i) row (⟨P.length - 1, by omega⟩ : Fin m) y
        rw [hei i _ (fun j hj => u1 j (by simp only; omega))]
        simp only at u2
        rw [u2]
      have hsl : ∑ i ∈ range (t + 1), wt i * bi i
          = ∑ i ∈ (range (t + 1)).filter (fun i => B i = true), wt i * xOf F i ^ (l + 1) := by
        rw [Finset.sum_filter]
        refine Finset.sum_congr rfl (fun i _ => ?_)
        simp only [hbi]
        split <;> simp
      have hlin : ∀ y ∈ S, (-1) ^ P.length * (∑ i ∈ range (t + 1), wt i * bi i) * y
          + ∑ i ∈ range (t + 1), wt i * ((-1) ^ P.length * ci i (P.length - 1) + ei i) = 0 := by
        intro y hy
        have := hS y hy
        simp only [hval] at this
        rw [← this, mul_assoc, Finset.sum_mul, Finset.mul_sum, ← Finset.sum_add_distrib]
        exact Finset.sum_congr rfl (fun i _ => by ring)
      have hne' : (-1) ^ P.length * (∑ i ∈ range (t + 1), wt i * bi i) ≠ 0 := by
        rw [hsl]; exact mul_ne_zero (pow_ne_zero _ (by simp)) hne
      intro y hy y' hy'
      apply mul_left_cancel₀ hne'
      linear_combination hlin y hy - hlin y' hy'

/-- **C114** (exactly the threshold). With exactly `t` servers the mixture is never noticed: `post_update` does not panic
and returns no "malicious server", whatever the coefficients. And if both requests have answers among the `t`, it
returns `Ok` with a witness that does not verify for `V`, with probability at least `1 - 2m/|F|` in the coefficients of
the second request; `V` is any accumulator that is not the identity. -/
theorem C114_mixed_exactly_t (E : Pairing F G1 G2 GT) (params : AccParams G1 G2) (hP : params.p2 ≠ 0)
    (hK : params.k2 ≠ 0) (α sM v : F) (ops : List (Op F)) (s : Server F G1 G2)
    (h : (Server.new params α sM v).run ops = .ok s) (servers : List (Server F G1 G2))
    (hs : ∀ s' ∈ servers, s'.accumulators = s.accumulators ∧ s'.deletions = s.deletions)
    (seed : Nat → Nat) (hseed : ∀ d, 1 ≤ d → 1 ≤ seed d) (u : User F G1 G2)
    (hu : u.publicKeys = s.getPublicKeys) (e : Nat) (he : u.epoch < e)
    (t : Nat) (ht : 2 ≤ t) (hn : servers.length = t)
    (hc : ∀ i : Nat, 0 < i → i ≤ t → (i : F) ≠ 0) (m : Nat)
    (hm1 : 1 ≤ m) (hm : m ≤ s.deletions.length) (w : Witness F G1) (hw : u.witness = some w)
    (V : G1) (hV0 : V ≠ 0) (r₁ r : Nat → Nat → F) (B : Nat → Bool) :
    (∀ r₂ upd₁ upd₂ ans₁ ans₂, u.prepareForUpdate seed e t t r₁ = .ok (.ok upd₁) →
      u.prepareForUpdate seed e t t r₂ = .ok (.ok upd₂) →
      AnsweredBy servers m upd₁ ans₁ → AnsweredBy servers m upd₂ ans₂ →
      postUpdate w.witness t upd₂.yShares upd₂.yValues (mixAt B ans₁ ans₂) = .ok (.error "user has been deleted") ∨
      ∃ W, postUpdate w.witness t upd₂.yShares upd₂.yValues (mixAt B ans₁ ans₂) = .ok (.ok W)) ∧
    ∀ i₁ i₂, i₁ < t → i₂ < t → B i₁ = false → B i₂ = true →
    1 - 2 * (m : ℚ) / Nat.card F ≤ prob (fun x : Fin (t - 1) → Fin m → F => ∃ upd₁ upd₂ ans₁ ans₂ W,
      u.prepareForUpdate seed e t t r₁ = .ok (.ok upd₁) ∧
      u.prepareForUpdate seed e t t (withRows x r) = .ok (.ok upd₂) ∧
      AnsweredBy servers m upd₁ ans₁ ∧ AnsweredBy servers m upd₂ ans₂ ∧
      postUpdate w.witness t upd₂.yShares upd₂.yValues (mixAt B ans₁ ans₂) = .ok (.ok W) ∧
      ({ u with witness := some { w with witness := W } } : User F G1 G2).checkWitness E params V ≠ .ok ()) := by
  classical
  have hlen := accs_length_run params α sM v _ s h
  obtain ⟨k, hk, hmix⟩ := mixed_closed seed hseed u e he s hlen servers hs t ht (by omega) m hm1 hm
  rw [hn] at hmix
  have hc' := nChunks_pos k m hk hm1
  constructor
  · intro r₂ upd₁ upd₂ a₁ a₂ hp₁ hp₂ ha₁ ha₂
    obtain ⟨hl₂, hv₂, -, -, hall⟩ := hmix r₁ r₂ upd₁ upd₂ hp₁ hp₂
    rw [hall B a₁ a₂ ha₁ ha₂, hv₂, postUpdate_exact w.witness t (nChunks k m) (by omega) hc' hc _ _ _ hl₂, followPieces]
    split
    · exact Or.inl rfl
    · exact Or.inr ⟨_, rfl⟩
  · intro i₁ i₂ h₁ h₂ hB₁ hB₂
    have hinj := xOf_injOn (F := F) hc
    have hx0 : ∀ i < t, xOf F i ≠ 0 := fun i hi => hc _ (by omega) (by omega)
    set wt : Nat → F := lagr (range t) (xOf F) 0 with hwt
    have hone : ∑ i ∈ range t, wt i = 1 := by
      have := lagr_pow (range t) (xOf F) hinj 0 0 (by simp; omega)
      simpa using this
    have hcard : ((range t).filter (fun i => B i = true)).card + 1 ≤ t := by
      have hsum := Finset.card_filter_add_card_filter_not (s := range t) (fun i => B i = true)
      rw [card_range] at hsum
      have : 0 < ((range t).filter (fun i => ¬ B i = true)).card :=
        Finset.card_pos.2 ⟨i₁, Finset.mem_filter.2 ⟨Finset.mem_range.2 h₁, by simp [hB₁]⟩⟩
      omega
    obtain ⟨l, hl, hne⟩ := exists_power ((range t).filter (fun i => B i = true)) (xOf F)
      (hinj.mono (by intro i hi; exact (Finset.mem_filter.1 hi).1))
      (fun i hi => hx0 i (Finset.mem_range.1 (Finset.mem_filter.1 hi).1)) t hcard wt i₂
      (Finset.mem_filter.2 ⟨Finset.mem_range.2 h₂, hB₂⟩)
      (lagr_ne_zero _ _ hinj _ _ (Finset.mem_range.2 h₂) (fun j hj _ e => hx0 j (Finset.mem_range.1 hj) e.symm))
    obtain ⟨k', upd₁, -, -, hp₁, -⟩ := prepareForUpdate_ok seed hseed u e t t ht le_rfl he r₁
    refine le_prob_row (⟨l, hl⟩ : Fin (t - 1)) _ _ (fun x => ?_)
    set bi : Nat → F := fun i => if B i then xOf F i ^ (l + 1) else 0 with hbi
    set ci : Nat → Nat → F := fun i => (if B i then (fun j => polyVal (xOf F i) (sharePoly t (u.id ^ (j + 1))
            (withRows (Function.update x (⟨l, hl⟩ : Fin (t - 1)) (fun _ => 0)) r j)))
            else fun j => polyVal (xOf F i) (sharePoly t (u.id ^ (j + 1)) (r₁ j))) with hci
    have hsl : ∑ i ∈ range t, wt i * bi i
        = ∑ i ∈ (range t).filter (fun i => B i = true), wt i * xOf F i ^ (l + 1) := by
      rw [Finset.sum_filter]
      refine Finset.sum_congr rfl (fun i _ => ?_)
      simp only [hbi]
      split <;> simp
    have hcomb : ∀ row : Fin m → F, (fun j => ∑ i ∈ range t, wt i * affVec m (bi i) (ci i) row j)
        = affVec m (∑ i ∈ range t, wt i * bi i) (fun j => ∑ i ∈ range t, wt i * ci i j) row := by
      intro row
      funext j
      simp only [affVec]
      rw [Finset.sum_mul, ← Finset.sum_add_distrib]
      exact Finset.sum_congr rfl (fun i _ => by ring)
    refine (wrong_prob_vec E params hP hK α sM s (keys_run h).1 hlen u hu k hk m hm1 hm w hw V hV0
      (∑ i ∈ range t, wt i * bi i) (by rw [hsl]; exact hne) (fun j => ∑ i ∈ range t, wt i * ci i j)).trans
      (prob_mono' ?_)
    rintro row ⟨W, hW, hbad⟩
    obtain ⟨k₂, upd₂, -, -, hp₂, -⟩ := prepareForUpdate_ok seed hseed u e t t ht le_rfl he
      (withRows (Function.update x (⟨l, hl⟩ : Fin (t - 1)) row) r)
    obtain ⟨hl₂, hv₂, ⟨a₁, ha₁⟩, ⟨a₂, ha₂⟩, hall⟩ := hmix r₁ _ upd₁ upd₂ hp₁ hp₂
    refine ⟨upd₁, upd₂, a₁, a₂, W, hp₁, hp₂, ha₁, ha₂, ?_, hbad⟩
    rw [hall B a₁ a₂ ha₁ ha₂, hv₂, postUpdate_exact w.witness t (nChunks k m) (by omega) hc' hc _ _ _ hl₂, ← hW]
    congr 2
    · refine List.map_congr_left (fun j _ => ?_)
      rw [← hcomb, dAns_comb _ _ hone _ _ (chunkAt_length _ _ _)]
      refine Finset.sum_congr rfl (fun i _ => ?_)
      simp only [mixed_row]
      rfl
    · refine List.map_congr_left (fun j _ => ?_)
      rw [← hcomb, vAnsP_comb _ _ hone _ _ (chunkAt_length _ _ _)]
      refine Finset.sum_congr rfl (fun i _ => ?_)
      simp only [mixed_row]
      rfl

end
/-! ### the hypotheses are met -/

theorem leak_answered (n : Nat) (upd : UserUpdate (ZMod 7)) (ans : List (List (ZMod 7) × List (ZMod 7)))
    (hl : ans.length = n) (h : ∀ i < n, ∃ ys a, upd.yShares[i]? = some ys ∧ ans[i]? = some a ∧ leakSrv.update 2 ys = .ok a) :
    AnsweredBy (List.replicate n leakSrv) 2 upd ans := by
  refine ⟨by simp [hl], fun i s' hi => ?_⟩
  have hlt := (List.getElem?_eq_some_iff.1 hi).1
  rw [List.length_replicate] at hlt
  have hs' : s' = leakSrv := List.eq_of_mem_replicate (List.mem_of_getElem? hi)
  subst hs'
  exact h i hlt

theorem leak_synced (n : Nat) : ∀ s' ∈ List.replicate n leakSrv, s'.accumulators = leakSrv.accumulators ∧
    s'.deletions = leakSrv.deletions := by
  intro s' h
  rw [List.eq_of_mem_replicate h]
  exact ⟨rfl, rfl⟩

/-- Threshold 2; all coefficients 4 in the first request and 5 in the second. Each alone gives the valid witness 3. With the
answer of server 2 taken from the second request, the three servers' answers are refused, and those of two servers give
the witness 4. -/
example : ∃ upd₁ upd₂ ans₁ ans₂, ordUser.prepareForUpdate (fun _ => 1) 3 3 2 (fun _ _ => 4) = .ok (.ok upd₁) ∧
    ordUser.prepareForUpdate (fun _ => 1) 3 3 2 (fun _ _ => 5) = .ok (.ok upd₂) ∧
    AnsweredBy (List.replicate 3 leakSrv) 2 upd₁ ans₁ ∧ AnsweredBy (List.replicate 3 leakSrv) 2 upd₂ ans₂ ∧
    postUpdate (4 : ZMod 7) 2 upd₂.yShares upd₂.yValues ans₁ = .ok (.ok 3) ∧
    postUpdate (4 : ZMod 7) 2 upd₂.yShares upd₂.yValues ans₂ = .ok (.ok 3) ∧
    postUpdate (4 : ZMod 7) 2 upd₂.yShares upd₂.yValues (mixAt (· == 1) ans₁ ans₂) = .ok (.error "malicious server") := by
  refine ⟨⟨2, [[0, 6], [4, 3], [1, 0]], [1, 2, 3]⟩, ⟨2, [[1, 0], [6, 5], [4, 3]], [1, 2, 3]⟩,
    [([1], [6]), ([0], [0]), ([6], [1])], [([6], [1]), ([3], [4]), ([0], [0])], by with_unfolding_all rfl,
    by with_unfolding_all rfl, leak_answered 3 _ _ rfl (fun i hi => ?_), leak_answered 3 _ _ rfl (fun i hi => ?_),
    by with_unfolding_all rfl, by with_unfolding_all rfl, by with_unfolding_all rfl⟩
  · interval_cases i
    · exact ⟨[0, 6], _, rfl, rfl, by with_unfolding_all rfl⟩
    · exact ⟨[4, 3], _, rfl, rfl, by with_unfolding_all rfl⟩
    · exact ⟨[1, 0], _, rfl, rfl, by with_unfolding_all rfl⟩
  · interval_cases i
    · exact ⟨[1, 0], _, rfl, rfl, by with_unfolding_all rfl⟩
    · exact ⟨[6, 5], _, rfl, rfl, by with_unfolding_all rfl⟩
    · exact ⟨[4, 3], _, rfl, rfl, by with_unfolding_all rfl⟩

example : ∃ upd₁ upd₂ ans₁ ans₂, ordUser.prepareForUpdate (fun _ => 1) 3 2 2 (fun _ _ => 4) = .ok (.ok upd₁) ∧
    ordUser.prepareForUpdate (fun _ => 1) 3 2 2 (fun _ _ => 5) = .ok (.ok upd₂) ∧
    AnsweredBy (List.replicate 2 leakSrv) 2 upd₁ ans₁ ∧ AnsweredBy (List.replicate 2 leakSrv) 2 upd₂ ans₂ ∧
    postUpdate (4 : ZMod 7) 2 upd₂.yShares upd₂.yValues (mixAt (· == 1) ans₁ ans₂) = .ok (.ok 4) := by
  refine ⟨⟨2, [[0, 6], [4, 3]], [1, 2]⟩, ⟨2, [[1, 0], [6, 5]], [1, 2]⟩,
    [([1], [6]), ([0], [0])], [([6], [1]), ([3], [4])], by with_unfolding_all rfl,
    by with_unfolding_all rfl, leak_answered 2 _ _ rfl (fun i hi => ?_), leak_answered 2 _ _ rfl (fun i hi => ?_),
    by with_unfolding_all rfl⟩
  · interval_cases i
    · exact ⟨[0, 6], _, rfl, rfl, by with_unfolding_all rfl⟩
    · exact ⟨[4, 3], _, rfl, rfl, by with_unfolding_all rfl⟩
  · interval_cases i
    · exact ⟨[1, 0], _, rfl, rfl, by with_unfolding_all rfl⟩
    · exact ⟨[6, 5], _, rfl, rfl, by with_unfolding_all rfl⟩

/-- C114_session_free: two requests of one user. -/
example (upd upd' : UserUpdate (ZMod 7)) (hp : ordUser.prepareForUpdate (fun _ => 1) 3 3 2 (fun _ _ => 4) = .ok (.ok upd))
    (hp' : ordUser.prepareForUpdate (fun _ => 1) 3 3 2 (fun _ _ => 5) = .ok (.ok upd'))
    (ans : List (List (ZMod 7) × List (ZMod 7))) :
    postUpdate (4 : ZMod 7) 2 upd.yShares upd.yValues ans = postUpdate (4 : ZMod 7) 2 upd'.yShares upd'.yValues ans :=
  C114_session_free (fun _ => 1) (fun _ => 1) (fun _ _ => le_refl _) (fun _ _ => le_refl _) ordUser ordUser 3 3 (by decide)
    (by decide) 3 2 2 le_rfl (by decide) le_rfl (by decide) _ _ upd upd' hp hp' 4 2 ans

/-- C114_mixed_detected: three servers, threshold 2, one answer from the second request: refused with probability at least
`6/7`. C114_mixed_exactly_t: two servers and one deletion, a wrong witness with probability at least `5/7`. -/
example (r₁ r : Nat → Nat → ZMod 7) :
    (6 / 7 : ℚ) ≤ prob (fun x : Fin 1 → Fin 2 → ZMod 7 => ∃ upd₁ upd₂ ans₁ ans₂,
      ordUser.prepareForUpdate (fun _ => 1) 3 3 2 r₁ = .ok (.ok upd₁) ∧
      ordUser.prepareForUpdate (fun _ => 1) 3 3 2 (withRows (t := 2) x r) = .ok (.ok upd₂) ∧
      AnsweredBy (List.replicate 3 leakSrv) 2 upd₁ ans₁ ∧ AnsweredBy (List.replicate 3 leakSrv) 2 upd₂ ans₂ ∧
      postUpdate (4 : ZMod 7) 2 upd₂.yShares upd₂.yValues (mixAt (· == 1) ans₁ ans₂)
        = .ok (.error "malicious server")) ∧
    (5 / 7 : ℚ) ≤ prob (fun x : Fin 1 → Fin 1 → ZMod 7 => ∃ upd₁ upd₂ ans₁ ans₂ W,
      ordUser.prepareForUpdate (fun _ => 1) 3 2 2 r₁ = .ok (.ok upd₁) ∧
      ordUser.prepareForUpdate (fun _ => 1) 3 2 2 (withRows (t := 2) x r) = .ok (.ok upd₂) ∧
      AnsweredBy (List.replicate 2 leakSrv) 1 upd₁ ans₁ ∧ AnsweredBy (List.replicate 2 leakSrv) 1 upd₂ ans₂ ∧
      postUpdate (4 : ZMod 7) 2 upd₂.yShares upd₂.yValues (mixAt (· == 1) ans₁ ans₂) = .ok (.ok W) ∧
      ({ ordUser with witness := some { (⟨0, 4, 2⟩ : Witness (ZMod 7) (ZMod 7)) with witness := W } } :
        User (ZMod 7) (ZMod 7) (ZMod 7)).checkWitness (Pairing.field (ZMod 7)) onePar 5 ≠ .ok ()) := by
  have h1 := C114_mixed_detected leakSrv rfl (List.replicate 3 leakSrv) (leak_synced 3) (fun _ => 1) (fun _ _ => le_refl _)
    ordUser 3 (by decide) 2 le_rfl (by decide) (fun i a b => ord_chars i a (le_trans b (by decide))) 2 (by decide)
    (by decide) 4 r₁ r (· == 1) 0 1 (by decide) (by decide) rfl rfl
  have h2 := (C114_mixed_exactly_t (Pairing.field (ZMod 7)) onePar (by decide) (by decide) 1 1 2 leakOps leakSrv leakSrv_run
    (List.replicate 2 leakSrv) (leak_synced 2) (fun _ => 1) (fun _ _ => le_refl _) ordUser rfl 3 (by decide) 2 le_rfl
    rfl (fun i a b => ord_chars i a (le_trans b (by decide))) 1 le_rfl (by decide) ⟨0, 4, 2⟩ rfl 5 (by decide) r₁ r
    (· == 1)).2 0 1 (by decide) (by decide) rfl rfl
  have e1 : (1 - 1 / (Nat.card (ZMod 7) : ℚ)) = 6 / 7 := by
    rw [Nat.card_eq_fintype_card, ZMod.card]; norm_num
  have e2 : (1 - 2 * ((1 : Nat) : ℚ) / Nat.card (ZMod 7)) = 5 / 7 := by
    rw [Nat.card_eq_fintype_card, ZMod.card]; norm_num
  rw [e1] at h1
  rw [e2] at h2
  exact ⟨h1, h2⟩

end Allo
