import Verif.Lemmas.Update

/-! `Server::update` in closed form. -/

set_option linter.unusedSectionVars false
namespace Allo
open Spec Finset

section
variable {F M : Type} [Field F] [DecidableEq F] [AddCommGroup M] [Module F M]

/-- inner product of coefficients with `q` -/
def dot (p q : List F) : F := ∑ i ∈ range p.length, p.getD i 0 * q.getD i 0

theorem evalOnShares_ok (p ys : List F) (h1 : 1 ≤ p.length) (h2 : p.length ≤ ys.length + 1) :
    Server.evalOnShares p ys = .ok (dot p (1 :: ys)) := by
  unfold Server.evalOnShares
  rw [idx_lt (show 0 < p.length by omega)]
  simp only [bind, Except.bind]
  rw [foldlM_ok _ _ (fun r i => r + p.getD i 0 * ys.getD (i - 1) 0), foldl_range'_add]
  · congr 1
    rw [show p[0] = p.getD 0 0 by simp [show 0 < p.length by omega]]
    obtain ⟨n, hn⟩ : ∃ n, p.length = n + 1 := ⟨p.length - 1, by omega⟩
    rw [dot, hn, sum_range_succ', Nat.add_sub_cancel]
    simp only [List.getD_cons_succ, List.getD_cons_zero, mul_one, Nat.add_sub_cancel]
    rw [add_comm]
  · intro r i hi
    rw [List.mem_range'_1] at hi
    rw [idx_lt (show i < p.length by omega), idx_lt (show i - 1 < ys.length by omega)]
    simp [pure, Except.pure, show i < p.length by omega, show i - 1 < ys.length by omega]

theorem polyVal_eq_dot (y : F) (p : List F) (w : Nat) (h : p.length ≤ w + 1) :
    dot p (1 :: (List.range w).map (fun j => y ^ (j + 1))) = polyVal y p := by
  rw [polyVal_eq_finsum, dot]
  apply sum_congr rfl
  intro i hi
  rw [mem_range] at hi
  cases i with
  | zero => simp
  | succ i =>
    have : i < w := by omega
    simp [this, mul_comm]

/-- the value `Σ dot(∏_{j<i}(l_j - ·)) • V_i` a server computes for one chunk -/
def vAns (ys : List F) (L : List F) (V : Nat → M) : M :=
  ∑ i ∈ range L.length, dot (linProd (L.take i)) (1 :: ys) • V i

theorem chunkPolys_ok (dels : List F) (lo m : Nat) (h : lo + m ≤ dels.length) :
    Server.chunkPolys dels lo (lo + m) = .ok (linProd ((dels.drop lo).take m),
      (List.range m).map (fun i => linProd ((dels.drop lo).take i))) := by
  unfold Server.chunkPolys
  rw [Nat.add_sub_cancel_left]
  induction m with
  | zero => simp [pure, Except.pure, linProd]
  | succ m ih =>
    rw [List.range'_concat, List.foldlM_append, ih (by omega)]
    simp only [List.foldlM_cons, List.foldlM_nil, bind, Except.bind, one_mul]
    rw [idx_lt (show lo + m < dels.length by omega)]
    simp only [pure, Except.pure]
    congr 1
    refine Prod.ext ?_ ?_
    · simp only
      rw [List.take_add_one, List.getElem?_drop, List.getElem?_eq_getElem (by omega)]
      simp [linProd, List.foldl_append]
    · simp only
      rw [List.range_succ, List.map_append]; simp

variable {G1 G2 : Type} [AddCommGroup G1] [Module F G1]

theorem evalPoints_ok (accs : List G1) (start : Nat) (evals : List F)
    (h : start + evals.length ≤ accs.length) :
    Server.evalPoints accs start evals = .ok (∑ i ∈ range evals.length,
      evals.getD i 0 • accs.getD (start + i) 0) := by
  unfold Server.evalPoints
  have key : ∀ (l : List F) (k : Nat) (r : G1), start + k + l.length ≤ accs.length →
      (l.zipIdx k).foldlM (fun vPoint (x : F × Nat) => do
        let a ← idx accs (start + x.2)
        pure (vPoint + x.1 • a)) r
      = (.ok (r + ∑ i ∈ range l.length, l.getD i 0 • accs.getD (start + k + i) 0) : Rust G1) := by
    intro l
    induction l with
    | nil => intro k r _; simp [pure, Except.pure]
    | cons a l ih =>
      intro k r hk
      simp at hk
      rw [List.zipIdx_cons, List.foldlM_cons, idx_lt (show start + k < accs.length by omega)]
      simp only [bind, Except.bind, pure, Except.pure] at ih ⊢
      rw [ih (k + 1) _ (by omega), List.length_cons, sum_range_succ']
      congr 1
      simp only [List.getD_cons_succ, List.getD_cons_zero, add_zero]
      rw [show accs.getD (start + k) 0 = accs[start + k] by simp [show start + k < accs.length by omega]]
      have e : ∀ i, start + (k + 1) + i = start + k + (i + 1) := fun i => by omega
      simp only [e]
      abel
  have := key evals 0 0 (by omega)
  simpa using this

/-- one pass of the loop, on a server whose log and accumulators belong together -/
theorem updateBody_ok (s : Server F G1 G2) (hlen : s.accumulators.length = s.deletions.length + 1)
    (ys : List F) (st : Server.UpdateState F G1) (hst : st.delStart < s.deletions.length)
    (hacc : st.accStart = st.delStart + 1) :
    Server.updateBody s ys st = .ok
      { delStart := st.delStart + ys.length
        accStart := st.accStart + ys.length
        ds := st.ds ++ [dot (linProd ((s.deletions.drop st.delStart).take ys.length)) (1 :: ys)]
        vs := st.vs ++ [vAns ys ((s.deletions.drop st.delStart).take ys.length)
          (fun i => s.accumulators.getD (st.delStart + 1 + i) 0)] } := by
  unfold Server.updateBody
  obtain ⟨m, hm, hmw, hmn⟩ : ∃ m, min (st.delStart + (ys.length + 1) - 1) s.deletions.length
      = st.delStart + m ∧ m ≤ ys.length ∧ (s.deletions.drop st.delStart).take ys.length
        = (s.deletions.drop st.delStart).take m ∧ st.delStart + m ≤ s.deletions.length := by
    by_cases hc : st.delStart + ys.length ≤ s.deletions.length
    · exact ⟨ys.length, by omega, le_rfl, rfl, by omega⟩
    · refine ⟨s.deletions.length - st.delStart, by omega, by omega, ?_, by omega⟩
      rw [List.take_of_length_le (by simp; omega), List.take_of_length_le (by simp)]
  obtain ⟨hmn, hmle⟩ := hmn
  simp only
  rw [hm, chunkPolys_ok _ _ _ hmle]
  simp only [bind, Except.bind]
  have hl : ((s.deletions.drop st.delStart).take m).length = m := by simp; omega
  rw [evalOnShares_ok _ _ (by rw [linProd_length]; omega) (by rw [linProd_length, hl]; omega)]
  simp only
  rw [mapM_ok _ _ (fun p => dot p (1 :: ys))]
  · simp only [List.map_map]
    rw [evalPoints_ok _ _ _ (by simp; omega)]
    simp only [pure, Except.pure, List.length_map, List.length_range, Nat.add_sub_cancel]
    congr 2
    · rw [hmn]
    · congr 2
      rw [hmn, vAns, hl]
      apply sum_congr rfl
      intro i hi
      rw [mem_range] at hi
      congr 1
      · simp only [List.getD_eq_getElem?_getD, List.getElem?_map, List.getElem?_range hi,
          Option.map_some, Option.getD_some, Function.comp, List.take_take]
        rw [Nat.min_eq_left (by omega)]
      · rw [hacc]
  · intro p hp
    obtain ⟨i, hi, rfl⟩ := List.mem_map.1 hp
    rw [List.mem_range] at hi
    have : ((s.deletions.drop st.delStart).take i).length ≤ i := by simp
    exact evalOnShares_ok _ _ (by rw [linProd_length]; omega) (by rw [linProd_length]; omega)

/-- number of chunks -/
def nChunks (w n : Nat) : Nat := (n + w - 1) / w

theorem nChunks_zero (w : Nat) (hw : 1 ≤ w) : nChunks w 0 = 0 := by
  unfold nChunks; exact Nat.div_eq_of_lt (by omega)

theorem nChunks_step (w n : Nat) (hw : 1 ≤ w) (hn : 1 ≤ n) : nChunks w n = nChunks w (n - w) + 1 := by
  unfold nChunks
  by_cases h : w ≤ n
  · rw [← Nat.add_div_right _ (by omega)]
    congr 1; omega
  · have e : n + w - 1 = (n - 1) + w := by omega
    rw [e, Nat.add_div_right _ (by omega), Nat.div_eq_of_lt (show n - 1 < w by omega),
      Nat.div_eq_of_lt (show n - w + w - 1 < w by omega)]

theorem nChunks_le (w n : Nat) (hw : 1 ≤ w) : nChunks w n ≤ n := by
  unfold nChunks
  rcases Nat.eq_zero_or_pos n with rfl | hn
  · rw [Nat.div_eq_of_lt (by omega)]
  · apply Nat.div_le_of_le_mul
    nlinarith [Nat.sub_add_cancel (show 1 ≤ n + w by omega), Nat.mul_le_mul hw hn,
      Nat.mul_le_mul_left n hw, Nat.mul_le_mul_right w hn,
      (show (n - 1) * (w - 1) + n + w = n * w + 1 by
        obtain ⟨a, rfl⟩ : ∃ a, n = a + 1 := ⟨n - 1, by omega⟩
        obtain ⟨b, rfl⟩ : ∃ b, w = b + 1 := ⟨w - 1, by omega⟩
        simp only [Nat.add_sub_cancel]; ring)]

theorem nChunks_pos (w n : Nat) (hw : 1 ≤ w) (hn : 1 ≤ n) : 1 ≤ nChunks w n := by
  rw [nChunks_step w n hw hn]; omega

/-- the loop, in closed form -/
theorem updateLoop_ok (s : Server F G1 G2) (hlen : s.accumulators.length = s.deletions.length + 1)
    (ys : List F) (hys : ys ≠ []) : ∀ fuel (st : Server.UpdateState F G1), st.accStart = st.delStart + 1 →
      nChunks ys.length (s.deletions.length - st.delStart) < fuel →
      ∃ st', whileFuel (fun st => pure (decide (st.delStart < s.deletions.length)))
          (Server.updateBody s ys) fuel st = .ok st' ∧
        st'.ds = st.ds ++ (List.range (nChunks ys.length (s.deletions.length - st.delStart))).map
          (fun j => dot (linProd ((s.deletions.drop (st.delStart + j * ys.length)).take ys.length)) (1 :: ys)) ∧
        st'.vs = st.vs ++ (List.range (nChunks ys.length (s.deletions.length - st.delStart))).map
          (fun j => vAns ys ((s.deletions.drop (st.delStart + j * ys.length)).take ys.length)
            (fun i => s.accumulators.getD (st.delStart + j * ys.length + 1 + i) 0)) := by
  have hw : 1 ≤ ys.length := by
    cases ys with
    | nil => exact absurd rfl hys
    | cons => simp
  intro fuel
  induction fuel with
  | zero => intro st _ h; omega
  | succ fuel ih =>
    intro st hacc hf
    unfold whileFuel
    simp only [bind, Except.bind, pure, Except.pure]
    by_cases hlt : st.delStart < s.deletions.length
    · simp only [hlt, decide_true, if_true]
      rw [updateBody_ok s hlen ys st hlt hacc]
      simp only
      rw [nChunks_step _ _ hw (show 1 ≤ s.deletions.length - st.delStart by omega)] at hf
      have e : s.deletions.length - st.delStart - ys.length
          = s.deletions.length - (st.delStart + ys.length) := by omega
      rw [e] at hf
      obtain ⟨st', h1, h2, h3⟩ := ih
        { delStart := st.delStart + ys.length
          accStart := st.accStart + ys.length
          ds := st.ds ++ [dot (linProd ((s.deletions.drop st.delStart).take ys.length)) (1 :: ys)]
          vs := st.vs ++ [vAns ys ((s.deletions.drop st.delStart).take ys.length)
            (fun i => s.accumulators.getD (st.delStart + 1 + i) 0)] }
        (by simp only; omega) (by simp only; omega)
      refine ⟨st', h1, ?_, ?_⟩
      · rw [h2, nChunks_step _ _ hw (show 1 ≤ s.deletions.length - st.delStart by omega), e,
          List.range_succ_eq_map, List.map_cons, List.map_map]
        simp only [List.append_assoc, List.singleton_append, zero_mul, add_zero]
        congr 2
        apply List.map_congr_left
        intro j _
        simp only [Function.comp]
        rw [show st.delStart + ys.length + j * ys.length = st.delStart + (j + 1) * ys.length by ring]
      · rw [h3, nChunks_step _ _ hw (show 1 ≤ s.deletions.length - st.delStart by omega), e,
          List.range_succ_eq_map, List.map_cons, List.map_map]
        simp only [List.append_assoc, List.singleton_append, zero_mul, add_zero]
        congr 2
        apply List.map_congr_left
        intro j _
        simp only [Function.comp]
        rw [show st.delStart + ys.length + j * ys.length = st.delStart + (j + 1) * ys.length by ring]
    · have e : s.deletions.length - st.delStart = 0 := by omega
      refine ⟨st, by simp [hlt], ?_, ?_⟩ <;> rw [e, nChunks_zero _ hw] <;> simp

/-- `Server::update`, in closed form -/
theorem update_closed (s : Server F G1 G2) (hlen : s.accumulators.length = s.deletions.length + 1)
    (n : Nat) (hn : n ≤ s.deletions.length) (ys : List F) (hys : ys ≠ []) (fuel : Nat)
    (hf : n < fuel) :
    Server.updateFuel fuel s n ys = .ok
      ((List.range (nChunks ys.length n)).map (fun j =>
        dot (linProd ((s.deletions.drop (s.deletions.length - n + j * ys.length)).take ys.length)) (1 :: ys)),
       (List.range (nChunks ys.length n)).map (fun j =>
        vAns ys ((s.deletions.drop (s.deletions.length - n + j * ys.length)).take ys.length)
          (fun i => s.accumulators.getD (s.deletions.length - n + j * ys.length + 1 + i) 0))) := by
  have hw : 1 ≤ ys.length := by
    cases ys with
    | nil => exact absurd rfl hys
    | cons => simp
  unfold Server.updateFuel
  rw [if_neg (by omega)]
  simp only
  rw [usub_le hn, usub_le (show n ≤ s.accumulators.length by omega)]
  simp only [bind, Except.bind]
  have hc := nChunks_le ys.length n hw
  obtain ⟨st', h1, h2, h3⟩ := updateLoop_ok s hlen ys hys fuel
    { delStart := s.deletions.length - n, accStart := s.accumulators.length - n, ds := [], vs := [] }
    (by simp only; omega)
    (by simp only; rw [show s.deletions.length - (s.deletions.length - n) = n by omega]; omega)
  simp only [show s.deletions.length - (s.deletions.length - n) = n by omega, List.nil_append] at h2 h3
  rw [h1]
  simp only [pure, Except.pure]
  rw [h2, h3]

/-! ### following the published log one deletion at a time -/

/-- `C ← (C - V)/(d - y)` for each published (deletion, new accumulator) -/
def followLog (y : F) (log : List (F × M)) (C : M) : M :=
  log.foldl (fun C p => (p.1 - y)⁻¹ • (C - p.2)) C

theorem followLog_cons (y : F) (p : F × M) (log : List (F × M)) (C : M) :
    followLog y (p :: log) C = followLog y log ((p.1 - y)⁻¹ • (C - p.2)) := rfl

theorem followLog_append (y : F) (l l' : List (F × M)) (C : M) :
    followLog y (l ++ l') C = followLog y l' (followLog y l C) := by
  simp [followLog, List.foldl_append]

/-- what a server answers for one piece of the published log -/
def dAns (ys : List F) (P : List (F × M)) : F := dot (linProd (P.map (·.1))) (1 :: ys)

def vAnsP (ys : List F) (P : List (F × M)) : M :=
  ∑ i ∈ range P.length, dot (linProd ((P.map (·.1)).take i)) (1 :: ys) • (P.map (·.2)).getD i 0

/-- piece `j` of width `w` -/
def chunkAt {α : Type} (w : Nat) (l : List α) (j : Nat) : List α := (l.drop (j * w)).take w

/-- the last `n` published pairs (deleted element, accumulator after it) -/
def Server.published (s : Server F G1 G2) (n : Nat) : List (F × G1) :=
  (s.deletions.zip (s.accumulators.drop 1)).drop (s.deletions.length - n)

theorem published_length (s : Server F G1 G2) (hlen : s.accumulators.length = s.deletions.length + 1)
    (n : Nat) (hn : n ≤ s.deletions.length) : (s.published n).length = n := by
  simp [Server.published, hlen]; omega

theorem published_fst (s : Server F G1 G2) (hlen : s.accumulators.length = s.deletions.length + 1)
    (n : Nat) : (s.published n).map (·.1) = s.deletions.drop (s.deletions.length - n) := by
  unfold Server.published
  rw [List.map_drop, List.map_fst_zip (by simp; omega)]

theorem published_snd (s : Server F G1 G2) (hlen : s.accumulators.length = s.deletions.length + 1)
    (n : Nat) : (s.published n).map (·.2) = s.accumulators.drop (1 + (s.deletions.length - n)) := by
  unfold Server.published
  rw [List.map_drop, List.map_snd_zip (by simp; omega), List.drop_drop]

/-- `Server::update` in terms of the published log -/
theorem update_published (s : Server F G1 G2) (hlen : s.accumulators.length = s.deletions.length + 1)
    (n : Nat) (hn : n ≤ s.deletions.length) (ys : List F) (hys : ys ≠ []) (fuel : Nat)
    (hf : n < fuel) :
    Server.updateFuel fuel s n ys = .ok
      ((List.range (nChunks ys.length n)).map (fun j => dAns ys (chunkAt ys.length (s.published n) j)),
       (List.range (nChunks ys.length n)).map (fun j => vAnsP ys (chunkAt ys.length (s.published n) j))) := by
  rw [update_closed s hlen n hn ys hys fuel hf]
  have h1 : ∀ j, (chunkAt ys.length (s.published n) j).map (·.1)
      = (s.deletions.drop (s.deletions.length - n + j * ys.length)).take ys.length := by
    intro j
    rw [chunkAt, List.map_take, List.map_drop, published_fst s hlen, List.drop_drop]
  have h2 : ∀ j, (chunkAt ys.length (s.published n) j).map (·.2)
      = (s.accumulators.drop (s.deletions.length - n + j * ys.length + 1)).take ys.length := by
    intro j
    rw [chunkAt, List.map_take, List.map_drop, published_snd s hlen, List.drop_drop]
    congr 2; omega
  congr 2
  · apply List.map_congr_left
    intro j _
    rw [dAns, h1]
  · apply List.map_congr_left
    intro j _
    rw [vAns, vAnsP, h1, h2, ← h1, List.length_map]
    apply sum_congr rfl
    intro i hi
    rw [mem_range] at hi
    congr 1
    have : i < ys.length := by
      have : (chunkAt ys.length (s.published n) j).length ≤ ys.length := by simp [chunkAt]
      omega
    rw [List.getD_eq_getElem?_getD, List.getD_eq_getElem?_getD, List.getElem?_take, if_pos this,
      List.getElem?_drop]

/-- a piece in one step -/
theorem chunk_follow (y : F) (P : List (F × M)) (hy : y ∉ P.map (·.1)) (C : M) :
    (prodMinus y (P.map (·.1)))⁻¹ • (C - ∑ i ∈ range P.length,
      prodMinus y ((P.map (·.1)).take i) • (P.map (·.2)).getD i 0) = followLog y P C := by
  induction P generalizing C with
  | nil => simp [followLog]
  | cons p P ih =>
    simp only [List.map_cons, List.mem_cons, not_or] at hy
    rw [followLog_cons, ← ih hy.2]
    have hne : p.1 - y ≠ 0 := sub_ne_zero.2 (Ne.symm hy.1)
    rw [List.length_cons, sum_range_succ', List.map_cons, prodMinus_cons, mul_inv, mul_comm, mul_smul]
    congr 1
    simp only [List.take_succ_cons, prodMinus_cons, List.take_zero, prodMinus_nil, one_smul,
      List.map_cons, List.getD_cons_succ, List.getD_cons_zero]
    rw [sum_congr rfl (fun i _ => mul_smul (p.1 - y) (prodMinus y ((P.map (·.1)).take i))
      ((P.map (·.2)).getD i 0)), ← smul_sum]
    rw [← sub_sub, sub_right_comm, smul_sub, smul_smul (p.1 - y)⁻¹, inv_mul_cancel₀ hne, one_smul]

/-- the pieces one after the other are the whole log -/
theorem followLog_chunks (y : F) (w : Nat) (hw : 1 ≤ w) (log : List (F × M)) (C : M) :
    (List.range (nChunks w log.length)).foldl (fun C j => followLog y (chunkAt w log j) C) C
      = followLog y log C := by
  induction h : log.length using Nat.strong_induction_on generalizing log C with
  | _ n ih =>
    rcases Nat.eq_zero_or_pos n with rfl | hn
    · rw [nChunks_zero w hw]
      rw [List.length_eq_zero_iff.1 h]; rfl
    · rw [nChunks_step w n hw hn, List.range_succ_eq_map, List.foldl_cons, List.foldl_map]
      have := ih (n - w) (by omega) (log.drop w) (followLog y (log.take w) C) (by simp [h])
      have e : ∀ j, chunkAt w log (j + 1) = chunkAt w (log.drop w) j := by
        intro j
        rw [chunkAt, chunkAt, List.drop_drop]
        congr 2; ring
      simp only [Nat.succ_eq_add_one, e]
      rw [show chunkAt w log 0 = log.take w by simp [chunkAt], this, ← followLog_append,
        List.take_append_drop]

theorem mem_chunkAt {α : Type} (w : Nat) (hw : 1 ≤ w) (l : List α) (a : α) :
    a ∈ l ↔ ∃ j < nChunks w l.length, a ∈ chunkAt w l j := by
  induction h : l.length using Nat.strong_induction_on generalizing l with
  | _ n ih =>
    rcases Nat.eq_zero_or_pos n with rfl | hn
    · rw [nChunks_zero w hw, List.length_eq_zero_iff.1 h]; simp
    · rw [nChunks_step w n hw hn]
      have e : ∀ j, chunkAt w l (j + 1) = chunkAt w (l.drop w) j := by
        intro j
        rw [chunkAt, chunkAt, List.drop_drop]
        congr 2; ring
      have e0 : chunkAt w l 0 = l.take w := by simp [chunkAt]
      have hi := ih (n - w) (by omega) (l.drop w) (by simp [h])
      have hm : a ∈ l ↔ a ∈ l.take w ∨ a ∈ l.drop w := by
        rw [← List.mem_append, List.take_append_drop]
      rw [hm, hi]
      constructor
      · rintro (h0 | ⟨j, hj, hj'⟩)
        · exact ⟨0, by omega, by rwa [e0]⟩
        · exact ⟨j + 1, by omega, by rwa [e]⟩
      · rintro ⟨j, hj, hj'⟩
        cases j with
        | zero => exact Or.inl (by rwa [e0] at hj')
        | succ j => exact Or.inr ⟨j, by omega, by rwa [e] at hj'⟩

/-! ### the answers are values of polynomials of degree `< t` -/

theorem dot_polyFn (t w : Nat) (ht : 1 ≤ t) (id : F) (rand : Nat → Nat → F) (p : List F) :
    PolyFn t (fun z : F => dot p (1 :: shVec t w id rand z)) := by
  unfold dot
  apply PolyFn.sum ht
  intro j _
  cases j with
  | zero => simpa using PolyFn.const t ht _
  | succ j =>
    simp only [List.getD_cons_succ]
    by_cases hj : j < w
    · have : (fun z : F => p.getD (j + 1) 0 * (shVec t w id rand z).getD j 0)
          = fun z => p.getD (j + 1) 0 • polyVal z (sharePoly t (id ^ (j + 1)) (rand j)) := by
        funext z
        simp [shVec, hj]
      rw [this]
      exact (sharePoly_polyFn t ht _ _).const_smul _
    · have : (fun z : F => p.getD (j + 1) 0 * (shVec t w id rand z).getD j 0) = fun _ => 0 := by
        funext z
        simp [shVec, hj]
      rw [this]
      exact PolyFn.const t ht 0

theorem shVec_zero (t w : Nat) (id : F) (rand : Nat → Nat → F) :
    shVec t w id rand 0 = (List.range w).map (fun j => id ^ (j + 1)) := by
  unfold shVec
  apply List.map_congr_left
  intro j _
  rw [sharePoly_zero]

theorem dAns_polyFn (t w : Nat) (ht : 1 ≤ t) (id : F) (rand : Nat → Nat → F) (P : List (F × M)) :
    PolyFn t (fun z : F => dAns (shVec t w id rand z) P) := dot_polyFn t w ht id rand _

theorem vAnsP_polyFn (t w : Nat) (ht : 1 ≤ t) (id : F) (rand : Nat → Nat → F) (P : List (F × M)) :
    PolyFn t (fun z : F => vAnsP (shVec t w id rand z) P) := by
  unfold vAnsP
  apply PolyFn.sum ht
  intro j _
  exact (dot_polyFn t w ht id rand _).smul _

theorem dAns_powers (y : F) (w : Nat) (P : List (F × M)) (h : P.length ≤ w) :
    dAns ((List.range w).map (fun j => y ^ (j + 1))) P = prodMinus y (P.map (·.1)) := by
  rw [dAns, polyVal_eq_dot y _ w (by rw [linProd_length, List.length_map]; omega), linProd_val]

theorem vAnsP_powers (y : F) (w : Nat) (P : List (F × M)) (h : P.length ≤ w) :
    vAnsP ((List.range w).map (fun j => y ^ (j + 1))) P = ∑ i ∈ range P.length,
      prodMinus y ((P.map (·.1)).take i) • (P.map (·.2)).getD i 0 := by
  unfold vAnsP
  apply sum_congr rfl
  intro i _
  rw [polyVal_eq_dot y _ w (by rw [linProd_length, List.length_take, List.length_map]; omega), linProd_val]

theorem chunkAt_length {α : Type} (w : Nat) (l : List α) (j : Nat) : (chunkAt w l j).length ≤ w := by
  simp [chunkAt]

end
end Allo
