import Verif.Model.Release
import Verif.Props.Communication
import Verif.Props.UpdateServer
import Verif.Props.Update

/-!
# C73: release builds (wrapping arithmetic) never return anything the checked build would not

Sizes: a `Vec` holds at most `isize::MAX` bytes and a scalar has 32 bytes, so the vectors of a server have
fewer than `2^58` entries; epochs are lengths of such vectors.
-/

set_option linter.unusedSectionVars false
set_option linter.unusedVariables false
set_option linter.unusedSimpArgs false
namespace Allo
open Spec Finset User

theorem wadd_eq {a b : Nat} (h : a + b < 2 ^ 64) : wadd a b = a + b := Nat.mod_eq_of_lt h
theorem wmul_eq {a b : Nat} (h : a * b < 2 ^ 64) : wmul a b = a * b := Nat.mod_eq_of_lt h
theorem wsub_eq {a b : Nat} (h : b ≤ a) (ha : a < 2 ^ 64) : wsub a b = a - b := by
  unfold wsub
  rw [show a + (2 ^ 64 - b) = (a - b) + 2 ^ 64 by omega, Nat.add_mod_right]
  exact Nat.mod_eq_of_lt (by omega)
theorem wsub_lt_eq {a b : Nat} (h : a < b) (hb : b ≤ 2 ^ 64) : wsub a b = 2 ^ 64 - (b - a) := by
  unfold wsub
  rw [show a + (2 ^ 64 - b) = 2 ^ 64 - (b - a) by omega]
  exact Nat.mod_eq_of_lt (by omega)

/-! ### the chunk-size search -/

theorem chunkCondRel_eq {d k : Nat} (hd : d ≤ 2 ^ 61) (hk : 1 ≤ k) (hk' : k ≤ 2 ^ 34) :
    chunkCondRel d k = chunkCond d k := by
  unfold chunkCondRel chunkCond
  rw [wadd_eq (by omega), wsub_eq (by omega) (by omega), wmul_eq (by omega), wmul_eq (by omega),
    usub_le (by omega)]
  rfl

theorem chunkSizeRel_eq (d : Nat) (hd : 1 ≤ d) (hd' : d ≤ 2 ^ 61) (fuel : Nat) (hf : d + 6 ≤ fuel) :
    ∃ k, chunkSize d (seedF64 d) = .ok k ∧ chunkSizeFuelRel fuel d (seedF64 d) = .ok k ∧ 3 ≤ k ∧ k ≤ 2 ^ 33 := by
  obtain ⟨k, h1, h2, h3, h4, h5, h6, h7⟩ := C32_chunk_size d (seedF64 d) hd (C64_seed_pos.1 d hd)
  obtain ⟨k', hk', hfit, hleast⟩ := C64_rounding_harmless d hd (by omega)
  have hkk : k' = k := by rw [h1] at hk'; exact (Except.ok.inj hk').symm
  subst hkk
  have hk33 : k' ≤ 2 ^ 33 := by
    refine hleast _ ?_
    rw [show (2 : Nat) ^ 33 = (2 ^ 33 - 1) + 1 by norm_num, fits_iff d _ hd]
    norm_num at hd' ⊢
    omega
  refine ⟨k', h1, ?_, h3, hk33⟩
  rw [← h7 fuel hf]
  have hfit' : chunkCond d k' = .ok false := by
    have hu : usub (d + k') 1 = .ok (d + k' - 1) := usub_le (by omega)
    simp only [chunkCond, hu, udiv, bind, Except.bind, pure, Except.pure]
    rw [if_neg (by omega : k' ≠ 0)]
    have := hfit.2
    simp; omega
  have loop : ∀ fuel j, 1 ≤ j → j ≤ k' →
      whileFuel (chunkCondRel d) (fun k => pure (wadd k 1)) fuel j
        = whileFuel (chunkCond d) (fun k => pure (k + 1)) fuel j := by
    intro fuel
    induction fuel with
    | zero => intro j _ _; rfl
    | succ fuel ih =>
      intro j hj1 hjk
      simp only [whileFuel]
      rw [chunkCondRel_eq hd' hj1 (by omega)]
      rcases Nat.lt_or_ge j k' with hlt | hge
      · rw [wadd_eq (by omega)]
        have := ih (j + 1) (by omega) (by omega)
        simp only [bind, Except.bind, pure, Except.pure] at this ⊢
        rw [this]
      · have : j = k' := by omega
        subst this
        rw [hfit']
        simp [bind, Except.bind]
  exact loop fuel (seedF64 d) (C64_seed_pos.1 d hd) h2

theorem f64_ge (x : ℝ) (h : 0 < x) : x * (1 - (2 : ℝ) ^ (-53 : ℤ)) ≤ f64 x := by
  have := (abs_le.1 (C64_f64_error x h)).1
  linarith

/-- from `2^63` on the seed is at least `2^32` -/
theorem seedF64_large (d : Nat) (hd : 2 ^ 63 ≤ d) : 2 ^ 32 ≤ seedF64 d := by
  have h1 : (2 : ℝ) ^ 63 ≤ d := by exact_mod_cast hd
  have hε : 1 - (2 : ℝ) ^ (-53 : ℤ) ≥ 0.99 := by norm_num
  set δ : ℝ := 1 - (2 : ℝ) ^ (-53 : ℤ) with hδ
  have e1 : (2 : ℝ) ^ 63 * 0.99 ≤ f64 d :=
    (mul_le_mul h1 hε (by norm_num) (by linarith [h1, pow_pos (two_pos : (0 : ℝ) < 2) 63])).trans
      (f64_ge d (by linarith [pow_pos (two_pos : (0 : ℝ) < 2) 63]))
  have p : (0 : ℝ) < f64 d * 2.5 := by
    have : (0 : ℝ) < 2 ^ 63 * 0.99 := by norm_num
    linarith
  have e2 : (2 : ℝ) ^ 63 * 0.99 * 2.5 * 0.99 ≤ f64 (f64 d * 2.5) :=
    (mul_le_mul (by linarith) hε (by norm_num) p.le).trans (f64_ge _ p)
  have e3 : (2 : ℝ) ^ 32 * 1.05 ≤ Real.sqrt (f64 (f64 d * 2.5)) := by
    apply Real.le_sqrt_of_sq_le
    refine le_trans ?_ e2
    norm_num
  have p3 : (0 : ℝ) < Real.sqrt (f64 (f64 d * 2.5)) := by
    have : (0 : ℝ) < 2 ^ 32 * 1.05 := by norm_num
    linarith
  have e4 : (2 : ℝ) ^ 32 * 1.05 * 0.99 ≤ f64 (Real.sqrt (f64 (f64 d * 2.5))) :=
    (mul_le_mul e3 hε (by norm_num) p3.le).trans (f64_ge _ p3)
  apply Nat.le_floor
  refine le_trans ?_ e4
  norm_num

theorem seedF64_small (d : Nat) (hd : 1 ≤ d) (hd' : d < 2 ^ 64) : seedF64 d ≤ 2 ^ 34 := by
  have h := seedF64_le d hd hd'
  have hd2 : (d : ℝ) ≤ 2 ^ 64 := by exact_mod_cast hd'.le
  have : Real.sqrt (2.5 * d) ≤ 2 ^ 33 := by
    rw [Real.sqrt_le_left (by positivity)]
    nlinarith
  have h2 : (seedF64 d : ℝ) ≤ 2 ^ 34 := by
    refine h.trans ?_
    have : (2 : ℝ) ^ 33 + 1 / 2 ≤ 2 ^ 34 := by norm_num
    linarith
  exact_mod_cast h2

/-- a wrapped-around distance: the search stops at the seed -/
theorem chunkSizeRel_large (d : Nat) (hd : 2 ^ 63 ≤ d) (hd' : d < 2 ^ 64) (fuel : Nat) (hf : 1 ≤ fuel) :
    chunkSizeFuelRel fuel d (seedF64 d) = .ok (seedF64 d) := by
  obtain ⟨fuel, rfl⟩ : ∃ f, fuel = f + 1 := ⟨fuel - 1, by omega⟩
  have h1 := seedF64_large d hd
  have h2 := seedF64_small d (by omega) hd'
  have hc : chunkCondRel d (seedF64 d) = .ok false := by
    unfold chunkCondRel
    simp only [udiv, bind, Except.bind, pure, Except.pure]
    rw [if_neg (by omega : seedF64 d ≠ 0), wmul_eq (by omega : 2 * seedF64 d < 2 ^ 64)]
    have hlt : wmul 5 (wsub (wadd d (seedF64 d)) 1) < 2 ^ 64 := Nat.mod_lt _ (by norm_num)
    have : wmul 5 (wsub (wadd d (seedF64 d)) 1) / seedF64 d ≤ 2 ^ 32 := by
      refine Nat.div_le_of_le_mul ?_
      nlinarith
    simp; omega
  unfold chunkSizeFuelRel
  simp only [whileFuel, hc, bind, Except.bind, pure, Except.pure]
  rfl

section
variable {F G1 G2 GT : Type} [Field F] [DecidableEq F] [AddCommGroup G1] [Module F G1] [DecidableEq G1]
  [AddCommGroup G2] [Module F G2] [AddCommGroup GT] [Module F GT] [DecidableEq GT]

/-! ### the server -/

theorem evalPointsRel_eq (accs : List G1) (start : Nat) (evals : List F)
    (h : start + evals.length < 2 ^ 64) :
    Server.evalPointsRel accs start evals = Server.evalPoints accs start evals := by
  unfold Server.evalPoints Server.evalPointsRel
  have key : ∀ (l : List F) (k : Nat) (r : G1), start + k + l.length < 2 ^ 64 →
      (l.zipIdx k).foldlM (fun vPoint (x : F × Nat) => do
        let a ← idx accs (wadd start x.2)
        pure (vPoint + x.1 • a)) r
      = ((l.zipIdx k).foldlM (fun vPoint (x : F × Nat) => do
        let a ← idx accs (start + x.2)
        pure (vPoint + x.1 • a)) r : Rust G1) := by
    intro l
    induction l with
    | nil => intro k r _; rfl
    | cons a l ih =>
      intro k r hk
      simp only [List.length_cons] at hk
      rw [List.zipIdx_cons, List.foldlM_cons, List.foldlM_cons, wadd_eq (by simp only; omega)]
      congr 1
      funext r'
      exact ih (k + 1) r' (by omega)
  exact key evals 0 0 (by omega)

/-- what one pass has computed before it reads the accumulators -/
theorem chunk_evals (s : Server F G1 G2) (ys : List F) (lo : Nat) (hlo : lo ≤ s.deletions.length) :
    ∃ m, min (lo + ys.length) s.deletions.length = lo + m ∧ m ≤ ys.length ∧
      (m = 0 → ys.length = 0 ∨ lo = s.deletions.length) ∧
      Server.chunkPolys s.deletions lo (lo + m) = .ok (linProd ((s.deletions.drop lo).take m),
        (List.range m).map (fun i => linProd ((s.deletions.drop lo).take i))) ∧
      Server.evalOnShares (linProd ((s.deletions.drop lo).take m)) ys
        = .ok (dot (linProd ((s.deletions.drop lo).take m)) (1 :: ys)) ∧
      ((List.range m).map (fun i => linProd ((s.deletions.drop lo).take i))).mapM
        (fun v => Server.evalOnShares v ys)
        = .ok ((List.range m).map (fun i => dot (linProd ((s.deletions.drop lo).take i)) (1 :: ys))) := by
  obtain ⟨m, hm, hmw, hmle, h0⟩ : ∃ m, min (lo + ys.length) s.deletions.length = lo + m ∧ m ≤ ys.length ∧
      lo + m ≤ s.deletions.length ∧ (m = 0 → ys.length = 0 ∨ lo = s.deletions.length) := by
    refine ⟨min (lo + ys.length) s.deletions.length - lo, by omega, by omega, by omega, by omega⟩
  refine ⟨m, hm, hmw, h0, chunkPolys_ok _ _ _ hmle, ?_, ?_⟩
  · have hl : ((s.deletions.drop lo).take m).length = m := by simp; omega
    rw [evalOnShares_ok _ _ (by rw [linProd_length]; omega) (by rw [linProd_length, hl]; omega)]
  · rw [mapM_ok _ _ (fun p => dot p (1 :: ys))]
    · simp [List.map_map, Function.comp_def]
    · intro p hp
      obtain ⟨i, hi, rfl⟩ := List.mem_map.1 hp
      have hi' := List.mem_range.1 hi
      have hl : ((s.deletions.drop lo).take i).length = i := by simp; omega
      rw [evalOnShares_ok _ _ (by rw [linProd_length]; omega) (by rw [linProd_length, hl]; omega)]

theorem updateBodyRel_eq (s : Server F G1 G2) (ys : List F) (st : Server.UpdateState F G1)
    (hs : s.deletions.length < 2 ^ 60) (hy : ys.length < 2 ^ 60) (hst : st.delStart < s.deletions.length)
    (hacc : st.accStart < 2 ^ 61) :
    Server.updateBodyRel s ys st = Server.updateBody s ys st := by
  obtain ⟨m, hm, hmw, -, h1, h2, h3⟩ := chunk_evals s ys st.delStart hst.le
  have hmd : m < 2 ^ 60 := by omega
  unfold Server.updateBodyRel Server.updateBody
  simp only
  rw [wadd_eq (by omega : ys.length + 1 < 2 ^ 64), wadd_eq (by omega), wsub_eq (by omega) (by omega),
    wsub_eq (by omega) (by omega), wadd_eq (by omega), wadd_eq (by omega),
    show st.delStart + (ys.length + 1) - 1 = st.delStart + ys.length by omega, hm, h1]
  simp only [bind, Except.bind]
  rw [h2]
  simp only
  rw [h3]
  simp only
  rw [evalPointsRel_eq _ _ _ (by simp; omega)]

theorem whileFuel_congr {σ : Type} (cond : σ → Rust Bool) (b₁ b₂ : σ → Rust σ) (I : σ → Prop)
    (h : ∀ st, I st → cond st = .ok true → b₁ st = b₂ st ∧ ∀ st', b₂ st = .ok st' → I st') (fuel : Nat) :
    ∀ st, I st → whileFuel cond b₁ fuel st = whileFuel cond b₂ fuel st := by
  induction fuel with
  | zero => intro st _; simp only [whileFuel]
  | succ fuel ih =>
    intro st hst
    simp only [whileFuel, bind, Except.bind]
    cases hc : cond st with
    | error e => rfl
    | ok b =>
      cases b with
      | false => rfl
      | true =>
        obtain ⟨h1, h2⟩ := h st hst hc
        simp only [if_true, h1]
        cases hb : b₂ st with
        | error e => rfl
        | ok st' => exact ih st' (h2 st' hb)

theorem updateLoopRel_eq (s : Server F G1 G2) (ys : List F) (c : Nat)
    (hs : s.deletions.length < 2 ^ 60) (hc : c < 2 ^ 60) (hy : ys.length < 2 ^ 60) (fuel : Nat)
    (st : Server.UpdateState F G1) (hst : st.accStart + s.deletions.length = st.delStart + c) :
      whileFuel (fun st => pure (decide (st.delStart < s.deletions.length))) (Server.updateBodyRel s ys) fuel st
        = whileFuel (fun st => pure (decide (st.delStart < s.deletions.length))) (Server.updateBody s ys)
            fuel st := by
  apply whileFuel_congr _ _ _ (fun st => st.accStart + s.deletions.length = st.delStart + c) ?_ fuel st hst
  intro st hst hcond
  have hlt : st.delStart < s.deletions.length := by simpa [pure, Except.pure] using hcond
  refine ⟨updateBodyRel_eq s ys st hs hy hlt (by omega), ?_⟩
  intro st' hb
  obtain ⟨m, hm, hmw, -, h1, h2, h3⟩ := chunk_evals s ys st.delStart hlt.le
  have : st'.delStart = st.delStart + ys.length ∧ st'.accStart = st.accStart + ys.length := by
    unfold Server.updateBody at hb
    simp only at hb
    rw [show st.delStart + (ys.length + 1) - 1 = st.delStart + ys.length by omega, hm, h1] at hb
    simp only [bind, Except.bind, h2, h3] at hb
    cases he : Server.evalPoints s.accumulators st.accStart
        ((List.range m).map (fun i => dot (linProd ((s.deletions.drop st.delStart).take i)) (1 :: ys))) with
    | error e => rw [he] at hb; cases hb
    | ok v =>
      rw [he] at hb
      simp only [pure, Except.pure, Except.ok.injEq] at hb
      subst hb
      simp
  omega

/-- a server whose accumulator vector is at least as long as the number of epochs asked for (every server made
by `new` and calls): both builds agree in every respect. -/
theorem updateRel_eq (s : Server F G1 G2) (n : Nat) (ys : List F) (hs : s.deletions.length < 2 ^ 60)
    (ha : s.accumulators.length < 2 ^ 60) (hy : ys.length < 2 ^ 60) (hn : n ≤ s.accumulators.length) :
    s.updateRel n ys = s.update n ys := by
  unfold Server.updateRel Server.update Server.updateFuelRel Server.updateFuel
  by_cases h : n > s.deletions.length
  · rw [if_pos h, if_pos h]
  · rw [if_neg h, if_neg h]
    simp only [bind, Except.bind]
    rw [usub_le (by omega)]
    simp only
    rw [usub_le (by omega)]
    simp only
    rw [wsub_eq (by omega) (by omega), wsub_eq (by omega) (by omega),
      updateLoopRel_eq s ys s.accumulators.length hs ha hy _ _ (by simp only; omega)]

theorem evalPointsRel_index (accs : List G1) (start : Nat) (evals : List F) (h0 : evals ≠ [])
    (h : accs.length ≤ start) (hs : start < 2 ^ 64) :
    Server.evalPointsRel accs start evals = .error .index := by
  cases evals with
  | nil => exact absurd rfl h0
  | cons a l =>
    unfold Server.evalPointsRel
    rw [List.zipIdx_cons, List.foldlM_cons]
    simp only [bind, Except.bind]
    rw [wadd_eq (by simpa using hs), idx_ge (by simpa using h)]

/-- with an accumulator index out of bounds a pass panics, or (without shares) changes no index -/
theorem updateBodyRel_out (s : Server F G1 G2) (ys : List F) (st : Server.UpdateState F G1)
    (hs : s.deletions.length < 2 ^ 60) (hy : ys.length < 2 ^ 60) (hst : st.delStart < s.deletions.length)
    (hacc : s.accumulators.length ≤ st.accStart) (hacc' : st.accStart < 2 ^ 64) :
    (∃ e, Server.updateBodyRel s ys st = .error e) ∨
    ∃ st', Server.updateBodyRel s ys st = .ok st' ∧ st'.delStart = st.delStart ∧ st'.accStart = st.accStart := by
  obtain ⟨m, hm, hmw, hm0, g1, g2, g3⟩ := chunk_evals s ys st.delStart hst.le
  unfold Server.updateBodyRel
  simp only
  rw [wadd_eq (by omega : ys.length + 1 < 2 ^ 64), wadd_eq (by omega : st.delStart + _ < 2 ^ 64),
    wsub_eq (by omega) (by omega), wsub_eq (by omega) (by omega),
    show st.delStart + (ys.length + 1) - 1 = st.delStart + ys.length by omega, hm, g1,
    Nat.add_sub_cancel]
  simp only [bind, Except.bind]
  rw [g2]
  simp only
  rw [g3]
  simp only
  rcases Nat.eq_zero_or_pos m with rfl | hmp
  · have hy0 : ys.length = 0 := by rcases hm0 rfl with h | h <;> omega
    right
    rw [hy0, wadd_eq (by omega), wadd_eq (by omega)]
    exact ⟨_, rfl, rfl, rfl⟩
  · left
    refine ⟨.index, ?_⟩
    rw [evalPointsRel_index _ _ _ (by simp; omega) hacc hacc']

theorem whileFuel_stuck {σ : Type} (cond : σ → Rust Bool) (b : σ → Rust σ) (I : σ → Prop)
    (h : ∀ st, I st → cond st = .ok true ∧ ((∃ e, b st = .error e) ∨ ∃ st', b st = .ok st' ∧ I st'))
    (fuel : Nat) : ∀ st, I st → ∃ e, whileFuel cond b fuel st = .error e := by
  induction fuel with
  | zero => intro st _; exact ⟨.diverge, by simp only [whileFuel]⟩
  | succ fuel ih =>
    intro st hst
    obtain ⟨h1, h2⟩ := h st hst
    simp only [whileFuel, bind, Except.bind, h1, if_true]
    rcases h2 with ⟨e, he⟩ | ⟨st', he, h3⟩
    · exact ⟨e, by rw [he]⟩
    · rw [he]
      exact ih st' h3

theorem updateLoopRel_out (s : Server F G1 G2) (ys : List F)
    (hs : s.deletions.length < 2 ^ 60) (hy : ys.length < 2 ^ 60) (fuel : Nat)
    (st : Server.UpdateState F G1) (h : st.delStart < s.deletions.length ∧
      s.accumulators.length ≤ st.accStart ∧ st.accStart < 2 ^ 64) :
      ∃ e, whileFuel (fun st => pure (decide (st.delStart < s.deletions.length)))
        (Server.updateBodyRel s ys) fuel st = .error e := by
  apply whileFuel_stuck _ _ (fun st => st.delStart < s.deletions.length ∧
      s.accumulators.length ≤ st.accStart ∧ st.accStart < 2 ^ 64) ?_ fuel st h
  rintro st ⟨h1, h2, h3⟩
  refine ⟨by simp [pure, Except.pure, h1], ?_⟩
  rcases updateBodyRel_out s ys st hs hy h1 h2 h3 with h | ⟨st', h4, h5, h6⟩
  · exact .inl h
  · exact .inr ⟨st', h4, by rw [h5]; exact h1, by rw [h6]; exact h2, by rw [h6]; exact h3⟩

/-- C73 (server). On every server state — also one read back with more deletions than accumulators — a release
build of `Server::update` returns a value exactly if the checked build does, and the same one. -/
theorem C73_server (s : Server F G1 G2) (n : Nat) (ys : List F) (hs : s.deletions.length < 2 ^ 60)
    (ha : s.accumulators.length < 2 ^ 60) (hy : ys.length < 2 ^ 60) (r : List F × List G1) :
    s.updateRel n ys = .ok r ↔ s.update n ys = .ok r := by
  by_cases hn : n ≤ s.accumulators.length
  · rw [updateRel_eq s n ys hs ha hy hn]
  · by_cases h : n > s.deletions.length
    · unfold Server.updateRel Server.update Server.updateFuelRel Server.updateFuel
      rw [if_pos h, if_pos h]
    · have h1 : s.update n ys = .error .overflow := by
        unfold Server.update Server.updateFuel
        rw [if_neg h]
        simp only [bind, Except.bind]
        rw [usub_le (by omega)]
        simp only [usub]
        rw [if_neg (by omega)]
      have h2 : ∃ e, s.updateRel n ys = .error e := by
        obtain ⟨e, he⟩ := updateLoopRel_out s ys hs hy (s.deletions.length + 1)
          { delStart := s.deletions.length - n, accStart := 2 ^ 64 - (n - s.accumulators.length), ds := [], vs := [] }
          ⟨by simp only; omega, by simp only; omega, by simp only; omega⟩
        refine ⟨e, ?_⟩
        unfold Server.updateRel Server.updateFuelRel
        rw [if_neg h]
        simp only [bind, Except.bind]
        rw [wsub_eq (by omega) (by omega), wsub_lt_eq (by omega) (by omega)]
        rw [he]
      obtain ⟨e, h2⟩ := h2
      rw [h1, h2]
      simp

/-! ### the user -/

theorem shareVectorsRel_eq (id : F) (n t k : Nat) (ht : 1 ≤ t) (hk : 2 ≤ k) (hk' : k < 2 ^ 64)
    (rand : Nat → Nat → F) : shareVectorsRel id n t k rand = shareVectors id n t k rand := by
  unfold shareVectorsRel shareVectors
  rw [wsub_eq (by omega) hk']
  rw [usub_le (by omega)]
  rfl

/-- C73 (user, first message). For a user behind the servers the release build of `prepare_for_update` returns
what the checked one returns. -/
theorem C73_prepare (u : User F G1 G2) (newEpoch n t : Nat) (he : u.epoch < newEpoch) (hb : newEpoch < 2 ^ 60)
    (fuel : Nat) (hf : 2 ^ 60 + 6 ≤ fuel) (rand : Nat → Nat → F) :
    u.prepareForUpdateRel fuel newEpoch n t rand = u.prepareForUpdate seedF64 newEpoch n t rand := by
  unfold prepareForUpdateRel prepareForUpdate
  by_cases h1 : n < t
  · rw [if_pos h1, if_pos h1]
  rw [if_neg h1, if_neg h1]
  by_cases h2 : t ≤ 1
  · rw [if_pos h2, if_pos h2]
  rw [if_neg h2, if_neg h2, usub_le he.le]
  simp only [bind, Except.bind, pure, Except.pure]
  rw [wsub_eq he.le (by omega)]
  obtain ⟨k, g1, g2, g3, g4⟩ := chunkSizeRel_eq (newEpoch - u.epoch) (by omega) (by omega) fuel (by omega)
  rw [g1, g2]
  simp only
  rw [shareVectorsRel_eq _ _ _ _ (by omega) (by omega) (by omega)]

/-- C73 (user, no new epoch). A release build panics too, on the division by zero. -/
theorem C73_no_new_epoch (u : User F G1 G2) (hw : u.witness ≠ none) (s0 : Server F G1 G2)
    (rest : List (Server F G1 G2)) (t : Nat) (ht : 2 ≤ t) (hn : t ≤ (s0 :: rest).length)
    (he : u.epoch = s0.getEpoch) (hb : u.epoch < 2 ^ 64) (fuel : Nat) (hf : 1 ≤ fuel) (rand : Nat → Nat → F) :
    u.updateRel fuel (s0 :: rest) t rand = .error .divZero := by
  obtain ⟨fuel, rfl⟩ : ∃ f, fuel = f + 1 := ⟨fuel - 1, by omega⟩
  obtain ⟨w, hw⟩ := Option.ne_none_iff_exists'.1 hw
  unfold updateRel
  rw [hw]
  simp only [idx_lt (show 0 < (s0 :: rest).length by simp), List.getElem_cons_zero, bind, Except.bind]
  unfold prepareForUpdateRel
  rw [if_neg (by omega), if_neg (by omega), ← he, wsub_eq le_rfl hb, Nat.sub_self]
  simp only
  rw [C64_seed_pos.2]
  simp only [chunkSizeFuelRel, whileFuel, chunkCondRel, udiv, bind, Except.bind, pure, Except.pure, if_true]

/-- C73 (user, first message, epoch ahead of the servers). A release build does not notice: it returns shares
for a distance of `2^64 - (epoch - new_epoch)` epochs, more than `2^32 - 2` powers for every server. -/
theorem C73_prepare_future (u : User F G1 G2) (newEpoch n t : Nat) (ht : 2 ≤ t) (hn : t ≤ n)
    (he : newEpoch < u.epoch) (hb : u.epoch < 2 ^ 63) (fuel : Nat) (hf : 1 ≤ fuel) (rand : Nat → Nat → F) :
    ∃ upd, u.prepareForUpdateRel fuel newEpoch n t rand = .ok (.ok upd) ∧
      upd.epochDiff = 2 ^ 64 - (u.epoch - newEpoch) ∧ upd.yShares.length = n ∧ upd.yValues.length = n ∧
      ∀ ys ∈ upd.yShares, 2 ^ 32 - 1 ≤ ys.length := by
  have hd := wsub_lt_eq he (by omega)
  have hl := seedF64_large (2 ^ 64 - (u.epoch - newEpoch)) (by omega)
  have hsm := seedF64_small (2 ^ 64 - (u.epoch - newEpoch)) (by omega) (by omega)
  have hk := chunkSizeRel_large (2 ^ 64 - (u.epoch - newEpoch)) (by omega) (by omega) fuel hf
  set k := seedF64 (2 ^ 64 - (u.epoch - newEpoch)) with hkd
  refine ⟨⟨2 ^ 64 - (u.epoch - newEpoch),
    (List.range n).map (fun i => shVec t (k - 1) u.id rand ((i + 1 : Nat) : F)),
    (List.range n).map (fun i => ((i + 1 : Nat) : F))⟩, ?_, rfl, by simp, by simp, ?_⟩
  · unfold prepareForUpdateRel
    rw [if_neg (by omega), if_neg (by omega), hd]
    simp only [bind, Except.bind, pure, Except.pure]
    rw [← hkd, hk]
    simp only
    rw [shareVectorsRel_eq _ _ _ _ (by omega) (by omega) (by omega),
      shareVectors_ok u.id n t k (by omega) (by omega)]
  · intro ys hys
    obtain ⟨i, _, rfl⟩ := List.mem_map.1 hys
    simp [shVec]
    omega

/-- C73 (user, epoch ahead of the servers). The release build of `update` panics, if memory lasts that long: all
servers answer with empty vectors and `post_update` indexes an empty vector. -/
theorem C73_future_epoch (u : User F G1 G2) (hw : u.witness ≠ none) (s0 : Server F G1 G2)
    (rest : List (Server F G1 G2)) (t : Nat) (ht : 2 ≤ t) (hn : t ≤ (s0 :: rest).length)
    (he : s0.getEpoch < u.epoch) (hb : u.epoch < 2 ^ 63)
    (hsz : ∀ s ∈ s0 :: rest, s.deletions.length < 2 ^ 60) (fuel : Nat) (hf : 1 ≤ fuel)
    (rand : Nat → Nat → F) : u.updateRel fuel (s0 :: rest) t rand = .error .index := by
  obtain ⟨w, hw⟩ := Option.ne_none_iff_exists'.1 hw
  obtain ⟨upd, hp, h1, h2, h3, -⟩ := C73_prepare_future u s0.getEpoch (s0 :: rest).length t ht hn he hb fuel hf rand
  unfold updateRel
  rw [hw]
  simp only [idx_lt (show 0 < (s0 :: rest).length by simp), List.getElem_cons_zero, bind, Except.bind]
  rw [hp]
  simp only
  rw [mapM_ok (List.range (s0 :: rest).length) _ (fun _ => (([] : List F), ([] : List G1)))]
  · simp only [postUpdate]
    have hc : collect upd.yShares.length upd.yValues
        ((List.range (s0 :: rest).length).map (fun _ => (([] : List F), ([] : List G1)))) = .ok ([], []) := by
      unfold collect
      rw [h2]
      have : ∀ l : List Nat, (∀ i ∈ l, i < (s0 :: rest).length) →
          l.foldlM (fun (st : List (List (F × F)) × List (List (F × G1))) i => do
            let dc ← collectStep upd.yValues (((List.range (s0 :: rest).length).map
              (fun _ => (([] : List F), ([] : List G1)))).map (·.1)) st.1 i
            let vc ← collectStep upd.yValues (((List.range (s0 :: rest).length).map
              (fun _ => (([] : List F), ([] : List G1)))).map (·.2)) st.2 i
            pure (dc, vc)) ([], []) = (.ok ([], []) : Rust _) := by
        intro l
        induction l with
        | nil => intro _; rfl
        | cons i l ih =>
          intro hl
          have hi := hl i (by simp)
          have a1 : ∀ (T : Type) (l' : List (List T)), l'.length = (s0 :: rest).length → (∀ a ∈ l', a = []) →
              collectStep upd.yValues l' [] i = .ok [] := by
            intro T l' hl' ha
            unfold collectStep
            rw [idx_lt (by omega), ha _ (List.getElem_mem _)]
            rfl
          rw [List.foldlM_cons, a1 _ _ (by simp) (by simp), a1 _ _ (by simp) (by simp)]
          exact ih (fun j hj => hl j (by simp [hj]))
      exact this _ (fun i hi => List.mem_range.1 hi)
    rw [hc]
    rfl
  · intro i hi
    have hi' := List.mem_range.1 hi
    rw [idx_lt hi', idx_lt (by omega)]
    simp only [bind, Except.bind]
    unfold Server.updateRel Server.updateFuelRel
    have := hsz _ (List.getElem_mem hi')
    rw [if_pos (by omega)]
    rfl

theorem ok_bind {α β : Type} (a : α) (f : α → Rust β) : ((Except.ok a : Rust α) >>= f) = f a := rfl

theorem bind_ok_iff {α β : Type} (x y : Rust α) (f : α → Rust β) (h : ∀ r, x = .ok r ↔ y = .ok r) (r : β) :
    (x >>= f) = .ok r ↔ (y >>= f) = .ok r := by
  cases x with
  | ok a => rw [(h a).1 rfl]
  | error e =>
    cases y with
    | ok a => exact absurd ((h a).2 rfl) (by simp)
    | error e' => simp [bind, Except.bind]

theorem mapM_ok_iff {α β : Type} (f g : α → Rust β) (l : List α) (h : ∀ a ∈ l, ∀ r, f a = .ok r ↔ g a = .ok r) :
    ∀ r, l.mapM f = .ok r ↔ l.mapM g = .ok r := by
  induction l with
  | nil => intro r; rfl
  | cons a l ih =>
    intro r
    rw [List.mapM_cons, List.mapM_cons]
    have hl := ih (fun b hb => h b (by simp [hb]))
    have ha := h a (by simp)
    cases hf : f a with
    | ok b =>
      rw [(ha b).1 hf]
      exact bind_ok_iff _ _ _ hl r
    | error e =>
      cases hg : g a with
      | ok b => rw [(ha b).2 hg] at hf; cases hf
      | error e' => simp [bind, Except.bind]

/-- C73. For every user, every list of servers (with vectors of fewer than `2^60` entries), every threshold and
all random values: a release build of `User::update` returns a result exactly if the checked build does, and
the same result. Nothing is ever computed from a wrapped-around number. -/
theorem C73_update (u : User F G1 G2) (servers : List (Server F G1 G2)) (t : Nat)
    (hb : u.epoch < 2 ^ 63) (hsz : ∀ s ∈ servers, s.deletions.length < 2 ^ 60 ∧ s.accumulators.length < 2 ^ 60)
    (fuel : Nat) (hf : 2 ^ 60 + 6 ≤ fuel) (rand : Nat → Nat → F) (r : User F G1 G2 × Except String Unit) :
    u.updateRel fuel servers t rand = .ok r ↔ u.update seedF64 servers t rand = .ok r := by
  cases hw : u.witness with
  | none => simp only [updateRel, update, hw]
  | some w =>
    cases servers with
    | nil => simp [updateRel, update, hw, idx, bind, Except.bind]
    | cons s0 rest =>
      have hs0 := hsz s0 (by simp)
      by_cases hthr : (s0 :: rest).length < t ∨ t ≤ 1
      · have a : u.prepareForUpdateRel fuel s0.getEpoch (s0 :: rest).length t rand
            = .ok (.error "invalid threshold") := by
          unfold prepareForUpdateRel
          by_cases h1 : (s0 :: rest).length < t
          · rw [if_pos h1]; rfl
          · rw [if_neg h1, if_pos (by tauto)]; rfl
        have b : u.prepareForUpdate seedF64 s0.getEpoch (s0 :: rest).length t rand
            = .ok (.error "invalid threshold") := by
          unfold prepareForUpdate
          by_cases h1 : (s0 :: rest).length < t
          · rw [if_pos h1]; rfl
          · rw [if_neg h1, if_pos (by tauto)]; rfl
        unfold updateRel update
        rw [hw]
        simp only [idx_lt (show 0 < (s0 :: rest).length by simp), List.getElem_cons_zero, bind, Except.bind]
        rw [a, b]
      · have hne : u.witness ≠ none := by rw [hw]; simp
        rcases lt_trichotomy u.epoch s0.getEpoch with he | he | he
        · -- behind the servers
          have hep : s0.getEpoch < 2 ^ 60 := hs0.2
          have hp := C73_prepare u s0.getEpoch (s0 :: rest).length t he hep fuel hf rand
          obtain ⟨k, upd, hk, hk3, hpo, hed, hyv, hyl, hysl, hys, -⟩ := prepareForUpdate_ok seedF64 C64_seed_pos.1 u
            s0.getEpoch (s0 :: rest).length t (by omega) (by omega) he rand
          obtain ⟨k', g1, -, -, g4⟩ := chunkSizeRel_eq (s0.getEpoch - u.epoch) (by omega) (by omega)
            (2 ^ 60 + 6) (by omega)
          have hkk : k' = k := by rw [hk] at g1; exact (Except.ok.inj g1).symm
          subst hkk
          unfold updateRel update
          rw [hw]
          simp only [idx_lt (show 0 < (s0 :: rest).length by simp), List.getElem_cons_zero, ok_bind]
          rw [hp, hpo]
          simp only [ok_bind]
          refine bind_ok_iff _ _ _ (mapM_ok_iff _ _ _ ?_) r
          intro i hi' dv
          have hi := List.mem_range.1 hi'
          have hzz := hsz _ (List.getElem_mem hi)
          have hyy : (upd.yShares[i]'(by omega)).length < 2 ^ 60 := by
            rw [hysl _ (List.getElem_mem _)]; omega
          rw [idx_lt hi, idx_lt (by omega)]
          exact C73_server ((s0 :: rest)[i]) upd.epochDiff (upd.yShares[i]'(by omega)) hzz.1 hzz.2 hyy dv
        · rw [C73_no_new_epoch u hne s0 rest t (by omega) (by omega) he (by omega) fuel (by omega) rand,
            C28_no_new_epoch_panics seedF64 C64_seed_pos.2 u hne s0 rest t (by omega) (by omega) he rand]
          simp
        · rw [C73_future_epoch u hne s0 rest t (by omega) (by omega) he hb (fun s hs => (hsz s hs).1) fuel
              (by omega) rand,
            C28_future_epoch_panics seedF64 u hne s0 rest t (by omega) (by omega) he rand]
          simp

/-- C73 (C25 for release builds). With honest servers a release build updates every user that has not been
deleted to a witness that verifies. -/
theorem C73_honest_update (E : Pairing F G1 G2 GT) (params : AccParams G1 G2) (hP : params.p2 ≠ 0)
    (hK : params.k2 ≠ 0) (α sM v : F) (ops₁ ops₂ : List (Server.Op F))
    (h₁ : ∀ op ∈ ops₁, op.isQuick = false) (h₂ : ∀ op ∈ ops₂, op.isDelete = false)
    (srv : Server F G1 G2) (h : (Server.new params α sM v).run (ops₁ ++ ops₂) = .ok srv)
    (hsize : srv.getEpoch < 2 ^ 60) (servers : List (Server F G1 G2))
    (hs : ∀ s' ∈ servers, s'.accumulators = srv.accumulators ∧ s'.deletions = srv.deletions)
    (t : Nat) (ht : 2 ≤ t) (hn : t ≤ servers.length) (hc : ∀ i, 0 < i → i ≤ servers.length → (i : F) ≠ 0)
    (u : User F G1 G2) (hu : u.publicKeys = srv.getPublicKeys) (he1 : 1 ≤ u.epoch)
    (he2 : u.epoch < srv.getEpoch) (Ve : G1) (hVe : srv.accumulators[u.epoch - 1]? = some Ve)
    (hw : u.checkWitness E params Ve = .ok ()) (hid : u.id ∉ srv.deletions.drop (u.epoch - 1))
    (fuel : Nat) (hf : 2 ^ 60 + 6 ≤ fuel) (rand : Nat → Nat → F) :
    ∃ u' V, srv.getAccumulator = .ok V ∧ u.updateRel fuel servers t rand = .ok (u', .ok ()) ∧
      u'.checkWitness E params V = .ok () ∧ u'.accumulator = V ∧ u'.id = u.id ∧
      u'.publicKeys = u.publicKeys := by
  obtain ⟨u', V, a1, a2, a3⟩ := C25_update E params hP hK α sM v ops₁ ops₂ h₁ h₂ srv h servers hs t ht hn hc
    seedF64 C64_seed_pos.1 u hu he1 he2 Ve hVe hw hid rand
  have hlen := accs_length_run params α sM v (ops₁ ++ ops₂) srv h
  refine ⟨u', V, a1, (C73_update u servers t (by omega) ?_ fuel hf rand _).2 a2, a3⟩
  intro s' hs'
  obtain ⟨b1, b2⟩ := hs s' hs'
  have : srv.accumulators.length < 2 ^ 60 := hsize
  rw [b1, b2]
  omega

end

/-- A concrete case of the honest update in a release build, and of an epoch ahead of the servers. -/
example (rand : Nat → Nat → ℚ) (fuel : Nat) (hf : 2 ^ 60 + 6 ≤ fuel) :
    ∃ srv u₁ V, (Server.new exParams 4 9 6).run exPre = .ok srv ∧ srv.getAccumulator = .ok V ∧
      exUser.updateRel fuel [srv, srv, srv] 2 rand = .ok (u₁, .ok ()) ∧
      u₁.checkWitness (Pairing.field ℚ) exParams V = .ok () ∧
      ({ exUser with epoch := 99 } : User ℚ ℚ ℚ).updateRel fuel [srv, srv, srv] 2 rand = .error .index := by
  obtain ⟨srv, srv', h1, h2, h3, h4, h5, h6⟩ := exUpdateRun
  have hkeys := (keys_run h1).1
  have hep : srv.getEpoch = 2 := by simp [Server.getEpoch, h3]
  obtain ⟨u₁, V, a1, a2, a3, -⟩ := C73_honest_update (Pairing.field ℚ) exParams
    (by norm_num [exParams]) (by norm_num [exParams]) 4 9 6 exPre [] (by decide) (by simp) srv
    (by rw [List.append_nil]; exact h1) (by rw [hep]; norm_num)
    [srv, srv, srv] (by simp) 2 le_rfl (by simp) (fun i hi _ => by exact_mod_cast hi.ne') exUser
    (by rw [Server.getPublicKeys, hkeys]; norm_num [exUser, exParams, Server.new]) (by norm_num [exUser])
    (by rw [hep]; norm_num [exUser]) 6 (by rw [h3]; rfl) exUser_ok (by rw [h4]; norm_num [exUser]) fuel hf rand
  refine ⟨srv, u₁, V, h1, a1, a2, a3, ?_⟩
  exact C73_future_epoch _ (by simp [exUser]) srv [srv, srv] 2 le_rfl (by simp) (by rw [hep]; norm_num)
    (by norm_num) (by simp [h4]) fuel (by omega) rand

end Allo
