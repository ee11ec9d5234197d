import Verif.Model.CostAcc
import Verif.Props.Cost
import Verif.Props.Accumulator

/-!
# C117: the work of the accumulator's batch functions

How many group and field operations the manager of the accumulator and the holders of its witnesses perform.
-/

set_option linter.unusedSectionVars false
set_option linter.unusedVariables false
set_option linter.unusedSimpArgs false
namespace Allo
open Counted

section
variable {F G1 : Type} [Field F] [DecidableEq F] [AddCommGroup G1] [Module F G1] [DecidableEq G1]

theorem prodFold_meas (l : List F) (a : F) :
    Meas (l.foldlM (fun a y => fmulC a y) a) (pure (l.foldl (fun a y => a * y) a)) (fun _ o => o = { fmul := l.length }) := by
  have e : (pure (l.foldl (fun a y => a * y) a) : Rust F) = l.foldlM (fun a y => pure (a * y)) a := by
    rw [List.foldlM_pure]
  rw [e]
  refine Meas.foldlM' (fun l _ o => o = { fmul := l.length }) _ _ ?_ rfl
  rintro pre x s o rfl
  refine (Meas.tick _ _).mono ?_
  rintro a o - rfl
  ext <;> simp

theorem batchAdditions_meas (sk : F) (l : List F) :
    Meas (batchAdditionsC sk l) (pure (batchAdditions sk l)) (fun _ o => o = { fmul := l.length }) := by
  refine (prodFold_meas (l.map (fun v => v + sk)) 1).mono ?_
  rintro a o - rfl
  simp

theorem batchDeletions_meas (sk : F) (l : List F) :
    Meas (batchDeletionsC sk l) (batchDeletions sk l) (fun _ o => o = { fmul := l.length, finv := 1 }) := by
  unfold batchDeletionsC batchDeletions
  show Meas _ (pure (batchAdditions sk l) >>= fun p => inv! p) _
  refine (batchAdditions_meas sk l).bind ?_
  rintro p o - rfl
  refine (Meas.tick _ _).mono ?_
  rintro a o - rfl
  ext <;> simp

theorem mapM_pure_map {α β : Type} (f : α → β) (l : List α) : (pure (l.map f) : Rust (List β)) = l.mapM (fun a => pure (f a)) := by
  induction l with
  | nil => rfl
  | cons a l ih =>
    rw [List.mapM_cons, ← ih]
    rfl

theorem polyScale_meas (p : List F) (c : F) :
    Meas (polyScaleC p c) (pure (polyScale p c)) (fun _ o => o = { fmul := p.length }) := by
  unfold polyScaleC polyScale
  rw [mapM_pure_map]
  refine (Meas.mapM' (fun l o => o = { fmul := l.length }) p ?_ rfl).mono ?_
  · rintro pre x o - rfl
    refine (Meas.tick _ _).mono ?_
    rintro a o - rfl
    ext <;> simp
  · rintro a o - ⟨-, h⟩
    exact h

theorem pg1Scale_meas (p : List G1) (c : F) :
    Meas (pg1ScaleC p c) (pure (pg1Scale p c)) (fun _ o => o = { pmul := p.length }) := by
  unfold pg1ScaleC pg1Scale
  rw [mapM_pure_map]
  refine (Meas.mapM' (fun l o => o = { pmul := l.length }) p ?_ rfl).mono ?_
  · rintro pre x o - rfl
    refine (Meas.tick _ _).mono ?_
    rintro a o - rfl
    ext <;> simp
  · rintro a o - ⟨-, h⟩
    exact h

theorem pg1Add_meas (p q : List G1) :
    Meas (pg1AddC p q) (pure (pg1Add p q)) (fun _ o => o = { padd := min p.length q.length }) := by
  unfold pg1AddC pg1Add
  dsimp only
  generalize (if p.length = min p.length q.length then p ++ q.drop (min p.length q.length) else p) = s
  have e : (pure ((List.range (min p.length q.length)).foldl (fun s i => s.modify i (· + q.getD i 0)) s) : Rust (List G1))
      = (List.range (min p.length q.length)).foldlM (fun s i => pure (s.modify i (· + q.getD i 0))) s := by
    rw [List.foldlM_pure]
  show Meas _ (pure ((List.range (min p.length q.length)).foldl (fun s i => s.modify i (· + q.getD i 0)) s)) _
  rw [e]
  refine (Meas.foldlM' (fun l _ o => o = { padd := l.length }) _ _ ?_ rfl).mono ?_
  · rintro pre x s o rfl
    refine (Meas.tick _ _).mono ?_
    rintro a o - rfl
    ext <;> simp
  · rintro a o - rfl
    simp

theorem linProd_meas (js : List F) :
    Meas (linProdC js) (pure (linProd js)) (fun r o => r.length = js.length + 1 ∧
      o = { fmul := js.length * (js.length + 1) }) := by
  unfold linProdC linProd
  have e : (pure (js.foldl (fun poly j => polyMul poly [j, -1]) [1]) : Rust (List F))
      = js.foldlM (fun poly j => pure (polyMul poly [j, -1])) [1] := by rw [List.foldlM_pure]
  rw [e]
  refine Meas.foldlM' (fun l (r : List F) o => r.length = l.length + 1 ∧ o = { fmul := l.length * (l.length + 1) }) js _ ?_
    ⟨rfl, rfl⟩
  rintro pre j p o ⟨h1, rfl⟩
  have hp : p ≠ [] := by rintro rfl; simp at h1
  refine (polyMul_meas p [j, -1] hp).mono ?_
  rintro r o hr rfl
  cases hr
  refine ⟨?_, ?_⟩
  · rw [polyMul_length p [j, -1] (Or.inl hp)]; simp [h1]
  · ext <;> simp [h1]; ring

theorem polyAdd_len (p q : List F) : (polyAdd p q).length = max p.length q.length := by
  unfold polyAdd
  have : ∀ (l : List Nat) (s : List F), (l.foldl (fun s i => s.modify i (· + q.getD i 0)) s).length = s.length := by
    intro l
    induction l with
    | nil => intro s; rfl
    | cons a l ih => intro s; rw [List.foldl_cons, ih]; simp
  simp only [this]
  split <;> simp <;> omega

theorem polySub_len (p q : List F) : (polySub p q).length = max p.length q.length := by
  unfold polySub
  have : ∀ (l : List Nat) (s : List F), (l.foldl (fun s i => s.modify i (· - q.getD i 0)) s).length = s.length := by
    intro l
    induction l with
    | nil => intro s; rfl
    | cons a l ih => intro s; rw [List.foldl_cons, ih]; simp
  simp only [this]
  split <;> simp <;> omega

theorem pg1Add_len (p q : List G1) : (pg1Add p q).length = max p.length q.length := by
  unfold pg1Add
  have : ∀ (l : List Nat) (s : List G1), (l.foldl (fun s i => s.modify i (· + q.getD i 0)) s).length = s.length := by
    intro l
    induction l with
    | nil => intro s; rfl
    | cons a l ih => intro s; rw [List.foldl_cons, ih]; simp
  simp only [this]
  split <;> simp <;> omega

/-- `range n` seen as a prefix: the element after `pre` is `pre.length` -/
theorem Meas.foldlM_range {σ : Type} {f : σ → Nat → Counted σ} {g : σ → Nat → Rust σ} (I : Nat → σ → Ops → Prop) (n : Nat)
    (s : σ) (hstep : ∀ i s o, i < n → I i s o → Meas (f s i) (g s i) (fun s' o' => I (i + 1) s' (o + o')))
    (h0 : I 0 s 0) : Meas ((List.range n).foldlM f s) ((List.range n).foldlM g s) (I n) := by
  induction n with
  | zero =>
    simp only [List.range_zero, List.foldlM_nil]
    exact Meas.pure' s h0
  | succ n ih =>
    rw [List.range_succ]
    simp only [List.foldlM_append, List.foldlM_cons, List.foldlM_nil, bind_pure]
    refine (ih (fun i s o hi => hstep i s o (by omega))).bind ?_
    rintro s' o - h
    exact hstep n s' o (by omega) h

theorem vdLoop_meas (sk : F) (dels : List F) :
    Meas (vdLoopC sk dels) (vdLoop sk dels) (fun r o => r.length = dels.length ∧ o.pmul = 0 ∧ o.padd = 0 ∧
      o.finv = dels.length ∧ 3 * o.fmul = dels.length * (dels.length + 1) * (dels.length + 2)) := by
  unfold vdLoopC vdLoop
  refine Meas.foldlM_range (fun i (r : List F) o => r.length = i ∧ o.pmul = 0 ∧ o.padd = 0 ∧
    o.finv = i ∧ 3 * o.fmul = i * (i + 1) * (i + 2)) _ _ ?_ ⟨rfl, rfl, rfl, rfl, rfl⟩
  rintro s vd o hs ⟨h1, h2, h3, h4, h5⟩
  refine (batchDeletions_meas sk _).bind ?_
  rintro c o1 - rfl
  show Meas _ (pure (linProd (dels.take s)) >>= fun poly => pure (polyScale poly c) >>= fun poly =>
    pure (polyAdd vd poly)) _
  refine (linProd_meas _).bind ?_
  rintro poly o2 hp ⟨k1, rfl⟩
  refine (polyScale_meas poly c).bind ?_
  rintro poly' o3 hp' rfl
  cases hp'
  refine Meas.pure' _ ?_
  have t1 : (dels.take (s + 1)).length = s + 1 := by simp; omega
  have t2 : (dels.take s).length = s := by simp; omega
  rw [t2] at k1
  refine ⟨?_, ?_, ?_, ?_, ?_⟩
  · rw [polyAdd_len, h1]; simp [polyScale, k1]
  · simp [h2]
  · simp [h3]
  · simp [h4]
  · simp only [Ops.add_fmul, Ops.zero_fmul, t1, t2, k1]
    nlinarith [h5]

theorem vaLoop_meas (sk : F) (adds : List F) :
    Meas (vaLoopC sk adds) (pure (vaLoop sk adds)) (fun r o => r.length = adds.length ∧ o.pmul = 0 ∧ o.padd = 0 ∧
      o.finv = 0 ∧ 6 * o.fmul = 3 * (adds.length * (adds.length - 1)) + adds.length * (adds.length + 1) * (2 * adds.length + 1)) := by
  unfold vaLoopC vaLoop
  have e : ∀ (f : List F → Nat → List F) (l : List Nat) (s : List F),
      (pure (l.foldl f s) : Rust (List F)) = l.foldlM (fun s i => pure (f s i)) s := by
    intro f l s; rw [List.foldlM_pure]
  rw [e]
  refine (Meas.foldlM_range (fun i (r : List F) o => r.length ≤ adds.length ∧ (0 < i → r.length = adds.length) ∧
    o.pmul = 0 ∧ o.padd = 0 ∧ o.finv = 0 ∧
    6 * o.fmul + (adds.length - i) * (adds.length - i + 1) * (2 * (adds.length - i) + 1)
      = 3 * (i * (i - 1)) + adds.length * (adds.length + 1) * (2 * adds.length + 1)) _ _ ?_ ?_).mono ?_
  · rintro s va o hs ⟨h0, h1, h2, h3, h4, h5⟩
    have hc : Meas (vaFactorC sk adds s)
        (pure (if s = 0 then 1 else batchAdditions sk (adds.take s))) (fun _ o => o = { fmul := s }) := by
      unfold vaFactorC
      by_cases h : s = 0
      · rw [if_pos h, if_pos h]
        exact Meas.pure' _ (by subst h; rfl)
      · rw [if_neg h, if_neg h]
        refine (batchAdditions_meas sk _).mono ?_
        rintro a o - rfl
        rw [List.length_take, Nat.min_eq_left (by omega)]
    show Meas _ (pure (if s = 0 then 1 else batchAdditions sk (adds.take s)) >>= fun c =>
      pure (linProd (adds.drop (s + 1))) >>= fun poly => pure (polyScale poly c) >>= fun poly =>
      pure (polyAdd va poly)) _
    refine hc.bind ?_
    rintro c o1 - rfl
    refine (linProd_meas _).bind ?_
    rintro poly o2 hp ⟨k1, rfl⟩
    refine (polyScale_meas poly c).bind ?_
    rintro poly' o3 hp' rfl
    cases hp'
    refine Meas.pure' _ ?_
    obtain ⟨m, hm⟩ : ∃ m, adds.length = s + 1 + m := ⟨adds.length - (s + 1), by omega⟩
    have t1 : (adds.drop (s + 1)).length = m := by simp; omega
    rw [t1] at k1
    refine ⟨?_, fun _ => ?_, by simp [h2], by simp [h3], by simp [h4], ?_⟩
    · rw [polyAdd_len]; simp [polyScale, k1]; omega
    · rw [polyAdd_len]
      simp only [polyScale, List.length_map, k1]
      by_cases h : s = 0
      · subst h; omega
      · rw [h1 (by omega)]; omega
    · simp only [Ops.add_fmul, Ops.zero_fmul, t1, k1]
      rw [hm] at h5 ⊢
      have e1 : s + 1 + m - s = m + 1 := by omega
      have e2 : s + 1 + m - (s + 1) = m := by omega
      rw [e1] at h5
      rw [e2, Nat.add_sub_cancel]
      rcases s with _ | s
      · simp at h5 ⊢
        nlinarith [h5]
      · simp only [Nat.add_sub_cancel] at h5
        nlinarith [h5]
  · refine ⟨by simp, by simp, rfl, rfl, rfl, ?_⟩
    simp
  · rintro r o - ⟨h0, h1, h2, h3, h4, h5⟩
    refine ⟨?_, h2, h3, h4, by simpa using h5⟩
    rcases Nat.eq_zero_or_pos adds.length with h | h
    · omega
    · exact h1 h

theorem create_meas (sk : F) (adds dels : List F) :
    Meas (createCoefficientsC sk adds dels) (createCoefficients sk adds dels) (fun r o =>
      r.length = max adds.length dels.length ∧ o.pmul = 0 ∧ o.padd = 0 ∧ o.finv = dels.length ∧
      6 * o.fmul = 2 * (dels.length * (dels.length + 1) * (dels.length + 2)) + 6 * (adds.length + dels.length) +
        3 * (adds.length * (adds.length - 1)) + adds.length * (adds.length + 1) * (2 * adds.length + 1)) := by
  unfold createCoefficientsC createCoefficients
  refine (vdLoop_meas sk dels).bind ?_
  rintro vd o1 - ⟨h1, h2, h3, h4, h5⟩
  show Meas _ (pure (batchAdditions sk adds) >>= fun a => pure (polyScale vd a) >>= fun vd =>
    pure (vaLoop sk adds) >>= fun va => pure (polySub va vd)) _
  refine (batchAdditions_meas sk adds).bind ?_
  rintro a o2 - rfl
  refine (polyScale_meas vd a).bind ?_
  rintro vd' o3 hvd rfl
  cases hvd
  refine (vaLoop_meas sk adds).bind ?_
  rintro va o4 - ⟨k1, k2, k3, k4, k5⟩
  refine Meas.pure' _ ⟨?_, ?_, ?_, ?_, ?_⟩
  · rw [polySub_len, k1]; simp [polyScale, h1]
  all_goals simp [h1, h2, h3, h4, k2, k3, k4]
  omega

theorem mapPmul_meas (cs : List F) (V : G1) :
    Meas (cs.mapM (fun c => pmulC c V)) (pure (cs.map (fun c => c • V))) (fun _ o => o = { pmul := cs.length }) := by
  rw [mapM_pure_map]
  refine (Meas.mapM' (fun l o => o = { pmul := l.length }) cs ?_ rfl).mono ?_
  · rintro pre x o - rfl
    refine (Meas.tick _ _).mono ?_
    rintro a o - rfl
    ext <;> simp
  · rintro a o - ⟨-, h⟩
    exact h

theorem accUpdate_meas (V : G1) (sk : F) (adds dels : List F) :
    Meas (accUpdateAssignC V sk adds dels) (accUpdateAssign V sk adds dels) (fun r o =>
      r.2.length = max adds.length dels.length ∧ o.pmul = max adds.length dels.length + 1 ∧ o.padd = 0 ∧
      o.finv = dels.length + 1 ∧
      6 * o.fmul = 2 * (dels.length * (dels.length + 1) * (dels.length + 2)) + 12 * (adds.length + dels.length) + 6 +
        3 * (adds.length * (adds.length - 1)) + adds.length * (adds.length + 1) * (2 * adds.length + 1)) := by
  unfold accUpdateAssignC accUpdateAssign
  show Meas _ (pure (batchAdditions sk adds) >>= fun a => batchDeletions sk dels >>= fun d => pure (a * d) >>= fun a =>
    createCoefficients sk adds dels >>= fun cs => pure (cs.map (fun c => c • V)) >>= fun co => pure (a • V) >>= fun W =>
    pure (W, co)) _
  refine (batchAdditions_meas sk adds).bind ?_
  rintro a o1 - rfl
  refine (batchDeletions_meas sk dels).bind ?_
  rintro d o2 - rfl
  refine Meas.tickBind ?_
  rintro a' -
  refine (create_meas sk adds dels).bind ?_
  rintro cs o3 - ⟨h1, h2, h3, h4, h5⟩
  refine (mapPmul_meas cs V).bind ?_
  rintro co o4 hco rfl
  cases hco
  refine Meas.tickBind ?_
  rintro W -
  refine Meas.pure' _ ⟨?_, ?_, ?_, ?_, ?_⟩
  · simp [h1]
  all_goals simp [h1, h2, h3, h4]
  · omega
  · omega

/-! ### witnesses -/

/-- the exact number of multiplications of `dad`: none for a single value -/
def dadCost (n : Nat) : Nat := if n = 1 then 0 else n

theorem dad_meas_exact (vs : List F) (y : F) :
    Meas (dadC vs y) (pure (dad vs y)) (fun _ o => o = { fmul := dadCost vs.length }) := by
  have h := prodFold_meas (vs.map (fun v => v - y)) 1
  unfold dadC dad
  match vs, h with
  | [], h => exact h
  | [v], _ => exact Meas.pure' _ rfl
  | _ :: _ :: _, h =>
    refine h.mono ?_
    rintro a o - rfl
    simp [dadCost]

theorem deltasFirst_meas (y : F) (deltas : List (List F × List F × List G1)) :
    Meas (deltasFirstC y deltas) (pure ((deltas.map (fun t => dad t.1 y), deltas.map (fun t => dad t.2.1 y)),
        (deltas.map (fun t => dad t.1 y)).foldl (fun a t => a * t) 1,
        (deltas.map (fun t => dad t.2.1 y)).foldl (fun a t => a * t) 1))
      (fun _ o => o = { fmul := (deltas.map (fun t => dadCost t.1.length + dadCost t.2.1.length + 2)).sum }) := by
  unfold deltasFirstC
  have e : ∀ (l : List (List F × List F × List G1)) (st : (List F × List F) × F × F),
      (pure ((st.1.1 ++ l.map (fun t => dad t.1 y), st.1.2 ++ l.map (fun t => dad t.2.1 y)),
        (l.map (fun t => dad t.1 y)).foldl (fun a t => a * t) st.2.1,
        (l.map (fun t => dad t.2.1 y)).foldl (fun a t => a * t) st.2.2) : Rust ((List F × List F) × F × F))
      = l.foldlM (fun (st : (List F × List F) × F × F) t => pure ((st.1.1 ++ [dad t.1 y], st.1.2 ++ [dad t.2.1 y]),
        st.2.1 * dad t.1 y, st.2.2 * dad t.2.1 y)) st := by
    intro l
    induction l with
    | nil => intro st; simp
    | cons t l ih =>
      intro st
      rw [List.foldlM_cons, pure_bind, ← ih]
      simp
  have := e deltas (([], []), 1, 1)
  simp only [List.nil_append] at this
  rw [this]
  refine Meas.foldlM' (fun l _ o => o = { fmul := (l.map (fun t : List F × List F × List G1 =>
    dadCost t.1.length + dadCost t.2.1.length + 2)).sum }) _ _ ?_ rfl
  rintro pre t st o rfl
  show Meas _ (pure (dad t.1 y) >>= fun ta => pure (dad t.2.1 y) >>= fun td =>
    pure ((st.1.1 ++ [ta], st.1.2 ++ [td]), st.2.1 * ta, st.2.2 * td)) _
  refine (dad_meas_exact t.1 y).bind ?_
  rintro ta o1 - rfl
  refine (dad_meas_exact t.2.1 y).bind ?_
  rintro td o2 - rfl
  refine Meas.tickBind' (Meas.tickBind' (Meas.pure' _ ?_))
  ext <;> simp
  omega

/-- the length of the longest list of coefficients -/
def maxCoeffs (deltas : List (List F × List F × List G1)) : Nat := (deltas.map (fun t => t.2.2.length)).foldr max 0

/-- the number of all coefficients -/
def sumCoeffs (deltas : List (List F × List F × List G1)) : Nat := (deltas.map (fun t => t.2.2.length)).sum

theorem maxCoeffs_snoc (l : List (List F × List F × List G1)) (t : List F × List F × List G1) :
    maxCoeffs (l ++ [t]) = max (maxCoeffs l) t.2.2.length := by
  unfold maxCoeffs
  induction l with
  | nil => simp
  | cons a l ih =>
    simp only [List.cons_append, List.map_cons, List.foldr_cons] at ih ⊢
    rw [ih]; omega

theorem deltasSecond_meas (aa dd : List F) (deltas : List (List F × List F × List G1)) (ha : aa.length = deltas.length)
    (hd : dd.length = deltas.length) :
    Meas (deltasSecondC aa dd deltas) (pure ((List.range deltas.length).foldl (fun poly i =>
      let ddh := (dd.take i).foldl (fun a h => a * h) 1
      let dak := ((aa.take deltas.length).drop (i + 1)).foldl (fun a k => a * k) 1
      let dak := dak * ddh
      let pp := pg1Scale (deltas.getD i ([], [], [])).2.2 dak
      pg1Add poly pp) []))
    (fun r o => r.length = maxCoeffs deltas ∧ o.pmul = sumCoeffs deltas ∧ o.padd + maxCoeffs deltas = sumCoeffs deltas ∧
      o.finv = 0 ∧ o.fmul = deltas.length * deltas.length) := by
  unfold deltasSecondC
  have e : ∀ (f : List G1 → Nat → List G1) (l : List Nat) (s : List G1),
      (pure (l.foldl f s) : Rust (List G1)) = l.foldlM (fun s i => pure (f s i)) s := by
    intro f l s; rw [List.foldlM_pure]
  rw [e]
  refine (Meas.foldlM_range (fun i (r : List G1) o => r.length = maxCoeffs (deltas.take i) ∧
    o.pmul = sumCoeffs (deltas.take i) ∧ o.padd + maxCoeffs (deltas.take i) = sumCoeffs (deltas.take i) ∧
      o.finv = 0 ∧ o.fmul = i * deltas.length) _ _ ?_ ⟨rfl, rfl, rfl, rfl, by simp⟩).mono ?_
  · rintro i poly o hi ⟨h1, h2, h3, h4, h5⟩
    show Meas _ (pure ((dd.take i).foldl (fun a h => a * h) 1) >>= fun ddh =>
      pure (((aa.take deltas.length).drop (i + 1)).foldl (fun a k => a * k) 1) >>= fun dak =>
      pure (dak * ddh) >>= fun dak => pure (pg1Scale (deltas.getD i ([], [], [])).2.2 dak) >>= fun pp =>
      pure (pg1Add poly pp)) _
    refine (prodFold_meas _ _).bind ?_
    rintro ddh o1 - rfl
    refine (prodFold_meas _ _).bind ?_
    rintro dak o2 - rfl
    refine Meas.tickBind ?_
    rintro dak' -
    refine (pg1Scale_meas _ _).bind ?_
    rintro pp o3 hpp rfl
    cases hpp
    refine (pg1Add_meas _ _).mono ?_
    rintro r o4 hr rfl
    cases hr
    have hg : deltas.getD i ([], [], []) = deltas[i] := by simp [List.getD, hi]
    have ht : deltas.take (i + 1) = deltas.take i ++ [deltas[i]] := by rw [List.take_succ]; simp [hi]
    have hm := maxCoeffs_snoc (deltas.take i) deltas[i]
    have hs : sumCoeffs (deltas.take i ++ [deltas[i]]) = sumCoeffs (deltas.take i) + deltas[i].2.2.length := by
      unfold sumCoeffs
      rw [List.map_append, List.sum_append]
      rfl
    have hpl : (pg1Scale (deltas.getD i ([], [], [])).2.2 dak').length = deltas[i].2.2.length := by
      simp [pg1Scale, hi]
    rw [ht, hm, hs]
    refine ⟨?_, ?_, ?_, ?_, ?_⟩
    · rw [pg1Add_len, h1, hpl]
    · simp only [Ops.add_pmul, hg]
      simp [h2]
    · simp only [Ops.add_padd, hpl, h1]
      simp
      omega
    · simp [h4]
    · simp only [Ops.add_fmul, h5, List.length_take, List.length_drop, ha, hd]
      simp
      rw [Nat.add_mul]
      omega
  · rintro r o - ⟨h1, h2, h3, h4, h5⟩
    rw [List.take_length] at *
    exact ⟨h1, h2, h3, h4, h5⟩

/-- the cost of `evaluate_deltas` when it succeeds -/
theorem evaluateDeltas_meas (y : F) (deltas : List (List F × List F × List G1)) :
    Meas (evaluateDeltasC y deltas) (pure (evaluateDeltas y deltas)) (fun r o => o.finv = 1 ∧
      ((∃ d, r = .ok d) → o.pmul = sumCoeffs deltas + maxCoeffs deltas ∧ o.padd + 1 = sumCoeffs deltas ∧
        o.fmul = (deltas.map (fun t => dadCost t.1.length + dadCost t.2.1.length)).sum +
          deltas.length * deltas.length + 2 * deltas.length + maxCoeffs deltas)) := by
  unfold evaluateDeltasC evaluateDeltas
  dsimp only
  refine (deltasFirst_meas y deltas).bind (g := fun _ => pure _) ?_
  rintro st o1 hst rfl
  cases hst
  dsimp only
  refine Meas.tickBind' ?_
  cases hinv : invert? ((deltas.map (fun t => dad t.2.1 y)).foldl (fun a t => a * t) 1) with
  | none => exact Meas.pure' _ (by simp)
  | some accD =>
    dsimp only
    refine (deltasSecond_meas _ _ deltas (by simp) (by simp)).bind (g := fun _ => pure _) ?_
    rintro poly o2 hpoly ⟨h1, h2, h3, h4, h5⟩
    cases hpoly
    refine Meas.tickBind' ?_
    refine (pg1Eval_meas _ y).bind (g := fun _ => pure _) ?_
    rintro v o3 hv ⟨hnone, rfl⟩
    cases hv
    rw [h1]
    have hs : (deltas.map (fun t => dadCost t.1.length + dadCost t.2.1.length + 2)).sum
        = (deltas.map (fun t => dadCost t.1.length + dadCost t.2.1.length)).sum + 2 * deltas.length := by
      clear * -
      induction deltas with
      | nil => rfl
      | cons t l ih => simp only [List.map_cons, List.sum_cons, ih, List.length_cons]; omega
    generalize (List.range deltas.length).foldl _ ([] : List G1) = poly at *
    cases hev : pg1Eval poly y with
    | none => exact Meas.pure' _ (by simp [h4])
    | some v =>
      have hne : 1 ≤ maxCoeffs deltas := by
        rw [← h1]
        rcases Nat.eq_zero_or_pos (List.length _) with h | h
        · have := hnone.2 (List.length_eq_zero_iff.1 h)
          rw [this] at hev
          cases hev
        · exact h
      refine Meas.tickBind' (Meas.pure' _ ⟨by simp [h4], fun _ => ⟨?_, ?_, ?_⟩⟩)
      · simp [h2]; omega
      · simp; omega
      · simp [h5, hs]; omega

theorem mwMulti_meas (C : G1) (y : F) (deltas : List (List F × List F × List G1)) :
    Meas (mwMultiBatchUpdateC C y deltas) (pure (mwMultiBatchUpdate C y deltas)) (fun _ o => o.finv = 1 ∧
      ((∃ d, evaluateDeltas y deltas = .ok d) → o.pmul = sumCoeffs deltas + maxCoeffs deltas + 1 ∧
        o.padd = sumCoeffs deltas ∧
        o.fmul = (deltas.map (fun t => dadCost t.1.length + dadCost t.2.1.length)).sum +
          deltas.length * deltas.length + 2 * deltas.length + maxCoeffs deltas)) := by
  unfold mwMultiBatchUpdateC mwMultiBatchUpdate
  refine (evaluateDeltas_meas y deltas).bind (g := fun _ => pure _) ?_
  rintro r o1 hr ⟨h1, h2⟩
  cases hr
  cases hev : evaluateDeltas y deltas with
  | error e => exact Meas.pure' _ (by simp [h1])
  | ok d =>
    obtain ⟨k1, k2, k3⟩ := h2 ⟨d, hev⟩
    refine Meas.tickBind' ((Meas.tick _ _).mono ?_)
    rintro a o - rfl
    refine ⟨by simp [h1], fun _ => ⟨?_, ?_, ?_⟩⟩
    · simp [k1]
    · simp; omega
    · simp [k3]

theorem mwUpdateDels_meas (y : F) (newAcc : G1) : ∀ (dels : List F) (c : G1),
    Meas (mwUpdateDelsC y newAcc dels c) (pure (mwUpdateDels y newAcc dels c)) (fun r o =>
      (r.2 = true ↔ y ∉ dels) ∧ o.fmul = 0 ∧ o.pmul ≤ dels.length ∧
      (r.2 = true → o = { pmul := dels.length, padd := dels.length, finv := dels.length }))
  | [], c => Meas.pure' _ ⟨by simp [mwUpdateDels], rfl, Nat.le_refl _, fun _ => rfl⟩
  | d :: dels, c => by
    unfold mwUpdateDelsC mwUpdateDels
    refine Meas.tickBind' ?_
    by_cases h : d - y = 0
    · have e : invert? (d - y) = none := by simp [invert?, h]
      rw [e]
      have : y = d := (sub_eq_zero.1 h).symm
      exact Meas.pure' _ (by simp [this])
    · have e : invert? (d - y) = some (d - y)⁻¹ := by simp [invert?, h]
      rw [e]
      refine Meas.tickBind' (Meas.tickBind' ((mwUpdateDels_meas y newAcc dels _).mono ?_))
      rintro r o - ⟨h1, h2, h3, h4⟩
      have hne : y ≠ d := fun hh => h (by rw [hh, sub_self])
      refine ⟨by simp [h1, hne], by simp [h2], by simp; omega, fun hr => ?_⟩
      rw [h4 hr]
      ext <;> simp <;> omega

theorem mwUpdate_meas (C : G1) (y : F) (V V' : G1) (adds dels : List F) :
    Meas (mwUpdateC C y V V' adds dels) (pure (mwUpdate C y V V' adds dels)) (fun _ o => o.fmul = 0 ∧
      o.pmul ≤ adds.length + dels.length ∧
      (y ∉ dels → o = { pmul := adds.length + dels.length, padd := adds.length + dels.length, finv := dels.length })) := by
  unfold mwUpdateC mwUpdate
  refine (mwUpdateDels_meas y V' dels C).bind (g := fun _ => pure _) ?_
  rintro r o1 hr ⟨h1, h2, h3, h4⟩
  cases hr
  rcases hd : mwUpdateDels y V' dels C with ⟨c, b⟩
  rw [hd] at h1 h4
  cases b with
  | false =>
    refine Meas.pure' _ ⟨by simp [h2], by simp; omega, fun hy => ?_⟩
    have := h1.2 hy
    cases this
  | true =>
    have hy := h1.1 rfl
    rw [h4 rfl] at *
    dsimp only
    have e : (pure (mwUpdateAdds y V adds c) : Rust G1)
        = adds.foldlM (fun c a => pure ((a - y) • c + V)) c := by rw [List.foldlM_pure]; rfl
    show Meas _ (pure (mwUpdateAdds y V adds c)) _
    rw [e]
    refine (Meas.foldlM' (fun l _ o => o = { pmul := l.length, padd := l.length }) adds c ?_ rfl).mono ?_
    · rintro pre a c o rfl
      refine Meas.tickBind' ((Meas.tick _ _).mono ?_)
      rintro a o - rfl
      ext <;> simp
    · rintro r o - rfl
      refine ⟨by simp, by simp; omega, fun _ => ?_⟩
      ext <;> simp <;> omega

/-! ## the theorems -/

/-- **C117**: the counting programs compute exactly what the functions of the model compute, including all aborts. -/
theorem C117_same (V C V' : G1) (sk y : F) (adds dels : List F) (deltas : List (List F × List F × List G1)) :
    (createCoefficientsC sk adds dels).result = createCoefficients sk adds dels ∧
    (accUpdateAssignC V sk adds dels).result = accUpdateAssign V sk adds dels ∧
    (accAddElementsC V sk adds).result = .ok (accAddElements V sk adds) ∧
    (accRemoveElementsC V sk dels).result = accRemoveElements V sk dels ∧
    (mwNewC y V sk).result = mwNew y V sk ∧
    (evaluateDeltasC y deltas).result = .ok (evaluateDeltas y deltas) ∧
    (mwMultiBatchUpdateC C y deltas).result = .ok (mwMultiBatchUpdate C y deltas) ∧
    (mwUpdateC C y V V' adds dels).result = .ok (mwUpdate C y V V' adds dels) := by
  refine ⟨(create_meas sk adds dels).result.1, (accUpdate_meas V sk adds dels).result.1, ?_, ?_, ?_,
    (evaluateDeltas_meas y deltas).result.1, (mwMulti_meas C y deltas).result.1, (mwUpdate_meas C y V V' adds dels).result.1⟩
  · have : Meas (accAddElementsC V sk adds) (pure (batchAdditions sk adds) >>= fun p => pure (p • V)) (fun _ _ => True) := by
      refine (batchAdditions_meas sk adds).bind ?_
      rintro a o - -
      exact (Meas.tick _ _).mono (fun _ _ _ _ => trivial)
    exact this.result.1
  · have : Meas (accRemoveElementsC V sk dels) (batchDeletions sk dels >>= fun p => pure (p • V)) (fun _ _ => True) := by
      refine (batchDeletions_meas sk dels).bind ?_
      rintro a o - -
      exact (Meas.tick _ _).mono (fun _ _ _ _ => trivial)
    exact this.result.1
  · have : Meas (mwNewC y V sk) ((do let v ← inv! (sk + y); pure (v • V)) >>= fun c => pure (some c)) (fun _ _ => True) := by
      unfold mwNewC
      rw [bind_assoc]
      refine Meas.tickBind ?_
      rintro v -
      exact Meas.tickBind (fun W _ => Meas.pure' _ trivial)
    exact this.result.1

/-- **C117** (the manager's batch update is cubic). `Accumulator::update_assign` with `a` additions and `d` deletions:
`max(a, d)` coefficients, one point multiplication more, `d + 1` inversions, and the number of multiplications in the
field is a polynomial of degree 3 in `a` and `d` (recomputing every product from scratch). -/
theorem C117_batch_change (V : G1) (sk : F) (adds dels : List F) (V' : G1) (cs : List G1)
    (h : accUpdateAssign V sk adds dels = .ok (V', cs)) :
    cs.length = max adds.length dels.length ∧
    ∃ o, (accUpdateAssignC V sk adds dels).cost = .ok o ∧ o.pmul = max adds.length dels.length + 1 ∧ o.padd = 0 ∧
      o.finv = dels.length + 1 ∧
      6 * o.fmul = 2 * (dels.length * (dels.length + 1) * (dels.length + 2)) + 12 * (adds.length + dels.length) + 6 +
        3 * (adds.length * (adds.length - 1)) + adds.length * (adds.length + 1) * (2 * adds.length + 1) := by
  obtain ⟨o, h1, h2, h3⟩ := (accUpdate_meas V sk adds dels).result.2 _ h
  exact ⟨h2, o, h1, h3⟩

/-- **C117** (cubic, as bounds): at least `d³/3` and at least `a³/3` field multiplications. -/
theorem C117_cubic (V : G1) (sk : F) (adds dels : List F) (r : G1 × List G1)
    (h : accUpdateAssign V sk adds dels = .ok r) :
    ∃ o, (accUpdateAssignC V sk adds dels).cost = .ok o ∧ dels.length ^ 3 + adds.length ^ 3 ≤ 3 * o.fmul := by
  obtain ⟨-, o, h1, -, -, -, h2⟩ := C117_batch_change V sk adds dels r.1 r.2 h
  refine ⟨o, h1, ?_⟩
  generalize dels.length = d at *
  generalize adds.length = a at *
  nlinarith [Nat.zero_le d, Nat.zero_le a, Nat.zero_le (a * (a - 1)), Nat.zero_le (d * d), Nat.zero_le (a * a)]

/-- **C117** (without coefficients the same change is linear): `add_elements` then `remove_elements` multiply two points,
invert once and multiply `a + d` scalars. -/
theorem C117_plain_change (V : G1) (sk : F) (adds dels : List F) (V' : G1)
    (h : accRemoveElements (accAddElements V sk adds) sk dels = .ok V') :
    (accAddElementsC V sk adds).cost = .ok { pmul := 1, fmul := adds.length } ∧
    (accRemoveElementsC (accAddElements V sk adds) sk dels).cost = .ok { pmul := 1, fmul := dels.length, finv := 1 } := by
  have m1 : Meas (accAddElementsC V sk adds) (pure (batchAdditions sk adds) >>= fun p => pure (p • V))
      (fun _ o => o = { pmul := 1, fmul := adds.length }) := by
    refine (batchAdditions_meas sk adds).bind ?_
    rintro a o - rfl
    refine (Meas.tick _ _).mono ?_
    rintro b o - rfl
    ext <;> simp
  have m2 : Meas (accRemoveElementsC (accAddElements V sk adds) sk dels)
      (batchDeletions sk dels >>= fun p => pure (p • accAddElements V sk adds))
      (fun _ o => o = { pmul := 1, fmul := dels.length, finv := 1 }) := by
    refine (batchDeletions_meas sk dels).bind ?_
    rintro a o - rfl
    refine (Meas.tick _ _).mono ?_
    rintro b o - rfl
    ext <;> simp
  obtain ⟨o, h1, rfl⟩ := m1.result.2 _ rfl
  obtain ⟨o', h2, rfl⟩ := m2.result.2 _ h
  exact ⟨h1, h2⟩

theorem mwBatch_cost (C : G1) (y : F) (adds dels : List F) (coeffs : List G1) (hy : y ∉ dels) (hc : coeffs ≠ []) :
    (mwBatchUpdateC C y adds dels coeffs).cost = .ok
      { pmul := coeffs.length + 1, padd := coeffs.length, finv := 1,
        fmul := dadCost adds.length + dadCost dels.length + coeffs.length } := by
  have hm : Meas (mwBatchUpdateC C y adds dels coeffs) (pure (mwBatchUpdate C y adds dels coeffs))
      (fun _ o => o = (
        { pmul := coeffs.length + 1, padd := coeffs.length, finv := 1,
          fmul := dadCost adds.length + dadCost dels.length + coeffs.length } : Ops)) := by
    unfold mwBatchUpdateC mwBatchUpdate evaluateDelta
    refine (dad_meas_exact dels y).bind (g := fun _ => pure _) ?_
    rintro dD o1 hdD rfl
    cases hdD
    refine Meas.tickBind' ?_
    have h0 : dad dels y ≠ 0 := by rw [Ne, C14_dad_zero]; exact hy
    have e : invert? (dad dels y) = some (dad dels y)⁻¹ := by simp [invert?, h0]
    simp only [e]
    refine (dad_meas_exact adds y).bind (g := fun _ => pure _) ?_
    rintro dA o2 hdA rfl
    cases hdA
    refine Meas.tickBind' ?_
    refine (pg1Eval_meas coeffs y).bind (g := fun _ => pure _) ?_
    rintro r o3 hr ⟨hnone, rfl⟩
    cases hr
    have hlen : 1 ≤ coeffs.length := by cases coeffs <;> simp at hc ⊢
    cases hev : pg1Eval coeffs y with
    | none => exact absurd (hnone.1 hev) hc
    | some v =>
      refine Meas.tickBind' (Meas.tickBind' ((Meas.tick _ _).mono ?_))
      rintro a o - rfl
      ext <;> simp <;> omega
  obtain ⟨o, h1, rfl⟩ := hm.result.2 _ rfl
  exact h1

theorem evaluateDeltas_ok_cost (y : F) (deltas : List (List F × List F × List G1))
    (hy : ∀ t ∈ deltas, y ∉ t.2.1) (hc : ∃ t ∈ deltas, t.2.2 ≠ []) : ∃ d, evaluateDeltas y deltas = .ok d := by
  unfold evaluateDeltas
  dsimp only
  have h0 : (deltas.map (fun t => dad t.2.1 y)).foldl (fun a t => a * t) 1 ≠ 0 := by
    have : ∀ (l : List (List F × List F × List G1)) (a : F), a ≠ 0 → (∀ t ∈ l, y ∉ t.2.1) →
        (l.map (fun t => dad t.2.1 y)).foldl (fun a t => a * t) a ≠ 0 := by
      intro l
      induction l with
      | nil => intro a ha _; exact ha
      | cons t l ih =>
        intro a ha hl
        refine ih _ (mul_ne_zero ha ?_) (fun t ht => hl t (by simp [ht]))
        rw [Ne, C14_dad_zero]
        exact hl t (by simp)
    exact this _ _ one_ne_zero hy
  rw [invert?, if_neg h0]
  dsimp only
  obtain ⟨o, -, hlen, -⟩ := ((deltasSecond_meas (deltas.map (fun t => dad t.1 y)) (deltas.map (fun t => dad t.2.1 y))
    deltas (by simp) (by simp)).result.2 _ rfl)
  have hL : maxCoeffs deltas ≠ 0 := by
    obtain ⟨t, ht, hne⟩ := hc
    clear hlen h0 hy
    have hl : t.2.2.length ≠ 0 := fun h => hne (List.length_eq_zero_iff.1 h)
    induction deltas with
    | nil => cases ht
    | cons a l ih =>
      rcases List.mem_cons.1 ht with rfl | ht
      · simp only [maxCoeffs, List.map_cons, List.foldr_cons]; omega
      · have := ih ht
        simp only [maxCoeffs, List.map_cons, List.foldr_cons] at this ⊢; omega
  dsimp only at hlen
  generalize (List.range deltas.length).foldl _ ([] : List G1) = poly at *
  cases hev : pg1Eval poly y with
  | none =>
    obtain ⟨o', -, hn, -⟩ := (pg1Eval_meas (F := F) poly y).result.2 _ rfl
    have := hn.1 hev
    rw [this] at hlen
    exact absurd hlen.symm hL
  | some v => exact ⟨_, rfl⟩

/-- **C117** (a holder catching up over many batches, exactly). For `k` batches that do not delete the holder, with `L` the
length of the longest list of coefficients (not 0): what one call of `multi_batch_update` performs, and what a call of
`batch_update` performs for each of the batches. -/
theorem C117_multi_batch (C : G1) (y : F) (deltas : List (List F × List F × List G1))
    (hy : ∀ t ∈ deltas, y ∉ t.2.1) :
    ((∃ t ∈ deltas, t.2.2 ≠ []) → (mwMultiBatchUpdateC C y deltas).cost = .ok
      { pmul := sumCoeffs deltas + maxCoeffs deltas + 1, padd := sumCoeffs deltas, finv := 1,
        fmul := (deltas.map (fun t => dadCost t.1.length + dadCost t.2.1.length)).sum +
          deltas.length * deltas.length + 2 * deltas.length + maxCoeffs deltas }) ∧
    (∀ t ∈ deltas, t.2.2 ≠ [] → ∀ C' : G1, (mwBatchUpdateC C' y t.1 t.2.1 t.2.2).cost = .ok
      { pmul := t.2.2.length + 1, padd := t.2.2.length, finv := 1,
        fmul := dadCost t.1.length + dadCost t.2.1.length + t.2.2.length }) := by
  refine ⟨fun hc => ?_, fun t ht hc C' => mwBatch_cost C' y _ _ _ (hy t ht) hc⟩
  obtain ⟨o, h1, h2, h3⟩ := (mwMulti_meas C y deltas).result.2 _ rfl
  obtain ⟨k1, k2, k3⟩ := h3 (evaluateDeltas_ok_cost y deltas hy hc)
  rw [h1]
  congr 1
  ext <;> simp [k1, k2, k3, h2]

/-- one `batch_update` after another, as in C06 -/
def batchUpdatesC (y : F) : List (List F × List F × List G1) → G1 → Counted G1
  | [], C => pure C
  | t :: l, C => do
    let C' ← mwBatchUpdateC C y t.1 t.2.1 t.2.2
    batchUpdatesC y l C'

theorem batchUpdates_meas (y : F) : ∀ (deltas : List (List F × List F × List G1)) (C : G1),
    Meas (batchUpdatesC y deltas C) (pure (deltas.foldl (fun C t => mwBatchUpdate C y t.1 t.2.1 t.2.2) C))
      (fun _ o => (∀ t ∈ deltas, y ∉ t.2.1) → (∀ t ∈ deltas, t.2.2 ≠ []) →
        o.pmul = sumCoeffs deltas + deltas.length ∧ o.finv = deltas.length)
  | [], C => Meas.pure' _ (fun _ _ => ⟨rfl, rfl⟩)
  | t :: l, C => by
    show Meas (mwBatchUpdateC C y t.1 t.2.1 t.2.2 >>= fun C' => batchUpdatesC y l C')
      (pure (mwBatchUpdate C y t.1 t.2.1 t.2.2) >>= fun C' =>
        pure (l.foldl (fun C t => mwBatchUpdate C y t.1 t.2.1 t.2.2) C')) _
    refine (mwBatch_meas C y t.1 t.2.1 t.2.2).bind ?_
    rintro C' o1 - ⟨h1, -, h2, -⟩
    refine (batchUpdates_meas y l C').mono ?_
    rintro r o2 - h hy hc
    obtain ⟨k1, k2⟩ := h (fun t ht => hy t (by simp [ht])) (fun t ht => hc t (by simp [ht]))
    obtain ⟨g1, -⟩ := h2 (hy t (by simp)) (hc t (by simp))
    constructor
    · simp only [Ops.add_pmul, k1, g1, sumCoeffs, List.map_cons, List.sum_cons, List.length_cons]; omega
    · simp only [Ops.add_finv, k2, h1, List.length_cons]; omega

/-- **C117** (`multi_batch_update` saves no point multiplications). Both ways of catching up give the same witness; the
single call multiplies `L + 1 - k` points more than the `k` calls, so more of them whenever there are at most as many
batches as the longest has coefficients, and it inverts once instead of `k` times. -/
theorem C117_multi_or_single (C : G1) (y : F) (deltas : List (List F × List F × List G1)) (hne : deltas ≠ [])
    (hy : ∀ t ∈ deltas, y ∉ t.2.1) (hc : ∀ t ∈ deltas, t.2.2 ≠ []) :
    ∃ o o', (mwMultiBatchUpdateC C y deltas).cost = .ok o ∧ (batchUpdatesC y deltas C).cost = .ok o' ∧
      (batchUpdatesC y deltas C).result = .ok (mwMultiBatchUpdate C y deltas) ∧
      o.pmul + deltas.length = o'.pmul + maxCoeffs deltas + 1 ∧ o.finv = 1 ∧ o'.finv = deltas.length ∧
      (deltas.length ≤ maxCoeffs deltas → o'.pmul < o.pmul) := by
  obtain ⟨o', h1, h2⟩ := (batchUpdates_meas y deltas C).result.2 _ rfl
  obtain ⟨h2, h3⟩ := h2 hy hc
  have hex : ∃ t ∈ deltas, t.2.2 ≠ [] := by
    match deltas, hne, hc with
    | t :: l, _, hc => exact ⟨t, by simp, hc t (by simp)⟩
  refine ⟨_, o', (C117_multi_batch C y deltas hy).1 hex, h1, ?_, ?_, rfl, h3, ?_⟩
  · rw [C06_multi_eq_sequence C y deltas hy (fun t ht h => absurd h (hc t ht))]
    exact (batchUpdates_meas y deltas C).result.1
  · simp [h2]; omega
  · intro h; simp [h2]; omega

/-- **C117** (`update_assign` of a witness): one point multiplication for every change. -/
theorem C117_single_updates (C : G1) (y : F) (V V' : G1) (adds dels : List F) :
    ∃ o, (mwUpdateC C y V V' adds dels).cost = .ok o ∧ o.fmul = 0 ∧ o.pmul ≤ adds.length + dels.length ∧
      (y ∉ dels → o = { pmul := adds.length + dels.length, padd := adds.length + dels.length, finv := dels.length }) :=
  (mwUpdate_meas C y V V' adds dels).result.2 _ rfl

end

/-! ### concrete cases -/

local instance costAcc_prime7 : Fact (Nat.Prime 7) := ⟨by decide⟩

/-- two additions and two deletions: `max(2, 2) + 1` points, three inversions, 23 field multiplications -/
example : (accUpdateAssignC (1 : ZMod 7) (3 : ZMod 7) [1, 2] [5, 6]).cost
    = .ok { pmul := 3, finv := 3, fmul := 23 } := by with_unfolding_all rfl

/-- the hypothesis of `C117_batch_change`: this change is possible -/
example : accUpdateAssign (1 : ZMod 7) (3 : ZMod 7) [1, 2] [5, 6] = .ok (3, [6, 2]) := by with_unfolding_all rfl

/-- the hypothesis of `C117_plain_change` -/
example : accRemoveElements (accAddElements (1 : ZMod 7) (3 : ZMod 7) [1, 2]) (3 : ZMod 7) [5, 6] = .ok 3 := by
  with_unfolding_all rfl

/-- a holder of 3 catches up over two batches of two coefficients each: 7 point multiplications in one call -/
example : (mwMultiBatchUpdateC (1 : ZMod 7) (3 : ZMod 7) [([1, 2], [5, 6], [6, 2]), ([4], [2], [3, 1])]).cost
    = .ok { pmul := 7, padd := 4, finv := 1, fmul := 14 } := by with_unfolding_all rfl

/-- and 6 in two calls -/
example : (batchUpdatesC (3 : ZMod 7) [([1, 2], [5, 6], [6, 2]), ([4], [2], [3, 1])] (1 : ZMod 7)).cost
    = .ok { pmul := 6, padd := 4, finv := 2, fmul := 8 } := by with_unfolding_all rfl

end Allo
