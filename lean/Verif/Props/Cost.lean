import Verif.Model.Cost
import Verif.Props.Communication
import Verif.Props.Poly
import Mathlib.Algebra.Field.ZMod

/-!
# C90: the work of the operations

How many group and field operations the calls of servers and users perform, for all inputs, including answers of
lying servers.
-/

set_option linter.unusedSectionVars false
set_option linter.unusedVariables false
set_option linter.unusedSimpArgs false
namespace Allo
open Counted

namespace Ops

@[simp] theorem add_pmul (a b : Ops) : (a + b).pmul = a.pmul + b.pmul := rfl
@[simp] theorem add_padd (a b : Ops) : (a + b).padd = a.padd + b.padd := rfl
@[simp] theorem add_fmul (a b : Ops) : (a + b).fmul = a.fmul + b.fmul := rfl
@[simp] theorem add_finv (a b : Ops) : (a + b).finv = a.finv + b.finv := rfl
@[simp] theorem zero_pmul : (0 : Ops).pmul = 0 := rfl
@[simp] theorem zero_padd : (0 : Ops).padd = 0 := rfl
@[simp] theorem zero_fmul : (0 : Ops).fmul = 0 := rfl
@[simp] theorem zero_finv : (0 : Ops).finv = 0 := rfl

@[simp] theorem meter_app (a b : Ops) : Meter.app a b = a + b := rfl
@[simp] theorem meter_pmul : (Meter.pmul : Ops) = { pmul := 1 } := rfl
@[simp] theorem meter_padd : (Meter.padd : Ops) = { padd := 1 } := rfl
@[simp] theorem meter_fmul : (Meter.fmul : Ops) = { fmul := 1 } := rfl
@[simp] theorem meter_finv : (Meter.finv : Ops) = { finv := 1 } := rfl

theorem add_assoc' (a b c : Ops) : a + b + c = a + (b + c) := by ext <;> simp <;> omega
theorem add_zero' (a : Ops) : a + 0 = a := by ext <;> simp
theorem zero_add' (a : Ops) : 0 + a = a := by ext <;> simp

end Ops

/-- `x` computes what `y` computes (or aborts as `y` does), and what it computes and counts satisfies `P`. -/
def Meas {α : Type} (x : Counted α) (y : Rust α) (P : α → Ops → Prop) : Prop :=
  ∀ c, (∀ e, y = .error e → x c = .error e) ∧ (∀ a, y = .ok a → ∃ o, x c = .ok (a, c + o) ∧ P a o)

namespace Meas
variable {α β σ : Type}

theorem mono {x : Counted α} {y : Rust α} {P Q : α → Ops → Prop} (h : Meas x y P) (hPQ : ∀ a o, y = .ok a → P a o → Q a o) :
    Meas x y Q := by
  intro c
  refine ⟨(h c).1, fun a ha => ?_⟩
  obtain ⟨o, h1, h2⟩ := (h c).2 a ha
  exact ⟨o, h1, hPQ a o ha h2⟩

theorem free (r : Rust α) : Meas (Counted.free r) r (fun _ o => o = 0) := by
  intro c
  constructor
  · rintro e rfl; rfl
  · rintro a rfl
    exact ⟨0, by simp [Counted.free, Except.map, Ops.add_zero'], rfl⟩

theorem tick (k : Ops) (r : Rust α) : Meas (Counted.tick k r) r (fun _ o => o = k) := by
  intro c
  constructor
  · rintro e rfl; rfl
  · rintro a rfl
    exact ⟨k, by simp [Counted.tick, Except.map], rfl⟩

theorem pure (a : α) : Meas (Pure.pure a) (Pure.pure a) (fun b o => b = a ∧ o = 0) := by
  intro c
  constructor
  · intro e h; cases h
  · intro b h; cases h
    exact ⟨0, by rw [Ops.add_zero']; rfl, rfl, rfl⟩

theorem pure' (a : α) {P : α → Ops → Prop} (h : P a 0) : Meas (Pure.pure a) (Pure.pure a) P :=
  (pure a).mono (by rintro b o - ⟨rfl, rfl⟩; exact h)

theorem bind {x : Counted α} {y : Rust α} {P : α → Ops → Prop} {f : α → Counted β} {g : α → Rust β}
    {Q : β → Ops → Prop} (h : Meas x y P)
    (hf : ∀ a o, y = .ok a → P a o → Meas (f a) (g a) (fun b o' => Q b (o + o'))) :
    Meas (x >>= f) (y >>= g) Q := by
  intro c
  match y, h, hf with
  | .error e, h, _ =>
    have h1 := (h c).1 e rfl
    have e1 : (x >>= f) c = .error e := by
      show (StateT.bind x f) c = _
      simp only [StateT.bind, h1]; rfl
    exact ⟨fun e' he => by cases he; exact e1, fun a ha => by cases ha⟩
  | .ok a, h, hf =>
    obtain ⟨o, h1, h2⟩ := (h c).2 a rfl
    have h3 := hf a o rfl h2 (c + o)
    have e1 : (x >>= f) c = f a (c + o) := by
      show (StateT.bind x f) c = _
      simp only [StateT.bind, h1]; rfl
    refine ⟨fun e he => by rw [e1]; exact h3.1 e he, fun b hb => ?_⟩
    obtain ⟨o', h4, h5⟩ := h3.2 b hb
    exact ⟨o + o', by rw [e1, h4, Ops.add_assoc'], h5⟩

/-- an operation that costs nothing, then something else -/
theorem freeBind {r : Rust α} {f : α → Counted β} {g : α → Rust β} {Q : β → Ops → Prop}
    (hf : ∀ a, r = .ok a → Meas (f a) (g a) Q) : Meas (Counted.free r >>= f) (r >>= g) Q :=
  (free r).bind (by
    rintro a o ha rfl
    refine (hf a ha).mono (fun b o' _ h => ?_)
    rw [Ops.zero_add']; exact h)

theorem tickBind {k : Ops} {r : Rust α} {f : α → Counted β} {g : α → Rust β} {Q : β → Ops → Prop}
    (hf : ∀ a, r = .ok a → Meas (f a) (g a) (fun b o => Q b (k + o))) : Meas (Counted.tick k r >>= f) (r >>= g) Q :=
  (tick k r).bind (by rintro a o ha rfl; exact hf a ha)

/-- a counted operation that never aborts -/
theorem tickBind' {k : Ops} {a : α} {f : α → Counted β} {y : Rust β} {Q : β → Ops → Prop}
    (hf : Meas (f a) y (fun b o => Q b (k + o))) : Meas (Counted.tick k (Pure.pure a) >>= f) y Q := by
  have := tickBind (k := k) (r := Pure.pure a) (f := f) (g := fun _ => y) (Q := Q)
    (by intro a' ha; cases ha; exact hf)
  exact this

theorem foldlM {f : σ → α → Counted σ} {g : σ → α → Rust σ} (I : List α → σ → Ops → Prop) :
    ∀ (suf pre : List α) (s : σ) (o : Ops),
      (∀ pre x s o, I pre s o → Meas (f s x) (g s x) (fun s' o' => I (pre ++ [x]) s' (o + o'))) →
      I pre s o → Meas (suf.foldlM f s) (suf.foldlM g s) (fun s' o' => I (pre ++ suf) s' (o + o'))
  | [], pre, s, o, hstep, h0 => by
    simp only [List.foldlM_nil, List.append_nil]
    exact pure' s (by rwa [Ops.add_zero'])
  | x :: suf, pre, s, o, hstep, h0 => by
    simp only [List.foldlM_cons]
    refine (hstep pre x s o h0).bind (fun s' o' _ h' => ?_)
    refine (foldlM I suf (pre ++ [x]) s' (o + o') hstep h').mono (fun s'' o'' _ h'' => ?_)
    rw [List.append_assoc, List.singleton_append] at h''
    rwa [← Ops.add_assoc']

theorem foldlM' {f : σ → α → Counted σ} {g : σ → α → Rust σ} (I : List α → σ → Ops → Prop) (l : List α) (s : σ)
    (hstep : ∀ pre x s o, I pre s o → Meas (f s x) (g s x) (fun s' o' => I (pre ++ [x]) s' (o + o')))
    (h0 : I [] s 0) : Meas (l.foldlM f s) (l.foldlM g s) (I l) := by
  refine (foldlM I l [] s 0 hstep h0).mono (fun s' o' _ h => ?_)
  rwa [List.nil_append, Ops.zero_add'] at h

theorem mapM {f : α → Counted β} {g : α → Rust β} (I : List α → Ops → Prop) :
    ∀ (suf pre : List α) (o : Ops),
      (∀ pre x o, x ∈ suf → I pre o → Meas (f x) (g x) (fun _ o' => I (pre ++ [x]) (o + o'))) →
      I pre o → Meas (suf.mapM f) (suf.mapM g) (fun r o' => r.length = suf.length ∧ I (pre ++ suf) (o + o'))
  | [], pre, o, hstep, h0 => by
    simp only [List.mapM_nil, List.append_nil]
    exact pure' _ ⟨rfl, by rwa [Ops.add_zero']⟩
  | x :: suf, pre, o, hstep, h0 => by
    simp only [List.mapM_cons]
    refine (hstep pre x o (by simp) h0).bind (fun b o' _ h' => ?_)
    refine (mapM I suf (pre ++ [x]) (o + o')
      (fun p x o hx => hstep p x o (List.mem_cons_of_mem _ hx)) h').bind (fun r o'' _ h'' => ?_)
    refine pure' _ ⟨by simp [h''.1], ?_⟩
    have := h''.2
    rw [List.append_assoc, List.singleton_append] at this
    rw [Ops.add_zero', ← Ops.add_assoc']; exact this

theorem mapM' {f : α → Counted β} {g : α → Rust β} (I : List α → Ops → Prop) (l : List α)
    (hstep : ∀ pre x o, x ∈ l → I pre o → Meas (f x) (g x) (fun _ o' => I (pre ++ [x]) (o + o')))
    (h0 : I [] 0) : Meas (l.mapM f) (l.mapM g) (fun r o => r.length = l.length ∧ I l o) := by
  refine (mapM I l [] 0 hstep h0).mono (fun s' o' _ h => ?_)
  rwa [List.nil_append, Ops.zero_add'] at h

end Meas

section
variable {F G1 G2 : Type} [Field F] [DecidableEq F] [AddCommGroup G1] [Module F G1] [DecidableEq G1]

/-! ## the server -/

theorem polyMul_meas (p q : List F) (hp : p ≠ []) :
    Meas (polyMulC p q) (pure (polyMul p q)) (fun _ o => o = { fmul := p.length * q.length }) := by
  have hne : (!p.isEmpty || !q.isEmpty) = true := by cases p <;> simp at hp ⊢
  unfold polyMulC polyMul
  rw [if_pos hne, if_pos hne]
  have hrow : ∀ (s : List F) (i : Nat) (item : F),
      Meas (q.zipIdx.foldlM (fun s (jitem, j) => do
        let m ← fmulC jitem item
        pure (s.modify (i + j) (· + m))) s) (pure (mulRow s q i item)) (fun _ o => o = { fmul := q.length }) := by
    intro s i item
    have e : (pure (mulRow s q i item) : Rust (List F))
        = q.zipIdx.foldlM (fun s (x : F × Nat) => pure (s.modify (i + x.2) (· + x.1 * item))) s := by
      rw [List.foldlM_pure]; rfl
    rw [e]
    refine (Meas.foldlM' (fun l _ o => o = { fmul := l.length }) q.zipIdx s ?_ rfl).mono ?_
    · rintro pre ⟨a, j⟩ s o rfl
      refine Meas.tickBind' (Meas.pure' _ ?_)
      ext <;> simp
    · rintro s' o - rfl
      simp
  have e : (pure ((p.zipIdx).foldl (fun s (x : F × Nat) => mulRow s q x.2 x.1)
        (List.replicate (p.length + q.length - 1) (0 : F))) : Rust (List F))
      = p.zipIdx.foldlM (fun s (x : F × Nat) => pure (mulRow s q x.2 x.1))
        (List.replicate (p.length + q.length - 1) (0 : F)) := by
    rw [List.foldlM_pure]
  show Meas _ (pure ((p.zipIdx).foldl (fun s (x : F × Nat) => mulRow s q x.2 x.1)
        (List.replicate (p.length + q.length - 1) (0 : F)))) _
  rw [e]
  refine (Meas.foldlM' (fun l _ o => o = { fmul := l.length * q.length }) p.zipIdx _ ?_ (by ext <;> simp)).mono ?_
  · rintro pre ⟨a, i⟩ s o rfl
    refine (hrow s i a).mono ?_
    rintro s' o - rfl
    ext <;> simp [Nat.add_mul]
  · rintro s' o - rfl
    simp

theorem evalOnShares_meas (p ys : List F) :
    Meas (Server.evalOnSharesC p ys) (Server.evalOnShares p ys) (fun _ o => o = { fmul := p.length - 1 }) := by
  unfold Server.evalOnSharesC Server.evalOnShares
  refine Meas.freeBind (fun p0 _ => ?_)
  refine (Meas.foldlM' (fun l _ o => o = { fmul := l.length }) _ p0 ?_ rfl).mono ?_
  · rintro pre i s o rfl
    refine Meas.freeBind (fun pi _ => Meas.freeBind (fun s _ => Meas.tickBind' (Meas.pure' _ ?_)))
    ext <;> simp
  · rintro s' o - rfl
    simp

theorem evalPoints_meas (accs : List G1) (start : Nat) (evals : List F) :
    Meas (Server.evalPointsC accs start evals) (Server.evalPoints accs start evals)
      (fun _ o => o = { pmul := evals.length, padd := evals.length }) := by
  unfold Server.evalPointsC Server.evalPoints
  refine (Meas.foldlM' (fun l _ o => o = { pmul := l.length, padd := l.length }) evals.zipIdx 0 ?_ rfl).mono ?_
  · rintro pre ⟨v, i⟩ s o rfl
    refine Meas.freeBind (fun a _ => Meas.tickBind' ?_)
    refine (Meas.tick _ _).mono ?_
    rintro s' o - rfl
    ext <;> simp
  · rintro s' o - rfl
    simp

theorem chunkPolys_meas (dels : List F) (lo hi : Nat) :
    Meas (Server.chunkPolysC dels lo hi) (Server.chunkPolys dels lo hi)
      (fun r o => r.1.length = hi - lo + 1 ∧ r.2.map List.length = (List.range (hi - lo)).map (· + 1) ∧
        o = { fmul := (hi - lo) * (hi - lo + 1) }) := by
  unfold Server.chunkPolysC Server.chunkPolys
  refine (Meas.foldlM' (fun l (r : List F × List (List F)) o => r.1.length = l.length + 1 ∧
    r.2.map List.length = (List.range l.length).map (· + 1) ∧ o = { fmul := l.length * (l.length + 1) }) _ _ ?_ ?_).mono ?_
  · rintro pre i ⟨d, v⟩ o ⟨h1, h2, rfl⟩
    simp only at h1 h2
    refine Meas.freeBind (fun y _ => ?_)
    have hd : d ≠ [] := by rintro rfl; simp at h1
    have := (polyMul_meas d [y, -1] hd).bind (f := fun dPoly => (pure (dPoly, v ++ [d]) : Counted _))
      (g := fun dPoly => pure (dPoly, v ++ [d]))
      (Q := fun (r : List F × List (List F)) o => r.1.length = pre.length + 1 + 1 ∧
        r.2.map List.length = (List.range (pre.length + 1)).map (· + 1) ∧ o = { fmul := 2 * (pre.length + 1) }) ?_
    · refine this.mono ?_
      rintro r o - ⟨g1, g2, rfl⟩
      refine ⟨by simp [g1], by simp [g2], ?_⟩
      ext <;> simp
      ring
    · rintro p o hp rfl
      cases hp
      refine Meas.pure' _ ⟨?_, ?_, ?_⟩
      · simp only [polyMul_length d [y, -1] (Or.inl hd)]
        simp [h1]
      · simp [h1, h2, List.range_succ]
      · ext <;> simp [h1]; ring
  · exact ⟨rfl, rfl, rfl⟩
  · rintro r o - ⟨h1, h2, rfl⟩
    simp only [List.length_range'] at h1 h2 ⊢
    exact ⟨h1, h2, trivial⟩

theorem sum_lengths (L : List (List F)) (c : Nat) (h : L.map List.length = (List.range c).map (· + 1)) :
    L.length = c ∧ 2 * (L.map (fun v => v.length - 1)).sum + c = c * c := by
  have e : L.map (fun v => v.length - 1) = (L.map List.length).map (· - 1) := by simp
  refine ⟨by simpa using congrArg List.length h, ?_⟩
  rw [e, h, List.map_map]
  clear h e
  induction c with
  | zero => rfl
  | succ c ih =>
    rw [List.range_succ, List.map_append, List.sum_append]
    simp only [List.map_cons, List.map_nil, List.sum_cons, List.sum_nil, Function.comp] at ih ⊢
    have : (c + 1) * (c + 1) = c * c + 2 * c + 1 := by ring
    simp only [Nat.add_sub_cancel] at ih ⊢
    omega

theorem updateBody_meas (s : Server F G1 G2) (ys : List F) (st : Server.UpdateState F G1) :
    Meas (s.updateBodyC ys st) (s.updateBody ys st)
      (fun st' o => st'.delStart = st.delStart + ys.length ∧
        o.pmul = min ys.length (s.deletions.length - st.delStart) ∧
        o.padd = min ys.length (s.deletions.length - st.delStart) ∧ o.finv = 0 ∧
        2 * o.fmul = 3 * (min ys.length (s.deletions.length - st.delStart) *
          (min ys.length (s.deletions.length - st.delStart) + 1))) := by
  unfold Server.updateBodyC Server.updateBody
  have hc : min (st.delStart + (ys.length + 1) - 1) s.deletions.length - st.delStart
      = min ys.length (s.deletions.length - st.delStart) := by omega
  refine (chunkPolys_meas s.deletions st.delStart _).bind ?_
  rintro ⟨dPoly, vPolys⟩ o1 - ⟨h1, h2, rfl⟩
  rw [hc] at h1 h2 ⊢
  generalize min ys.length (s.deletions.length - st.delStart) = c at *
  simp only at h1 h2 ⊢
  refine (evalOnShares_meas dPoly ys).bind ?_
  rintro d o2 - rfl
  refine (Meas.mapM' (fun l o => o = { fmul := (l.map (fun v : List F => v.length - 1)).sum }) vPolys ?_ rfl).bind ?_
  · rintro pre x o - rfl
    refine (evalOnShares_meas x ys).mono ?_
    rintro a o - rfl
    ext <;> simp
  rintro evals o3 - ⟨h3, rfl⟩
  refine (evalPoints_meas s.accumulators st.accStart evals).bind ?_
  rintro v o4 - rfl
  obtain ⟨h4, h5⟩ := sum_lengths vPolys c h2
  refine Meas.pure' _ ⟨rfl, ?_, ?_, ?_, ?_⟩ <;> simp [h1, h3, h4]
  have : c * (c + 1) = c * c + c := by ring
  rw [this] at *
  omega

theorem updateLoop_meas (s : Server F G1 G2) (ys : List F) : ∀ (fuel : Nat) (st : Server.UpdateState F G1),
    Meas (s.updateLoopC ys fuel st)
      (whileFuel (fun st => pure (decide (st.delStart < s.deletions.length))) (s.updateBody ys) fuel st)
      (fun _ o => o.pmul = s.deletions.length - st.delStart ∧ o.padd = s.deletions.length - st.delStart ∧ o.finv = 0 ∧
        2 * o.fmul ≤ 3 * ((s.deletions.length - st.delStart) * (ys.length + 1)))
  | 0, st => by
    refine (Meas.free _).mono ?_
    rintro a o h -
    cases h
  | fuel + 1, st => by
    unfold Server.updateLoopC
    show Meas _ (if decide (st.delStart < s.deletions.length) = true then _ else _) _
    simp only [decide_eq_true_eq]
    by_cases h : st.delStart < s.deletions.length
    · rw [if_pos h, if_pos h]
      refine (updateBody_meas s ys st).bind ?_
      rintro st' o - ⟨h1, h2, h3, h4, h5⟩
      refine (updateLoop_meas s ys fuel st').mono ?_
      rintro st'' o' - ⟨g1, g2, g3, g4⟩
      rw [h1] at g1 g2 g4
      refine ⟨by simp; omega, by simp; omega, by simp; omega, ?_⟩
      have e : s.deletions.length - st.delStart = min ys.length (s.deletions.length - st.delStart)
          + (s.deletions.length - (st.delStart + ys.length)) := by omega
      have hle : min ys.length (s.deletions.length - st.delStart) ≤ ys.length := by omega
      rw [e, Nat.add_mul]
      have := Nat.mul_le_mul_left (min ys.length (s.deletions.length - st.delStart)) (Nat.add_le_add_right hle 1)
      simp only [Ops.add_fmul]
      omega
    · rw [if_neg h, if_neg h]
      refine Meas.pure' _ ⟨?_, ?_, ?_, ?_⟩ <;> simp <;> omega

theorem serverUpdate_meas (s : Server F G1 G2) (n : Nat) (ys : List F) :
    Meas (s.updateC n ys) (s.update n ys)
      (fun _ o => o.pmul = (if n ≤ s.deletions.length then n else 0) ∧ o.padd = o.pmul ∧ o.finv = 0 ∧
        2 * o.fmul ≤ 3 * (n * (ys.length + 1))) := by
  unfold Server.updateC Server.update Server.updateFuel
  by_cases h : n > s.deletions.length
  · rw [if_pos h, if_pos h]
    exact Meas.pure' _ (by simp; omega)
  · rw [if_neg h, if_neg h]
    refine Meas.freeBind (fun ds hds => Meas.freeBind (fun as _ => ?_))
    have : ds = s.deletions.length - n := by
      unfold usub at hds; rw [if_pos (by omega)] at hds; exact (Except.ok.inj hds).symm
    subst this
    refine (updateLoop_meas s ys _ _).bind ?_
    rintro st o - ⟨h1, h2, h3, h4⟩
    have e : s.deletions.length - (s.deletions.length - n) = n := by omega
    simp only [e] at h1 h2 h4
    refine Meas.pure' _ ?_
    rw [Ops.add_zero', if_pos (by omega)]
    exact ⟨h1, by omega, h3, h4⟩

theorem add_meas (s : Server F G1 G2) (y : F) :
    Meas (s.addC y) (s.add y) (fun r o => o = (if r.2 = none then 0 else { pmul := 1, finv := 1 })) := by
  unfold Server.addC Server.add
  by_cases h : mapContains s.allWitnesses y
  · rw [if_pos h, if_pos h]; exact Meas.pure' _ (by simp)
  · rw [if_neg h, if_neg h]
    refine Meas.freeBind (fun last _ => Meas.tickBind (fun i _ => Meas.tickBind' (Meas.pure' _ ?_)))
    rw [if_neg (by simp)]; ext <;> simp

theorem quickDelete_meas (s : Server F G1 G2) (y : F) :
    Meas (s.quickDeleteC y) (s.quickDelete y) (fun r o => o = (if r.2 = none then 0 else { pmul := 1, finv := 1 })) := by
  unfold Server.quickDeleteC Server.quickDelete
  by_cases h : (!mapContains s.allWitnesses y) = true
  · rw [if_pos h, if_pos h]; exact Meas.pure' _ (by simp)
  · rw [if_neg h, if_neg h]
    refine Meas.freeBind (fun last _ => Meas.tickBind (fun i _ => Meas.tickBind' (Meas.pure' _ ?_)))
    rw [if_neg (by simp)]; ext <;> simp

theorem delete_meas (s : Server F G1 G2) (y : F) :
    Meas (s.deleteC y) (s.delete y) (fun r o => o = (if r.2 = none then 0 else
      { pmul := r.1.allWitnesses.length, padd := r.1.allWitnesses.length, finv := r.1.allWitnesses.length })) := by
  unfold Server.deleteC Server.delete
  cases mapGet s.allWitnesses y with
  | none => exact Meas.pure' _ (by simp)
  | some wit =>
    refine (Meas.mapM' (fun l o => o = { pmul := l.length, padd := l.length, finv := l.length }) _ ?_ rfl).bind ?_
    · rintro pre x o - rfl
      refine Meas.tickBind (fun i _ => Meas.tickBind' (Meas.tickBind' (Meas.pure' _ ?_)))
      ext <;> simp
    · rintro rest o - ⟨h1, rfl⟩
      refine Meas.pure' _ ?_
      rw [if_neg (by simp)]
      ext <;> simp [h1]

/-! ## the user -/

theorem vsss_meas (poly : List F) (x : F) (t : Nat) :
    Meas (vsssEvaluateC poly x t) (vsssEvaluate poly x t) (fun _ o => o = { fmul := t - 1 }) := by
  unfold vsssEvaluateC vsssEvaluate
  refine Meas.freeBind (fun d hd => Meas.freeBind (fun a _ => ?_))
  have : d = t - 1 := by
    unfold usub at hd; split at hd
    · exact (Except.ok.inj hd).symm
    · cases hd
  subst this
  refine (Meas.foldlM' (fun l _ o => o = { fmul := l.length }) _ a ?_ rfl).mono ?_
  · rintro pre i s o rfl
    refine Meas.freeBind (fun pi _ => Meas.tickBind' (Meas.pure' _ ?_))
    ext <;> simp
  · rintro s' o - rfl
    simp

theorem shamirShare_meas (t n : Nat) (secret : F) (coef : Nat → F) :
    Meas (shamirShareC t n secret coef) (shamirShare t n secret coef) (fun _ o => o = { fmul := n * (t - 1) }) := by
  unfold shamirShareC shamirShare
  by_cases h : t = 0
  · rw [if_pos h, if_pos h]
    exact (Meas.free _).mono (fun a o h' _ => by cases h')
  · rw [if_neg h, if_neg h]
    refine (Meas.mapM' (fun l o => o = { fmul := l.length * (t - 1) }) _ ?_ (by ext <;> simp)).mono ?_
    · rintro pre x o - rfl
      refine (vsss_meas _ _ _).bind ?_
      rintro a o - rfl
      refine Meas.pure' _ ?_
      ext <;> simp [Nat.add_mul]
    · rintro r o - ⟨-, rfl⟩
      simp

theorem prepare_meas (seed : Nat → Nat) (u : User F G1 G2) (e n t : Nat) (rand : Nat → Nat → F) :
    Meas (u.prepareForUpdateC seed e n t rand) (u.prepareForUpdate seed e n t rand)
      (fun r o => o.pmul = 0 ∧ o.padd = 0 ∧ o.finv = 0 ∧ (∀ err, r = .error err → o.fmul = 0) ∧
        ∀ upd, r = .ok upd → ∃ k, chunkSize (e - u.epoch) (seed (e - u.epoch)) = .ok k ∧
          (2 ≤ k → o.fmul = (k - 1) * (n * (t - 1)) + (k - 2))) := by
  unfold User.prepareForUpdateC User.prepareForUpdate
  by_cases h1 : n < t
  · rw [if_pos h1, if_pos h1]; exact Meas.pure' _ (by simp)
  by_cases h2 : t ≤ 1
  · rw [if_neg h1, if_neg h1, if_pos h2]
    simp only [bind, Except.bind, pure, Except.pure]
    rw [if_pos h2]; exact Meas.pure' _ (by simp)
  rw [if_neg h1, if_neg h1, if_neg h2]
  show Meas _ (if t ≤ 1 then _ else _) _
  rw [if_neg h2]
  refine Meas.freeBind (fun d hd => Meas.freeBind (fun k hk => ?_))
  have : d = e - u.epoch := by
    unfold usub at hd; split at hd
    · exact (Except.ok.inj hd).symm
    · cases hd
  subst this
  have hsv : Meas (User.shareVectorsC u.id n t k rand) (User.shareVectors u.id n t k rand)
      (fun _ o => o = { fmul := n * (t - 1) + (k - 2) * (n * (t - 1) + 1) }) := by
    unfold User.shareVectorsC User.shareVectors
    refine (shamirShare_meas _ _ _ _).bind ?_
    rintro first o1 - rfl
    refine Meas.freeBind (fun m hm => ?_)
    have : m = k - 1 := by
      unfold usub at hm; split at hm
      · exact (Except.ok.inj hm).symm
      · cases hm
    subst this
    refine (Meas.foldlM' (fun l _ o => o = { fmul := l.length * (n * (t - 1) + 1) }) _ _ ?_ (by ext <;> simp)).bind ?_
    · rintro pre j st o rfl
      refine Meas.tickBind' ((shamirShare_meas _ _ _ _).bind ?_)
      rintro sh o - rfl
      refine Meas.pure' _ ?_
      ext <;> simp
      ring
    · rintro st o - rfl
      refine Meas.pure' _ ?_
      ext <;> simp
      omega
  refine hsv.bind ?_
  rintro ⟨ys, xs⟩ o - rfl
  refine Meas.pure' _ ⟨rfl, rfl, rfl, by simp, ?_⟩
  rintro upd -
  refine ⟨k, hk, fun hk2 => ?_⟩
  obtain ⟨k', rfl⟩ : ∃ k', k = k' + 2 := ⟨k - 2, by omega⟩
  simp only [Ops.add_zero']
  show n * (t - 1) + k' * (n * (t - 1) + 1) = (k' + 1) * (n * (t - 1)) + k'
  ring

theorem coefficient_meas {T : Type} (t : Nat) (shares : List (F × T)) (product : F) (i : Nat) :
    Meas (shamirCoefficientC t shares product i) (shamirCoefficient t shares product i)
      (fun _ o => o = { fmul := t, finv := t }) := by
  unfold shamirCoefficientC shamirCoefficient
  refine (Meas.foldlM' (fun l _ o => o = { fmul := l.length, finv := l.length }) _ _ ?_ rfl).mono ?_
  · rintro pre ii c o rfl
    by_cases h : i = ii
    · simp only [if_pos h]
      refine Meas.freeBind (fun a _ => Meas.tickBind (fun v _ => (Meas.tick _ _).mono ?_))
      rintro a o - rfl
      ext <;> simp
    · simp only [if_neg h]
      refine Meas.freeBind (fun a _ => Meas.freeBind (fun b _ => Meas.tickBind (fun v _ => (Meas.tick _ _).mono ?_)))
      rintro a o - rfl
      ext <;> simp
  · rintro c o - rfl
    simp

theorem checks_meas {T : Type} (t : Nat) (shares : List (F × T)) (product : F) (cs : List F) :
    Meas (shamirChecksC t shares product cs) (shamirChecks t shares product cs)
      (fun r o => r.length = cs.length ∧ o = { fmul := 2 + 4 * (t - 1), finv := 1 + 2 * (t - 1) }) := by
  unfold shamirChecksC shamirChecks
  refine Meas.freeBind (fun xt _ => Meas.freeBind (fun x0 _ => Meas.tickBind (fun v0 _ => Meas.tickBind'
    (Meas.freeBind (fun _ _ => Meas.tickBind' ?_)))))
  refine (Meas.foldlM' (fun l r o => r.length = cs.length ∧ o = { fmul := 4 * l.length, finv := 2 * l.length }) _ _ ?_
    ⟨by simp, rfl⟩).mono ?_
  · rintro pre i r o ⟨hr, rfl⟩
    refine Meas.freeBind (fun xi _ => Meas.tickBind (fun v _ => Meas.tickBind' (Meas.tickBind' (Meas.tickBind'
      (Meas.tickBind (fun v' _ => Meas.tickBind' (Meas.pure' _ ⟨by simp [hr], ?_⟩)))))))
    ext <;> simp <;> ring
  · rintro r o - ⟨hr, rfl⟩
    refine ⟨hr, ?_⟩
    ext <;> simp
    omega

theorem coefficients_meas {T : Type} (t : Nat) (shares : List (F × T)) :
    Meas (shamirCoefficientsC t shares) (shamirCoefficients t shares)
      (fun r o => r.1.length = t ∧ (∀ cs, r.2 = some cs → cs.length = t) ∧ o.pmul = 0 ∧ o.padd = 0 ∧
        o.fmul ≤ t * t + 5 * t + 2 ∧ o.finv ≤ t * t + 2 * t + 1) := by
  unfold shamirCoefficientsC shamirCoefficients
  by_cases h : shares.length < t
  · rw [if_pos h, if_pos h]
    exact (Meas.free _).mono (fun a o h' _ => by cases h')
  rw [if_neg h, if_neg h]
  have hprod : Meas ((shares.take t).foldlM (fun a y => fmulC a y.1) (1 : F))
      (pure ((shares.take t).foldl (fun a y => a * y.1) (1 : F))) (fun _ o => o = { fmul := t }) := by
    have e : (pure ((shares.take t).foldl (fun a y => a * y.1) (1 : F)) : Rust F)
        = (shares.take t).foldlM (fun a y => pure (a * y.1)) (1 : F) := by rw [List.foldlM_pure]
    rw [e]
    refine (Meas.foldlM' (fun l _ o => o = { fmul := l.length }) _ _ ?_ rfl).mono ?_
    · rintro pre x s o rfl
      refine (Meas.tick _ _).mono ?_
      rintro a o - rfl
      ext <;> simp
    · rintro r o - rfl
      simp; omega
  have := hprod.bind (g := fun product => do
    let coefficients ← (List.range t).mapM (shamirCoefficient t shares product)
    if shares.length > t then
      let checks ← shamirChecks t shares product coefficients
      pure (coefficients, some checks)
    else
      pure (coefficients, none)) (f := fun product => do
    let coefficients ← (List.range t).mapM (shamirCoefficientC t shares product)
    if shares.length > t then
      let checks ← shamirChecksC t shares product coefficients
      pure (coefficients, some checks)
    else
      pure (coefficients, none)) (Q := fun (r : List F × Option (List F)) o => r.1.length = t ∧
        (∀ cs, r.2 = some cs → cs.length = t) ∧ o.pmul = 0 ∧ o.padd = 0 ∧
        o.fmul ≤ t * t + 5 * t + 2 ∧ o.finv ≤ t * t + 2 * t + 1) ?_
  · exact this
  rintro product o1 - rfl
  refine (Meas.mapM' (fun l o => o = { fmul := l.length * t, finv := l.length * t }) _ ?_ (by ext <;> simp)).bind ?_
  · rintro pre x o - rfl
    refine (coefficient_meas _ _ _ _).mono ?_
    rintro a o - rfl
    ext <;> simp [Nat.add_mul]
  rintro cs o2 - ⟨h2, rfl⟩
  simp only [List.length_range] at h2
  by_cases h3 : shares.length > t
  · rw [if_pos h3, if_pos h3]
    refine (checks_meas _ _ _ _).bind ?_
    rintro ch o - ⟨h4, rfl⟩
    refine Meas.pure' _ ⟨h2, ?_, ?_, ?_, ?_, ?_⟩ <;> simp <;> omega
  · rw [if_neg h3, if_neg h3]
    refine Meas.pure' _ ⟨h2, ?_, ?_, ?_, ?_, ?_⟩ <;> simp <;> omega

theorem rebuildScalar_meas (shares : List (F × F)) (cs : List F) (checks : Option (List F)) :
    Meas (shamirRebuildScalarC shares cs checks) (shamirRebuildScalar shares cs checks)
      (fun _ o => o.pmul = 0 ∧ o.padd = 0 ∧ o.finv = 0 ∧ o.fmul ≤ 2 * cs.length + 1) := by
  unfold shamirRebuildScalarC shamirRebuildScalar
  refine (Meas.foldlM' (fun l _ o => o = { fmul := l.length }) _ _ ?_ rfl).bind ?_
  · rintro pre i r o rfl
    refine Meas.freeBind (fun a _ => Meas.freeBind (fun b _ => Meas.tickBind' (Meas.pure' _ ?_)))
    ext <;> simp
  rintro r o1 - rfl
  cases checks with
  | none => exact Meas.pure' _ (by simp; omega)
  | some ch =>
    refine Meas.freeBind (fun a _ => Meas.freeBind (fun b _ => Meas.tickBind' ?_))
    refine (Meas.foldlM' (fun l _ o => o = { fmul := l.length }) _ _ ?_ rfl).bind ?_
    · rintro pre i r o rfl
      refine Meas.freeBind (fun a _ => Meas.freeBind (fun b _ => Meas.tickBind' (Meas.pure' _ ?_)))
      ext <;> simp
    rintro r' o2 - rfl
    split <;> exact Meas.pure' _ (by simp; omega)

theorem rebuildPoint_meas (shares : List (F × G1)) (cs : List F) (checks : Option (List F)) (hcs : 1 ≤ cs.length) :
    Meas (shamirRebuildPointC shares cs checks) (shamirRebuildPoint shares cs checks)
      (fun _ o => o.pmul ≤ 2 * cs.length ∧ o.padd + 1 ≤ 2 * cs.length ∧ o.finv = 0 ∧ o.fmul = 0) := by
  unfold shamirRebuildPointC shamirRebuildPoint
  refine (Meas.foldlM' (fun l _ o => o = { pmul := l.length, padd := l.length }) _ _ ?_ rfl).bind ?_
  · rintro pre i r o rfl
    refine Meas.freeBind (fun a _ => Meas.freeBind (fun b _ => Meas.tickBind' ((Meas.tick _ _).mono ?_)))
    rintro a o - rfl
    ext <;> simp
  rintro r o1 - rfl
  cases checks with
  | none => exact Meas.pure' _ (by simp; omega)
  | some ch =>
    refine Meas.freeBind (fun a _ => Meas.freeBind (fun b _ => Meas.tickBind' ?_))
    refine (Meas.foldlM' (fun l _ o => o = { pmul := l.length, padd := l.length }) _ _ ?_ rfl).bind ?_
    · rintro pre i r o rfl
      refine Meas.freeBind (fun a _ => Meas.freeBind (fun b _ => Meas.tickBind' ((Meas.tick _ _).mono ?_)))
      rintro a o - rfl
      ext <;> simp
    rintro r' o2 - rfl
    split <;> exact Meas.pure' _ (by simp; omega)

theorem rebuildLoop_meas (cs : List F) (checks : Option (List F)) (vChunks : List (List (F × G1)))
    (hcs : 1 ≤ cs.length) : ∀ (dChunks : List (List (F × F))) (i : Nat) (w : G1),
    Meas (User.rebuildLoopC cs checks vChunks i dChunks w) (User.rebuildLoop cs checks vChunks i dChunks w)
      (fun _ o => o.pmul ≤ dChunks.length * (2 * cs.length + 1) ∧ o.padd ≤ dChunks.length * (2 * cs.length) ∧
        o.finv ≤ dChunks.length ∧ o.fmul ≤ dChunks.length * (2 * cs.length + 2))
  | [], i, w => Meas.pure' _ (by simp)
  | d :: ds, i, w => by
    unfold User.rebuildLoopC User.rebuildLoop
    refine (rebuildScalar_meas d cs checks).bind ?_
    rintro r o1 - ⟨h1, h2, h3, h4⟩
    cases r with
    | none =>
      refine Meas.pure' _ ?_
      simp only [List.length_cons, Ops.add_zero', Nat.add_mul]
      omega
    | some dChunk =>
      by_cases h0 : dChunk = 0
      · simp only [h0, if_true]
        refine Meas.pure' _ ?_
        simp only [List.length_cons, Ops.add_zero', Nat.add_mul]
        omega
      · simp only [h0, if_false]
        refine Meas.tickBind' (Meas.freeBind (fun vs _ => ?_))
        refine (rebuildPoint_meas vs cs checks hcs).bind ?_
        rintro r o2 - ⟨g1, g2, g3, g4⟩
        cases r with
        | none =>
          refine Meas.pure' _ ?_
          simp only [List.length_cons, Ops.add_zero', Ops.add_pmul, Ops.add_padd, Ops.add_fmul, Ops.add_finv,
            Ops.meter_pmul, Ops.meter_padd, Ops.meter_fmul, Ops.meter_finv, Nat.add_mul]
          omega
        | some vChunk =>
          refine Meas.tickBind' (Meas.tickBind (fun inv _ => Meas.tickBind' ?_))
          refine (rebuildLoop_meas cs checks vChunks hcs ds (i + 1) _).mono ?_
          rintro r' o3 - ⟨k1, k2, k3, k4⟩
          simp only [List.length_cons, Ops.add_pmul, Ops.add_padd, Ops.add_fmul, Ops.add_finv,
            Ops.meter_pmul, Ops.meter_padd, Ops.meter_fmul, Ops.meter_finv, Nat.add_mul] at *
          omega

theorem collectStep_length {T : Type} (xs : List F) (answers : List (List T)) (m : Nat)
    (ha : ∀ a ∈ answers, a.length ≤ m) (chunks r : List (List (F × T))) (i : Nat) (hc : chunks.length ≤ m)
    (h : User.collectStep xs answers chunks i = .ok r) : r.length ≤ m := by
  unfold User.collectStep at h
  simp only [bind, Except.bind] at h
  split at h
  · cases h
  rename_i ans hans
  have hm : ans ∈ answers := by
    unfold idx at hans
    split at hans
    · rename_i a ha'
      cases hans
      exact List.mem_of_getElem? ha'
    · cases hans
  have key : ∀ (l : List (T × Nat)) (c : List (List (F × T))),
      c.length ≤ m → l.foldlM (fun chunks (x : T × Nat) => do
        let v ← idx xs i
        let _ ← idx chunks x.2
        pure (chunks.modify x.2 (· ++ [(v, x.1)]))) c = .ok r → r.length ≤ m := by
    intro l
    induction l with
    | nil => intro c hc h; cases h; exact hc
    | cons x l ih =>
      intro c hc h
      simp only [List.foldlM_cons, bind, Except.bind] at h
      split at h
      · cases h
      rename_i c' hc'
      refine ih c' ?_ h
      split at hc'
      · cases hc'
      split at hc'
      · cases hc'
      cases hc'
      simpa using hc
  refine key _ _ ?_ h
  split
  · simpa using ha ans hm
  · exact hc

theorem collect_length (n m : Nat) (xs : List F) (dvs : List (List F × List G1)) (ha : ∀ a ∈ dvs, a.1.length ≤ m)
    (r : List (List (F × F)) × List (List (F × G1))) (h : User.collect n xs dvs = .ok r) : r.1.length ≤ m := by
  unfold User.collect at h
  have key : ∀ (l : List Nat) (c : List (List (F × F)) × List (List (F × G1))), c.1.length ≤ m →
      l.foldlM (fun st i => do
        let dc ← User.collectStep xs (dvs.map (fun a : List F × List G1 => a.1)) st.1 i
        let vc ← User.collectStep xs (dvs.map (fun a : List F × List G1 => a.2)) st.2 i
        pure (dc, vc)) c = .ok r → r.1.length ≤ m := by
    intro l
    induction l with
    | nil => intro c hc h; cases h; exact hc
    | cons x l ih =>
      intro c hc h
      simp only [List.foldlM_cons, bind, Except.bind] at h
      split at h
      · cases h
      rename_i c' hc'
      refine ih c' ?_ h
      split at hc'
      · cases hc'
      rename_i d hd
      split at hc'
      · cases hc'
      cases hc'
      exact collectStep_length xs (dvs.map (fun a : List F × List G1 => a.1)) m (by simpa using fun a b hab => ha (a, b) hab) _ _ _ hc hd
  exact key _ _ (by simp) h

theorem postUpdate_meas (w : G1) (t m : Nat) (ht : 1 ≤ t) (yShares : List (List F)) (xs : List F)
    (dvs : List (List F × List G1)) (ha : ∀ a ∈ dvs, a.1.length ≤ m) :
    Meas (User.postUpdateC w t yShares xs dvs) (User.postUpdate w t yShares xs dvs)
      (fun _ o => o.pmul ≤ m * (2 * t + 1) ∧ o.padd ≤ m * (2 * t) ∧ o.finv ≤ t * t + 2 * t + 1 + m ∧
        o.fmul ≤ t * t + 5 * t + 2 + m * (2 * t + 2)) := by
  unfold User.postUpdateC User.postUpdate
  refine Meas.freeBind ?_
  rintro ⟨dc, vc⟩ hcol
  have hl := collect_length _ m xs dvs ha _ hcol
  refine Meas.freeBind (fun first _ => ?_)
  refine (coefficients_meas t first).bind ?_
  rintro ⟨cs, checks⟩ o1 - ⟨h1, -, h2, h3, h4, h5⟩
  simp only at h1
  refine (rebuildLoop_meas cs checks vc (by omega) dc 0 w).mono ?_
  rintro r o2 - ⟨g1, g2, g3, g4⟩
  rw [h1] at g1 g2 g4
  have e1 := Nat.mul_le_mul_right (2 * t + 1) hl
  have e2 := Nat.mul_le_mul_right (2 * t) hl
  have e3 := Nat.mul_le_mul_right (2 * t + 2) hl
  simp only [Ops.add_pmul, Ops.add_padd, Ops.add_fmul, Ops.add_finv] at *
  omega

theorem dad_meas (vs : List F) (y : F) :
    Meas (dadC vs y) (pure (dad vs y)) (fun _ o => o.pmul = 0 ∧ o.padd = 0 ∧ o.finv = 0 ∧ o.fmul ≤ vs.length) := by
  have hgen : Meas ((vs.map (fun v => v - y)).foldlM (fun a y => fmulC a y) (1 : F))
      (pure ((vs.map (fun v => v - y)).foldl (fun a y => a * y) (1 : F)))
      (fun _ o => o.pmul = 0 ∧ o.padd = 0 ∧ o.finv = 0 ∧ o.fmul ≤ vs.length) := by
    have e : (pure ((vs.map (fun v => v - y)).foldl (fun a y => a * y) (1 : F)) : Rust F)
        = (vs.map (fun v => v - y)).foldlM (fun a y => pure (a * y)) (1 : F) := by rw [List.foldlM_pure]
    rw [e]
    refine (Meas.foldlM' (fun l _ o => o = { fmul := l.length }) _ _ ?_ rfl).mono ?_
    · rintro pre x s o rfl
      refine (Meas.tick _ _).mono ?_
      rintro a o - rfl
      ext <;> simp
    · rintro r o - rfl
      simp
  unfold dadC dad
  match vs, hgen with
  | [], h => exact h
  | [v], _ => exact Meas.pure' _ (by simp)
  | _ :: _ :: _, h => exact h

theorem pg1Eval_meas (A : List G1) (x : F) :
    Meas (pg1EvalC A x) (pure (pg1Eval A x)) (fun r o => (r = none ↔ A = []) ∧
      o = { pmul := A.length - 1, padd := A.length - 1, fmul := A.length - 1 }) := by
  cases A with
  | nil => exact Meas.pure' _ ⟨by simp [pg1Eval], rfl⟩
  | cons a0 rest =>
    unfold pg1EvalC pg1Eval
    have e : (pure (some (rest.foldl (fun (st : G1 × F) a => (st.1 + st.2 • a, st.2 * x)) (a0, x)).1) : Rust (Option G1))
        = rest.foldlM (fun (st : G1 × F) a => pure (st.1 + st.2 • a, st.2 * x)) (a0, x) >>= fun r => pure (some r.1) := by
      rw [List.foldlM_pure]; rfl
    show Meas _ (pure (some (rest.foldl (fun (st : G1 × F) a => (st.1 + st.2 • a, st.2 * x)) (a0, x)).1)) _
    rw [e]
    refine (Meas.foldlM' (fun l _ o => o = { pmul := l.length, padd := l.length, fmul := l.length }) _ _ ?_ rfl).bind ?_
    · rintro pre a st o rfl
      refine Meas.tickBind' (Meas.tickBind' (Meas.tickBind' (Meas.pure' _ ?_)))
      ext <;> simp
    · rintro r o - rfl
      refine Meas.pure' _ ⟨by simp, ?_⟩
      ext <;> simp

theorem mwBatch_meas (C : G1) (y : F) (adds dels : List F) (coeffs : List G1) :
    Meas (mwBatchUpdateC C y adds dels coeffs) (pure (mwBatchUpdate C y adds dels coeffs))
      (fun _ o => o.finv = 1 ∧ o.fmul ≤ adds.length + dels.length + coeffs.length + 1 ∧
        (y ∉ dels → coeffs ≠ [] → o.pmul = coeffs.length + 1 ∧ o.padd = coeffs.length) ∧
        (y ∈ dels → o.pmul = 0)) := by
  unfold mwBatchUpdateC mwBatchUpdate evaluateDelta
  refine (dad_meas dels y).bind (g := fun _ => pure _) ?_
  rintro dD o1 hdD ⟨h1, h2, h3, h4⟩
  cases hdD
  have hz : dad dels y = 0 ↔ y ∈ dels := by
    rw [C14_dad_zero]
  refine Meas.tickBind' ?_
  by_cases h0 : dad dels y = 0
  · have e : invert? (dad dels y) = none := by simp [invert?, h0]
    simp only [e]
    refine Meas.pure' _ ?_
    simp [h1, h2, h3, hz.1 h0]; omega
  · have e : invert? (dad dels y) = some (dad dels y)⁻¹ := by simp [invert?, h0]
    simp only [e]
    refine (dad_meas adds y).bind (g := fun _ => pure _) ?_
    rintro dA o2 hdA ⟨k1, k2, k3, k4⟩
    cases hdA
    refine Meas.tickBind' ?_
    refine (pg1Eval_meas coeffs y).bind (g := fun _ => pure _) ?_
    rintro r o3 hr ⟨hnone, rfl⟩
    cases hr
    have hy : y ∉ dels := fun h => h0 (hz.2 h)
    cases hev : pg1Eval coeffs y with
    | none =>
      have hnil := hnone.1 hev
      refine Meas.pure' _ ?_
      simp [h1, h2, h3, k1, k2, k3, hy, hnil]; omega
    | some v =>
      have hne : coeffs ≠ [] := fun h => by rw [hnone.2 h] at hev; cases hev
      have hlen : 1 ≤ coeffs.length := by cases coeffs <;> simp at hne ⊢
      refine Meas.tickBind' (Meas.tickBind' ((Meas.tick _ _).mono ?_))
      rintro a o - rfl
      simp [h1, h2, h3, k1, k2, k3, hy, hne]; omega

/-! ## the theorems -/

/-- what `Meas` says about a run that starts to count at zero -/
theorem Meas.run {α : Type} {x : Counted α} {y : Rust α} {P : α → Ops → Prop} (h : Meas x y P) :
    (∀ e, y = .error e → x 0 = .error e) ∧ ∀ a, y = .ok a → ∃ o, x 0 = .ok (a, o) ∧ P a o := by
  refine ⟨(h 0).1, fun a ha => ?_⟩
  obtain ⟨o, h1, h2⟩ := (h 0).2 a ha
  rw [Ops.zero_add'] at h1
  exact ⟨o, h1, h2⟩

/-- what the counting program computes -/
def CountedM.result {α : Type} (x : Counted α) : Rust α := (x 0).map Prod.fst

/-- what it has counted when it returns -/
def CountedM.cost {α : Type} (x : Counted α) : Rust Ops := (x 0).map Prod.snd

theorem Meas.result {α : Type} {x : Counted α} {y : Rust α} {P : α → Ops → Prop} (h : Meas x y P) :
    x.result = y ∧ ∀ a, y = .ok a → ∃ o, x.cost = .ok o ∧ P a o := by
  constructor
  · cases y with
    | error e => simp [CountedM.result, h.run.1 e rfl, Except.map]
    | ok a =>
      obtain ⟨o, h1, -⟩ := h.run.2 a rfl
      simp [CountedM.result, h1, Except.map]
  · intro a ha
    obtain ⟨o, h1, h2⟩ := h.run.2 a ha
    exact ⟨o, by simp [CountedM.cost, h1, Except.map], h2⟩

/-- C90: the counting programs compute exactly what the functions of the model compute, including all aborts. -/
theorem C90_same (s : Server F G1 G2) (u : User F G1 G2) (y : F) (n e N t : Nat) (ys : List F) (seed : Nat → Nat)
    (rand : Nat → Nat → F) (w : G1) (ht : 1 ≤ t) (yShares : List (List F)) (xs : List F)
    (dvs : List (List F × List G1)) (adds dels : List F) (coeffs : List G1) :
    (s.addC y).result = s.add y ∧ (s.deleteC y).result = s.delete y ∧ (s.quickDeleteC y).result = s.quickDelete y ∧
    (s.updateC n ys).result = s.update n ys ∧
    (u.prepareForUpdateC seed e N t rand).result = u.prepareForUpdate seed e N t rand ∧
    (User.postUpdateC w t yShares xs dvs).result = User.postUpdate w t yShares xs dvs ∧
    (mwBatchUpdateC w y adds dels coeffs).result = .ok (mwBatchUpdate w y adds dels coeffs) := by
  refine ⟨(add_meas s y).result.1, (delete_meas s y).result.1, (quickDelete_meas s y).result.1,
    (serverUpdate_meas s n ys).result.1, (prepare_meas seed u e N t rand).result.1, ?_,
    (mwBatch_meas w y adds dels coeffs).result.1⟩
  refine (postUpdate_meas w t ((dvs.map (fun a => a.1.length)).sum) ht yShares xs dvs ?_).result.1
  intro a ha
  exact List.single_le_sum (by simp) _ (List.mem_map.2 ⟨a, ha, rfl⟩)

/-- C90: `add` and `quick_delete` cost one point multiplication and one inversion, however many members there are;
`delete` costs one multiplication, one subtraction and one inversion for every remaining member. Refused calls cost
nothing. -/
theorem C90_changes (s : Server F G1 G2) (y : F) (s' : Server F G1 G2) (r : Option G1) :
    (s.add y = .ok (s', r) → (s.addC y).cost = .ok (if r = none then 0 else { pmul := 1, finv := 1 })) ∧
    (s.quickDelete y = .ok (s', r) →
      (s.quickDeleteC y).cost = .ok (if r = none then 0 else { pmul := 1, finv := 1 })) ∧
    (s.delete y = .ok (s', r) → (s.deleteC y).cost = .ok (if r = none then 0 else
      { pmul := s'.allWitnesses.length, padd := s'.allWitnesses.length, finv := s'.allWitnesses.length })) := by
  refine ⟨fun h => ?_, fun h => ?_, fun h => ?_⟩
  · obtain ⟨o, h1, rfl⟩ := (add_meas s y).result.2 _ h; exact h1
  · obtain ⟨o, h1, rfl⟩ := (quickDelete_meas s y).result.2 _ h; exact h1
  · obtain ⟨o, h1, rfl⟩ := (delete_meas s y).result.2 _ h; exact h1

/-- C90: whatever a user sends (`n` epochs, any list of `w` shares), a call of `Server::update` that returns has
multiplied exactly one point for each of the `n` epochs (none if there were fewer deletions), inverted nothing, and
done at most `3/2 n (w + 1)` multiplications in the field. -/
theorem C90_server_update (s : Server F G1 G2) (n : Nat) (ys : List F) (r : List F × List G1)
    (h : s.update n ys = .ok r) :
    ∃ o, (s.updateC n ys).cost = .ok o ∧ o.pmul = (if n ≤ s.deletions.length then n else 0) ∧ o.padd = o.pmul ∧
      o.finv = 0 ∧ 2 * o.fmul ≤ 3 * (n * (ys.length + 1)) :=
  (serverUpdate_meas s n ys).result.2 r h

/-- C90: whatever the servers answer, lying or not: with at most `m` scalars per answer, `post_update` multiplies at
most `m (2t + 1)` points before it returns (with success or with an error). -/
theorem C90_post_update (w : G1) (t m : Nat) (ht : 1 ≤ t) (yShares : List (List F)) (xs : List F)
    (dvs : List (List F × List G1)) (ha : ∀ a ∈ dvs, a.1.length ≤ m) (r : Except String G1)
    (h : User.postUpdate w t yShares xs dvs = .ok r) :
    ∃ o, (User.postUpdateC w t yShares xs dvs).cost = .ok o ∧ o.pmul ≤ m * (2 * t + 1) ∧ o.padd ≤ m * (2 * t) ∧
      o.finv ≤ t * t + 2 * t + 1 + m ∧ o.fmul ≤ t * t + 5 * t + 2 + m * (2 * t + 2) :=
  (postUpdate_meas w t m ht yShares xs dvs ha).result.2 r h

/-- C90: the batch update from the full list of coefficients (the comparison in the benchmark) multiplies one point
more than there are coefficients. -/
theorem C90_batch_update (C : G1) (y : F) (adds dels : List F) (coeffs : List G1) (hy : y ∉ dels) (hc : coeffs ≠ []) :
    ∃ o, (mwBatchUpdateC C y adds dels coeffs).cost = .ok o ∧ o.pmul = coeffs.length + 1 ∧ o.padd = coeffs.length ∧
      o.finv = 1 := by
  obtain ⟨o, h1, h2, -, h3, -⟩ := (mwBatch_meas C y adds dels coeffs).result.2 _ rfl
  exact ⟨o, h1, (h3 hy hc).1, (h3 hy hc).2, h2⟩

/-- C90, a whole update. A user that is `d` epochs behind works with `m` chunks, where `(5m - 6)² < 10 d`, so
`m < 0.64 √d + 1.2`. Preparing takes no operation on points. Each server multiplies exactly `d` points; the user
multiplies at most `m (2t + 1)` of them, whatever the answers (of the length honest servers use). -/
theorem C90_update [AddCommGroup G2] [Module F G2] (u : User F G1 G2) (newEpoch n t : Nat) (ht : 2 ≤ t) (hn : t ≤ n)
    (he : u.epoch < newEpoch) (hb : newEpoch - u.epoch < 2 ^ 64) (rand : Nat → Nat → F) :
    ∃ upd L m, u.prepareForUpdate seedF64 newEpoch n t rand = .ok (.ok upd) ∧
      (∃ o, (u.prepareForUpdateC seedF64 newEpoch n t rand).cost = .ok o ∧ o.pmul = 0 ∧ o.padd = 0 ∧ o.finv = 0 ∧
        o.fmul = L * (n * (t - 1)) + (L - 1)) ∧
      2 * (L - 1) ^ 2 + 2 < 5 * (newEpoch - u.epoch) ∧ (5 * m - 6) ^ 2 < 10 * (newEpoch - u.epoch) ∧
      (∀ (params : AccParams G1 G2) (α sM v : F) (ops : List (Server.Op F)) (s : Server F G1 G2),
        (Server.new params α sM v).run ops = .ok s → newEpoch - u.epoch ≤ s.deletions.length →
        ∀ ys ∈ upd.yShares, ys.length = L ∧ ∃ ds vs o, s.update upd.epochDiff ys = .ok (ds, vs) ∧ ds.length = m ∧
          (s.updateC upd.epochDiff ys).cost = .ok o ∧ o.pmul = newEpoch - u.epoch ∧ o.finv = 0) ∧
      ∀ (w : G1) (dvs : List (List F × List G1)) (r : Except String G1), (∀ a ∈ dvs, a.1.length ≤ m) →
        User.postUpdate w t upd.yShares upd.yValues dvs = .ok r →
        ∃ o, (User.postUpdateC w t upd.yShares upd.yValues dvs).cost = .ok o ∧ o.pmul ≤ m * (2 * t + 1) := by
  obtain ⟨upd, L, hp, hl, hls, hL, hlo, hhi, hsrv⟩ := C64_communication u newEpoch n t ht hn he hb rand
  obtain ⟨k, upd', hk, hk3, hp', hd, -, hl', hls', -⟩ := prepareForUpdate_ok seedF64 C64_seed_pos.1 u newEpoch n t ht hn he rand
  rw [hp] at hp'
  cases hp'
  have hkL : L = k - 1 := by
    match hsh : upd.yShares with
    | [] => rw [hsh] at hl; simp at hl; omega
    | ys :: rest => rw [← hls ys (by simp [hsh]), hls' ys (by simp [hsh])]
  obtain ⟨o, hc, o1, o2, o3, -, o4⟩ := (prepare_meas seedF64 u newEpoch n t rand).result.2 _ hp
  obtain ⟨k', hk', o5⟩ := o4 upd rfl
  rw [hk] at hk'
  cases hk'
  have hm : 5 * ((newEpoch - u.epoch + L - 1) / L) < 2 * L + 5 := by
    generalize newEpoch - u.epoch = d at *
    have h := Nat.div_mul_le_self (d + L - 1) L
    generalize (d + L - 1) / L = c at h
    by_contra hcc
    push Not at hcc
    have e : d + L - 1 = d + (L - 1) := by omega
    obtain ⟨M, rfl⟩ : ∃ M, L = M + 1 := ⟨L - 1, by omega⟩
    rw [e] at h
    simp only [Nat.add_sub_cancel] at h
    nlinarith
  refine ⟨upd, L, (newEpoch - u.epoch + L - 1) / L, hp, ⟨o, hc, o1, o2, o3, ?_⟩, hlo, ?_, ?_, ?_⟩
  · rw [o5 (by omega), hkL]; rfl
  · have h1 : 5 * ((newEpoch - u.epoch + L - 1) / L) - 6 ≤ 2 * (L - 1) := by omega
    have h2 := Nat.pow_le_pow_left h1 2
    rw [Nat.mul_pow] at h2
    omega
  · intro params α sM v ops s hs hds ys hys
    obtain ⟨ds, vs, h1, h2, h3, -⟩ := hsrv params α sM v ops s hs hds ys hys
    obtain ⟨o, g1, g2, g3, g4, -⟩ := C90_server_update s _ ys _ h1
    refine ⟨hls ys hys, ds, vs, o, h1, h3, g1, ?_, g4⟩
    rw [g2, hd, if_pos hds]
  · intro w dvs r ha hr
    obtain ⟨o, g1, g2, -⟩ := C90_post_update w t _ (by omega) upd.yShares upd.yValues dvs ha r hr
    exact ⟨o, g1, g2⟩
end

/-! ### concrete cases -/

/-- a user 1000 epochs behind: at most 21 chunks, so at most 21 (2t + 1) multiplications instead of 1000 -/
example (m : Nat) (h : (5 * m - 6) ^ 2 < 10 * 1000) : m ≤ 21 := by
  by_contra hc
  have : 100 ≤ 5 * m - 6 := by omega
  have := Nat.pow_le_pow_left this 2
  omega

example : ∃ u : User ℚ ℚ ℚ, u.epoch < 1001 ∧ 1001 - u.epoch < 2 ^ 64 := ⟨⟨3, none, 1, ⟨1, 1⟩, 1⟩, by decide, by decide⟩

local instance cost_prime7 : Fact (Nat.Prime 7) := ⟨by decide⟩

/-- a server with two members deletes one of them: one multiplication -/
example : ((⟨[1], 1, ⟨1, 2⟩, 2, [2, 1], [(2, 5), (1, 4)], []⟩ : Server (ZMod 7) (ZMod 7) (ZMod 7)).deleteC 2).cost
    = .ok { pmul := 1, padd := 1, finv := 1 } := by with_unfolding_all rfl

/-- and answers an update over one epoch: one multiplication -/
example : ((⟨[1, 5], 1, ⟨1, 2⟩, 2, [2, 1], [(1, 4)], [2]⟩ : Server (ZMod 7) (ZMod 7) (ZMod 7)).updateC 1 [3, 4]).cost
    = .ok { pmul := 1, padd := 1, fmul := 3 } := by with_unfolding_all rfl

end Allo
