import Verif.Props.Cost

/-!
# C101: the sequence of operations does not depend on secrets

The programs of `Verif.Model.Cost`, recording every operation in order.
-/

set_option linter.unusedSectionVars false
set_option linter.unusedVariables false
namespace Allo
open Counted

/-- the operations performed by a call that returns, in order -/
def CountedM.trace {α : Type} (x : CountedM Trace α) : Rust Trace := (x []).map Prod.snd

/-- what the recording program computes -/
def CountedM.value {α : Type} (x : CountedM Trace α) : Rust α := (x []).map Prod.fst

/-- how often each operation occurs -/
def countOps : Trace → Ops
  | [] => 0
  | .pmul :: t => { pmul := 1 } + countOps t
  | .padd :: t => { padd := 1 } + countOps t
  | .fmul :: t => { fmul := 1 } + countOps t
  | .finv :: t => { finv := 1 } + countOps t

theorem countOps_append (a b : Trace) : countOps (a ++ b) = countOps a + countOps b := by
  induction a with
  | nil => simp [countOps, Ops.zero_add']
  | cons k a ih => cases k <;> simp [countOps, ih, Ops.add_assoc']

/-! ## recording and counting agree -/

/-- the counting program does what the recording program does -/
def Hom {α : Type} (x : CountedM Trace α) (y : Counted α) : Prop :=
  ∀ c, y (countOps c) = (x c).map (fun p => (p.1, countOps p.2))

namespace Hom
variable {α β σ : Type}

theorem pure (a : α) : Hom (Pure.pure a) (Pure.pure a) := fun c => rfl

theorem free (r : Rust α) : Hom (Counted.free r) (Counted.free r) := by
  intro c; cases r <;> rfl

theorem tick {o : Trace} {o' : Ops} (h : countOps o = o') (r : Rust α) : Hom (Counted.tick o r) (Counted.tick o' r) := by
  intro c
  cases r with
  | error e => rfl
  | ok a =>
    show Except.ok (a, countOps c + o') = Except.ok (a, countOps (c ++ o))
    rw [countOps_append, h]

theorem bind {x : CountedM Trace α} {y : Counted α} {f : α → CountedM Trace β} {g : α → Counted β} (h : Hom x y)
    (hf : ∀ a, Hom (f a) (g a)) : Hom (x >>= f) (y >>= g) := by
  intro c
  show (StateT.bind y g) (countOps c) = ((StateT.bind x f) c).map _
  simp only [StateT.bind]
  rw [h c]
  cases hx : x c with
  | error e => rfl
  | ok p => exact hf p.1 p.2

theorem foldlM {f : σ → α → CountedM Trace σ} {g : σ → α → Counted σ} (l : List α) :
    ∀ s, (∀ s a, Hom (f s a) (g s a)) → Hom (l.foldlM f s) (l.foldlM g s) := by
  induction l with
  | nil => intro s _; exact pure s
  | cons a l ih =>
    intro s h
    simp only [List.foldlM_cons]
    exact (h s a).bind (fun s' => ih s' h)

theorem mapM {f : α → CountedM Trace β} {g : α → Counted β} (h : ∀ a, Hom (f a) (g a)) (l : List α) :
    Hom (l.mapM f) (l.mapM g) := by
  induction l with
  | nil => simp only [List.mapM_nil]; exact pure _
  | cons a l ih =>
    simp only [List.mapM_cons]
    exact (h a).bind (fun b => ih.bind (fun bs => pure _))

theorem result {x : CountedM Trace α} {y : Counted α} (h : Hom x y) :
    x.value = y.result ∧ x.trace.map countOps = y.cost := by
  have h0 := h []
  rw [show countOps [] = 0 from rfl] at h0
  unfold CountedM.value CountedM.trace CountedM.result CountedM.cost
  rw [h0]
  cases x [] <;> exact ⟨rfl, rfl⟩

end Hom

section
variable {F G1 G2 : Type} [Field F] [DecidableEq F] [AddCommGroup G1] [Module F G1] [DecidableEq G1]

theorem pmulC_hom (a : F) (P : G1) : Hom (pmulC a P) (pmulC a P) := Hom.tick rfl _
theorem paddC_hom (P Q : G1) : Hom (paddC P Q) (paddC P Q) := Hom.tick rfl _
theorem psubC_hom (P Q : G1) : Hom (psubC P Q) (psubC P Q) := Hom.tick rfl _
theorem fmulC_hom (a b : F) : Hom (fmulC a b) (fmulC a b) := Hom.tick rfl _
theorem finvC_hom (a : F) : Hom (finvC a) (finvC a) := Hom.tick rfl _

/-- follow the structure of a program -/
macro "hom" : tactic => `(tactic| repeat' first
  | exact pmulC_hom _ _ | exact paddC_hom _ _ | exact psubC_hom _ _ | exact fmulC_hom _ _ | exact finvC_hom _
  | exact Hom.pure _ | exact Hom.free _ | exact Hom.tick rfl _
  | assumption
  | refine Hom.bind ?_ (fun _ => ?_) | refine Hom.foldlM _ _ (fun _ _ => ?_) | refine Hom.mapM (fun _ => ?_) _
  | split)

theorem polyMulC_hom (p q : List F) : Hom (polyMulC p q) (polyMulC p q) := by unfold polyMulC; hom

theorem addC_hom (s : Server F G1 G2) (y : F) : Hom (s.addC y) (s.addC y) := by unfold Server.addC; hom
theorem deleteC_hom (s : Server F G1 G2) (y : F) : Hom (s.deleteC y) (s.deleteC y) := by
  unfold Server.deleteC; hom
theorem quickDeleteC_hom (s : Server F G1 G2) (y : F) : Hom (s.quickDeleteC y) (s.quickDeleteC y) := by
  unfold Server.quickDeleteC; hom

theorem chunkPolysC_hom (d : List F) (lo hi : Nat) : Hom (Server.chunkPolysC d lo hi) (Server.chunkPolysC d lo hi) := by
  unfold Server.chunkPolysC
  refine Hom.foldlM _ _ (fun _ _ => Hom.bind (Hom.free _) (fun _ => Hom.bind (polyMulC_hom _ _) (fun _ => Hom.pure _)))

theorem evalOnSharesC_hom (p ys : List F) : Hom (Server.evalOnSharesC p ys) (Server.evalOnSharesC p ys) := by
  unfold Server.evalOnSharesC; hom

theorem evalPointsC_hom (accs : List G1) (i : Nat) (evals : List F) :
    Hom (Server.evalPointsC accs i evals) (Server.evalPointsC accs i evals) := by
  unfold Server.evalPointsC; hom

theorem updateBodyC_hom (s : Server F G1 G2) (ys : List F) (st) :
    Hom (s.updateBodyC ys st) (s.updateBodyC ys st) := by
  unfold Server.updateBodyC
  refine Hom.bind (chunkPolysC_hom _ _ _) (fun _ => Hom.bind (evalOnSharesC_hom _ _) (fun _ => Hom.bind
    (Hom.mapM (fun _ => evalOnSharesC_hom _ _) _) (fun _ => Hom.bind (evalPointsC_hom _ _ _) (fun _ => Hom.pure _))))

theorem updateLoopC_hom (s : Server F G1 G2) (ys : List F) : ∀ fuel st,
    Hom (s.updateLoopC ys fuel st) (s.updateLoopC ys fuel st)
  | 0, st => Hom.free _
  | fuel + 1, st => by
    unfold Server.updateLoopC
    split
    · exact Hom.bind (updateBodyC_hom _ _ _) (fun _ => updateLoopC_hom s ys fuel _)
    · exact Hom.pure _

theorem updateC_hom (s : Server F G1 G2) (n : Nat) (ys : List F) : Hom (s.updateC n ys) (s.updateC n ys) := by
  unfold Server.updateC
  split
  · exact Hom.pure _
  · exact Hom.bind (Hom.free _) (fun _ => Hom.bind (Hom.free _) (fun _ => Hom.bind (updateLoopC_hom _ _ _ _)
      (fun _ => Hom.pure _)))

theorem vsssEvaluateC_hom (p : List F) (x : F) (t : Nat) : Hom (vsssEvaluateC p x t) (vsssEvaluateC p x t) := by
  unfold vsssEvaluateC; hom

theorem shamirShareC_hom (t n : Nat) (x : F) (co : Nat → F) : Hom (shamirShareC t n x co) (shamirShareC t n x co) := by
  unfold shamirShareC
  split
  · exact Hom.free _
  · exact Hom.mapM (fun _ => Hom.bind (vsssEvaluateC_hom _ _ _) (fun _ => Hom.pure _)) _

theorem shamirCoefficientC_hom {T : Type} (t : Nat) (sh : List (F × T)) (p : F) (i : Nat) :
    Hom (shamirCoefficientC t sh p i) (shamirCoefficientC t sh p i) := by
  unfold shamirCoefficientC; hom

theorem shamirChecksC_hom {T : Type} (t : Nat) (sh : List (F × T)) (p : F) (co : List F) :
    Hom (shamirChecksC t sh p co) (shamirChecksC t sh p co) := by
  unfold shamirChecksC; hom

theorem shamirCoefficientsC_hom {T : Type} (t : Nat) (sh : List (F × T)) :
    Hom (shamirCoefficientsC t sh) (shamirCoefficientsC t sh) := by
  unfold shamirCoefficientsC
  split
  · exact Hom.free _
  · refine Hom.bind (by hom) (fun _ => Hom.bind (Hom.mapM (fun _ => shamirCoefficientC_hom _ _ _ _) _) (fun _ => ?_))
    split
    · exact Hom.bind (shamirChecksC_hom _ _ _ _) (fun _ => Hom.pure _)
    · exact Hom.pure _

theorem rebuildScalarC_hom (sh : List (F × F)) (co : List F) (ch : Option (List F)) :
    Hom (shamirRebuildScalarC sh co ch) (shamirRebuildScalarC sh co ch) := by
  unfold shamirRebuildScalarC; hom

theorem rebuildPointC_hom (sh : List (F × G1)) (co : List F) (ch : Option (List F)) :
    Hom (shamirRebuildPointC sh co ch) (shamirRebuildPointC sh co ch) := by
  unfold shamirRebuildPointC; hom

theorem shareVectorsC_hom (id : F) (n t k : Nat) (rand : Nat → Nat → F) :
    Hom (User.shareVectorsC id n t k rand) (User.shareVectorsC id n t k rand) := by
  unfold User.shareVectorsC
  refine Hom.bind (shamirShareC_hom _ _ _ _) (fun _ => Hom.bind (Hom.free _) (fun _ => Hom.bind
    (Hom.foldlM _ _ (fun _ _ => ?_)) (fun _ => Hom.pure _)))
  exact Hom.bind (fmulC_hom _ _) (fun _ => Hom.bind (shamirShareC_hom _ _ _ _) (fun _ => Hom.pure _))

theorem prepareC_hom (seed : Nat → Nat) (u : User F G1 G2) (e n t : Nat) (rand : Nat → Nat → F) :
    Hom (u.prepareForUpdateC seed e n t rand) (u.prepareForUpdateC seed e n t rand) := by
  unfold User.prepareForUpdateC
  split
  · exact Hom.pure _
  split
  · exact Hom.pure _
  exact Hom.bind (Hom.free _) (fun _ => Hom.bind (Hom.free _) (fun _ => Hom.bind (shareVectorsC_hom _ _ _ _ _)
    (fun _ => Hom.pure _)))

theorem rebuildLoopC_hom (co : List F) (ch : Option (List F)) (vs : List (List (F × G1))) : ∀ i ds w,
    Hom (User.rebuildLoopC co ch vs i ds w) (User.rebuildLoopC co ch vs i ds w)
  | i, [], w => Hom.pure _
  | i, d :: ds, w => by
    unfold User.rebuildLoopC
    refine Hom.bind (rebuildScalarC_hom _ _ _) (fun r => ?_)
    cases r with
    | none => exact Hom.pure _
    | some d =>
      by_cases h : d = 0
      · simp only [h, if_true]; exact Hom.pure _
      · simp only [h, if_false]
        refine Hom.bind (Hom.tick rfl _) (fun _ => Hom.bind (Hom.free _) (fun _ => Hom.bind (rebuildPointC_hom _ _ _)
          (fun r => ?_)))
        cases r with
        | none => exact Hom.pure _
        | some v => exact Hom.bind (psubC_hom _ _) (fun _ => Hom.bind (finvC_hom _) (fun _ => Hom.bind (pmulC_hom _ _)
            (fun _ => rebuildLoopC_hom co ch vs _ _ _)))

theorem postUpdateC_hom (w : G1) (t : Nat) (yShares : List (List F)) (xs : List F) (dvs : List (List F × List G1)) :
    Hom (User.postUpdateC w t yShares xs dvs) (User.postUpdateC w t yShares xs dvs) := by
  unfold User.postUpdateC
  exact Hom.bind (Hom.free _) (fun _ => Hom.bind (Hom.free _) (fun _ => Hom.bind (shamirCoefficientsC_hom _ _)
    (fun _ => rebuildLoopC_hom _ _ _ _ _ _)))

theorem dadC_hom (l : List F) (y : F) : Hom (dadC l y) (dadC l y) := by unfold dadC; hom

theorem pg1EvalC_hom (A : List G1) (x : F) : Hom (pg1EvalC A x) (pg1EvalC A x) := by
  unfold pg1EvalC
  cases A with
  | nil => exact Hom.pure _
  | cons a A => hom

theorem mwBatchUpdateC_hom (C : G1) (y : F) (adds dels : List F) (coeffs : List G1) :
    Hom (mwBatchUpdateC C y adds dels coeffs) (mwBatchUpdateC C y adds dels coeffs) := by
  unfold mwBatchUpdateC
  refine Hom.bind (dadC_hom _ _) (fun _ => Hom.bind (Hom.tick rfl _) (fun r => ?_))
  cases r with
  | none => exact Hom.pure _
  | some d =>
    refine Hom.bind (dadC_hom _ _) (fun _ => Hom.bind (fmulC_hom _ _) (fun _ => Hom.bind (pg1EvalC_hom _ _) (fun r => ?_)))
    cases r with
    | none => exact Hom.pure _
    | some v => hom

/-- C101: the recording programs compute exactly what the functions of the model compute, including all aborts, and the
numbers of operations in their records are the numbers of C90. -/
theorem C101_same (s : Server F G1 G2) (u : User F G1 G2) (y : F) (n e N t : Nat) (ys : List F) (seed : Nat → Nat)
    (rand : Nat → Nat → F) (w : G1) (ht : 1 ≤ t) (yShares : List (List F)) (xs : List F)
    (dvs : List (List F × List G1)) (adds dels : List F) (coeffs : List G1) :
    ((s.addC y).value = s.add y ∧ (s.addC y).trace.map countOps = (s.addC y).cost) ∧
    ((s.deleteC y).value = s.delete y ∧ (s.deleteC y).trace.map countOps = (s.deleteC y).cost) ∧
    ((s.quickDeleteC y).value = s.quickDelete y ∧ (s.quickDeleteC y).trace.map countOps = (s.quickDeleteC y).cost) ∧
    ((s.updateC n ys).value = s.update n ys ∧ (s.updateC n ys).trace.map countOps = (s.updateC n ys).cost) ∧
    ((u.prepareForUpdateC seed e N t rand).value = u.prepareForUpdate seed e N t rand ∧
      (u.prepareForUpdateC seed e N t rand).trace.map countOps = (u.prepareForUpdateC seed e N t rand).cost) ∧
    ((User.postUpdateC w t yShares xs dvs).value = User.postUpdate w t yShares xs dvs ∧
      (User.postUpdateC w t yShares xs dvs).trace.map countOps = (User.postUpdateC w t yShares xs dvs).cost) ∧
    ((mwBatchUpdateC w y adds dels coeffs).value = .ok (mwBatchUpdate w y adds dels coeffs) ∧
      (mwBatchUpdateC w y adds dels coeffs).trace.map countOps = (mwBatchUpdateC w y adds dels coeffs).cost) := by
  obtain ⟨h1, h2, h3, h4, h5, h6, h7⟩ := C90_same s u y n e N t ys seed rand w ht yShares xs dvs adds dels coeffs
  have g1 := (addC_hom s y).result
  have g2 := (deleteC_hom s y).result
  have g3 := (quickDeleteC_hom s y).result
  have g4 := (updateC_hom s n ys).result
  have g5 := (prepareC_hom seed u e N t rand).result
  have g6 := (postUpdateC_hom w t yShares xs dvs).result
  have g7 := (mwBatchUpdateC_hom w y adds dels coeffs).result
  exact ⟨⟨g1.1.trans h1, g1.2⟩, ⟨g2.1.trans h2, g2.2⟩, ⟨g3.1.trans h3, g3.2⟩, ⟨g4.1.trans h4, g4.2⟩,
    ⟨g5.1.trans h5, g5.2⟩, ⟨g6.1.trans h6, g6.2⟩, ⟨g7.1.trans h7, g7.2⟩⟩

end

/-! ## two runs side by side -/

/-- Two Rust expressions both return values related by `R`, or both abort in the same way. -/
def RLock {α β : Type} (R : α → β → Prop) : Rust α → Rust β → Prop
  | .ok a, .ok b => R a b
  | .error e, .error e' => e = e'
  | _, _ => False

namespace RLock
variable {α β γ δ σ τ : Type}

theorem bind {R : α → β → Prop} {S : γ → δ → Prop} {x : Rust α} {y : Rust β} {f : α → Rust γ} {g : β → Rust δ}
    (h : RLock R x y) (hf : ∀ a b, R a b → RLock S (f a) (g b)) : RLock S (x >>= f) (y >>= g) := by
  match x, y, h with
  | .ok a, .ok b, h => exact hf a b h
  | .error e, .error e', h => exact h

theorem foldlM {R : σ → τ → Prop} {Q : α → β → Prop} {f : σ → α → Rust σ} {g : τ → β → Rust τ} {l : List α} {l' : List β}
    (hl : List.Forall₂ Q l l') : ∀ {s t}, R s t → (∀ s t a b, R s t → Q a b → RLock R (f s a) (g t b)) →
    RLock R (l.foldlM f s) (l'.foldlM g t) := by
  induction hl with
  | nil => intro s t h _; exact h
  | cons hq _ ih =>
    intro s t h hs
    simp only [List.foldlM_cons]
    exact bind (hs _ _ _ _ h hq) (fun s' t' h' => ih h' hs)

theorem mono {R S : α → β → Prop} {x : Rust α} {y : Rust β} (h : RLock R x y) (hRS : ∀ a b, R a b → S a b) :
    RLock S x y := by
  match x, y, h with
  | .ok a, .ok b, h => exact hRS a b h
  | .error e, .error e', h => exact h

end RLock

/-- Two runs of recording programs: if both return, they have performed the same operations in the same order, and the
values are related by `R`; if `ab`, one aborts exactly if the other one does, in the same way. -/
def Lock {α β : Type} (ab : Prop) (R : α → β → Prop) (x : CountedM Trace α) (y : CountedM Trace β) : Prop :=
  ∀ c, match x c, y c with
  | .ok p, .ok q => p.2 = q.2 ∧ R p.1 q.1
  | .error e, .error e' => ab → e = e'
  | _, _ => ¬ ab

namespace Lock
variable {α β γ δ σ τ : Type} {ab : Prop}

theorem pure {R : α → β → Prop} {a : α} {b : β} (h : R a b) : Lock ab R (Pure.pure a) (Pure.pure b) :=
  fun _ => ⟨rfl, h⟩

theorem free {R : α → β → Prop} {x : Rust α} {y : Rust β} (h : RLock R x y) :
    Lock ab R (Counted.free x) (Counted.free y) := by
  intro c
  match x, y, h with
  | .ok a, .ok b, h => exact ⟨rfl, h⟩
  | .error e, .error e', h => exact fun _ => h

theorem tick {R : α → β → Prop} (o : Trace) {x : Rust α} {y : Rust β} (h : RLock R x y) :
    Lock ab R (Counted.tick o x) (Counted.tick o y) := by
  intro c
  match x, y, h with
  | .ok a, .ok b, h => exact ⟨rfl, h⟩
  | .error e, .error e', h => exact fun _ => h

theorem bind {R : α → β → Prop} {S : γ → δ → Prop} {x : CountedM Trace α} {y : CountedM Trace β}
    {f : α → CountedM Trace γ} {g : β → CountedM Trace δ} (h : Lock ab R x y)
    (hf : ∀ a b, R a b → Lock ab S (f a) (g b)) : Lock ab S (x >>= f) (y >>= g) := by
  intro c
  have hc := h c
  have e1 : (x >>= f) c = (x c).bind (fun p => f p.1 p.2) := rfl
  have e2 : (y >>= g) c = (y c).bind (fun p => g p.1 p.2) := rfl
  rw [e1, e2]
  match hx : x c, hy : y c with
  | .ok p, .ok q =>
    rw [hx, hy] at hc
    obtain ⟨h1, h2⟩ := hc
    have := hf p.1 q.1 h2 p.2
    simp only [Except.bind]
    rw [← h1]; exact this
  | .error e, .error e' => rw [hx, hy] at hc; exact hc
  | .ok p, .error e =>
    rw [hx, hy] at hc
    simp only [Except.bind]
    cases f p.1 p.2 with
    | ok _ => exact hc
    | error _ => exact fun ha => absurd ha hc
  | .error e, .ok q =>
    rw [hx, hy] at hc
    simp only [Except.bind]
    cases g q.1 q.2 with
    | ok _ => exact hc
    | error _ => exact fun ha => absurd ha hc

theorem foldlM {R : σ → τ → Prop} {Q : α → β → Prop} {f : σ → α → CountedM Trace σ} {g : τ → β → CountedM Trace τ}
    {l : List α} {l' : List β} (hl : List.Forall₂ Q l l') : ∀ {s t}, R s t →
    (∀ s t a b, R s t → Q a b → Lock ab R (f s a) (g t b)) → Lock ab R (l.foldlM f s) (l'.foldlM g t) := by
  induction hl with
  | nil => intro s t h _; exact pure h
  | cons hq _ ih =>
    intro s t h hs
    simp only [List.foldlM_cons]
    exact bind (hs _ _ _ _ h hq) (fun s' t' h' => ih h' hs)

theorem mapM {R : γ → δ → Prop} {Q : α → β → Prop} {f : α → CountedM Trace γ} {g : β → CountedM Trace δ}
    {l : List α} {l' : List β} (hl : List.Forall₂ Q l l') (hs : ∀ a b, Q a b → Lock ab R (f a) (g b)) :
    Lock ab (List.Forall₂ R) (l.mapM f) (l'.mapM g) := by
  induction hl with
  | nil => simp only [List.mapM_nil]; exact pure List.Forall₂.nil
  | cons hq _ ih =>
    simp only [List.mapM_cons]
    exact bind (hs _ _ hq) (fun a b h => bind ih (fun as bs h' => pure (List.Forall₂.cons h h')))

theorem mono {R S : α → β → Prop} {x : CountedM Trace α} {y : CountedM Trace β} (h : Lock ab R x y)
    (hRS : ∀ a b, R a b → S a b) : Lock ab S x y := by
  intro c
  have hc := h c
  match hx : x c, hy : y c with
  | .ok p, .ok q => rw [hx, hy] at hc; exact ⟨hc.1, hRS _ _ hc.2⟩
  | .error e, .error e' => rw [hx, hy] at hc; exact hc
  | .ok p, .error e => rw [hx, hy] at hc; exact hc
  | .error e, .ok q => rw [hx, hy] at hc; exact hc

/-- the records of two such runs are the same -/
theorem trace_eq {R : α → β → Prop} {x : CountedM Trace α} {y : CountedM Trace β} (h : Lock True R x y) :
    x.trace = y.trace := by
  have hc := h []
  unfold CountedM.trace
  match hx : x [], hy : y [] with
  | .ok p, .ok q => rw [hx, hy] at hc; simp [Except.map, hc.1]
  | .error e, .error e' => rw [hx, hy] at hc; simp [Except.map, hc trivial]
  | .ok p, .error e => rw [hx, hy] at hc; exact absurd trivial hc
  | .error e, .ok q => rw [hx, hy] at hc; exact absurd trivial hc

theorem both_ok {R : α → β → Prop} {x : CountedM Trace α} {y : CountedM Trace β} (h : Lock ab R x y) {c : Trace} {p q}
    (hx : x c = .ok p) (hy : y c = .ok q) : p.2 = q.2 ∧ R p.1 q.1 := by
  have hc := h c
  rw [hx, hy] at hc; exact hc

end Lock

section lockstep
variable {F G1 G2 : Type} [Field F] [DecidableEq F] [AddCommGroup G1] [Module F G1] [DecidableEq G1]
variable {ab : Prop}

/-- any two values -/
abbrev anyTwo {α β : Type} : α → β → Prop := fun _ _ => True

theorem idx_lock {α β : Type} {l : List α} {l' : List β} (h : l.length = l'.length) (i : Nat) :
    RLock anyTwo (idx l i) (idx l' i) := by
  by_cases hi : i < l.length
  · rw [idx_lt hi, idx_lt (h ▸ hi)]; trivial
  · rw [idx_ge (by omega), idx_ge (by omega)]; rfl

theorem forall₂_any {α β : Type} : ∀ {l : List α} {l' : List β}, l.length = l'.length → List.Forall₂ anyTwo l l'
  | [], [], _ => .nil
  | a :: l, b :: l', h => .cons trivial (forall₂_any (by simpa using h))
  | [], b :: l', h => by simp at h
  | a :: l, [], h => by simp at h

theorem forall₂_self {α : Type} : ∀ (l : List α), List.Forall₂ Eq l l
  | [] => .nil
  | a :: l => .cons rfl (forall₂_self l)

theorem forall₂_zipIdx {α β : Type} : ∀ {l : List α} {l' : List β} (k : Nat), l.length = l'.length →
    List.Forall₂ (fun a b => a.2 = b.2) (l.zipIdx k) (l'.zipIdx k)
  | [], [], _, _ => .nil
  | a :: l, b :: l', k, h => by
    simp only [List.zipIdx_cons]
    exact .cons rfl (forall₂_zipIdx (k + 1) (by simpa using h))
  | [], b :: l', k, h => by simp at h
  | a :: l, [], k, h => by simp at h

theorem fmulC_lock (a b a' b' : F) : Lock ab anyTwo (fmulC a b) (fmulC a' b') := Lock.tick _ trivial
theorem pmulC_lock (a a' : F) (P P' : G1) : Lock ab anyTwo (pmulC a P) (pmulC a' P') := Lock.tick _ trivial
theorem paddC_lock (P Q P' Q' : G1) : Lock ab anyTwo (paddC P Q) (paddC P' Q') := Lock.tick _ trivial
theorem psubC_lock (P Q P' Q' : G1) : Lock ab anyTwo (psubC P Q) (psubC P' Q') := Lock.tick _ trivial

/-- an inversion may abort in one run and not in the other -/
theorem finvC_lock (a a' : F) : Lock False anyTwo (finvC a) (finvC a') := by
  intro c
  by_cases h : a = 0 <;> by_cases h' : a' = 0
  · subst h; subst h'; simp [finvC, Counted.tick, Except.map]
  · subst h; simp [finvC, Counted.tick, Except.map, inv!_ne h']
  · subst h'; simp [finvC, Counted.tick, Except.map, inv!_ne h]
  · simp [finvC, Counted.tick, Except.map, inv!_ne h, inv!_ne h']

/-- lists of the same length -/
abbrev sameLen {α β : Type} : List α → List β → Prop := fun l l' => l.length = l'.length

/-! ### `Server::update` -/

theorem polyMulC_lock {p q p' q' : List F} (hp : p.length = p'.length) (hq : q.length = q'.length) :
    Lock ab sameLen (polyMulC p q) (polyMulC p' q') := by
  unfold polyMulC
  have hc : (!p.isEmpty || !q.isEmpty) = (!p'.isEmpty || !q'.isEmpty) := by
    have e : ∀ {l l' : List F}, l.length = l'.length → l.isEmpty = l'.isEmpty := by
      intro l l' h; cases l <;> cases l' <;> simp at h ⊢
    rw [e hp, e hq]
  rw [hc]
  split
  · refine Lock.foldlM (forall₂_zipIdx 0 hp) (by simp [hp, hq]) ?_
    intro s t a b hst hab
    refine Lock.foldlM (forall₂_zipIdx 0 hq) hst ?_
    intro s t a' b' hst hab'
    refine Lock.bind (fmulC_lock _ _ _ _) (fun _ _ _ => Lock.pure ?_)
    show (s.modify _ _).length = (t.modify _ _).length
    rw [List.length_modify, List.length_modify]
    exact hst
  · exact Lock.pure hp

theorem chunkPolysC_lock {d d' : List F} (h : d.length = d'.length) (lo hi : Nat) :
    Lock ab (fun r r' => r.1.length = r'.1.length ∧ List.Forall₂ sameLen r.2 r'.2)
      (Server.chunkPolysC d lo hi) (Server.chunkPolysC d' lo hi) := by
  unfold Server.chunkPolysC
  refine Lock.foldlM (forall₂_self _) ⟨rfl, .nil⟩ ?_
  rintro ⟨p, vs⟩ ⟨p', vs'⟩ i i' ⟨h1, h2⟩ rfl
  refine Lock.bind (Lock.free (idx_lock h i)) (fun y y' _ => Lock.bind (polyMulC_lock h1 rfl) (fun q q' hq => ?_))
  exact Lock.pure ⟨hq, List.rel_append h2 (.cons h1 .nil)⟩

theorem evalOnSharesC_lock {p p' ys ys' : List F} (hp : p.length = p'.length) (hy : ys.length = ys'.length) :
    Lock ab anyTwo (Server.evalOnSharesC p ys) (Server.evalOnSharesC p' ys') := by
  unfold Server.evalOnSharesC
  refine Lock.bind (Lock.free (idx_lock hp 0)) (fun a b _ => ?_)
  rw [hp]
  refine Lock.foldlM (forall₂_self _) trivial ?_
  rintro s t i i' - rfl
  refine Lock.bind (Lock.free (idx_lock hp i)) (fun _ _ _ => Lock.bind (Lock.free (idx_lock hy _)) (fun _ _ _ => ?_))
  exact Lock.bind (fmulC_lock _ _ _ _) (fun _ _ _ => Lock.pure trivial)

theorem evalPointsC_lock {accs accs' : List G1} {e e' : List F} (ha : accs.length = accs'.length)
    (he : e.length = e'.length) (i : Nat) :
    Lock ab anyTwo (Server.evalPointsC accs i e) (Server.evalPointsC accs' i e') := by
  unfold Server.evalPointsC
  refine Lock.foldlM (forall₂_zipIdx 0 he) trivial ?_
  rintro s t ⟨v, j⟩ ⟨v', j'⟩ - hj
  simp only at hj
  subst hj
  refine Lock.bind (Lock.free (idx_lock ha _)) (fun _ _ _ => Lock.bind (pmulC_lock _ _ _ _) (fun _ _ _ => ?_))
  exact paddC_lock _ _ _ _

/-- states of the loop in two runs -/
def sameState (st st' : Server.UpdateState F G1) : Prop :=
  st.delStart = st'.delStart ∧ st.accStart = st'.accStart ∧ st.ds.length = st'.ds.length ∧ st.vs.length = st'.vs.length

theorem updateBodyC_lock {s s' : Server F G1 G2} {ys ys' : List F} (hd : s.deletions.length = s'.deletions.length)
    (ha : s.accumulators.length = s'.accumulators.length) (hy : ys.length = ys'.length)
    {st st' : Server.UpdateState F G1} (hst : sameState st st') :
    Lock ab sameState (s.updateBodyC ys st) (s'.updateBodyC ys' st') := by
  obtain ⟨h1, h2, h3, h4⟩ := hst
  unfold Server.updateBodyC
  rw [h1, h2, hd, hy]
  refine Lock.bind (chunkPolysC_lock hd _ _) (fun r r' hr => ?_)
  refine Lock.bind (evalOnSharesC_lock hr.1 hy) (fun d d' _ => ?_)
  refine Lock.bind (Lock.mapM hr.2 (fun v v' hv => evalOnSharesC_lock hv hy)) (fun e e' he => ?_)
  refine Lock.bind (evalPointsC_lock ha he.length_eq _) (fun p p' _ => ?_)
  exact Lock.pure ⟨rfl, rfl, by simp [h3], by simp [h4]⟩

theorem updateLoopC_lock {s s' : Server F G1 G2} {ys ys' : List F} (hd : s.deletions.length = s'.deletions.length)
    (ha : s.accumulators.length = s'.accumulators.length) (hy : ys.length = ys'.length) :
    ∀ fuel (st st' : Server.UpdateState F G1), sameState st st' →
      Lock ab sameState (s.updateLoopC ys fuel st) (s'.updateLoopC ys' fuel st')
  | 0, st, st', _ => Lock.free rfl
  | fuel + 1, st, st', h => by
    unfold Server.updateLoopC
    rw [h.1, hd]
    split
    · exact Lock.bind (updateBodyC_lock hd ha hy h) (fun a b hab => updateLoopC_lock hd ha hy fuel a b hab)
    · exact Lock.pure h

theorem updateC_lock {s s' : Server F G1 G2} {ys ys' : List F} (hd : s.deletions.length = s'.deletions.length)
    (ha : s.accumulators.length = s'.accumulators.length) (hy : ys.length = ys'.length) (n : Nat) :
    Lock ab (fun r r' => r.1.length = r'.1.length ∧ r.2.length = r'.2.length) (s.updateC n ys) (s'.updateC n ys') := by
  unfold Server.updateC
  rw [hd, ha]
  split
  · exact Lock.pure ⟨rfl, rfl⟩
  · have self : ∀ r : Rust Nat, RLock Eq r r := by intro r; cases r <;> rfl
    refine Lock.bind (Lock.free (self _)) (fun a b h => Lock.bind (Lock.free (self _)) (fun a' b' h' => ?_))
    subst h; subst h'
    exact Lock.bind (updateLoopC_lock hd ha hy _ _ _ ⟨rfl, rfl, rfl, rfl⟩) (fun st st' h => Lock.pure ⟨h.2.2.1, h.2.2.2⟩)

/-- C101: what a server does for an update, operation by operation, and whether it aborts, depends only on the number of
epochs asked for, the number of shares, and the lengths of its public lists: not on the shares, the secret keys, the
members or the accumulators. -/
theorem C101_server_update (s s' : Server F G1 G2) (n : Nat) (ys ys' : List F)
    (hd : s.deletions.length = s'.deletions.length) (ha : s.accumulators.length = s'.accumulators.length)
    (hy : ys.length = ys'.length) : (s.updateC n ys).trace = (s'.updateC n ys').trace :=
  (updateC_lock hd ha hy n).trace_eq


/-! ### `User::prepare_for_update` -/

theorem vsssEvaluateC_lock {p p' : List F} (h : p.length = p'.length) (x x' : F) (t : Nat) :
    Lock ab anyTwo (vsssEvaluateC p x t) (vsssEvaluateC p' x' t) := by
  unfold vsssEvaluateC
  have self : ∀ r : Rust Nat, RLock Eq r r := by intro r; cases r <;> rfl
  refine Lock.bind (Lock.free (self _)) (fun d d' hd => ?_)
  subst hd
  refine Lock.bind (Lock.free (idx_lock h _)) (fun _ _ _ => ?_)
  refine Lock.foldlM (forall₂_self _) trivial ?_
  rintro a b i j - rfl
  exact Lock.bind (Lock.free (idx_lock h _)) (fun _ _ _ => Lock.bind (fmulC_lock _ _ _ _) (fun _ _ _ => Lock.pure trivial))

theorem shamirShareC_lock (t n : Nat) (x x' : F) (co co' : Nat → F) :
    Lock ab sameLen (shamirShareC t n x co) (shamirShareC t n x' co') := by
  unfold shamirShareC
  split
  · exact Lock.free rfl
  · refine (Lock.mapM (R := anyTwo) (forall₂_self _) ?_).mono (fun a b h => h.length_eq)
    rintro i j rfl
    exact Lock.bind (vsssEvaluateC_lock (by simp) _ _ _) (fun _ _ _ => Lock.pure trivial)

theorem shareVectorsC_lock (id id' : F) (n t k : Nat) (rand rand' : Nat → Nat → F) :
    Lock ab anyTwo (User.shareVectorsC id n t k rand) (User.shareVectorsC id' n t k rand') := by
  unfold User.shareVectorsC
  have self : ∀ r : Rust Nat, RLock Eq r r := by intro r; cases r <;> rfl
  refine Lock.bind (shamirShareC_lock _ _ _ _ _ _) (fun _ _ _ => Lock.bind (Lock.free (self _)) (fun m m' hm => ?_))
  subst hm
  refine Lock.bind (R := anyTwo) (Lock.foldlM (forall₂_self _) trivial ?_) (fun _ _ _ => Lock.pure trivial)
  rintro a b i j - rfl
  exact Lock.bind (fmulC_lock _ _ _ _) (fun _ _ _ => Lock.bind (shamirShareC_lock _ _ _ _ _ _) (fun _ _ _ =>
    Lock.pure trivial))

/-- C101: what a user does to prepare an update, operation by operation, and whether it aborts, depends only on the two
epochs and the numbers of servers and shares: not on the user's element, keys, witness or random choices. -/
theorem C101_prepare (seed : Nat → Nat) (u u' : User F G1 G2) (he : u.epoch = u'.epoch) (e n t : Nat)
    (rand rand' : Nat → Nat → F) :
    (u.prepareForUpdateC seed e n t rand).trace = (u'.prepareForUpdateC seed e n t rand').trace := by
  refine Lock.trace_eq (R := anyTwo) ?_
  unfold User.prepareForUpdateC
  have self : ∀ r : Rust Nat, RLock Eq r r := by intro r; cases r <;> rfl
  split
  · exact Lock.pure trivial
  split
  · exact Lock.pure trivial
  rw [he]
  refine Lock.bind (Lock.free (self _)) (fun d d' hd => ?_)
  subst hd
  refine Lock.bind (Lock.free (self _)) (fun k k' hk => ?_)
  subst hk
  exact Lock.bind (shareVectorsC_lock _ _ _ _ _ _ _) (fun _ _ _ => Lock.pure trivial)

/-! ### `User::post_update` -/

theorem idx_lock_rel {α β : Type} {R : α → β → Prop} {l : List α} {l' : List β} (h : List.Forall₂ R l l') :
    ∀ i, RLock R (idx l i) (idx l' i) := by
  induction h with
  | nil => intro i; rw [idx_ge (by simp), idx_ge (by simp)]; rfl
  | cons h1 _ ih =>
    intro i
    cases i with
    | zero => exact h1
    | succ i => exact ih i

theorem forall₂_modify {α β : Type} {R : α → β → Prop} {l : List α} {l' : List β} (h : List.Forall₂ R l l')
    {f : α → α} {g : β → β} (hfg : ∀ a b, R a b → R (f a) (g b)) : ∀ i, List.Forall₂ R (l.modify i f) (l'.modify i g) := by
  induction h with
  | nil => intro i; simp
  | cons h1 h2 ih =>
    intro i
    cases i with
    | zero => simpa using ⟨hfg _ _ h1, h2⟩
    | succ i => simpa using ⟨h1, ih i⟩

theorem collectStep_lock {T T' : Type} {xs xs' : List F} (hx : xs.length = xs'.length) {a : List (List T)}
    {a' : List (List T')} (ha : List.Forall₂ sameLen a a') {ch : List (List (F × T))} {ch' : List (List (F × T'))}
    (hc : List.Forall₂ sameLen ch ch') (i : Nat) :
    RLock (List.Forall₂ sameLen) (User.collectStep xs a ch i) (User.collectStep xs' a' ch' i) := by
  unfold User.collectStep
  refine RLock.bind (idx_lock_rel ha i) (fun v v' hv => ?_)
  have hv' : v.length = v'.length := hv
  refine RLock.foldlM (forall₂_zipIdx 0 hv') ?_ ?_
  · have he : ch.isEmpty = ch'.isEmpty := by cases hc <;> rfl
    rw [he]
    split
    · rw [hv']
      exact List.forall₂_iff_get.2 ⟨by simp, fun i h1 h2 => by simp [sameLen]⟩
    · exact hc
  · rintro s t ⟨d, j⟩ ⟨d', j'⟩ hst hj
    simp only at hj
    subst hj
    refine RLock.bind (idx_lock hx i) (fun _ _ _ => RLock.bind (idx_lock_rel hst j) (fun _ _ _ => ?_))
    refine forall₂_modify hst (fun a b hab => ?_) j
    simpa [sameLen] using hab

theorem collect_lock {xs xs' : List F} (hx : xs.length = xs'.length) {dvs dvs' : List (List F × List G1)}
    (h : List.Forall₂ (fun a b => a.1.length = b.1.length ∧ a.2.length = b.2.length) dvs dvs') (n : Nat) :
    RLock (fun r r' => List.Forall₂ sameLen r.1 r'.1 ∧ List.Forall₂ sameLen r.2 r'.2)
      (User.collect n xs dvs) (User.collect n xs' dvs') := by
  unfold User.collect
  refine RLock.foldlM (forall₂_self _) ⟨.nil, .nil⟩ ?_
  rintro s t i j ⟨h1, h2⟩ rfl
  refine RLock.bind (collectStep_lock hx ?_ h1 i) (fun d d' hd => RLock.bind (collectStep_lock hx ?_ h2 i)
    (fun v v' hv => ⟨hd, hv⟩))
  · rw [List.forall₂_map_left_iff, List.forall₂_map_right_iff]; exact h.imp (fun _ _ h => h.1)
  · rw [List.forall₂_map_left_iff, List.forall₂_map_right_iff]; exact h.imp (fun _ _ h => h.2)

theorem shamirCoefficientC_lock {T T' : Type} {t : Nat} {sh : List (F × T)} {sh' : List (F × T')}
    (h : sh.length = sh'.length) (p p' : F) (i : Nat) :
    Lock False anyTwo (shamirCoefficientC t sh p i) (shamirCoefficientC t sh' p' i) := by
  unfold shamirCoefficientC
  refine Lock.foldlM (forall₂_self _) trivial ?_
  rintro a b j j' - rfl
  split
  · exact Lock.bind (Lock.free (idx_lock h _)) (fun _ _ _ => Lock.bind (finvC_lock _ _) (fun _ _ _ => fmulC_lock _ _ _ _))
  · exact Lock.bind (Lock.free (idx_lock h _)) (fun _ _ _ => Lock.bind (Lock.free (idx_lock h _)) (fun _ _ _ =>
      Lock.bind (finvC_lock _ _) (fun _ _ _ => fmulC_lock _ _ _ _)))

theorem shamirChecksC_lock {T T' : Type} {t : Nat} {sh : List (F × T)} {sh' : List (F × T')}
    (h : sh.length = sh'.length) (p p' : F) {co co' : List F} (hc : co.length = co'.length) :
    Lock False sameLen (shamirChecksC t sh p co) (shamirChecksC t sh' p' co') := by
  unfold shamirChecksC
  refine Lock.bind (Lock.free (idx_lock h _)) (fun _ _ _ => Lock.bind (Lock.free (idx_lock h _)) (fun _ _ _ =>
    Lock.bind (finvC_lock _ _) (fun _ _ _ => Lock.bind (fmulC_lock _ _ _ _) (fun _ _ _ =>
    Lock.bind (Lock.free (idx_lock hc _)) (fun _ _ _ => Lock.bind (fmulC_lock _ _ _ _) (fun _ _ _ => ?_))))))
  refine Lock.foldlM (forall₂_self _) (by show (co.set _ _).length = (co'.set _ _).length; simp [hc]) ?_
  rintro a b j j' hab rfl
  have hab' : a.length = b.length := hab
  refine Lock.bind (Lock.free (idx_lock h _)) (fun _ _ _ => Lock.bind (finvC_lock _ _) (fun _ _ _ =>
    Lock.bind (fmulC_lock _ _ _ _) (fun _ _ _ => Lock.bind (fmulC_lock _ _ _ _) (fun _ _ _ =>
    Lock.bind (R := sameLen) (Lock.tick _ ?_) (fun c c' hcc => Lock.bind (finvC_lock _ _) (fun _ _ _ =>
    Lock.tick _ ?_))))))
  · show (a.modify _ _).length = (b.modify _ _).length
    rw [List.length_modify, List.length_modify]; exact hab'
  · show (c.modify _ _).length = (c'.modify _ _).length
    rw [List.length_modify, List.length_modify]; exact hcc

/-- coefficients of the same shape -/
def sameCoeffs (r r' : List F × Option (List F)) : Prop :=
  r.1.length = r'.1.length ∧ ((r.2 = none ∧ r'.2 = none) ∨ ∃ c c', r.2 = some c ∧ r'.2 = some c' ∧ c.length = c'.length)

theorem shamirCoefficientsC_lock {T T' : Type} (t : Nat) {sh : List (F × T)} {sh' : List (F × T')}
    (h : sh.length = sh'.length) :
    Lock False sameCoeffs (shamirCoefficientsC t sh) (shamirCoefficientsC t sh') := by
  unfold shamirCoefficientsC
  rw [h]
  split
  · exact Lock.free rfl
  · refine Lock.bind (R := anyTwo) (Lock.foldlM (forall₂_any (by simp [h])) trivial (fun _ _ _ _ _ _ => fmulC_lock _ _ _ _))
      (fun p p' _ => ?_)
    refine Lock.bind (R := sameLen) ((Lock.mapM (R := anyTwo) (forall₂_self _) ?_).mono (fun a b h => h.length_eq))
      (fun co co' hco => ?_)
    · rintro i j rfl
      exact shamirCoefficientC_lock h _ _ _
    · split
      · exact Lock.bind (shamirChecksC_lock h _ _ hco) (fun c c' hc => Lock.pure ⟨hco, .inr ⟨c, c', rfl, rfl, hc⟩⟩)
      · exact Lock.pure ⟨hco, .inl ⟨rfl, rfl⟩⟩

theorem rebuildScalarC_lock {sh sh' : List (F × F)} (h : sh.length = sh'.length) {r r' : List F × Option (List F)}
    (hr : sameCoeffs r r') : Lock ab anyTwo (shamirRebuildScalarC sh r.1 r.2) (shamirRebuildScalarC sh' r'.1 r'.2) := by
  obtain ⟨co, ch⟩ := r
  obtain ⟨co', ch'⟩ := r'
  obtain ⟨hco, hch⟩ := hr
  simp only at hco hch ⊢
  unfold shamirRebuildScalarC
  rw [hco]
  refine Lock.bind (R := anyTwo) (Lock.foldlM (forall₂_self _) trivial ?_) (fun a b _ => ?_)
  · rintro s t i j - rfl
    exact Lock.bind (Lock.free (idx_lock h _)) (fun _ _ _ => Lock.bind (Lock.free (idx_lock hco _)) (fun _ _ _ =>
      Lock.bind (fmulC_lock _ _ _ _) (fun _ _ _ => Lock.pure trivial)))
  · rcases hch with ⟨rfl, rfl⟩ | ⟨c, c', rfl, rfl, hc⟩
    · exact Lock.pure trivial
    · refine Lock.bind (Lock.free (idx_lock hc _)) (fun _ _ _ => Lock.bind (Lock.free (idx_lock h _)) (fun _ _ _ =>
        Lock.bind (fmulC_lock _ _ _ _) (fun _ _ _ => Lock.bind (R := anyTwo) (Lock.foldlM (forall₂_self _) trivial ?_)
        (fun _ _ _ => ?_))))
      · rintro s t i j - rfl
        exact Lock.bind (Lock.free (idx_lock hc _)) (fun _ _ _ => Lock.bind (Lock.free (idx_lock h _)) (fun _ _ _ =>
          Lock.bind (fmulC_lock _ _ _ _) (fun _ _ _ => Lock.pure trivial)))
      · split <;> split <;> exact Lock.pure trivial

theorem rebuildPointC_lock {sh sh' : List (F × G1)} (h : sh.length = sh'.length) {r r' : List F × Option (List F)}
    (hr : sameCoeffs r r') : Lock ab anyTwo (shamirRebuildPointC sh r.1 r.2) (shamirRebuildPointC sh' r'.1 r'.2) := by
  obtain ⟨co, ch⟩ := r
  obtain ⟨co', ch'⟩ := r'
  obtain ⟨hco, hch⟩ := hr
  simp only at hco hch ⊢
  unfold shamirRebuildPointC
  rw [hco]
  refine Lock.bind (R := anyTwo) (Lock.foldlM (forall₂_self _) trivial ?_) (fun a b _ => ?_)
  · rintro s t i j - rfl
    exact Lock.bind (Lock.free (idx_lock h _)) (fun _ _ _ => Lock.bind (Lock.free (idx_lock hco _)) (fun _ _ _ =>
      Lock.bind (pmulC_lock _ _ _ _) (fun _ _ _ => paddC_lock _ _ _ _)))
  · rcases hch with ⟨rfl, rfl⟩ | ⟨c, c', rfl, rfl, hc⟩
    · exact Lock.pure trivial
    · refine Lock.bind (Lock.free (idx_lock h _)) (fun _ _ _ => Lock.bind (Lock.free (idx_lock hc _)) (fun _ _ _ =>
        Lock.bind (pmulC_lock _ _ _ _) (fun _ _ _ => Lock.bind (R := anyTwo) (Lock.foldlM (forall₂_self _) trivial ?_)
        (fun _ _ _ => ?_))))
      · rintro s t i j - rfl
        exact Lock.bind (Lock.free (idx_lock h _)) (fun _ _ _ => Lock.bind (Lock.free (idx_lock hc _)) (fun _ _ _ =>
          Lock.bind (pmulC_lock _ _ _ _) (fun _ _ _ => paddC_lock _ _ _ _)))
      · split <;> split <;> exact Lock.pure trivial

/-- a sequence that returns: its first part returns -/
theorem countedM_bind_ok {α β : Type} {x : CountedM Trace α} {f : α → CountedM Trace β} {c : Trace} {r : β × Trace}
    (h : (x >>= f) c = .ok r) : ∃ p, x c = .ok p ∧ f p.1 p.2 = .ok r := by
  have e : (x >>= f) c = (x c).bind (fun p => f p.1 p.2) := rfl
  rw [e] at h
  cases hx : x c with
  | error e => rw [hx] at h; cases h
  | ok p => rw [hx] at h; exact ⟨p, rfl, h⟩

theorem rebuildLoopC_lock {r r' : List F × Option (List F)} (hr : sameCoeffs r r') {vs vs' : List (List (F × G1))}
    (hv : List.Forall₂ sameLen vs vs') {ds ds' : List (List (F × F))} (hd : List.Forall₂ sameLen ds ds') :
    ∀ i (w w' : G1) (c : Trace) v v' o o', User.rebuildLoopC r.1 r.2 vs i ds w c = .ok (.ok v, o) →
      User.rebuildLoopC r'.1 r'.2 vs' i ds' w' c = .ok (.ok v', o') → o = o' := by
  induction hd with
  | nil =>
    intro i w w' c v v' o o' h h'
    cases h; cases h'; rfl
  | cons h1 _ ih =>
    intro i w w' c v v' o o' h h'
    unfold User.rebuildLoopC at h h'
    obtain ⟨⟨q, c1⟩, h2, h⟩ := countedM_bind_ok h
    obtain ⟨⟨q', c1'⟩, h2', h'⟩ := countedM_bind_ok h'
    obtain ⟨rfl, -⟩ := (rebuildScalarC_lock (ab := False) h1 hr).both_ok h2 h2'
    cases q with
    | none => cases h
    | some d =>
    cases q' with
    | none => cases h'
    | some d' =>
    simp only at h h'
    split at h
    · cases h
    split at h'
    · cases h'
    obtain ⟨⟨_, c2⟩, h3, h⟩ := countedM_bind_ok h
    obtain ⟨⟨_, c2'⟩, h3', h'⟩ := countedM_bind_ok h'
    cases h3; cases h3'
    obtain ⟨⟨s, c3⟩, h4, h⟩ := countedM_bind_ok h
    obtain ⟨⟨s', c3'⟩, h4', h'⟩ := countedM_bind_ok h'
    obtain ⟨h5, h6⟩ := (Lock.free (ab := False) (idx_lock_rel hv i)).both_ok h4 h4'
    simp only at h5 h6
    subst h5
    obtain ⟨⟨q, c4⟩, h7, h⟩ := countedM_bind_ok h
    obtain ⟨⟨q', c4'⟩, h7', h'⟩ := countedM_bind_ok h'
    obtain ⟨rfl, -⟩ := (rebuildPointC_lock (ab := False) h6 hr).both_ok h7 h7'
    cases q with
    | none => cases h
    | some V =>
    cases q' with
    | none => cases h'
    | some V' =>
    simp only at h h'
    obtain ⟨⟨q, c5⟩, h8, h⟩ := countedM_bind_ok h
    obtain ⟨⟨q', c5'⟩, h8', h'⟩ := countedM_bind_ok h'
    obtain ⟨rfl, -⟩ := (psubC_lock (ab := False) _ _ _ _).both_ok h8 h8'
    obtain ⟨⟨i1, c6⟩, h9, h⟩ := countedM_bind_ok h
    obtain ⟨⟨i1', c6'⟩, h9', h'⟩ := countedM_bind_ok h'
    obtain ⟨rfl, -⟩ := (finvC_lock _ _).both_ok h9 h9'
    obtain ⟨⟨w1, c7⟩, h10, h⟩ := countedM_bind_ok h
    obtain ⟨⟨w1', c7'⟩, h10', h'⟩ := countedM_bind_ok h'
    obtain ⟨rfl, -⟩ := (pmulC_lock (ab := False) _ _ _ _).both_ok h10 h10'
    exact ih _ _ _ _ _ _ _ _ h h'

theorem value_ok {α : Type} {x : CountedM Trace α} {a : α} (h : x.value = .ok a) : ∃ o, x [] = .ok (a, o) := by
  unfold CountedM.value at h
  cases hx : x [] with
  | error e => rw [hx] at h; cases h
  | ok p => rw [hx] at h; obtain ⟨b, o⟩ := p; cases h; exact ⟨o, rfl⟩

/-- C101: what a user does with the answers of the servers in an update that succeeds, operation by operation, depends only
on the threshold and the shape of the answers: not on the old witness, the user's element, the shares or the values of
the answers. -/
theorem C101_post_update (t : Nat) (ht : 1 ≤ t) (w w' : G1) (ys ys' : List (List F)) (hys : ys.length = ys'.length)
    (xs xs' : List F) (hxs : xs.length = xs'.length) (dvs dvs' : List (List F × List G1))
    (hdvs : List.Forall₂ (fun a b => a.1.length = b.1.length ∧ a.2.length = b.2.length) dvs dvs') (v v' : G1)
    (h : User.postUpdate w t ys xs dvs = .ok (.ok v)) (h' : User.postUpdate w' t ys' xs' dvs' = .ok (.ok v')) :
    ∃ o, (User.postUpdateC w t ys xs dvs).trace = .ok o ∧ (User.postUpdateC w' t ys' xs' dvs').trace = .ok o := by
  have e1 : (User.postUpdateC (M := Trace) w t ys xs dvs).value = .ok (.ok v) := by
    rw [(postUpdateC_hom w t ys xs dvs).result.1, ← h]
    refine (postUpdate_meas w t ((dvs.map (fun a => a.1.length)).sum) ht ys xs dvs ?_).result.1
    exact fun a ha => List.single_le_sum (by simp) _ (List.mem_map.2 ⟨a, ha, rfl⟩)
  have e2 : (User.postUpdateC (M := Trace) w' t ys' xs' dvs').value = .ok (.ok v') := by
    rw [(postUpdateC_hom w' t ys' xs' dvs').result.1, ← h']
    refine (postUpdate_meas w' t ((dvs'.map (fun a => a.1.length)).sum) ht ys' xs' dvs' ?_).result.1
    exact fun a ha => List.single_le_sum (by simp) _ (List.mem_map.2 ⟨a, ha, rfl⟩)
  obtain ⟨o, k1⟩ := value_ok e1
  obtain ⟨o', k2⟩ := value_ok e2
  have goal : o = o' := by
    have j1 := k1
    have j2 := k2
    unfold User.postUpdateC at j1 j2
    rw [hys] at j1
    obtain ⟨⟨⟨d, vc⟩, c1⟩, h1, j1⟩ := countedM_bind_ok j1
    obtain ⟨⟨⟨d', vc'⟩, c1'⟩, h1', j2⟩ := countedM_bind_ok j2
    obtain ⟨h2, hd, hv⟩ := (Lock.free (ab := False) (collect_lock hxs hdvs _)).both_ok h1 h1'
    simp only at h2 hd hv j1 j2
    subst h2
    obtain ⟨⟨f, c2⟩, h3, j1⟩ := countedM_bind_ok j1
    obtain ⟨⟨f', c2'⟩, h3', j2⟩ := countedM_bind_ok j2
    obtain ⟨h4, hf⟩ := (Lock.free (ab := False) (idx_lock_rel hd 0)).both_ok h3 h3'
    simp only at h4 hf
    subst h4
    obtain ⟨⟨r, c3⟩, h5, j1⟩ := countedM_bind_ok j1
    obtain ⟨⟨r', c3'⟩, h5', j2⟩ := countedM_bind_ok j2
    obtain ⟨h6, hr⟩ := (shamirCoefficientsC_lock t hf).both_ok h5 h5'
    simp only at h6 hr
    subst h6
    exact rebuildLoopC_lock hr hv hd _ _ _ _ _ _ _ _ j1 j2
  subst goal
  refine ⟨o, ?_, ?_⟩
  · unfold CountedM.trace; rw [k1]; rfl
  · unfold CountedM.trace; rw [k2]; rfl

/-! ### changes of the accumulator -/

theorem deleteC_loop (y : F) (C : G1) : ∀ (l : List (F × G1)) (c : Trace) r,
    l.mapM (fun (p : F × G1) => (do
      let i ← finvC (y - p.1)
      let d ← psubC p.2 C
      let t ← pmulC i d
      pure (p.1, t) : CountedM Trace (F × G1))) c = .ok r →
    r.2 = c ++ (List.replicate l.length [.finv, .padd, .pmul]).flatten ∧ r.1.length = l.length
  | [], c, r, h => by
    simp only [List.mapM_nil] at h
    cases h
    simp
  | p :: l, c, r, h => by
    simp only [List.mapM_cons] at h
    obtain ⟨⟨q, c1⟩, h1, h⟩ := countedM_bind_ok h
    obtain ⟨⟨qs, c2⟩, h2, h⟩ := countedM_bind_ok h
    cases h
    obtain ⟨k1, k2⟩ := deleteC_loop y C l _ _ h2
    obtain ⟨⟨i, c3⟩, h3, h1⟩ := countedM_bind_ok h1
    have hc3 : c3 = c ++ [.finv] := by
      by_cases h0 : y - p.1 = 0
      · rw [h0] at h3; simp [finvC, Counted.tick, Except.map] at h3
      · rw [finvC, inv!_ne h0] at h3; cases h3; rfl
    subst hc3
    cases h1
    simp only at k1 k2 ⊢
    rw [k1]
    refine ⟨?_, by simp [k2]⟩
    show ((c ++ [.finv]) ++ [.padd]) ++ [.pmul] ++ _ = _
    simp [List.replicate_succ]

/-- C101: the record of a change of the accumulator that happens is fixed: an inversion and a multiplication for an
addition or a quick deletion, whatever element and keys; an inversion, a subtraction and a multiplication for each
remaining witness, in this order, for a deletion with update of the witnesses. A refused change does nothing. -/
theorem C101_changes (s s' : Server F G1 G2) (y : F) (r : Option G1) :
    (s.add y = .ok (s', r) → (s.addC y).trace = .ok (if r = none then [] else [.finv, .pmul])) ∧
    (s.quickDelete y = .ok (s', r) → (s.quickDeleteC y).trace = .ok (if r = none then [] else [.finv, .pmul])) ∧
    (s.delete y = .ok (s', r) → (s.deleteC y).trace = .ok (if r = none then [] else
      (List.replicate s'.allWitnesses.length [.finv, .padd, .pmul]).flatten)) := by
  refine ⟨fun h => ?_, fun h => ?_, fun h => ?_⟩
  · have e := ((addC_hom s y).result.1.trans ((add_meas s y).result.1)).trans h
    obtain ⟨o, k⟩ := value_ok e
    have : o = if r = none then [] else [.finv, .pmul] := by
      unfold Server.addC at k
      split at k
      · cases k; rfl
      · obtain ⟨⟨l, c1⟩, h1, k⟩ := countedM_bind_ok k
        obtain ⟨⟨i, c2⟩, h2, k⟩ := countedM_bind_ok k
        cases hl : s.accumulators.getLast? with
        | none => rw [hl] at h1; cases h1
        | some a =>
          rw [hl] at h1; cases h1
          by_cases h0 : y + s.witnessSecretKey = 0
          · rw [h0] at h2; simp [finvC, Counted.tick, Except.map] at h2
          · rw [finvC, inv!_ne h0] at h2; cases h2; cases k; rfl
    unfold CountedM.trace; rw [k, ← this]; rfl
  · have e := ((quickDeleteC_hom s y).result.1.trans ((quickDelete_meas s y).result.1)).trans h
    obtain ⟨o, k⟩ := value_ok e
    have : o = if r = none then [] else [.finv, .pmul] := by
      unfold Server.quickDeleteC at k
      split at k
      · cases k; rfl
      · obtain ⟨⟨l, c1⟩, h1, k⟩ := countedM_bind_ok k
        obtain ⟨⟨i, c2⟩, h2, k⟩ := countedM_bind_ok k
        cases hl : s.accumulators.getLast? with
        | none => rw [hl] at h1; cases h1
        | some a =>
          rw [hl] at h1; cases h1
          by_cases h0 : y + s.witnessSecretKey = 0
          · rw [h0] at h2; simp [finvC, Counted.tick, Except.map] at h2
          · rw [finvC, inv!_ne h0] at h2; cases h2; cases k; rfl
    unfold CountedM.trace; rw [k, ← this]; rfl
  · have e := ((deleteC_hom s y).result.1.trans ((delete_meas s y).result.1)).trans h
    obtain ⟨o, k⟩ := value_ok e
    have : o = if r = none then [] else (List.replicate s'.allWitnesses.length [.finv, .padd, .pmul]).flatten := by
      unfold Server.deleteC at k
      cases hg : mapGet s.allWitnesses y with
      | none => rw [hg] at k; cases k; rfl
      | some wit =>
        rw [hg] at k
        obtain ⟨⟨l, c1⟩, h1, k⟩ := countedM_bind_ok k
        obtain ⟨k1, k2⟩ := deleteC_loop y _ _ _ _ h1
        simp only [List.nil_append] at k1 k2
        cases k
        simp only [reduceCtorEq, if_false]
        rw [k1, k2]
    unfold CountedM.trace; rw [k, ← this]; rfl

/-! ### the batch update -/

theorem dadC_lock {l l' : List F} (h : l.length = l'.length) (y y' : F) : Lock ab anyTwo (dadC l y) (dadC l' y') := by
  unfold dadC
  match l, l', h with
  | [], [], _ => exact Lock.pure trivial
  | [a], [b], _ => exact Lock.pure trivial
  | a :: a' :: l, b :: b' :: l', h =>
    exact Lock.foldlM (forall₂_any (by simpa using h)) trivial (fun _ _ _ _ _ _ => fmulC_lock _ _ _ _)

theorem dadC_value {l : List F} {y : F} {c : Trace} {p : F × Trace} (h : dadC l y c = .ok p) : p.1 = dad l y := by
  have h1 := dadC_hom l y c
  obtain ⟨o, h2, -⟩ := (dad_meas l y (countOps c)).2 _ rfl
  rw [h, h2] at h1
  have h3 : (dad l y, countOps c + o) = (p.1, countOps p.2) := Except.ok.inj h1
  exact (congrArg Prod.fst h3).symm

theorem pg1EvalC_lock {A A' : List G1} (h : A.length = A'.length) (x x' : F) :
    Lock ab (fun r r' => r.isSome = r'.isSome) (pg1EvalC A x) (pg1EvalC A' x') := by
  unfold pg1EvalC
  match A, A', h with
  | [], [], _ => exact Lock.pure rfl
  | a :: A, b :: A', h =>
    refine Lock.bind (R := anyTwo) (Lock.foldlM (forall₂_any (by simpa using h)) trivial ?_) (fun _ _ _ => Lock.pure rfl)
    intro s t a b _ _
    exact Lock.bind (pmulC_lock _ _ _ _) (fun _ _ _ => Lock.bind (paddC_lock _ _ _ _) (fun _ _ _ =>
      Lock.bind (fmulC_lock _ _ _ _) (fun _ _ _ => Lock.pure trivial)))

/-- C101: what a member does to update a witness from the full list of coefficients depends only on the numbers of
additions, deletions and coefficients; but a deleted one does less. -/
theorem C101_batch_update (C C' : G1) (y y' : F) (adds adds' dels dels' : List F) (co co' : List G1)
    (h1 : adds.length = adds'.length) (h2 : dels.length = dels'.length) (h3 : co.length = co'.length)
    (hy : y ∈ dels ↔ y' ∈ dels') :
    (mwBatchUpdateC C y adds dels co).trace = (mwBatchUpdateC C' y' adds' dels' co').trace := by
  refine Lock.trace_eq (R := anyTwo) ?_
  unfold mwBatchUpdateC
  have hd : Lock True (fun a b => a = dad dels y ∧ b = dad dels' y') (dadC dels y) (dadC dels' y') := by
    intro c
    have hc := dadC_lock (ab := True) h2 y y' c
    match hx : dadC dels y c, hx' : dadC dels' y' c with
    | .ok p, .ok q => rw [hx, hx'] at hc; exact ⟨hc.1, dadC_value hx, dadC_value hx'⟩
    | .error e, .error e' => rw [hx, hx'] at hc; exact hc
    | .ok p, .error e => rw [hx, hx'] at hc; exact hc
    | .error e, .ok q => rw [hx, hx'] at hc; exact hc
  refine Lock.bind hd ?_
  rintro a b ⟨rfl, rfl⟩
  have hz : dad dels y = 0 ↔ dad dels' y' = 0 := by rw [C14_dad_zero, C14_dad_zero, hy]
  refine Lock.bind (R := fun r r' => r.isSome = r'.isSome) (Lock.tick _ ?_) (fun r r' hr => ?_)
  · show (invert? (dad dels y)).isSome = (invert? (dad dels' y')).isSome
    by_cases h0 : dad dels y = 0
    · rw [hz.1 h0, h0]
    · have h0' : ¬ dad dels' y' = 0 := fun h => h0 (hz.2 h)
      have e : invert? (dad dels y) = some (dad dels y)⁻¹ := by simp [invert?, h0]
      have e' : invert? (dad dels' y') = some (dad dels' y')⁻¹ := by simp [invert?, h0']
      rw [e, e']; rfl
  · match r, r', hr with
    | none, none, _ => exact Lock.pure trivial
    | some d, some d', _ =>
      refine Lock.bind (dadC_lock h1 _ _) (fun _ _ _ => Lock.bind (fmulC_lock _ _ _ _) (fun _ _ _ =>
        Lock.bind (pg1EvalC_lock h3 _ _) (fun r r' hr => ?_)))
      match r, r', hr with
      | none, none, _ => exact Lock.pure trivial
      | some d, some d', _ =>
        exact Lock.bind (pmulC_lock _ _ _ _) (fun _ _ _ => Lock.bind (pmulC_lock _ _ _ _) (fun _ _ _ =>
          paddC_lock _ _ _ _))

end lockstep

/-! ## concrete cases -/

local instance trace_prime7 : Fact (Nat.Prime 7) := ⟨by decide⟩

/-- a server with two members deletes one of them -/
example : ((⟨[1], 1, ⟨1, 2⟩, 2, [2, 1], [(2, 5), (1, 4)], []⟩ : Server (ZMod 7) (ZMod 7) (ZMod 7)).deleteC 2).trace
    = .ok [.finv, .padd, .pmul] := by with_unfolding_all rfl

/-- two servers with different keys, members and accumulators, asked with different shares -/
example : ((⟨[1, 5], 1, ⟨1, 2⟩, 2, [2, 1], [(1, 4)], [2]⟩ : Server (ZMod 7) (ZMod 7) (ZMod 7)).updateC 1 [3, 4]).trace
      = .ok [.fmul, .fmul, .fmul, .pmul, .padd] ∧
    ((⟨[1, 5], 1, ⟨1, 2⟩, 2, [2, 1], [(1, 4)], [2]⟩ : Server (ZMod 7) (ZMod 7) (ZMod 7)).updateC 1 [3, 4]).trace
      = ((⟨[0, 6], 3, ⟨1, 2⟩, 4, [], [], [1]⟩ : Server (ZMod 7) (ZMod 7) (ZMod 7)).updateC 1 [0, 0]).trace :=
  ⟨by with_unfolding_all rfl, C101_server_update _ _ _ _ _ rfl rfl rfl⟩

/-- two users -/
example := C101_prepare (G2 := ZMod 7) (fun _ => 0) (⟨3, none, 1, ⟨1, 1⟩, 1⟩ : User (ZMod 7) (ZMod 7) (ZMod 7))
  ⟨6, none, 5, ⟨3, 2⟩, 1⟩ rfl 9 5 3 (fun _ _ => 0) (fun i j => i + j)

/-- the answers of two servers, one chunk -/
example : User.postUpdate (F := ZMod 7) (1 : ZMod 7) 2 [[0], [0]] [1, 2] [([4], [2]), ([5], [3])] = .ok (.ok 0) ∧
    User.postUpdate (F := ZMod 7) (6 : ZMod 7) 2 [[0], [0]] [3, 1] [([2], [6]), ([5], [3])] = .ok (.ok 5) ∧
    User.postUpdate (F := ZMod 7) (5 : ZMod 7) 2 [[0], [0]] [1, 2] [([1], [6]), ([2], [3])] = .ok (.error "user has been deleted") := by
  with_unfolding_all decide

/-- they give the same record; a user that finds out that it has been deleted stops early -/
example : (User.postUpdateC (F := ZMod 7) (1 : ZMod 7) 2 [[0], [0]] [1, 2] [([4], [2]), ([5], [3])]).trace
      = (User.postUpdateC (F := ZMod 7) (6 : ZMod 7) 2 [[0], [0]] [3, 1] [([2], [6]), ([5], [3])]).trace ∧
    (User.postUpdateC (F := ZMod 7) (1 : ZMod 7) 2 [[0], [0]] [1, 2] [([4], [2]), ([5], [3])]).trace
      ≠ (User.postUpdateC (F := ZMod 7) (5 : ZMod 7) 2 [[0], [0]] [1, 2] [([1], [6]), ([2], [3])]).trace := by
  with_unfolding_all decide

example := C101_batch_update (F := ZMod 7) (1 : ZMod 7) 2 1 2 [3] [4] [5, 6] [3, 4] [1, 2] [2, 4] rfl rfl rfl (by decide)

example := C101_post_update (F := ZMod 7) 2 (by norm_num) (1 : ZMod 7) 6 [[0], [0]] [[0], [0]] rfl [1, 2] [3, 1] rfl
  [([4], [2]), ([5], [3])] [([2], [6]), ([5], [3])] (.cons ⟨rfl, rfl⟩ (.cons ⟨rfl, rfl⟩ .nil)) 0 5
  (by with_unfolding_all decide) (by with_unfolding_all decide)
example := C101_same (G2 := ZMod 7) (⟨[1, 5], 1, ⟨1, 2⟩, 2, [2, 1], [(1, 4)], [2]⟩ : Server (ZMod 7) (ZMod 7) (ZMod 7))
  ⟨3, none, 1, ⟨1, 1⟩, 1⟩ 4 1 9 5 3 [3, 4] (fun _ => 0) (fun i j => i + j) 1 (by norm_num) [[0], [0]] [1, 2]
  [([4], [2]), ([5], [3])] [3] [5, 6] [1, 2]

end Allo
