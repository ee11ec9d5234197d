import Verif.Lemmas.Basic

/-! Lemmas about the polynomial arithmetic of `src/accumulator/utils.rs`. -/

namespace Allo
open Spec

theorem foldlM_ok {σ β : Type} (l : List β) (f : σ → β → Rust σ) (g : σ → β → σ) (s : σ)
    (h : ∀ s, ∀ b ∈ l, f s b = .ok (g s b)) : l.foldlM f s = .ok (l.foldl g s) := by
  induction l generalizing s with
  | nil => rfl
  | cons b l ih =>
    rw [List.foldlM_cons, h s b (by simp)]
    exact ih _ (fun s b hb => h s b (by simp [hb]))

theorem mapM_ok {α β : Type} (l : List α) (f : α → Rust β) (g : α → β)
    (h : ∀ a ∈ l, f a = .ok (g a)) : l.mapM f = .ok (l.map g) := by
  induction l with
  | nil => rfl
  | cons b l ih =>
    rw [List.mapM_cons, h b (by simp), ih (fun a ha => h a (by simp [ha]))]
    rfl

section
variable {F M : Type} [Field F] [AddCommGroup M] [Module F M]

theorem horner (p : List F) (x : F) (n : Nat) (hn : n ≤ p.length) (r : F) :
    (List.range n).reverse.foldlM (fun (r : F) i => do
      let a ← idx p i
      pure (r * x + a)) r = (.ok (polyVal x (p.take n) + x ^ n * r) : Rust F) := by
  induction n generalizing r with
  | zero => simp [pure, Except.pure]
  | succ n ih =>
    have hlt : n < p.length := by omega
    rw [List.range_succ, List.reverse_append, List.reverse_singleton, List.singleton_append,
      List.foldlM_cons, idx_lt hlt]
    simp only [bind, Except.bind, pure, Except.pure]
    have := ih (by omega) (r * x + p[n])
    simp only [bind, Except.bind, pure, Except.pure] at this
    rw [this, List.take_add_one, List.getElem?_eq_getElem hlt, polyVal_append]
    simp only [Option.toList_some, polyVal_cons, polyVal_nil, List.length_take,
      Nat.min_eq_left (by omega : n ≤ p.length), smul_eq_mul]
    congr 1
    ring

theorem polyVal_take_succ (x : F) (p : List M) (n : Nat) (h : n < p.length) :
    polyVal x (p.take (n + 1)) = polyVal x (p.take n) + x ^ n • p[n] := by
  rw [List.take_add_one, List.getElem?_eq_getElem h, polyVal_append]
  simp [Nat.min_eq_left (by omega : n ≤ p.length)]

theorem hornerAll (p : List F) (x : F) (n : Nat) (h : n < p.length) :
    (do let r ← idx p n
        (List.range n).reverse.foldlM (fun (r : F) i => do
          let a ← idx p i
          pure (r * x + a)) r) = (.ok (polyVal x (p.take (n + 1))) : Rust F) := by
  rw [idx_lt h]
  have := horner p x n (by omega) p[n]
  rw [polyVal_take_succ x p n h, smul_eq_mul]
  exact this

omit [AddCommGroup M] in
theorem length_foldl_modify {β : Type} (l : List β) (k : β → Nat) (f : β → M → M) (s : List M) :
    (l.foldl (fun s b => s.modify (k b) (f b)) s).length = s.length := by
  induction l generalizing s with
  | nil => rfl
  | cons b l ih => simp [ih]

theorem polyVal_range_modify (x : F) (c : Nat → M) (n : Nat) (s : List M) (h : n ≤ s.length) :
    polyVal x ((List.range n).foldl (fun s i => s.modify i (· + c i)) s)
      = polyVal x s + polyVal x ((List.range n).map c) := by
  induction n with
  | zero => simp
  | succ n ih =>
    rw [List.range_succ, List.foldl_append, List.map_append, polyVal_append]
    simp only [List.foldl_cons, List.foldl_nil]
    rw [polyVal_modify_add]
    · rw [ih (by omega)]; simp [add_assoc]
    · rw [length_foldl_modify (List.range n) (fun i => i) (fun i a => a + c i)]; omega

theorem map_getD_range {α : Type} (l : List α) (d : α) (n : Nat) (h : n ≤ l.length) :
    (List.range n).map (fun i => l.getD i d) = l.take n := by
  apply List.ext_getElem
  · simp [h]
  · intro i h1 h2
    simp at h1 h2
    simp [h2.2]

/-! scalar polynomials -/

theorem polyEval_ok (p : List F) (x : F) (h : p ≠ []) : polyEval p x = .ok (polyVal x p) := by
  have hl : 1 ≤ p.length := List.length_pos_iff.2 h
  unfold polyEval
  rw [usub_le hl]
  have := hornerAll p x (p.length - 1) (by omega)
  rw [List.take_of_length_le (by omega)] at this
  exact this

variable (x : F)

theorem addCore_val (self rhs : List M) :
    polyVal x ((List.range (min self.length rhs.length)).foldl
      (fun s i => s.modify i (· + rhs.getD i 0))
      (if self.length = min self.length rhs.length then self ++ rhs.drop (min self.length rhs.length) else self))
      = polyVal x self + polyVal x rhs := by
  rw [polyVal_range_modify, map_getD_range _ _ _ (Nat.min_le_right _ _)]
  · split
    · next h =>
      rw [← h, polyVal_append, add_assoc, add_comm (x ^ _ • _), ← polyVal_take_drop]
      omega
    · next h =>
      rw [Nat.min_eq_right (by omega), List.take_length]
  · split
    · simp
    · exact Nat.min_le_left _ _

theorem polyAdd_val (p q : List F) : polyVal x (polyAdd p q) = polyVal x p + polyVal x q :=
  addCore_val x p q

theorem pg1Add_val (p q : List M) : polyVal x (pg1Add p q) = polyVal x p + polyVal x q :=
  addCore_val x p q

theorem addCore_length (self rhs : List M) :
    ((List.range (min self.length rhs.length)).foldl
      (fun s i => s.modify i (· + rhs.getD i 0))
      (if self.length = min self.length rhs.length then self ++ rhs.drop (min self.length rhs.length) else self)).length
      = max self.length rhs.length := by
  rw [length_foldl_modify (List.range _) (fun i => i) (fun i a => a + rhs.getD i 0)]
  split
  · simp; omega
  · omega

theorem polyAdd_length (p q : List F) : (polyAdd p q).length = max p.length q.length :=
  addCore_length p q

theorem pg1Add_length (p q : List M) : (pg1Add p q).length = max p.length q.length :=
  addCore_length p q

theorem polySub_eq (p q : List F) : polySub p q = polyAdd p (q.map (fun a => -a)) := by
  unfold polySub polyAdd
  simp only [List.length_map, List.map_drop]
  congr 1
  funext s i
  congr 1
  funext a
  by_cases h : i < q.length
  · simp [h, sub_eq_add_neg]
  · simp [Nat.le_of_not_lt h]

theorem polySub_val (p q : List F) : polyVal x (polySub p q) = polyVal x p - polyVal x q := by
  rw [polySub_eq, polyAdd_val, polyVal_map_neg, sub_eq_add_neg]

theorem polySub_length (p q : List F) : (polySub p q).length = max p.length q.length := by
  rw [polySub_eq, polyAdd_length]; simp

theorem polyScale_val (p : List F) (c : F) : polyVal x (polyScale p c) = polyVal x p * c :=
  polyVal_map_mul x c p

@[simp] theorem polyScale_length (p : List F) (c : F) : (polyScale p c).length = p.length := by
  simp [polyScale]

theorem mulRow_length (s rhs : List F) (i : Nat) (item : F) :
    (mulRow s rhs i item).length = s.length := by
  unfold mulRow
  exact length_foldl_modify rhs.zipIdx (fun b => i + b.2) (fun b a => a + b.1 * item) s

theorem mulRow_aux (rhs : List F) (i j : Nat) (item : F) (s : List F)
    (h : i + j + rhs.length ≤ s.length) :
    polyVal x ((rhs.zipIdx j).foldl (fun s (jitem, j) => s.modify (i + j) (· + jitem * item)) s)
      = polyVal x s + x ^ (i + j) * (polyVal x rhs * item) := by
  induction rhs generalizing s j with
  | nil => simp
  | cons b l ih =>
    simp only [List.zipIdx_cons, List.foldl_cons, List.length_cons] at h ⊢
    rw [ih (j + 1) _ (by simp; omega), polyVal_modify_add _ _ _ _ (by omega)]
    simp only [polyVal_cons, smul_eq_mul]
    ring

theorem mulRow_val (s rhs : List F) (i : Nat) (item : F) (h : i + rhs.length ≤ s.length) :
    polyVal x (mulRow s rhs i item) = polyVal x s + x ^ i * (polyVal x rhs * item) :=
  mulRow_aux x rhs i 0 item s (by simpa using h)

theorem mulCore_length (l : List (F × Nat)) (rhs s : List F) :
    (l.foldl (fun s (item, i) => mulRow s rhs i item) s).length = s.length := by
  induction l generalizing s with
  | nil => rfl
  | cons b l ih => simp [ih, mulRow_length]

theorem mulCore_val (p rhs : List F) (i : Nat) (s : List F) (_hr : rhs ≠ [])
    (h : p ≠ [] → i + p.length + rhs.length ≤ s.length + 1) :
    polyVal x ((p.zipIdx i).foldl (fun s (item, i) => mulRow s rhs i item) s)
      = polyVal x s + x ^ i * (polyVal x p * polyVal x rhs) := by
  induction p generalizing s i with
  | nil => simp
  | cons b l ih =>
    have h := h (by simp)
    simp only [List.zipIdx_cons, List.foldl_cons, List.length_cons] at h ⊢
    rw [ih (i + 1) _ (by intro _; rw [mulRow_length]; omega), mulRow_val _ _ _ _ _ (by omega)]
    simp only [polyVal_cons, smul_eq_mul]
    ring

theorem polyMul_length (p q : List F) (h : p ≠ [] ∨ q ≠ []) :
    (polyMul p q).length = p.length + q.length - 1 := by
  unfold polyMul
  rw [if_pos (by simpa using h)]
  rw [mulCore_length]; simp

theorem mulRow_nil (s : List F) (i : Nat) (item : F) : mulRow s [] i item = s := rfl

theorem polyMul_val (p q : List F) : polyVal x (polyMul p q) = polyVal x p * polyVal x q := by
  unfold polyMul
  split
  · by_cases hq : q = []
    · subst hq
      have : ∀ (l : List (F × Nat)) s, l.foldl (fun s (item, i) => mulRow s [] i item) s = s := by
        intro l; induction l with
        | nil => intro s; rfl
        | cons b l ih => intro s; simp [mulRow_nil]
      simp only [this]; simp
    · rw [mulCore_val _ _ _ _ _ hq]
      · simp
      · intro hp
        have := List.length_pos_iff.2 hp
        have := List.length_pos_iff.2 hq
        simp; omega
  · next h => simp at h; simp [h]

/-! point polynomials -/

theorem pg1Eval_aux (rest : List M) (res : M) (p : F) :
    (rest.foldl (fun (res, p) a => (res + p • a, p * x)) (res, p)).1 = res + p • polyVal x rest := by
  induction rest generalizing res p with
  | nil => simp
  | cons a l ih => simp [ih, mul_smul, add_assoc]

theorem pg1Eval_eq (A : List M) :
    pg1Eval A x = if A = [] then none else some (polyVal x A) := by
  cases A with
  | nil => rfl
  | cons a l => simp [pg1Eval, pg1Eval_aux]

theorem pg1Scale_val (A : List M) (c : F) : polyVal x (pg1Scale A c) = c • polyVal x A :=
  polyVal_map_smul x c A

@[simp] theorem pg1Scale_length (A : List M) (c : F) : (pg1Scale A c).length = A.length := by
  simp [pg1Scale]

end
end Allo
