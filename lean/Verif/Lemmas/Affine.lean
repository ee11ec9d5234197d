import Verif.Lemmas.UserUpdate
import Verif.Lemmas.Simulation

/-!
Polynomial functions under affine changes of the argument, their numbers of roots, and the answers of a server as
functions of single coordinates of the share vector.
-/

set_option linter.unusedSectionVars false
set_option linter.unusedVariables false
namespace Allo
open Spec Finset Rom

section
variable {F M : Type} [Field F] [DecidableEq F] [AddCommGroup M] [Module F M]

theorem PolyFn.mulX {t : Nat} {g : F → M} (h : PolyFn t g) : PolyFn (t + 1) (fun z => z • g z) := by
  obtain ⟨A, hA, hg⟩ := h
  exact ⟨0 :: A, by simp [hA], fun z => by simp [hg]⟩

theorem PolyFn.mono {t : Nat} {g : F → M} (h : PolyFn t g) : PolyFn (t + 1) g := by
  obtain ⟨A, hA, hg⟩ := h
  refine ⟨A ++ [0], by simp [hA], fun z => ?_⟩
  rw [hg]
  clear hA hg
  induction A with
  | nil => simp [polyVal]
  | cons a A ih => simp [polyVal, ih]

/-- a polynomial of degree `< t` in `a x + b` is one in `x` -/
theorem PolyFn.comp_affine {t : Nat} {g : F → M} (h : PolyFn t g) (a b : F) : PolyFn t (fun x => g (a * x + b)) := by
  obtain ⟨A, hA, hg⟩ := h
  have : ∀ (A : List M), PolyFn A.length (fun x : F => polyVal (a * x + b) A) := by
    intro A
    induction A with
    | nil => exact ⟨[], rfl, fun z => rfl⟩
    | cons m A ih =>
      have e : (fun x : F => polyVal (a * x + b) (m :: A))
          = fun x => (m + a • (x • polyVal (a * x + b) A)) + b • polyVal (a * x + b) A := by
        funext x
        simp only [polyVal, add_smul, mul_smul]
        abel
      rw [e]
      have h1 : PolyFn (A.length + 1) (fun x : F => x • polyVal (a * x + b) A) := ih.mulX
      exact ((PolyFn.const _ (by omega) m).add (h1.const_smul a)).add ((ih.mono).const_smul b)
  subst hA
  simpa only [hg] using this A

/-! ### polynomials with a given leading coefficient -/

/-- `g` is a polynomial function of degree `n` with leading coefficient `A` -/
def PolyTop (A : M) : Nat → (F → M) → Prop
  | 0, g => ∀ y, g y = A
  | n + 1, g => ∃ (v : M) (h : F → M), PolyTop A n h ∧ ∀ y, g y = v + y • h y

theorem PolyTop.factor {A : M} : ∀ {n : Nat} {g : F → M}, PolyTop A (n + 1) g → ∀ y0 : F,
    ∃ h : F → M, PolyTop A n h ∧ ∀ y, g y = g y0 + (y - y0) • h y := by
  intro n
  induction n with
  | zero =>
    rintro g ⟨v, h, hh, hg⟩ y0
    refine ⟨h, hh, fun y => ?_⟩
    rw [hg, hg, hh y, hh y0]
    module
  | succ n ih =>
    rintro g ⟨v, h, hh, hg⟩ y0
    obtain ⟨h2, h2t, h2e⟩ := ih hh y0
    refine ⟨fun y => h y0 + y • h2 y, ⟨h y0, h2, h2t, fun _ => rfl⟩, fun y => ?_⟩
    simp only
    rw [hg, hg, h2e y]
    module

theorem PolyTop.roots {A : M} (hA : A ≠ 0) : ∀ {n : Nat} {g : F → M}, PolyTop A n g → ∀ (w : M) (s : Finset F),
    (∀ y ∈ s, g y = w) → n < s.card → w = A ∧ n = 0 := by
  intro n
  induction n with
  | zero =>
    intro g hg w s hs hc
    obtain ⟨y, hy⟩ := Finset.card_pos.1 hc
    exact ⟨by rw [← hs y hy, hg], rfl⟩
  | succ n ih =>
    intro g hg w s hs hc
    obtain ⟨y0, hy0⟩ := Finset.card_pos.1 (by omega : 0 < s.card)
    obtain ⟨h, hh, he⟩ := hg.factor y0
    have := ih hh 0 (s.erase y0) (fun y hy => by
      have h1 := he y
      rw [hs y (Finset.mem_of_mem_erase hy), hs y0 hy0] at h1
      have := (left_eq_add.1 h1)
      exact (smul_eq_zero.1 this).resolve_left (sub_ne_zero.2 (Finset.ne_of_mem_erase hy)))
      (by rw [Finset.card_erase_of_mem hy0]; omega)
    exact absurd this.1.symm hA

theorem PolyTop.step {A : M} (a e : F) : ∀ {n : Nat} {g : F → M} (v : M), PolyTop A n g →
    PolyTop (a • A) (n + 1) (fun y => v + (a * y + e) • g y) := by
  intro n
  induction n with
  | zero =>
    intro g v hg
    refine ⟨v + e • A, fun _ => a • A, fun _ => rfl, fun y => ?_⟩
    simp only
    rw [hg y]; module
  | succ n ih =>
    rintro g v ⟨u, h, hh, hg⟩
    refine ⟨v + e • u, _, ih (a • u) hh, fun y => ?_⟩
    simp only
    rw [hg y]; module

/-! ### the coordinates of the share vector -/

theorem mulRow_two (s : List F) (i : Nat) (j a : F) :
    mulRow s [j, -1] i a = (s.modify i (· + j * a)).modify (i + 1) (· + -1 * a) := rfl

theorem getD_modify (s : List F) (i N : Nat) (f : F → F) :
    (s.modify i f).getD N 0 = if i = N ∧ N < s.length then f (s.getD N 0) else s.getD N 0 := by
  rw [List.getD_eq_getElem?_getD, List.getElem?_modify, List.getD_eq_getElem?_getD]
  by_cases h : N < s.length
  · rw [List.getElem?_eq_getElem h]
    by_cases e : i = N <;> simp [h, e]
  · rw [List.getElem?_eq_none (by omega)]
    simp [h]

theorem mulRow_two_getD (s : List F) (i N : Nat) (j a : F) (h : i < N) :
    (mulRow s [j, -1] i a).getD N 0 = if i + 1 = N ∧ N < s.length then s.getD N 0 + -1 * a else s.getD N 0 := by
  rw [mulRow_two, getD_modify, getD_modify, List.length_modify]
  simp only [show ¬ (i = N ∧ N < s.length) by omega, if_false]

theorem polyMul_top (p : List F) (j : F) (hp : p ≠ []) :
    (polyMul p [j, -1]).getD p.length 0 = -p.getD (p.length - 1) 0 := by
  unfold polyMul
  rw [if_pos (by simp)]
  simp only
  have low : ∀ (l : List F) (s : List F) (N : Nat), l.length < N →
      ((l.zipIdx.foldl (fun s (x : F × Nat) => mulRow s [j, -1] x.2 x.1) s).getD N 0) = s.getD N 0 := by
    intro l
    induction l using List.reverseRecOn with
    | nil => intro s N _; rfl
    | append_singleton l a ih =>
      intro s N hN
      simp only [List.length_append, List.length_cons, List.length_nil] at hN
      rw [List.zipIdx_append, List.foldl_append]
      simp only [List.zipIdx_cons, List.zipIdx_nil, List.foldl_cons, List.foldl_nil]
      rw [mulRow_two_getD _ _ _ _ _ (by omega), if_neg (by omega), ih s N (by omega)]
  have len : ∀ (l : List F) (s : List F),
      (l.zipIdx.foldl (fun s (x : F × Nat) => mulRow s [j, -1] x.2 x.1) s).length = s.length :=
    fun l s => mulCore_length _ _ _
  obtain ⟨l, a, rfl⟩ : ∃ l a, p = l ++ [a] := ⟨p.dropLast, p.getLast hp, (List.dropLast_append_getLast hp).symm⟩
  rw [List.zipIdx_append, List.foldl_append]
  simp only [List.zipIdx_cons, List.zipIdx_nil, List.foldl_cons, List.foldl_nil]
  rw [mulRow_two_getD _ _ _ _ _ (by simp)]
  have hl := len l (List.replicate ((l ++ [a]).length + [j, -1].length - 1) 0)
  rw [if_pos ⟨by simp, by rw [hl]; simp⟩, low _ _ _ (by simp)]
  simp

theorem linProd_top (js : List F) : (linProd js).getD js.length 0 = (-1) ^ js.length := by
  induction js using List.reverseRecOn with
  | nil => simp [linProd]
  | append_singleton js j ih =>
    have e : linProd (js ++ [j]) = polyMul (linProd js) [j, -1] := by
      rw [linProd, List.foldl_append]; rfl
    have hl := linProd_length js
    have hne : linProd js ≠ [] := by intro e; rw [e] at hl; simp at hl
    have := polyMul_top (linProd js) j hne
    rw [hl] at this
    rw [e, List.length_append, List.length_singleton, this, Nat.add_sub_cancel, ih, pow_succ]
    ring

/-- `dot` with a vector given by a function -/
theorem dot_fn (p : List F) (l k : Nat) (hp : p.length = l + 1) (hk : l ≤ k) (Z : Nat → F) :
    dot p (1 :: (List.range k).map Z) = p.getD 0 0 + ∑ j ∈ range l, p.getD (j + 1) 0 * Z j := by
  unfold dot
  rw [hp, Finset.sum_range_succ']
  rw [add_comm]
  congr 1
  · simp
  · refine Finset.sum_congr rfl (fun j hj => ?_)
    have : j < k := lt_of_lt_of_le (Finset.mem_range.1 hj) hk
    simp [this]

/-- the answer `d` for a piece of length `l` as a function of coordinate `l - 1` -/
theorem dAns_coord (P : List (F × M)) (k : Nat) (h1 : 1 ≤ P.length) (hk : P.length ≤ k) (Z : Nat → F) :
    ∃ e : F, ∀ Z' : Nat → F, (∀ j < P.length - 1, Z' j = Z j) →
      dAns ((List.range k).map Z') P = (-1) ^ P.length * Z' (P.length - 1) + e := by
  obtain ⟨l, hl⟩ : ∃ l, P.length = l + 1 := ⟨P.length - 1, by omega⟩
  refine ⟨(linProd (P.map (·.1))).getD 0 0 + ∑ j ∈ range l, (linProd (P.map (·.1))).getD (j + 1) 0 * Z j,
    fun Z' hZ => ?_⟩
  have ht := linProd_top (P.map (·.1))
  rw [List.length_map, hl] at ht
  rw [dAns, dot_fn _ (l + 1) k (by rw [linProd_length, List.length_map, hl]) (by omega), Finset.sum_range_succ,
    ht, hl, Nat.add_sub_cancel]
  rw [hl, Nat.add_sub_cancel] at hZ
  rw [Finset.sum_congr rfl (fun j hj => by rw [hZ j (Finset.mem_range.1 hj)])]
  ring

/-- ... and of the later coordinates -/
theorem dAns_later (P : List (F × M)) (k : Nat) (hk : P.length ≤ k) (Z Z' : Nat → F)
    (h : ∀ j < P.length, Z' j = Z j) : dAns ((List.range k).map Z') P = dAns ((List.range k).map Z) P := by
  rw [dAns, dAns, dot_fn _ P.length k (by rw [linProd_length, List.length_map]) hk,
    dot_fn _ P.length k (by rw [linProd_length, List.length_map]) hk]
  rw [Finset.sum_congr rfl (fun j hj => by rw [h j (Finset.mem_range.1 hj)])]

theorem vAnsP_later (P : List (F × M)) (k : Nat) (hk : P.length ≤ k) (Z Z' : Nat → F)
    (h : ∀ j < P.length - 1, Z' j = Z j) : vAnsP ((List.range k).map Z') P = vAnsP ((List.range k).map Z) P := by
  unfold vAnsP
  refine Finset.sum_congr rfl (fun i hi => ?_)
  have hi := Finset.mem_range.1 hi
  congr 1
  rw [dot_fn _ i k (by rw [linProd_length, List.length_take, List.length_map]; omega) (by omega),
    dot_fn _ i k (by rw [linProd_length, List.length_take, List.length_map]; omega) (by omega)]
  rw [Finset.sum_congr rfl (fun j hj => by rw [h j (by have := Finset.mem_range.1 hj; omega)])]

end

/-! ### probabilities coordinate by coordinate -/

section
variable {F : Type} [Field F] [Fintype F] [DecidableEq F]

/-- If, whatever the other coordinates, at most `n` values of coordinate `i` meet `p`, then `p` has probability at
most `n / |F|`. -/
theorem prob_coord_le {ι : Type} [Fintype ι] [DecidableEq ι] (i : ι) (n : Nat) (p : (ι → F) → Prop)
    (h : ∀ (x : ι → F) (s : Finset F), (∀ y ∈ s, p (Function.update x i y)) → s.card ≤ n) :
    prob p ≤ (n : ℚ) / Nat.card F := by
  classical
  rw [prob_eq_avg, avg_update i, avg_comm]
  have : ∀ x : ι → F, avg (fun y : F => if p (Function.update x i y) then (1 : ℚ) else 0) ≤ (n : ℚ) / Nat.card F := by
    intro x
    unfold avg
    rw [Nat.card_eq_fintype_card]
    have hs := h x (Finset.univ.filter (fun y => p (Function.update x i y))) (by simp)
    rw [Finset.sum_boole]
    gcongr
  exact (avg_mono this).trans (avg_const _).le

theorem prob_mono' {X : Type} [Fintype X] {A B : X → Prop} (h : ∀ x, A x → B x) : prob A ≤ prob B := by
  classical
  rw [prob_eq_avg, prob_eq_avg]
  refine avg_mono (fun x => ?_)
  by_cases hA : A x
  · simp [hA, h x hA]
  · simp only [hA, if_false]; split <;> norm_num

theorem prob_le_add' {X : Type} [Fintype X] {A B C : X → Prop} (h : ∀ x, A x → B x ∨ C x) :
    prob A ≤ prob B + prob C := by
  classical
  rw [prob_eq_avg, prob_eq_avg, prob_eq_avg, avg_add]
  refine avg_mono (fun x => ?_)
  by_cases hA : A x
  · rcases h x hA with hB | hC
    · simp only [hA, hB, if_true]; split <;> norm_num
    · simp only [hA, hC, if_true]; split <;> norm_num
  · simp only [hA, if_false]
    split <;> split <;> norm_num

end

/-! ### following answers at a random share vector -/

section
variable {F M : Type} [Field F] [DecidableEq F] [AddCommGroup M] [Module F M]

/-- undoing the steps `C ↦ d⁻¹ (C - v)` -/
theorem foldl_eq_foldr (d : Nat → F) (v : Nat → M) (js : List Nat) (hd : ∀ j ∈ js, d j ≠ 0) (w W : M) :
    js.foldl (fun C j => (d j)⁻¹ • (C - v j)) w = W ↔ js.foldr (fun j T => v j + d j • T) W = w := by
  induction js generalizing w with
  | nil => exact eq_comm
  | cons j js ih =>
    rw [List.foldl_cons, ih (fun k hk => hd k (by simp [hk])), List.foldr_cons]
    have h0 := hd j (by simp)
    constructor
    · intro h; rw [h, smul_inv_smul₀ h0]; abel
    · intro h; rw [← h, add_sub_cancel_left, inv_smul_smul₀ h0]

/-- steps that are affine in `y` with slope `a` -/
theorem foldr_polyTop (a : F) (d : F → Nat → F) (v : F → Nat → M) (js : List Nat)
    (hd : ∀ j ∈ js, ∃ e, ∀ y, d y j = a * y + e) (hv : ∀ j ∈ js, ∃ c, ∀ y, v y j = c) (A : M) :
    PolyTop (a ^ js.length • A) js.length (fun y => js.foldr (fun j T => v y j + d y j • T) A) := by
  induction js with
  | nil => intro y; simp
  | cons j js ih =>
    obtain ⟨e, he⟩ := hd j (by simp)
    obtain ⟨c, hc⟩ := hv j (by simp)
    have := PolyTop.step a e c (ih (fun k hk => hd k (by simp [hk])) (fun k hk => hv k (by simp [hk])))
    simp only [List.length_cons, List.foldr_cons, he, hc, pow_succ', mul_smul]
    exact this

theorem chunkAt_full {α : Type} (k : Nat) (hk : 1 ≤ k) (P : List α) (j : Nat) (hj : j + 1 < nChunks k P.length) :
    (chunkAt k P j).length = k := by
  have : (j + 1 + 1) * k ≤ P.length + k - 1 := (Nat.le_div_iff_mul_le (by omega)).1 hj
  have e : (j + 1 + 1) * k = j * k + k + k := by ring
  simp only [chunkAt, List.length_take, List.length_drop]
  omega

theorem chunkAt_pos {α : Type} (k : Nat) (hk : 1 ≤ k) (P : List α) (j : Nat) (hj : j < nChunks k P.length) :
    1 ≤ (chunkAt k P j).length := by
  have : (j + 1) * k ≤ P.length + k - 1 := (Nat.le_div_iff_mul_le (by omega)).1 hj
  have e : (j + 1) * k = j * k + k := by ring
  simp only [chunkAt, List.length_take, List.length_drop]
  omega

theorem chunkAt_le {α : Type} (k : Nat) (P : List α) (j : Nat) : (chunkAt k P j).length ≤ P.length := by
  simp only [chunkAt, List.length_take, List.length_drop]; omega

/-- the vector with entries `cst j + b x_j` -/
def affVec (m : Nat) (b : F) (cst : Nat → F) (x : Fin m → F) (j : Nat) : F :=
  cst j + b * (if h : j < m then x ⟨j, h⟩ else 0)

theorem affVec_update (m : Nat) (b : F) (cst : Nat → F) (x : Fin m → F) (i : Fin m) (y : F) :
    (∀ j, j ≠ i.1 → affVec m b cst (Function.update x i y) j = affVec m b cst x j) ∧
      affVec m b cst (Function.update x i y) i.1 = b * y + cst i.1 := by
  constructor
  · intro j hj
    unfold affVec
    congr 2
    split
    · rw [Function.update_of_ne]
      intro e; exact hj (congrArg Fin.val e)
    · rfl
  · unfold affVec
    rw [dif_pos i.2]
    simp [add_comm]

variable [Fintype F]

/-- the probability that some answer `d` at a random vector is 0 -/
theorem prob_some_zero (m k : Nat) (hk : 1 ≤ k) (b : F) (hb : b ≠ 0) (cst : Nat → F) (P : List (F × M))
    (hP : P.length = m) :
    prob (fun x : Fin m → F => ∃ j < nChunks k m, dAns ((List.range k).map (affVec m b cst x)) (chunkAt k P j) = 0)
      ≤ (nChunks k m : ℚ) / Nat.card F := by
  have one : ∀ j < nChunks k m,
      prob (fun x : Fin m → F => dAns ((List.range k).map (affVec m b cst x)) (chunkAt k P j) = 0)
        ≤ ((1 : Nat) : ℚ) / Nat.card F := by
    intro j hj
    have h1 := chunkAt_pos k hk P j (by rw [hP]; exact hj)
    have h2 := chunkAt_le k P j
    refine prob_coord_le ⟨(chunkAt k P j).length - 1, by omega⟩ 1 _ (fun x s hs => ?_)
    obtain ⟨e, he⟩ := dAns_coord (chunkAt k P j) k h1 (chunkAt_length _ _ _) (affVec m b cst x)
    rw [Finset.card_le_one]
    have key : ∀ y ∈ s, (-1) ^ (chunkAt k P j).length * (b * y + cst ((chunkAt k P j).length - 1)) + e = 0 := by
      intro y hy
      obtain ⟨u1, u2⟩ := affVec_update m b cst x ⟨(chunkAt k P j).length - 1, by omega⟩ y
      have := hs y hy
      rw [he _ (fun i hi => u1 i (by simp only; omega))] at this
      simpa only [u2] using this
    intro y hy y' hy'
    have hne : ((-1 : F) ^ (chunkAt k P j).length) * b ≠ 0 := mul_ne_zero (pow_ne_zero _ (by simp)) hb
    apply mul_left_cancel₀ hne
    linear_combination key y hy - key y' hy'
  have union : ∀ n ≤ nChunks k m,
      prob (fun x : Fin m → F => ∃ j < n, dAns ((List.range k).map (affVec m b cst x)) (chunkAt k P j) = 0)
        ≤ (n : ℚ) / Nat.card F := by
    intro n
    induction n with
    | zero => intro _; simp [prob]
    | succ n ih =>
      intro hn
      refine (prob_le_add' (B := fun x => ∃ j < n, dAns ((List.range k).map (affVec m b cst x)) (chunkAt k P j) = 0)
        (C := fun x => dAns ((List.range k).map (affVec m b cst x)) (chunkAt k P n) = 0) ?_).trans
        ((add_le_add (ih (by omega)) (one n (by omega))).trans ?_)
      · rintro x ⟨j, hj, h⟩
        rcases Nat.lt_succ_iff_lt_or_eq.1 hj with h' | rfl
        · exact Or.inl ⟨j, h', h⟩
        · exact Or.inr h
      · rw [← add_div]; push_cast; exact le_rfl
  exact union _ le_rfl

/-- the probability that the answers at a random vector lead back from `W ≠ 0` to `w` -/
theorem prob_back (m k : Nat) (hm : 1 ≤ m) (hk : 1 ≤ k) (b : F) (hb : b ≠ 0) (cst : Nat → F) (P : List (F × M))
    (hP : P.length = m) (w W : M) (hW : W ≠ 0) :
    prob (fun x : Fin m → F => (List.range (nChunks k m)).foldr (fun j T =>
        vAnsP ((List.range k).map (affVec m b cst x)) (chunkAt k P j)
          + dAns ((List.range k).map (affVec m b cst x)) (chunkAt k P j) • T) W = w)
      ≤ (nChunks k m : ℚ) / Nat.card F := by
  -- pieces of one length `L`, as functions of coordinate `L - 1`
  have same : ∀ (L : Nat) (hL1 : 1 ≤ L) (hLm : L ≤ m) (js : List Nat), js ≠ [] →
      (∀ j ∈ js, j < nChunks k m ∧ (chunkAt k P j).length = L) → ∀ (x : Fin m → F) (A w : M), A ≠ 0 →
      ∀ s : Finset F, (∀ y ∈ s, js.foldr (fun j T =>
        vAnsP ((List.range k).map (affVec m b cst (Function.update x ⟨L - 1, by omega⟩ y))) (chunkAt k P j)
          + dAns ((List.range k).map (affVec m b cst (Function.update x ⟨L - 1, by omega⟩ y))) (chunkAt k P j) • T) A = w) →
      s.card ≤ js.length := by
    intro L hL1 hLm js hjs hlen x A w hA s hs
    have ha : ((-1 : F) ^ L * b) ≠ 0 := mul_ne_zero (pow_ne_zero _ (by simp)) hb
    have hp := foldr_polyTop ((-1 : F) ^ L * b)
      (fun y j => dAns ((List.range k).map (affVec m b cst (Function.update x ⟨L - 1, by omega⟩ y))) (chunkAt k P j))
      (fun y j => vAnsP ((List.range k).map (affVec m b cst (Function.update x ⟨L - 1, by omega⟩ y))) (chunkAt k P j))
      js (fun j hj => by
        obtain ⟨e, he⟩ := dAns_coord (chunkAt k P j) k (by rw [(hlen j hj).2]; exact hL1) (chunkAt_length _ _ _)
          (affVec m b cst x)
        refine ⟨(-1) ^ L * cst (L - 1) + e, fun y => ?_⟩
        obtain ⟨u1, u2⟩ := affVec_update m b cst x ⟨L - 1, by omega⟩ y
        simp only at u1 u2 ⊢
        rw [(hlen j hj).2] at he
        rw [he _ (fun i hi => u1 i (by omega)), u2]
        ring)
      (fun j hj => ⟨_, fun y => vAnsP_later (chunkAt k P j) k (chunkAt_length _ _ _) (affVec m b cst x) _
        (fun i hi => (affVec_update m b cst x ⟨L - 1, by omega⟩ y).1 i (by
          rw [(hlen j hj).2] at hi; simp only; omega))⟩) A
    by_contra hc
    have := (hp.roots (smul_ne_zero (pow_ne_zero _ ha) hA) w s hs (by omega)).2
    exact hjs (List.length_eq_zero_iff.1 this)
  set c := nChunks k m with hcdef
  have hc1 : 1 ≤ c := nChunks_pos k m hk hm
  have hlast1 := chunkAt_pos k hk P (c - 1) (by rw [hP]; omega)
  have hlastm := chunkAt_le k P (c - 1)
  have hlastk := chunkAt_length k P (c - 1)
  by_cases hcase : ∀ j < c, (chunkAt k P j).length = (chunkAt k P (c - 1)).length
  · refine prob_coord_le ⟨(chunkAt k P (c - 1)).length - 1, by omega⟩ c _ (fun x s hs => ?_)
    have := same (chunkAt k P (c - 1)).length hlast1 (by omega) (List.range c) (by simp; omega)
      (fun j hj => ⟨List.mem_range.1 hj, hcase j (List.mem_range.1 hj)⟩) x W w hW s hs
    rwa [List.length_range] at this
  · push Not at hcase
    obtain ⟨j0, hj0, hne⟩ := hcase
    have hj0' : j0 + 1 < c := by
      rcases Nat.lt_or_ge (j0 + 1) c with h | h
      · exact h
      · exact absurd (by rw [show j0 = c - 1 by omega]) hne
    have hfull : ∀ j < c - 1, (chunkAt k P j).length = k := fun j hj => chunkAt_full k hk P j (by rw [hP]; omega)
    have hkm : k ≤ m := by rw [← hP, ← hfull j0 (by omega)]; exact chunkAt_le k P j0
    have hlt : (chunkAt k P (c - 1)).length < k := by
      rcases Nat.lt_or_ge (chunkAt k P (c - 1)).length k with h | h
      · exact h
      · exact absurd (by rw [hfull j0 (by omega)]; omega) hne
    have hr : List.range c = List.range (c - 1) ++ [c - 1] := by
      rw [← List.range_succ, show (c - 1).succ = c by omega]
    let T : (Fin m → F) → M := fun x => vAnsP ((List.range k).map (affVec m b cst x)) (chunkAt k P (c - 1))
          + dAns ((List.range k).map (affVec m b cst x)) (chunkAt k P (c - 1)) • W
    have e1 : prob (fun x : Fin m → F => T x = 0) ≤ ((1 : Nat) : ℚ) / Nat.card F := by
      refine prob_coord_le ⟨(chunkAt k P (c - 1)).length - 1, by omega⟩ 1 _ (fun x s hs => ?_)
      exact same (chunkAt k P (c - 1)).length hlast1 (by omega) [c - 1] (by simp)
        (fun j hj => by rw [List.mem_singleton.1 hj]; exact ⟨by omega, rfl⟩) x W 0 hW s hs
    have e2 : prob (fun x : Fin m → F => T x ≠ 0 ∧ (List.range (c - 1)).foldr (fun j T =>
        vAnsP ((List.range k).map (affVec m b cst x)) (chunkAt k P j)
          + dAns ((List.range k).map (affVec m b cst x)) (chunkAt k P j) • T) (T x) = w)
        ≤ ((c - 1 : Nat) : ℚ) / Nat.card F := by
      refine prob_coord_le ⟨k - 1, by omega⟩ (c - 1) _ (fun x s hs => ?_)
      have hT : ∀ y, T (Function.update x ⟨k - 1, by omega⟩ y) = T x := by
        intro y
        obtain ⟨u1, -⟩ := affVec_update m b cst x ⟨k - 1, by omega⟩ y
        simp only at u1
        simp only [T]
        rw [vAnsP_later _ k hlastk (affVec m b cst x) _ (fun i hi => u1 i (by omega)),
          dAns_later _ k hlastk (affVec m b cst x) _ (fun i hi => u1 i (by omega))]
      by_cases hT0 : T x = 0
      · rw [show s = ∅ from Finset.eq_empty_of_forall_notMem (fun y hy => (hs y hy).1 (by rw [hT, hT0]))]
        simp
      · have := same k hk hkm (List.range (c - 1)) (by simp; omega)
          (fun j hj => ⟨by have := List.mem_range.1 hj; omega, hfull j (List.mem_range.1 hj)⟩) x (T x) w hT0 s
          (fun y hy => by have := (hs y hy).2; rwa [hT] at this)
        rwa [List.length_range] at this
    refine (prob_le_add' (B := fun x => T x = 0) (C := fun x => T x ≠ 0 ∧ (List.range (c - 1)).foldr (fun j T =>
        vAnsP ((List.range k).map (affVec m b cst x)) (chunkAt k P j)
          + dAns ((List.range k).map (affVec m b cst x)) (chunkAt k P j) • T) (T x) = w) ?_).trans
        ((add_le_add e1 e2).trans ?_)
    · intro x hx
      by_cases h0 : T x = 0
      · exact Or.inl h0
      · refine Or.inr ⟨h0, ?_⟩
        rw [hr, List.foldr_append] at hx
        exact hx
    · rw [← add_div, Nat.cast_one, Nat.cast_sub hc1, Nat.cast_one, add_sub_cancel]

end
end Allo
