import Verif.Model.AccWitness
import Verif.Spec
import Mathlib.Tactic.Module
import Mathlib.Tactic.LinearCombination
import Mathlib.Tactic.FieldSimp
import Mathlib.Tactic.Ring

namespace Allo
open Spec

section
variable {F M : Type} [Field F] [AddCommGroup M] [Module F M]

@[simp] theorem invert?_zero [DecidableEq F] : invert? (0 : F) = none := by simp [invert?]
theorem invert?_ne [DecidableEq F] {x : F} (h : x ≠ 0) : invert? x = some x⁻¹ := by simp [invert?, h]
@[simp] theorem inv!_zero [DecidableEq F] : inv! (0 : F) = .error .unwrapNone := by
  simp [inv!, unwrap]
theorem inv!_ne [DecidableEq F] {x : F} (h : x ≠ 0) : inv! x = .ok x⁻¹ := by
  simp [inv!, invert?_ne h, unwrap]

theorem inv!_eq_ok [DecidableEq F] {x v : F} : inv! x = .ok v ↔ x ≠ 0 ∧ v = x⁻¹ := by
  by_cases h : x = 0
  · simp [h]
  · simp [inv!_ne h, h, eq_comm]

theorem idx_lt {α : Type} {l : List α} {i : Nat} (h : i < l.length) : idx l i = .ok l[i] := by
  simp [idx, h]

theorem idx_ge {α : Type} {l : List α} {i : Nat} (h : l.length ≤ i) : idx l i = .error .index := by
  simp [idx, h]

theorem idx_eq_ok {α : Type} {l : List α} {i : Nat} {a : α} : idx l i = .ok a ↔ l[i]? = some a := by
  unfold idx; split <;> simp_all

theorem usub_le {a b : Nat} (h : b ≤ a) : usub a b = .ok (a - b) := by simp [usub, h]

theorem foldl_mul (l : List F) (a : F) : l.foldl (fun a y => a * y) a = a * l.prod := by
  induction l generalizing a with
  | nil => simp
  | cons b l ih => simp [ih, mul_assoc]

theorem foldl_mul_one (l : List F) : l.foldl (fun a y => a * y) 1 = l.prod := by simp [foldl_mul]

theorem batchAdditions_eq (sk : F) (l : List F) : batchAdditions sk l = prodPlus sk l := by
  simp [batchAdditions, prodPlus, foldl_mul_one]

theorem dad_eq (l : List F) (y : F) : dad l y = prodMinus y l := by
  unfold dad
  split
  · simp [prodMinus]
  · simp [prodMinus, foldl_mul_one]

@[simp] theorem prodPlus_nil (a : F) : prodPlus a [] = 1 := rfl
@[simp] theorem prodPlus_cons (a b : F) (l) : prodPlus a (b :: l) = (b + a) * prodPlus a l := by
  simp [prodPlus]
@[simp] theorem prodPlus_append (a : F) (l l') :
    prodPlus a (l ++ l') = prodPlus a l * prodPlus a l' := by simp [prodPlus]
@[simp] theorem prodMinus_nil (a : F) : prodMinus a [] = 1 := rfl
@[simp] theorem prodMinus_cons (a b : F) (l) : prodMinus a (b :: l) = (b - a) * prodMinus a l := by
  simp [prodMinus]
@[simp] theorem prodMinus_append (a : F) (l l') :
    prodMinus a (l ++ l') = prodMinus a l * prodMinus a l' := by simp [prodMinus]

theorem prodMinus_eq_zero {y : F} {l : List F} : prodMinus y l = 0 ↔ y ∈ l := by
  induction l with
  | nil => simp
  | cons b l ih => simp [ih, sub_eq_zero, eq_comm]

theorem prodPlus_eq_zero {α : F} {l : List F} : prodPlus α l = 0 ↔ -α ∈ l := by
  induction l with
  | nil => simp
  | cons b l ih =>
    simp [ih, add_eq_zero_iff_eq_neg, eq_comm]

/-! ### polynomial values -/

@[simp] theorem polyVal_nil (x : F) : polyVal x ([] : List M) = 0 := rfl
@[simp] theorem polyVal_cons (x : F) (a : M) (l) : polyVal x (a :: l) = a + x • polyVal x l := rfl

theorem polyVal_append (x : F) (l l' : List M) :
    polyVal x (l ++ l') = polyVal x l + x ^ l.length • polyVal x l' := by
  induction l with
  | nil => simp
  | cons a l ih => simp [ih, pow_succ', mul_smul, smul_add, add_assoc]

theorem polyVal_modify_add (x : F) (l : List M) (k : Nat) (c : M) (h : k < l.length) :
    polyVal x (l.modify k (· + c)) = polyVal x l + x ^ k • c := by
  induction l generalizing k with
  | nil => simp at h
  | cons a l ih =>
    cases k with
    | zero => simp; abel
    | succ k =>
      simp at h
      simp [ih k h, pow_succ', mul_smul, smul_add, add_assoc]

@[simp] theorem polyVal_replicate_zero (x : F) (n : Nat) : polyVal x (List.replicate n (0 : M)) = 0 := by
  induction n with
  | zero => simp
  | succ n ih => simp [List.replicate_succ, ih]

theorem polyVal_map_smul (x c : F) (l : List M) : polyVal x (l.map (c • ·)) = c • polyVal x l := by
  induction l with
  | nil => simp
  | cons a l ih => simp [ih, smul_add, smul_comm c x]

theorem polyVal_map_mul (x c : F) (l : List F) : polyVal x (l.map (· * c)) = polyVal x l * c := by
  induction l with
  | nil => simp
  | cons a l ih => simp [ih]; ring

theorem polyVal_map_neg (x : F) (l : List M) : polyVal x (l.map (fun a => -a)) = - polyVal x l := by
  induction l with
  | nil => simp
  | cons a l ih => simp [ih]; abel

theorem polyVal_map_smul_pt (x : F) (l : List F) (P : M) :
    polyVal x (l.map (fun c => c • P)) = polyVal x l • P := by
  induction l with
  | nil => simp
  | cons a l ih => simp [ih, add_smul, mul_smul]

theorem polyVal_take_drop (x : F) (l : List M) (n : Nat) (h : n ≤ l.length) :
    polyVal x l = polyVal x (l.take n) + x ^ n • polyVal x (l.drop n) := by
  conv_lhs => rw [← List.take_append_drop n l, polyVal_append]
  simp [h]

end
end Allo
