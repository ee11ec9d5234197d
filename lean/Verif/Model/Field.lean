import Mathlib.NumberTheory.LucasPrimality
import Mathlib.Tactic.NormNum.Prime

/-!
# The scalar field

`blsful::inner_types::Scalar` (dependency; re-exported scalar field of BLS12-381): integers modulo
the group order `r`. The theorems of the other modules hold over every field; here the actual field
is shown to be one of them: `r` is proved prime by a Lucas certificate.
-/

namespace Allo

/-- The order of the groups of BLS12-381 (a constant of the dependency). -/
def groupOrder : Nat := 0x73eda753299d7d483339d80809a1d80553bda402fffe5bfeffffffff00000001

/-- Square-and-multiply, used only to check the certificate. -/
def powMod (m : Nat) : Nat → Nat → Nat → Nat
  | 0, _, _ => 1 % m
  | fuel + 1, a, e =>
    if e = 0 then 1 % m
    else
      let h := powMod m fuel (a * a % m) (e / 2)
      if e % 2 = 1 then a * h % m else h

theorem powMod_spec (m : Nat) : ∀ (fuel a e : Nat), e < 2 ^ fuel →
    ((powMod m fuel a e : Nat) : ZMod m) = (a : ZMod m) ^ e := by
  intro fuel
  induction fuel with
  | zero =>
    intro a e h
    have : e = 0 := by simpa using h
    subst this
    simp [powMod]
  | succ f ih =>
    intro a e h
    unfold powMod
    by_cases h0 : e = 0
    · simp [h0]
    · have hlt : e / 2 < 2 ^ f := by
        rw [pow_succ] at h; omega
      have hr := ih (a * a % m) (e / 2) hlt
      have hsq : ((a * a % m : Nat) : ZMod m) = (a : ZMod m) ^ 2 := by
        rw [ZMod.natCast_mod]; push_cast; ring
      rw [hsq, ← pow_mul] at hr
      simp only [h0, if_false]
      by_cases ho : e % 2 = 1
      · simp only [ho, if_true]
        rw [ZMod.natCast_mod]
        push_cast
        rw [hr, ← pow_succ']
        congr 1; omega
      · simp only [ho, if_false]
        rw [hr]
        congr 1; omega

/-- `powMod` decides powers being one. -/
theorem pow_eq_one_iff_powMod {m : Nat} (hm : 1 < m) (a e fuel : Nat) (h : e < 2 ^ fuel) :
    (a : ZMod m) ^ e = 1 ↔ powMod m fuel a e % m = 1 := by
  rw [← powMod_spec m fuel a e h]
  have : (1 : ZMod m) = ((1 : Nat) : ZMod m) := by simp
  rw [this, ZMod.natCast_eq_natCast_iff, Nat.ModEq, Nat.mod_eq_of_lt hm]

/-- The prime factors of `groupOrder - 1`. -/
def orderFactors : List Nat :=
  [2, 3, 11, 19, 10177, 125527, 859267, 906349, 2508409, 2529403, 52437899, 254760293]

theorem prime_dvd_order {q : Nat} (hq : q.Prime) (h : q ∣ groupOrder - 1) : q ∈ orderFactors := by
  have hf : groupOrder - 1 = 2 ^ 32 * (3 * (11 * (19 * (10177 * (125527 * (859267 * (906349 ^ 2 *
      (2508409 * (2529403 * (52437899 * 254760293 ^ 2)))))))))) := by decide +kernel
  rw [hf] at h
  have p2 : Nat.Prime 2 := by norm_num
  have p3 : Nat.Prime 3 := by norm_num
  have p4 : Nat.Prime 11 := by norm_num
  have p5 : Nat.Prime 19 := by norm_num
  have p6 : Nat.Prime 10177 := by norm_num
  have p7 : Nat.Prime 125527 := by norm_num
  have p8 : Nat.Prime 859267 := by norm_num
  have p9 : Nat.Prime 906349 := by norm_num
  have p10 : Nat.Prime 2508409 := by norm_num
  have p11 : Nat.Prime 2529403 := by norm_num
  have p12 : Nat.Prime 52437899 := by norm_num
  have p13 : Nat.Prime 254760293 := by norm_num
  have key : ∀ {p : Nat}, p.Prime → p ∈ orderFactors → q ∣ p → q ∈ orderFactors := by
    intro p hp hm hd
    rwa [(Nat.prime_dvd_prime_iff_eq hq hp).1 hd]
  rcases hq.dvd_mul.1 h with h | h
  · exact key p2 (by simp [orderFactors]) (hq.dvd_of_dvd_pow h)
  rcases hq.dvd_mul.1 h with h | h
  · exact key p3 (by simp [orderFactors]) h
  rcases hq.dvd_mul.1 h with h | h
  · exact key p4 (by simp [orderFactors]) h
  rcases hq.dvd_mul.1 h with h | h
  · exact key p5 (by simp [orderFactors]) h
  rcases hq.dvd_mul.1 h with h | h
  · exact key p6 (by simp [orderFactors]) h
  rcases hq.dvd_mul.1 h with h | h
  · exact key p7 (by simp [orderFactors]) h
  rcases hq.dvd_mul.1 h with h | h
  · exact key p8 (by simp [orderFactors]) h
  rcases hq.dvd_mul.1 h with h | h
  · exact key p9 (by simp [orderFactors]) (hq.dvd_of_dvd_pow h)
  rcases hq.dvd_mul.1 h with h | h
  · exact key p10 (by simp [orderFactors]) h
  rcases hq.dvd_mul.1 h with h | h
  · exact key p11 (by simp [orderFactors]) h
  rcases hq.dvd_mul.1 h with h | h
  · exact key p12 (by simp [orderFactors]) h
  · exact key p13 (by simp [orderFactors]) (hq.dvd_of_dvd_pow h)

/-- The group order of BLS12-381 is prime. -/
theorem groupOrder_prime : groupOrder.Prime := by
  have h1 : 1 < groupOrder := by decide +kernel
  apply lucas_primality groupOrder ((7 : Nat) : ZMod groupOrder)
  · rw [pow_eq_one_iff_powMod h1 7 (groupOrder - 1) 256 (by decide +kernel)]
    decide +kernel
  · intro q hq hd
    have hm := prime_dvd_order hq hd
    have hlt : (groupOrder - 1) / q < 2 ^ 256 :=
      lt_of_le_of_lt (Nat.div_le_self _ _) (by decide +kernel)
    rw [Ne, pow_eq_one_iff_powMod h1 7 _ 256 hlt]
    have hall : ∀ q ∈ orderFactors, ¬ powMod groupOrder 256 7 ((groupOrder - 1) / q) % groupOrder = 1 := by
      decide +kernel
    exact hall q hm

instance : Fact groupOrder.Prime := ⟨groupOrder_prime⟩

/-- `blsful::inner_types::Scalar`: the integers modulo the group order. -/
abbrev Fr := ZMod groupOrder

/-- `Scalar` is a field with decidable equality: the parameter `F` of the model can be `Fr`. -/
example : Field Fr := inferInstance
example : DecidableEq Fr := inferInstance

/-- The points `1..n` used for sharing are not zero and pairwise different, for each number of servers
below the group order. -/
theorem Fr.natCast_ne_zero {i : Nat} (h0 : 0 < i) (h : i < groupOrder) : (i : Fr) ≠ 0 := by
  intro hz
  rw [ZMod.natCast_eq_zero_iff] at hz
  exact absurd (Nat.le_of_dvd h0 hz) (by omega)

end Allo
