import Verif.Model.Float
import Verif.Props.UpdateServer
import Mathlib.Tactic.Linarith
import Mathlib.Tactic.Positivity
import Mathlib.Tactic.NormNum

/-!
# C64: machine arithmetic of the chunk-size search, and the amount of communication
-/

set_option linter.unusedSectionVars false
set_option linter.unusedVariables false
namespace Allo
open Spec

/-! ### rounding -/

theorem roundHalfEven_ge (n : ℤ) (x : ℝ) (h : (n : ℝ) ≤ x) : n ≤ roundHalfEven x := by
  have h1 : n ≤ ⌊x⌋ := Int.le_floor.2 h
  unfold roundHalfEven
  split_ifs <;> omega

theorem roundHalfEven_dist (x : ℝ) : |(roundHalfEven x : ℝ) - x| ≤ 1 / 2 := by
  have h1 : (⌊x⌋ : ℝ) + Int.fract x = x := Int.floor_add_fract x
  have h2 := Int.fract_nonneg x
  have h3 := Int.fract_lt_one x
  unfold roundHalfEven
  rw [abs_le]
  split_ifs with a b c
  · constructor <;> linarith
  · push_cast; constructor <;> linarith
  · constructor <;> linarith
  · push_cast; constructor <;> linarith

theorem ulp_pos (x : ℝ) : 0 < ulp x := zpow_pos (by norm_num) _

theorem ulp_eq (x : ℝ) : ulp x = (2 : ℝ) ^ Int.log 2 x * (2 : ℝ) ^ (-52 : ℤ) := by
  unfold ulp
  rw [sub_eq_add_neg, zpow_add₀ (by norm_num)]

theorem ulp_le (x : ℝ) (h : 0 < x) : ulp x ≤ x * (2 : ℝ) ^ (-52 : ℤ) := by
  rw [ulp_eq]
  have := Int.zpow_log_le_self (b := 2) (by norm_num) h
  exact mul_le_mul_of_nonneg_right (by exact_mod_cast this) (by positivity)

/-- C64 (faithfulness of the rounding model): the result is within half a unit in the last place, hence within
a relative error of `2^-53`. -/
theorem C64_f64_error (x : ℝ) (h : 0 < x) : |f64 x - x| ≤ x * (2 : ℝ) ^ (-53 : ℤ) := by
  have hu := ulp_pos x
  have h1 : f64 x - x = ((roundHalfEven (x / ulp x) : ℝ) - x / ulp x) * ulp x := by
    rw [f64, if_neg h.ne', sub_mul, div_mul_cancel₀ _ hu.ne']
  rw [h1, abs_mul, abs_of_pos hu]
  have h2 := roundHalfEven_dist (x / ulp x)
  have h3 := ulp_le x h
  have h4 : (2 : ℝ) ^ (-52 : ℤ) = 2 * (2 : ℝ) ^ (-53 : ℤ) := by norm_num
  rw [h4] at h3
  have h5 := mul_le_mul_of_nonneg_right h2 hu.le
  generalize (2 : ℝ) ^ (-53 : ℤ) = ε at *
  linarith

/-- **C64**: `f64` returns a multiple of the unit in the last place, the even one if `x` is halfway between two. -/
theorem C64_f64_even (x : ℝ) (h : 0 < x) : ∃ n : ℤ, f64 x = n * (2 : ℝ) ^ (Int.log 2 x - 52) ∧
    ∀ k : ℤ, x = (k + 1 / 2) * (2 : ℝ) ^ (Int.log 2 x - 52) → Even n ∧ (n = k ∨ n = k + 1) := by
  have hu : (0 : ℝ) < (2 : ℝ) ^ (Int.log 2 x - 52) := zpow_pos (by norm_num) _
  refine ⟨roundHalfEven (x / ulp x), by rw [f64, if_neg h.ne']; rfl, fun k hk => ?_⟩
  have e : x / ulp x = k + 1 / 2 := by
    rw [ulp, div_eq_iff hu.ne']; exact hk
  have hfl : ⌊(k : ℝ) + 1 / 2⌋ = k := by
    rw [Int.floor_intCast_add, show ⌊(1 / 2 : ℝ)⌋ = 0 by norm_num, add_zero]
  have hfr : Int.fract ((k : ℝ) + 1 / 2) = 1 / 2 := by
    rw [Int.fract, hfl]; ring
  rw [e, roundHalfEven, hfr, hfl, if_neg (lt_irrefl _), if_neg (lt_irrefl _)]
  split
  · next h => exact ⟨h, Or.inl rfl⟩
  · next h => exact ⟨(Int.not_even_iff_odd.1 h).add_one, Or.inr rfl⟩

theorem f64_le (x : ℝ) (h : 0 < x) : f64 x ≤ x * (1 + (2 : ℝ) ^ (-53 : ℤ)) := by
  have := (abs_le.1 (C64_f64_error x h)).2
  linarith

theorem f64_ge_one (x : ℝ) (h : 1 ≤ x) : 1 ≤ f64 x := by
  have hx : 0 < x := by linarith
  have hu := ulp_pos x
  rw [f64, if_neg hx.ne']
  have h1 : (2 : ℝ) ^ Int.log 2 x ≤ x := by
    have := Int.zpow_log_le_self (b := 2) (by norm_num) hx
    exact_mod_cast this
  have h2 : ((2 ^ 52 : ℤ) : ℝ) ≤ x / ulp x := by
    rw [le_div_iff₀ hu, ulp_eq]
    have : ((2 ^ 52 : ℤ) : ℝ) * ((2 : ℝ) ^ Int.log 2 x * (2 : ℝ) ^ (-52 : ℤ)) = (2 : ℝ) ^ Int.log 2 x := by
      have : ((2 ^ 52 : ℤ) : ℝ) * (2 : ℝ) ^ (-52 : ℤ) = 1 := by norm_num
      linear_combination (2 : ℝ) ^ Int.log 2 x * this
    rw [this]; exact h1
  have h3 := roundHalfEven_ge _ _ h2
  have h4 : ((2 ^ 52 : ℤ) : ℝ) ≤ (roundHalfEven (x / ulp x) : ℝ) := by exact_mod_cast h3
  have hlog : 0 ≤ Int.log 2 x := by
    have := (Int.zpow_le_iff_le_log (b := 2) (by norm_num) hx (x := 0)).1 (by simpa using h)
    exact this
  have h5 : (1 : ℝ) ≤ (2 : ℝ) ^ Int.log 2 x := one_le_zpow₀ (by norm_num) hlog
  calc (1 : ℝ) ≤ (2 : ℝ) ^ Int.log 2 x := h5
    _ = ((2 ^ 52 : ℤ) : ℝ) * ulp x := by
      rw [ulp_eq]
      have : ((2 ^ 52 : ℤ) : ℝ) * (2 : ℝ) ^ (-52 : ℤ) = 1 := by norm_num
      linear_combination -(2 : ℝ) ^ Int.log 2 x * this
    _ ≤ _ := mul_le_mul_of_nonneg_right h4 hu.le

/-- C64: the floating point seed is at least 1 for every `d ≥ 1` (and 0 for `d = 0`): the hypothesis on the
seed of the update theorems (C25 and others) holds for the code's seed. -/
theorem C64_seed_pos : (∀ d, 1 ≤ d → 1 ≤ seedF64 d) ∧ seedF64 0 = 0 := by
  constructor
  · intro d hd
    have h1 : (1 : ℝ) ≤ d := by exact_mod_cast hd
    have h2 := f64_ge_one _ h1
    have h3 : 1 ≤ f64 (f64 d * 2.5) := f64_ge_one _ (by linarith)
    have h4 : 1 ≤ Real.sqrt (f64 (f64 d * 2.5)) := Real.one_le_sqrt.2 h3
    have h5 := f64_ge_one _ h4
    exact Nat.le_floor (by simpa using h5)
  · simp [seedF64, f64]

/-- the seed is at most `√(2.5 d) + 1/2` -/
theorem seedF64_le (d : Nat) (hd : 1 ≤ d) (hd' : d < 2 ^ 64) :
    (seedF64 d : ℝ) ≤ Real.sqrt (2.5 * d) + 1 / 2 := by
  have h1 : (1 : ℝ) ≤ d := by exact_mod_cast hd
  have hd2 : (d : ℝ) ≤ 2 ^ 64 := by exact_mod_cast hd'.le
  set ε : ℝ := (2 : ℝ) ^ (-53 : ℤ) with hε
  have hε0 : 0 < ε := by rw [hε]; positivity
  set X := Real.sqrt (2.5 * d) with hX
  have e1 : f64 d ≤ d * (1 + ε) := f64_le _ (by linarith)
  have g1 := f64_ge_one _ h1
  have e2 : f64 (f64 d * 2.5) ≤ (f64 d * 2.5) * (1 + ε) := f64_le _ (by linarith)
  have g2 : 1 ≤ f64 (f64 d * 2.5) := f64_ge_one _ (by linarith)
  have e3 : f64 (f64 d * 2.5) ≤ (2.5 * d) * (1 + ε) ^ 2 := by
    refine e2.trans ?_
    have h := mul_le_mul_of_nonneg_right (mul_le_mul_of_nonneg_right e1 (by norm_num : (0 : ℝ) ≤ 2.5))
      (by linarith : (0 : ℝ) ≤ 1 + ε)
    calc _ ≤ _ := h
      _ = _ := by ring
  have e4 : Real.sqrt (f64 (f64 d * 2.5)) ≤ X * (1 + ε) := by
    refine (Real.sqrt_le_sqrt e3).trans ?_
    rw [Real.sqrt_mul (by positivity), Real.sqrt_sq (by linarith)]
  have g4 : 1 ≤ Real.sqrt (f64 (f64 d * 2.5)) := Real.one_le_sqrt.2 g2
  have e5 : f64 (Real.sqrt (f64 (f64 d * 2.5))) ≤ Real.sqrt (f64 (f64 d * 2.5)) * (1 + ε) :=
    f64_le _ (by linarith)
  have e6 : f64 (Real.sqrt (f64 (f64 d * 2.5))) ≤ X * (1 + ε) ^ 2 := by
    refine e5.trans ?_
    nlinarith
  have hX0 : 0 ≤ X := Real.sqrt_nonneg _
  have hXle : X ≤ 2 ^ 33 := by
    rw [hX, Real.sqrt_le_left (by positivity)]
    nlinarith
  have e7 : (seedF64 d : ℝ) ≤ f64 (Real.sqrt (f64 (f64 d * 2.5))) :=
    Nat.floor_le (by linarith [f64_ge_one _ g4])
  have e8 : X * (1 + ε) ^ 2 ≤ X + 1 / 2 := by
    have : ε * (2 + ε) ≤ (2 : ℝ) ^ (-51 : ℤ) := by
      rw [hε]; norm_num
    have h2 : X * (ε * (2 + ε)) ≤ 2 ^ 33 * (2 : ℝ) ^ (-51 : ℤ) := by
      apply mul_le_mul hXle this (by positivity) (by positivity)
    have h3 : (2 : ℝ) ^ 33 * (2 : ℝ) ^ (-51 : ℤ) ≤ 1 / 2 := by norm_num
    nlinarith
  linarith

/-- The candidate chunk sizes: `k ≥ 1` with `⌊5(d+k-1)/k⌋ ≤ 2k`. -/
def Fits (d k : Nat) : Prop := 1 ≤ k ∧ 5 * (d + k - 1) / k ≤ 2 * k

/-- C64: rounding never matters. For every `d` from 1 to `2^64 - 1` the search from the floating point seed
ends with the least chunk size that fits at all. -/
theorem C64_rounding_harmless (d : Nat) (hd : 1 ≤ d) (hd' : d < 2 ^ 64) :
    ∃ k, chunkSize d (seedF64 d) = .ok k ∧ Fits d k ∧ ∀ j, Fits d j → k ≤ j := by
  obtain ⟨k, h1, h2, h3, h4, h5, h6, -⟩ := C32_chunk_size d (seedF64 d) hd (C64_seed_pos.1 d hd)
  refine ⟨k, h1, ⟨by omega, h5⟩, ?_⟩
  rintro j ⟨hj1, hj2⟩
  by_contra hlt
  push Not at hlt
  by_cases hs : seedF64 d ≤ j
  · have := h6 j hs hlt; omega
  · push Not at hs
    have hX := seedF64_le d hd hd'
    have hj : ((j : ℝ) + 1) ≤ seedF64 d := by exact_mod_cast hs
    have hX0 : 0 ≤ Real.sqrt (2.5 * d) := Real.sqrt_nonneg _
    have hsq : Real.sqrt (2.5 * d) ^ 2 = 2.5 * d := Real.sq_sqrt (by positivity)
    have hj0 : (0 : ℝ) ≤ j := by positivity
    have hjj : 2 * (j : ℝ) ^ 2 ≤ 5 * d := by nlinarith
    have hjn : 2 * j ^ 2 ≤ 5 * d := by exact_mod_cast hjj
    have hlow : 2 * j + 1 ≤ 5 * (d + j - 1) / j := by
      rw [Nat.le_div_iff_mul_le (by omega)]
      obtain ⟨i, rfl⟩ : ∃ i, j = i + 1 := ⟨j - 1, by omega⟩
      have : d + (i + 1) - 1 = d + i := by omega
      rw [this]
      rcases Nat.eq_zero_or_pos i with rfl | hi
      · omega
      · nlinarith
    omega

/-- what fitting means: `L = k - 1` shares fit exactly when `5d ≤ 2L² + 2` -/
theorem fits_iff (d L : Nat) (hd : 1 ≤ d) : Fits d (L + 1) ↔ 5 * d ≤ 2 * L ^ 2 + 2 := by
  unfold Fits
  have h1 : d + (L + 1) - 1 = d + L := by omega
  rw [h1]
  constructor
  · rintro ⟨-, h⟩
    have := (Nat.div_lt_iff_lt_mul (by omega : 0 < L + 1)).1 (Nat.lt_succ_of_le h)
    rw [Nat.succ_eq_add_one] at this
    nlinarith
  · intro h
    refine ⟨by omega, Nat.le_of_lt_succ ?_⟩
    rw [Nat.div_lt_iff_lt_mul (by omega), Nat.succ_eq_add_one]
    nlinarith

section
variable {F G1 G2 GT : Type} [Field F] [DecidableEq F] [AddCommGroup G1] [Module F G1]
  [DecidableEq G1] [AddCommGroup G2] [Module F G2] [AddCommGroup GT] [Module F GT]

/-- C64 (communication). A user that is `d` epochs behind (`1 ≤ d < 2^64`) sends every server exactly `L`
scalars, where `L` is the one number with `2(L-1)² + 2 < 5d ≤ 2L² + 2`, so `L ≈ √(2.5 d)`; and a
server (in any reachable state with at least `d` deletions) answers with `c = ⌈d/L⌉` scalars and `c`
points, where `5c < 2L + 5`: with 32 bytes per scalar and 48 per point, the 80c bytes of the answer
exceed the 32L bytes of the request by less than 80 bytes. -/
theorem C64_communication (u : User F G1 G2) (newEpoch n t : Nat) (ht : 2 ≤ t) (hn : t ≤ n)
    (he : u.epoch < newEpoch) (hb : newEpoch - u.epoch < 2 ^ 64) (rand : Nat → Nat → F) :
    ∃ upd L, u.prepareForUpdate seedF64 newEpoch n t rand = .ok (.ok upd) ∧
      upd.yShares.length = n ∧ (∀ ys ∈ upd.yShares, ys.length = L) ∧
      2 ≤ L ∧ 2 * (L - 1) ^ 2 + 2 < 5 * (newEpoch - u.epoch) ∧ 5 * (newEpoch - u.epoch) ≤ 2 * L ^ 2 + 2 ∧
      ∀ (params : AccParams G1 G2) (α sM v : F) (ops : List (Server.Op F)) (s : Server F G1 G2),
        (Server.new params α sM v).run ops = .ok s → newEpoch - u.epoch ≤ s.deletions.length →
        ∀ ys ∈ upd.yShares, ∃ ds vs, s.update upd.epochDiff ys = .ok (ds, vs) ∧
          ds.length = vs.length ∧ ds.length = (newEpoch - u.epoch + L - 1) / L ∧
          5 * ds.length < 2 * L + 5 ∧ 32 * ds.length + 48 * vs.length < 32 * L + 80 := by
  obtain ⟨k, upd, hk, hk3, hp, hd, -, hl, hls, -⟩ :=
    prepareForUpdate_ok seedF64 C64_seed_pos.1 u newEpoch n t ht hn he rand
  obtain ⟨k', hk', hfit, hleast⟩ := C64_rounding_harmless (newEpoch - u.epoch) (by omega) hb
  have hkk : k' = k := by rw [hk] at hk'; exact (Except.ok.inj hk').symm
  subst hkk
  obtain ⟨L, rfl⟩ : ∃ L, k' = L + 1 := ⟨k' - 1, by omega⟩
  generalize hD : newEpoch - u.epoch = d at *
  have hd1 : 1 ≤ d := by omega
  have hup := (fits_iff d L hd1).1 hfit
  have hlow : 2 * (L - 1) ^ 2 + 2 < 5 * d := by
    by_contra hc
    obtain ⟨M, rfl⟩ : ∃ M, L = M + 1 := ⟨L - 1, by omega⟩
    simp only [Nat.add_sub_cancel] at hc
    have := hleast (M + 1) ((fits_iff d M hd1).2 (by omega))
    omega
  refine ⟨upd, L, hp, hl, fun ys hys => by rw [hls ys hys]; omega, by omega, hlow, hup, ?_⟩
  intro params α sM v ops s hs hds ys hys
  have hyl : ys.length = L := by rw [hls ys hys]; omega
  obtain ⟨-, hshape, -⟩ := C30_update_shape params α sM v ops s hs d ys
  obtain ⟨ds, vs, h1, h2, h3, -⟩ := hshape hds (by rintro rfl; simp at hyl; omega)
  rw [hyl] at h2 h3
  have hc : 5 * ((d + L - 1) / L) < 2 * L + 5 := by
    have h := Nat.div_mul_le_self (d + L - 1) L
    generalize (d + L - 1) / L = c at h
    by_contra hcc
    push Not at hcc
    have e : d + L - 1 = d + (L - 1) := by omega
    obtain ⟨M, rfl⟩ : ∃ M, L = M + 1 := ⟨L - 1, by omega⟩
    rw [e] at h
    simp only [Nat.add_sub_cancel] at h
    nlinarith
  exact ⟨ds, vs, by rw [hd]; exact h1, by rw [h2, h3], h2, by omega, by omega⟩

/-- C64 (near-optimal communication). No other choice of how many powers of the id to send could do much better:
whatever non-empty share vector `ys'` a server (in any reachable state with at least `d` deletions) is sent instead,
request and answer together are at most 112 bytes shorter than those of the code (32 bytes per scalar, 48 per
point), however large `d` is. -/
theorem C64_near_optimal (u : User F G1 G2) (newEpoch n t : Nat) (ht : 2 ≤ t) (hn : t ≤ n)
    (he : u.epoch < newEpoch) (hb : newEpoch - u.epoch < 2 ^ 64) (rand : Nat → Nat → F) :
    ∃ upd, u.prepareForUpdate seedF64 newEpoch n t rand = .ok (.ok upd) ∧
      ∀ (params : AccParams G1 G2) (α sM v : F) (ops : List (Server.Op F)) (s : Server F G1 G2),
        (Server.new params α sM v).run ops = .ok s → newEpoch - u.epoch ≤ s.deletions.length →
        ∀ ys ∈ upd.yShares, ∀ ys' : List F, ys' ≠ [] →
          ∃ ds vs ds' vs', s.update upd.epochDiff ys = .ok (ds, vs) ∧ s.update upd.epochDiff ys' = .ok (ds', vs') ∧
            32 * ys.length + 32 * ds.length + 48 * vs.length
              ≤ 32 * ys'.length + 32 * ds'.length + 48 * vs'.length + 112 := by
  obtain ⟨upd, L, hp, hl, hls, hL, hlow, hup, hans⟩ := C64_communication u newEpoch n t ht hn he hb rand
  have hed : upd.epochDiff = newEpoch - u.epoch := by
    obtain ⟨k, upd', -, -, hp', hd, -⟩ := prepareForUpdate_ok seedF64 C64_seed_pos.1 u newEpoch n t ht hn he rand
    rw [hp] at hp'
    obtain rfl : upd = upd' := Except.ok.inj (Except.ok.inj hp')
    exact hd
  refine ⟨upd, hp, ?_⟩
  intro params α sM v ops s hs hds ys hys ys' hne
  obtain ⟨ds, vs, h1, h2, h3, h4, -⟩ := hans params α sM v ops s hs hds ys hys
  obtain ⟨-, hshape, -⟩ := C30_update_shape params α sM v ops s hs (newEpoch - u.epoch) ys'
  obtain ⟨ds', vs', k1, k2, k3, -⟩ := hshape hds hne
  refine ⟨ds, vs, ds', vs', h1, by rw [hed]; exact k1, ?_⟩
  rw [hls ys hys, ← h2, k3, k2]
  have ha : 0 < ys'.length := List.length_pos_iff.2 hne
  generalize ys'.length = a at *
  generalize newEpoch - u.epoch = d at *
  have hm : d ≤ a * ((d + a - 1) / a) := by
    have := Nat.div_add_mod (d + a - 1) a
    have := Nat.mod_lt (d + a - 1) ha
    omega
  generalize (d + a - 1) / a = m at *
  obtain ⟨M, rfl⟩ : ∃ M, L = M + 1 := ⟨L - 1, by omega⟩
  simp only [Nat.add_sub_cancel] at hlow
  have key : 4 * M < 2 * a + 5 * m := by
    by_contra hc
    push Not at hc
    have h5 : (2 * a + 5 * m) ^ 2 ≤ (4 * M) ^ 2 := Nat.pow_le_pow_left hc 2
    have h6 : 40 * (a * m) ≤ (2 * a + 5 * m) ^ 2 := by
      zify
      nlinarith [sq_nonneg ((2 : ℤ) * a - 5 * m)]
    nlinarith
  omega

end

/-! ### 64-bit overflow -/

/-- C64 (overflow): for every `d ≤ 2^61` no intermediate result of the search in 64 bits overflows: the search
with overflow checks gives the same chunk size as the search on unbounded integers, for every bound on
the number of iterations from `d + 6` on. -/
theorem C64_no_overflow (d : Nat) (hd : 1 ≤ d) (hd' : d ≤ 2 ^ 61) (fuel : Nat) (hf : d + 6 ≤ fuel) :
    chunkSizeFuel64 fuel d (seedF64 d) = chunkSize d (seedF64 d) := by
  obtain ⟨k, h1, h2, h3, h4, h5, h6, h7⟩ := C32_chunk_size d (seedF64 d) hd (C64_seed_pos.1 d hd)
  obtain ⟨k', hk', hfit, hleast⟩ := C64_rounding_harmless d hd (by omega)
  have hkk : k' = k := by rw [h1] at hk'; exact (Except.ok.inj hk').symm
  subst hkk
  -- k is small
  have hk33 : k' ≤ 2 ^ 33 := by
    refine hleast _ ?_
    rw [show (2 : Nat) ^ 33 = (2 ^ 33 - 1) + 1 by norm_num, fits_iff d _ hd]
    norm_num at hd' ⊢
    omega
  rw [h1, ← h7 fuel hf]
  -- both loops agree below k
  have hcond : ∀ j, j ≤ k' → 1 ≤ j → chunkCond64 d j = chunkCond d j := by
    intro j hj hj1
    have a1 : 2 * j < 2 ^ 64 := by omega
    have a2 : d + j < 2 ^ 64 := by omega
    have a3 : 5 * (d + j - 1) < 2 ^ 64 := by omega
    unfold chunkCond64 chunkCond usize
    rw [if_pos a1]
    simp only [bind, Except.bind]
    rw [if_pos a2]
    have hu : usub (d + j) 1 = .ok (d + j - 1) := by simp only [usub]; rw [if_pos (by omega)]
    simp only [hu]
    rw [if_pos a3]
  have hfit' : chunkCond d k' = .ok false := by
    have hu : usub (d + k') 1 = .ok (d + k' - 1) := by simp only [usub]; rw [if_pos (by omega)]
    simp only [chunkCond, hu, udiv, bind, Except.bind, pure, Except.pure]
    rw [if_neg (by omega : k' ≠ 0)]
    have := hfit.2
    simp; omega
  have loop : ∀ fuel j, 1 ≤ j → j ≤ k' →
      whileFuel (chunkCond64 d) (fun k => usize (k + 1)) fuel j
        = whileFuel (chunkCond d) (fun k => pure (k + 1)) fuel j := by
    intro fuel
    induction fuel with
    | zero => intro j _ _; rfl
    | succ fuel ih =>
      intro j hj1 hjk
      simp only [whileFuel]
      rw [hcond j hjk hj1]
      rcases Nat.lt_or_ge j k' with hlt | hge
      · have hu : usize (j + 1) = .ok (j + 1) := by unfold usize; rw [if_pos (by omega)]
        rw [hu]
        have := ih (j + 1) (by omega) (by omega)
        simp only [bind, Except.bind, pure, Except.pure] at this ⊢
        rw [this]
      · have : j = k' := by omega
        subst this
        rw [hfit']
        simp [bind, Except.bind]
  exact loop fuel (seedF64 d) (C64_seed_pos.1 d hd) h2

/-- a user 1000 epochs behind sends 50 scalars to each server -/
example : 2 * (50 - 1) ^ 2 + 2 < 5 * 1000 ∧ 5 * 1000 ≤ 2 * 50 ^ 2 + 2 := by norm_num

end Allo
