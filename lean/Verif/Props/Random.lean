import Verif.Model.Random
import Verif.Lemmas.Sampling
import Verif.Props.NonMalleable
import Mathlib.Data.Int.CardIntervalMod

/-!
# C82: scalars made from bytes
-/

set_option linter.unusedSectionVars false
set_option linter.unusedVariables false
set_option linter.unusedSimpArgs false
set_option linter.constructorNameAsVariable false
set_option exponentiation.threshold 1024
namespace Rom
open Classical

/-- Some value occurs twice. -/
theorem prob_collision {X : Type} [Fintype X] [Nonempty X] : ∀ n : Nat,
    prob (fun v : Fin n → X => ¬ Function.Injective v) ≤ n * (n - 1) / 2 * (1 / (Fintype.card X : ℚ)) := by
  intro n
  induction n with
  | zero =>
    have : ∀ v : Fin 0 → X, Function.Injective v := fun v a => a.elim0
    rw [prob_eq_avg]
    simp only [this, not_true_eq_false, if_false, avg_const]
    norm_num
  | succ n ih =>
    rw [prob_eq_avg, avg_cons]
    have h : ∀ x, avg (fun v : Fin n → X =>
        @ite ℚ (¬ Function.Injective (Fin.cons x v : Fin (n + 1) → X)) (propDecidable _) 1 0)
        ≤ avg (fun v : Fin n → X => @ite ℚ (¬ Function.Injective v) (propDecidable _) 1 0)
          + avg (fun v : Fin n → X => ∑ i, if v i = x then (1 : ℚ) else 0) := by
      intro x
      rw [avg_add]
      refine avg_mono (fun v => ?_)
      have h0 : ∀ i ∈ Finset.univ, (0 : ℚ) ≤ if v i = x then 1 else 0 := fun i _ => by split <;> norm_num
      by_cases hv : Function.Injective v
      · by_cases hx : ∃ i, v i = x
        · obtain ⟨i, hi⟩ := hx
          have := Finset.single_le_sum h0 (Finset.mem_univ i)
          simp only [hi, if_true] at this
          split <;> simp only [hv, not_true_eq_false, if_false, zero_add] <;> linarith
        · have : Function.Injective (Fin.cons x v : Fin (n + 1) → X) := by
            rw [Fin.cons_injective_iff]
            exact ⟨fun ⟨i, hi⟩ => hx ⟨i, hi⟩, hv⟩
          simp only [this, hv, not_true_eq_false, if_false, zero_add]
          exact Finset.sum_nonneg h0
      · have := Finset.sum_nonneg h0
        simp only [hv, not_false_eq_true, if_true]
        split <;> linarith
    refine le_trans (avg_mono h) ?_
    rw [← avg_add, avg_const, avg_comm]
    have e : ∀ v : Fin n → X, avg (fun x => ∑ i, if v i = x then (1 : ℚ) else 0) = n * (1 / (Fintype.card X : ℚ)) := by
      intro v
      unfold avg
      rw [Finset.sum_comm]
      simp
      ring
    simp only [e, avg_const]
    rw [prob_eq_avg] at ih
    push_cast
    linarith

/-- A random function at different places gives independent values. -/
theorem avg_restrict {X Y : Type} [Fintype X] [DecidableEq X] [Fintype Y] [Nonempty Y] {n : Nat} (s : Fin n → X)
    (hs : Function.Injective s) (g : (Fin n → Y) → ℚ) :
    avg (fun O : X → Y => g (fun i => O (s i))) = avg g := by
  rw [← avg_bij _ (Equiv.piEquivPiSubtypeProd (fun x => x ∈ Set.range s) (fun _ => Y)).symm.bijective, avg_prod]
  have e : ∀ (a : {x // x ∈ Set.range s} → Y) (b : {x // ¬ x ∈ Set.range s} → Y),
      (fun i => (Equiv.piEquivPiSubtypeProd (fun x => x ∈ Set.range s) (fun _ => Y)).symm (a, b) (s i))
        = fun i => a (Equiv.ofInjective s hs i) := by
    intro a b
    funext i
    simp only [Equiv.piEquivPiSubtypeProd_symm_apply, Set.mem_range_self, dif_pos]
    rfl
  simp only [e, avg_const]
  have := avg_bij (Equiv.arrowCongr (Equiv.ofInjective s hs) (Equiv.refl Y)).symm (Equiv.bijective _) g
  rw [← this]
  rfl

theorem avg_mem {X : Type} [Fintype X] [Nonempty X] {f : X → ℚ} (h : ∀ x, 0 ≤ f x ∧ f x ≤ 1) :
    0 ≤ avg f ∧ avg f ≤ 1 := ⟨avg_nonneg (fun x => (h x).1), avg_le_one (fun x => (h x).2)⟩

end Rom

namespace Allo
open Spec Rom Classical

/-- There are 256 bytes. -/
def byteEquiv : UInt8 ≃ Fin 256 := ⟨UInt8.toFin, UInt8.ofFin, fun _ => rfl, fun _ => rfl⟩

instance : Fintype UInt8 := Fintype.ofEquiv _ byteEquiv.symm
instance : Nonempty UInt8 := ⟨0⟩

theorem card_byte : Fintype.card UInt8 = 256 := by
  rw [Fintype.card_congr byteEquiv, Fintype.card_fin]

theorem card_wide : Fintype.card Wide = 2 ^ 512 := by
  rw [Fintype.card_fun, card_byte, Fintype.card_fin]; decide +kernel

theorem card_seed : Fintype.card Seed = 2 ^ 256 := by
  rw [Fintype.card_fun, card_byte, Fintype.card_fin]; decide +kernel

instance : NeZero groupOrder := ⟨groupOrder_prime.ne_zero⟩

/-- The number that 64 bytes stand for. -/
def wideEquiv : Wide ≃ Fin (256 ^ 64) := (Equiv.arrowCongr (Equiv.refl _) byteEquiv).trans finFunctionFinEquiv

theorem fromBytesWide_eq (b : Wide) : fromBytesWide b = ((wideEquiv b : Nat) : Fr) := by
  unfold fromBytesWide wideEquiv
  rw [Equiv.trans_apply, finFunctionFinEquiv_apply]
  rfl

theorem wide_count (s : Fr) : Nat.card {b : Wide // fromBytesWide b = s}
    = 2 ^ 512 / groupOrder + if s.val % groupOrder < 2 ^ 512 % groupOrder then 1 else 0 := by
  have h := Nat.count_modEq_card (2 ^ 512) (r := groupOrder) groupOrder_prime.pos s.val
  rw [← h, Nat.count_eq_card_filter_range, Nat.card_eq_fintype_card, Fintype.card_subtype]
  refine Finset.card_bij (fun b _ => (wideEquiv b : Nat)) ?_ ?_ ?_
  · intro b hb
    simp only [Finset.mem_filter, Finset.mem_univ, true_and, Finset.mem_range] at hb ⊢
    refine ⟨lt_of_lt_of_eq (wideEquiv b).2 (by decide +kernel), ?_⟩
    rw [← ZMod.natCast_eq_natCast_iff, ← fromBytesWide_eq, hb, ZMod.natCast_zmod_val]
  · intro b _ b' _ e
    exact wideEquiv.injective (Fin.ext e)
  · intro x hx
    simp only [Finset.mem_filter, Finset.mem_univ, true_and, Finset.mem_range] at hx ⊢
    refine ⟨wideEquiv.symm ⟨x, lt_of_lt_of_eq hx.1 (by decide +kernel)⟩, ?_, by simp⟩
    rw [fromBytesWide_eq, Equiv.apply_symm_apply]
    have := (ZMod.natCast_eq_natCast_iff _ _ _).2 hx.2
    simpa using this

/-- **C82** (each scalar). Every scalar is made from 64 uniform bytes with a probability that differs from `1/r` by
at most `2^-512`; in particular every scalar occurs. -/
theorem C82_each_scalar (s : Fr) :
    |prob (fun b : Wide => fromBytesWide b = s) - 1 / groupOrder| ≤ 1 / 2 ^ 512 ∧ ∃ b, fromBytesWide b = s := by
  constructor
  · unfold prob
    rw [wide_count, Nat.card_eq_fintype_card, card_wide]
    have hr : (0 : ℚ) < groupOrder := by exact_mod_cast groupOrder_prime.pos
    have hdm : (groupOrder : ℚ) * ((2 ^ 512 / groupOrder : Nat) : ℚ) + ((2 ^ 512 % groupOrder : Nat) : ℚ) = 2 ^ 512 := by
      exact_mod_cast Nat.div_add_mod (2 ^ 512) groupOrder
    have hm1 : ((2 ^ 512 % groupOrder : Nat) : ℚ) ≤ groupOrder := by
      exact_mod_cast (Nat.mod_lt _ groupOrder_prime.pos).le
    have hm0 : (0 : ℚ) ≤ ((2 ^ 512 % groupOrder : Nat) : ℚ) := Nat.cast_nonneg _
    generalize hD : ((2 ^ 512 / groupOrder : Nat) : ℚ) = D at hdm
    generalize ((2 ^ 512 % groupOrder : Nat) : ℚ) = M at hdm hm1 hm0
    generalize (groupOrder : ℚ) = r at *
    have hN : ((2 ^ 512 : Nat) : ℚ) = r * D + M := by rw [hdm, Nat.cast_pow]; rfl
    have hN' : (2 : ℚ) ^ 512 = r * D + M := hdm.symm
    have hpos : (0 : ℚ) < r * D + M := by rw [hdm]; positivity
    have key : ∀ e : ℚ, 0 ≤ e → e ≤ 1 → |(D + e) / (r * D + M) - 1 / r| ≤ 1 / (r * D + M) := by
      intro e h0 h1
      have : (D + e) / (r * D + M) - 1 / r = (r * e - M) / r / (r * D + M) := by
        rw [div_div, div_sub_div _ _ hpos.ne' hr.ne']
        congr 1 <;> ring
      rw [this, abs_div, abs_of_pos hpos]
      gcongr
      rw [abs_div, abs_of_pos hr, div_le_one hr, abs_le]
      constructor <;> nlinarith
    rw [hN, hN']
    split
    · rw [Nat.cast_add, hD, Nat.cast_one]
      exact key 1 (by norm_num) le_rfl
    · rw [Nat.cast_add, hD, Nat.cast_zero]
      have := key 0 le_rfl (by norm_num)
      simpa using this
  · have h : 0 < Nat.card {b : Wide // fromBytesWide b = s} := by
      rw [wide_count]
      have : 0 < 2 ^ 512 / groupOrder := by decide +kernel
      omega
    obtain ⟨⟨b, hb⟩⟩ := (Nat.card_pos_iff.1 h).1
    exact ⟨b, hb⟩

theorem card_fr : Fintype.card Fr = groupOrder := ZMod.card _

theorem order_lt : (groupOrder : ℚ) ≤ 2 ^ 255 := by
  have : groupOrder ≤ 2 ^ 255 := by decide +kernel
  exact_mod_cast this

theorem order_gt : (2 : ℚ) ^ 254 ≤ groupOrder := by
  have : 2 ^ 254 ≤ groupOrder := by decide +kernel
  exact_mod_cast this

theorem Near.mono {B R : Type} [Fintype B] [Fintype R] {φ : B → R} {ε ε' : ℚ} (h : Near φ ε) (he : ε ≤ ε') :
    Near φ ε' := fun g hg => (h g hg).trans he

theorem near_wide : Near fromBytesWide (1 / 2 ^ 257) := by
  refine Near.mono (near_of_prob fromBytesWide (1 / 2 ^ 512) (fun s => ?_)) ?_
  · rw [card_fr]; exact (C82_each_scalar s).1
  · rw [card_fr]
    have := order_lt
    calc (groupOrder : ℚ) * (1 / 2 ^ 512) ≤ 2 ^ 255 * (1 / 2 ^ 512) := by gcongr
      _ = 1 / 2 ^ 257 := by
        rw [show (512 : Nat) = 255 + 257 from rfl, pow_add]
        field_simp

/-- **C82** (several scalars). For `n` scalars made from independent uniform bytes, the probability of every event
differs by at most `n/2^257` from the one for uniform independent scalars. -/
theorem C82_several (n : Nat) (ev : (Fin n → Fr) → Prop) :
    |prob (fun b : Fin n → Wide => ev (fun i => fromBytesWide (b i))) - prob ev| ≤ n / 2 ^ 257 := by
  have h := near_pi fromBytesWide _ near_wide n (fun v => if ev v then 1 else 0) (fun v => by split <;> norm_num)
  rw [prob_eq_avg, prob_eq_avg]
  refine h.trans (le_of_eq ?_)
  ring

/-- **C82** (`generate_fr` without a seed: keys, ids, blinding factors, shares). SHAKE128 is a random oracle. For `n`
calls with 32 random bytes each, the probability of every event about the scalars differs by at most `n²/2^257` from
the one for uniform independent scalars. -/
theorem C82_generate_fr (n : Nat) (salt : Bytes) (S : Finset Bytes)
    (hS : ∀ rng : Seed, salt ++ List.ofFn rng ∈ S) (ev : (Fin n → Fr) → Prop) :
    |prob (fun x : (S → Wide) × (Fin n → Seed) =>
        ev (fun i => generateFrBytes (oracle S (fun _ => 0) x.1) salt none (x.2 i)))
      - prob ev| ≤ (n : ℚ) ^ 2 / 2 ^ 257 := by
  set g : (Fin n → Wide) → ℚ := fun v => if ev (fun i => fromBytesWide (v i)) then 1 else 0 with hg
  have hg01 : ∀ v, 0 ≤ g v ∧ g v ≤ 1 := fun v => by simp only [hg]; split <;> norm_num
  have h2 := C82_several n ev
  -- SHAKE at different inputs
  have h1 : |prob (fun x : (S → Wide) × (Fin n → Seed) =>
        ev (fun i => generateFrBytes (oracle S (fun _ => 0) x.1) salt none (x.2 i)))
      - prob (fun b : Fin n → Wide => ev (fun i => fromBytesWide (b i)))|
      ≤ n * (n - 1) / 2 * (1 / (2 : ℚ) ^ 256) := by
    have hcol := prob_collision (X := Seed) n
    rw [card_seed, Nat.cast_pow, Nat.cast_ofNat] at hcol
    refine le_trans ?_ hcol
    rw [prob_eq_avg, prob_eq_avg, prob_eq_avg, avg_prod, avg_comm]
    rw [← avg_const (X := Fin n → Seed) (avg (fun b : Fin n → Wide => if ev fun i => fromBytesWide (b i) then (1:ℚ) else 0)),
      avg_sub]
    refine le_trans (abs_avg_le _) (avg_mono (fun v => ?_))
    let s : Fin n → S := fun i => ⟨salt ++ List.ofFn (v i), hS _⟩
    have e : ∀ O : S → Wide, (fun i => generateFrBytes (oracle S (fun _ => 0) O) salt none (v i))
        = fun i => fromBytesWide (O (s i)) := by
      intro O
      funext i
      simp only [generateFrBytes, generateFr, oracle, hS, dif_pos, s]
    simp only [e]
    by_cases hv : Function.Injective v
    · have hs : Function.Injective s := by
        intro i j hij
        simp only [s, Subtype.mk.injEq] at hij
        exact hv (List.ofFn_injective (List.append_cancel_left hij))
      have := avg_restrict s hs g
      simp only [hg] at this
      rw [this, sub_self, abs_zero]
      split <;> norm_num
    · simp only [hv, not_false_eq_true, if_true]
      have a1 := avg_mem (fun O : S → Wide => hg01 (fun i => O (s i)))
      have a2 := avg_mem hg01
      rw [abs_le]
      constructor <;> simp only [hg] at a1 a2 <;> linarith [a1.1, a1.2, a2.1, a2.2]
  refine le_trans (abs_sub_le _ _ _) (le_trans (add_le_add h1 h2) (le_of_eq ?_))
  rw [show (257 : Nat) = 256 + 1 from rfl, pow_add]
  generalize (2 : ℚ) ^ 256 = N
  ring

/-! ### Random ids -/

section
variable {F G1 G2 : Type} [Field F] [DecidableEq F] [AddCommGroup G1] [Module F G1] [AddCommGroup G2] [Module F G2]

/-- Different ids, none of them the negative of the accumulator key, are all added. -/
theorem adds_ok (α : F) : ∀ (l : List F) (s : Server F G1 G2), s.witnessSecretKey = α →
    (∃ V, s.accumulators.getLast? = some V) → l.Nodup → (∀ y ∈ l, y ∉ s.ids ∧ y + α ≠ 0) →
    ∃ s', s.run (l.map .add) = .ok s' ∧ s'.allWitnesses.length = s.allWitnesses.length + l.length
  | [], s, _, _, _, _ => ⟨s, rfl, rfl⟩
  | y :: l, s, hk, ⟨V, hV⟩, hn, hl => by
    obtain ⟨hy, hn⟩ := List.nodup_cons.1 hn
    have h0 := hl y (by simp)
    have hadd := Server.add_new h0.1 hV (by rw [hk]; exact h0.2)
    obtain ⟨s', hr, hlen⟩ := adds_ok α l (s := { s with
      allUsers := setInsert s.allUsers y
      allWitnesses := mapInsert s.allWitnesses y ((y + s.witnessSecretKey)⁻¹ • V) }) hk ⟨V, hV⟩ hn (by
        intro z hz
        refine ⟨?_, (hl z (by simp [hz])).2⟩
        have hzy : z ≠ y := fun e => hy (e ▸ hz)
        have := (hl z (by simp [hz])).1
        simp only [Server.ids, List.mem_map, not_exists, not_and] at this ⊢
        intro p hp
        rcases mem_mapInsert.1 hp with rfl | ⟨hp, -⟩
        · exact fun e => hzy e.symm
        · exact this p hp)
    refine ⟨s', Server.run_cons_of hadd hr, ?_⟩
    rw [hlen]
    have he : mapErase s.allWitnesses y = s.allWitnesses := by
      unfold mapErase
      rw [List.filter_eq_self]
      intro p hp
      have := h0.1
      simp only [Server.ids, List.mem_map, not_exists, not_and] at this
      simpa using this p hp
    simp only [mapInsert, he, List.length_cons]
    omega

end

/-- **C82** (random ids). A server adds `n` users, with ids made by `Element::random`. With probability at least
`1 - n²/2^253` no call panics and all `n` get a credential of their own. -/
theorem C82_random_ids {G1 G2 : Type} [AddCommGroup G1] [Module Fr G1] [AddCommGroup G2] [Module Fr G2]
    (params : AccParams G1 G2) (α sM v : Fr) (n : Nat) (S : Finset Bytes)
    (hS : ∀ rng : Seed, SALT ++ List.ofFn rng ∈ S) :
    1 - (n : ℚ) ^ 2 / 2 ^ 253 ≤ prob (fun x : (S → Wide) × (Fin n → Seed) =>
      let random := fun rng : Seed => Element.random (fun m => fromBytesWide (oracle S (fun _ => 0) x.1 m)) (List.ofFn rng)
      ∃ s, (Server.new params α sM v).run ((List.ofFn (fun i => random (x.2 i))).map .add) = .ok s ∧
        s.allWitnesses.length = n) := by
  set good : (Fin n → Fr) → Prop := fun ids =>
    ∃ s, (Server.new params α sM v).run ((List.ofFn ids).map .add) = .ok s ∧ s.allWitnesses.length = n with hgood
  have h1 := C82_generate_fr n SALT S hS good
  have h2 : 1 - prob good ≤ ((n : ℚ) ^ 2) * (1 / 2 ^ 254) := by
    have hcol := prob_collision (X := Fr) n
    have hbad : ∀ ids : Fin n → Fr, ¬ good ids → ¬ Function.Injective ids ∨ ∃ i, ids i = -α := by
      intro ids hng
      by_contra hc
      rw [not_or, not_not, not_exists] at hc
      apply hng
      obtain ⟨s, hs, hl⟩ := adds_ok α (List.ofFn ids) (Server.new params α sM v) rfl ⟨_, rfl⟩
        (List.nodup_ofFn.2 hc.1) (by
          intro y hy
          obtain ⟨i, rfl⟩ := (List.mem_ofFn' _ _).1 hy
          refine ⟨by simp [Server.ids, Server.new], fun e => hc.2 i (eq_neg_of_add_eq_zero_left e)⟩)
      refine ⟨s, hs, ?_⟩
      simpa [Server.new] using hl
    have hone : ∀ i : Fin n, avg (fun ids : Fin n → Fr => if ids i = -α then (1 : ℚ) else 0) = 1 / groupOrder := by
      intro i
      rw [avg_pi_apply (Y := fun _ => Fr) i (fun y => if y = -α then (1 : ℚ) else 0)]
      unfold avg
      simp [card_fr]
    have hle : 1 - prob good ≤ prob (fun v : Fin n → Fr => ¬ Function.Injective v) + n * (1 / groupOrder) := by
      have hsub : ∀ f : (Fin n → Fr) → ℚ, 1 - avg f = avg (fun x => 1 - f x) := fun f => by rw [← avg_sub, avg_const]
      rw [prob_eq_avg, prob_eq_avg, hsub]
      have hsum : (n : ℚ) * (1 / groupOrder)
          = avg (fun ids : Fin n → Fr => ∑ i, if ids i = -α then (1 : ℚ) else 0) := by
        have : avg (fun ids : Fin n → Fr => ∑ i, if ids i = -α then (1 : ℚ) else 0)
            = ∑ i, avg (fun ids : Fin n → Fr => if ids i = -α then (1 : ℚ) else 0) := by
          unfold avg
          rw [Finset.sum_comm, Finset.sum_div]
        rw [this]
        simp [hone]
      rw [hsum, avg_add]
      refine avg_mono (fun ids => ?_)
      have h0 : ∀ i ∈ Finset.univ, (0 : ℚ) ≤ if ids i = -α then 1 else 0 := fun i _ => by split <;> norm_num
      have h0' := Finset.sum_nonneg h0
      by_cases hg : good ids
      · simp only [hg, if_true]
        split <;> linarith
      · rcases hbad ids hg with hi | ⟨i, hi⟩
        · simp only [hg, hi, if_false, not_false_eq_true, if_true]
          linarith
        · have := Finset.single_le_sum h0 (Finset.mem_univ i)
          simp only [hi, if_true] at this
          simp only [hg, if_false]
          split <;> linarith
    rw [card_fr] at hcol
    have hinv : 1 / (groupOrder : ℚ) ≤ 1 / 2 ^ 254 := one_div_le_one_div_of_le (by positivity) order_gt
    have hinv0 : (0 : ℚ) ≤ 1 / groupOrder := by positivity
    have hnn : ((n : ℚ) * (n - 1) / 2 + n) ≤ (n : ℚ) ^ 2 := by
      rcases Nat.eq_zero_or_pos n with rfl | hn
      · norm_num
      · have : (1 : ℚ) ≤ n := by exact_mod_cast hn
        nlinarith
    have hn0 : (0 : ℚ) ≤ (n : ℚ) ^ 2 := by positivity
    calc 1 - prob good ≤ ((n : ℚ) * (n - 1) / 2 + n) * (1 / groupOrder) := by linarith
      _ ≤ (n : ℚ) ^ 2 * (1 / groupOrder) := by gcongr
      _ ≤ (n : ℚ) ^ 2 * (1 / 2 ^ 254) := by gcongr
  have h3 : (n : ℚ) ^ 2 / 2 ^ 257 + (n : ℚ) ^ 2 * (1 / 2 ^ 254) ≤ (n : ℚ) ^ 2 / 2 ^ 253 := by
    have hn0 : (0 : ℚ) ≤ (n : ℚ) ^ 2 := by positivity
    rw [show (257 : Nat) = 253 + 4 from rfl, show (254 : Nat) = 253 + 1 from rfl, pow_add, pow_add]
    have hN : (0 : ℚ) < 2 ^ 253 := by positivity
    generalize (2 : ℚ) ^ 253 = N at *
    have : (n : ℚ) ^ 2 / (N * 2 ^ 4) + (n : ℚ) ^ 2 * (1 / (N * 2 ^ 1)) = (n : ℚ) ^ 2 / N * (9 / 16) := by
      field_simp
      ring
    rw [this]
    have : 0 ≤ (n : ℚ) ^ 2 / N := by positivity
    linarith
  have h4 := (abs_le.1 h1).1
  have h5 : 1 - (n : ℚ) ^ 2 / 2 ^ 253 ≤ prob (fun x : (S → Wide) × (Fin n → Seed) =>
      good (fun i => generateFrBytes (oracle S (fun _ => 0) x.1) SALT none (x.2 i))) := by linarith
  exact h5

/-! ### Challenges -/

theorem fromBytesWide_surjective : Function.Surjective fromBytesWide := fun s => (C82_each_scalar s).2

instance (s : Fr) : Nonempty {b : Wide // fromBytesWide b = s} := ⟨⟨_, (fromBytesWide_surjective s).choose_spec⟩⟩

/-- The adversary that gets scalars, and chooses the bytes that stand for them itself. -/
noncomputable def onScalars {Ω α : Type} (S : Finset Query) (adv : Ω → OracleProg Query Wide α)
    (x : Ω × (S → Choice fromBytesWide)) : OracleProg Query Fr α :=
  (adv x.1).onValues (chosen fromBytesWide (fun _ => 0) S x.2)

/-- **C82** (challenges). The Fiat-Shamir hash answers with 64 bytes, which an adversary with at most `q` queries sees, and
which the verifier makes a scalar of. There is an adversary with as many queries, in the world where the hash answers with
uniform scalars, such that the probability of every event about the output and the challenge that the verifier computes
differs by at most `(q+1)/2^257`. -/
theorem C82_challenges {Ω α : Type} [Fintype Ω] [Nonempty Ω] (adv : Ω → OracleProg Query Wide α) (q : Nat)
    (hq : ∀ ω, (adv ω).QueryBound q) (query : α → Query) (S : Finset Query)
    (hS : ∀ ω, ((adv ω).withAnswer query).QueriesIn (· ∈ S)) (ev : α → Fr → Prop) :
    (∀ x, (onScalars S adv x).QueryBound q) ∧
    |prob (fun x : Ω × (S → Wide) =>
        let out := (adv x.1).eval (oracle S (fun _ => 0) x.2)
        ev out (fromBytesWide (oracle S (fun _ => 0) x.2 (query out))))
      - prob (fun x : (Ω × (S → Choice fromBytesWide)) × (S → Fr) =>
        let out := (onScalars S adv x.1).eval (oracle S 0 x.2)
        ev out (oracle S 0 x.2 (query out)))| ≤ (q + 1) / 2 ^ 257 := by
  refine ⟨fun x => OracleProg.onValues_bound _ _ _ (hq _), ?_⟩
  have h0 : fromBytesWide (fun _ => 0) = 0 := by simp [fromBytesWide]
  have h := bytes_near_answer fromBytesWide (fun _ => 0) 0 h0 S fromBytesWide_surjective _ near_wide adv q hq query hS ev
  rw [mul_one_div] at h
  exact h

/-- **C82** (the set of queries). The finite set of queries exists for every such adversary. -/
theorem C82_query_set {Ω α : Type} [Fintype Ω] (adv : Ω → OracleProg Query Wide α) (q : Nat)
    (hq : ∀ ω, (adv ω).QueryBound q) (query : α → Query) :
    ∃ S : Finset Query, ∀ ω, ((adv ω).withAnswer query).QueriesIn (· ∈ S) := by
  choose T hT using fun ω => OracleProg.exists_querySet (q + 1) ((adv ω).withAnswer query)
    (OracleProg.withAnswer_bound _ _ _ (hq ω))
  have mono : ∀ (S T : Finset Query), S ⊆ T → ∀ p : OracleProg Query Wide (α × Wide),
      p.QueriesIn (· ∈ S) → p.QueriesIn (· ∈ T) := by
    intro S T hST p
    induction p with
    | done a => intro _; trivial
    | ask q k ih => rintro ⟨h1, h2⟩; exact ⟨hST h1, fun r => ih r (h2 r)⟩
  exact ⟨Finset.univ.biUnion T, fun ω => mono (T ω) _
    (fun x hx => Finset.mem_biUnion.2 ⟨ω, Finset.mem_univ _, hx⟩) _ (hT ω)⟩

/-- **C82** (knowledge, with byte challenges). `C70_knowledge` for the hash as it is: it answers with 64 bytes, which the
adversary sees, and `Element::from_transcript` makes a scalar of them. If the adversary makes accepted presentations
that satisfy `P` with probability `a`, and `a' = a - (q+1)/2^257`, then the extractor succeeds with probability at least
`a' (a'/(q+1) - 1/r)`. -/
theorem C82_knowledge {Ω G1 G2 GT : Type} [Fintype Ω] [Nonempty Ω] [AddCommGroup G1] [Module Fr G1] [AddCommGroup G2]
    [Module Fr G2] [AddCommGroup GT] [Module Fr GT] [DecidableEq GT] (E : Pairing Fr G1 G2 GT) (enc : Enc G1 G2 GT)
    (h1 : Function.Injective enc.g1) (h2 : Function.Injective enc.g2) (h3 : Function.Injective enc.gt)
    (params : AccParams G1 G2) (adv : Ω → OracleProg Query Wide (Presentation Fr G1 G2)) (q : Nat)
    (hq : ∀ ω, (adv ω).QueryBound q) (S : Finset Query)
    (hS : ∀ ω, ((adv ω).withAnswer (Presentation.query E enc params)).QueriesIn (· ∈ S))
    (P : Presentation Fr G1 G2 → Prop) :
    let a := prob (fun x : Ω × (S → Wide) =>
      let out := (adv x.1).eval (oracle S (fun _ => 0) x.2)
      out.accepted E (fromTranscript (fun t l => oracle S (fun _ => 0) x.2 (t, l))) enc params ∧ P out)
    let a' := a - (q + 1) / 2 ^ 257
    0 ≤ a' → a' * (a' / (q + 1) - 1 / groupOrder)
      ≤ prob (fun x : (Ω × (S → Choice fromBytesWide)) × (S → Fr) × (S → Fr) =>
        let out := (onScalars S adv x.1).eval (oracle S 0 x.2.1)
        let out' := rerun S (onScalars S adv x.1) (Presentation.query E enc params) x.2.1 x.2.2
        P out ∧ P out' ∧ Extracts E params out out') := by
  intro a a' ha'
  obtain ⟨hb, hd⟩ := C82_challenges adv q hq (Presentation.query E enc params) S hS
    (fun x c => c = x.proof.challenge ∧ P x)
  have hk := C70_knowledge E enc h1 h2 h3 params (onScalars S adv) q hb S (by
    rintro ⟨ω, k⟩ H
    have := OracleProg.onValues_eval (chosen fromBytesWide (fun _ => 0) S k) (oracle S 0 H) (adv ω)
    unfold onScalars
    rw [this]
    have hin : ∀ (p : OracleProg Query Wide (Presentation Fr G1 G2)) (O : Query → Wide),
        (p.withAnswer (Presentation.query E enc params)).QueriesIn (· ∈ S) → (p.eval O).query E enc params ∈ S := by
      intro p O
      induction p with
      | done a => exact fun h => h.1
      | ask q k ih => exact fun h => ih _ (h.2 _)
    exact hin _ _ (hS ω)) P
  set b := prob (fun x : (Ω × (S → Choice fromBytesWide)) × (S → Fr) =>
      ((onScalars S adv x.1).eval (oracle S 0 x.2)).accepted E (asHash (oracle S 0 x.2)) enc params ∧
      P ((onScalars S adv x.1).eval (oracle S 0 x.2))) with hbdef
  have ea : a = prob (fun x : Ω × (S → Wide) =>
        let out := (adv x.1).eval (oracle S (fun _ => 0) x.2)
        fromBytesWide (oracle S (fun _ => 0) x.2 (out.query E enc params)) = out.proof.challenge ∧ P out) := by
    simp only [a, Presentation.accepted, checkProof, decide_eq_true_eq]
    rfl
  have eb : b = prob (fun x : (Ω × (S → Choice fromBytesWide)) × (S → Fr) =>
        let out := (onScalars S adv x.1).eval (oracle S 0 x.2)
        oracle S 0 x.2 (out.query E enc params) = out.proof.challenge ∧ P out) := by
    simp only [hbdef, Presentation.accepted, checkProof, decide_eq_true_eq]
    rfl
  rw [← ea, ← eb] at hd
  have hab : a' ≤ b := by
    have := (abs_le.1 hd).2
    simp only [a']
    linarith
  rw [Nat.card_eq_fintype_card, card_fr] at hk
  have hq1 : (0 : ℚ) < q + 1 := by positivity
  by_cases hpos : 0 ≤ a' / (q + 1) - 1 / (groupOrder : ℚ)
  · refine le_trans ?_ hk
    have : a' / ((q : ℚ) + 1) ≤ b / (q + 1) := by gcongr
    have h0 : 0 ≤ b / ((q : ℚ) + 1) - 1 / groupOrder := by linarith
    calc a' * (a' / (q + 1) - 1 / groupOrder) ≤ a' * (b / (q + 1) - 1 / groupOrder) := by gcongr
      _ ≤ b * (b / (q + 1) - 1 / groupOrder) := by gcongr
  · refine le_trans (mul_nonpos_of_nonneg_of_nonpos ha' (by linarith)) ?_
    unfold prob
    positivity

/-! ### Concrete cases -/

/-- The set of strings that `C82_generate_fr` and `C82_random_ids` ask for exists. -/
example (salt : Bytes) : ∃ S : Finset Bytes, ∀ rng : Seed, salt ++ List.ofFn rng ∈ S := by
  have hf := Set.finite_range (fun rng : Seed => salt ++ List.ofFn rng)
  refine ⟨hf.toFinset, fun rng => ?_⟩
  rw [Set.Finite.mem_toFinset]
  exact Set.mem_range_self rng

/-- Little-endian: a one in the second byte is 256. -/
example : fromBytesWide (fun i => if i = 1 then 1 else 0) = 256 := by
  rw [fromBytesWide, Finset.sum_eq_single 1 (by intro i _ hi; simp [hi]) (by simp)]
  have : ((1 : UInt8).toNat : Fr) = 1 := by rw [show (1 : UInt8).toNat = 1 from rfl]; norm_num
  simp [this]

/-- All 64 bytes count: the last one too. -/
example : fromBytesWide (fun i => if i = 63 then 3 else 0) = ((3 * 256 ^ 63 : Nat) : Fr) := by
  rw [fromBytesWide, Finset.sum_eq_single 63 (by intro i _ hi; simp [hi]) (by simp)]
  rfl

/-- The owner of a credential is an adversary of `C82_knowledge` with one query: it asks for the challenge bytes and
answers with the response, and is always accepted. -/
example {G1 G2 GT : Type} [AddCommGroup G1] [Module Fr G1] [AddCommGroup G2]
    [Module Fr G2] [AddCommGroup GT] [Module Fr GT] [DecidableEq GT] (E : Pairing Fr G1 G2 GT) (enc : Enc G1 G2 GT)
    (params : AccParams G1 G2) (qu : Query) (out : Fr → Presentation Fr G1 G2) :
    let adv : Unit → OracleProg Query Wide (Presentation Fr G1 G2) :=
      fun _ => .ask qu (fun b => .done (out (fromBytesWide b)))
    (∀ ω, (adv ω).QueryBound 1) ∧
      ∃ S : Finset Query, ∀ ω, ((adv ω).withAnswer (Presentation.query E enc params)).QueriesIn (· ∈ S) := by
  intro adv
  exact ⟨fun _ _ => trivial, C82_query_set adv 1 (fun _ _ => trivial) _⟩

end Allo
