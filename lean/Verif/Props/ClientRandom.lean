import Verif.Props.Random
import Verif.Props.AdaptiveAnon
import Verif.Props.FullHashed

/-!
# C106: games with the randomness the code draws

The probabilities of C89 and of the unforgeability theorems are over uniform scalars. The code draws each scalar with
`generate_fr(SALT, None, OsRng)`: 32 random bytes, SHAKE128, reduction modulo the group order; and an adversary can
compute SHAKE128 too.
-/

set_option linter.unusedSectionVars false
set_option linter.unusedVariables false
set_option linter.unusedSimpArgs false
set_option linter.constructorNameAsVariable false
set_option exponentiation.threshold 1024

namespace Rom
open Classical

/-- A random function, overwritten at different places by random values, is a random function. -/
theorem avg_overwrite {X Y : Type} [Fintype X] [DecidableEq X] [Fintype Y] [Nonempty Y] {n : Nat} (s : Fin n → X)
    (hs : Function.Injective s) (g : (X → Y) → ℚ) :
    avg (fun O : X → Y => avg (fun w : Fin n → Y => g (fun x => if h : ∃ i, s i = x then w h.choose else O x)))
      = avg g := by
  have hch : ∀ i, (⟨i, rfl⟩ : ∃ j, s j = s i).choose = i := fun i => hs (⟨i, rfl⟩ : ∃ j, s j = s i).choose_spec
  rw [← avg_bij _ (Equiv.piEquivPiSubtypeProd (fun x => x ∈ Set.range s) (fun _ => Y)).symm.bijective g,
    ← avg_bij _ (Equiv.piEquivPiSubtypeProd (fun x => x ∈ Set.range s) (fun _ => Y)).symm.bijective
      (fun O : X → Y => avg (fun w : Fin n → Y => g (fun x => if h : ∃ i, s i = x then w h.choose else O x))),
    avg_prod, avg_prod, avg_comm]
  conv_rhs => rw [avg_comm]
  refine avg_congr (fun b => ?_)
  have e : ∀ (a : {x // x ∈ Set.range s} → Y) (w : Fin n → Y),
      (fun x => if h : ∃ i, s i = x then w h.choose else
        (Equiv.piEquivPiSubtypeProd (fun x => x ∈ Set.range s) (fun _ => Y)).symm (a, b) x)
      = (Equiv.piEquivPiSubtypeProd (fun x => x ∈ Set.range s) (fun _ => Y)).symm
          (fun x => w ((Equiv.ofInjective s hs).symm x), b) := by
    intro a w
    funext x
    simp only [Equiv.piEquivPiSubtypeProd_symm_apply, Set.mem_range]
    by_cases h : ∃ i, s i = x
    · obtain ⟨i, rfl⟩ := h
      simp only [exists_apply_eq_apply, dif_pos, hch]
      congr 1
      rw [Equiv.eq_symm_apply]
      rfl
    · simp only [h, dif_neg, not_false_eq_true]
  simp only [e]
  rw [avg_const]
  have := avg_bij (Equiv.arrowCongr (Equiv.ofInjective s hs) (Equiv.refl Y)) (Equiv.bijective _)
    (fun c => g ((Equiv.piEquivPiSubtypeProd (fun x => x ∈ Set.range s) (fun _ => Y)).symm (c, b)))
  rw [← this]
  rfl

end Rom

namespace Allo
open Spec Rom User Classical

/-- Different seeds give different inputs of SHAKE128, whatever the salts. -/
theorem salted_injective {k : Nat} (salt : Fin k → Bytes) {v : Fin k → Seed} (hv : Function.Injective v) :
    Function.Injective (fun i => salt i ++ List.ofFn (v i)) := by
  intro i j h
  have := (List.append_inj' h (by simp)).2
  exact hv (List.ofFn_injective this)

theorem card_hits {Y Z : Type} [Fintype Y] (f : Y → Z) (hf : Function.Injective f) (L : List Z)
    [DecidablePred (fun y => f y ∈ L)] :
    (Finset.univ.filter (fun y => f y ∈ L)).card ≤ L.length :=
  (Finset.card_le_card_of_injOn (t := L.toFinset) f (fun y hy =>
    Finset.mem_coe.2 (List.mem_toFinset.2 (Finset.mem_filter.1 (Finset.mem_coe.1 hy)).2)) hf.injOn).trans
      (List.toFinset_card_le L)

/-- A list of `q` queries meets one of `k` random seeds with probability at most `q·k/2^256`. -/
theorem prob_guess {k : Nat} (salt : Fin k → Bytes) (L : List Bytes) (q : Nat) (hL : L.length ≤ q) :
    avg (fun v : Fin k → Seed => if ∃ i, salt i ++ List.ofFn (v i) ∈ L then (1 : ℚ) else 0) ≤ q * k / 2 ^ 256 := by
  have h1 : ∀ i, avg (fun v : Fin k → Seed => if salt i ++ List.ofFn (v i) ∈ L then (1 : ℚ) else 0) ≤ q / 2 ^ 256 := by
    intro i
    rw [avg_pi_apply (Y := fun _ => Seed) i (fun y => if salt i ++ List.ofFn y ∈ L then (1 : ℚ) else 0)]
    unfold avg
    rw [card_seed, Nat.cast_pow, Nat.cast_ofNat]
    gcongr
    rw [Finset.sum_ite, Finset.sum_const_zero, add_zero, Finset.sum_const, nsmul_eq_mul, mul_one]
    exact Nat.cast_le.2 <| (card_hits (fun y : Seed => salt i ++ List.ofFn y)
      (fun a b h => List.ofFn_injective (List.append_cancel_left h)) L).trans hL
  have h2 : avg (fun v : Fin k → Seed => if ∃ i, salt i ++ List.ofFn (v i) ∈ L then (1 : ℚ) else 0)
      ≤ ∑ i, avg (fun v : Fin k → Seed => if salt i ++ List.ofFn (v i) ∈ L then (1 : ℚ) else 0) := by
    have : ∑ i, avg (fun v : Fin k → Seed => if salt i ++ List.ofFn (v i) ∈ L then (1 : ℚ) else 0)
        = avg (fun v : Fin k → Seed => ∑ i, if salt i ++ List.ofFn (v i) ∈ L then (1 : ℚ) else 0) := by
      unfold avg
      rw [Finset.sum_comm, Finset.sum_div]
    rw [this]
    refine avg_mono (fun v => ?_)
    have h0 : ∀ i ∈ Finset.univ, (0 : ℚ) ≤ if salt i ++ List.ofFn (v i) ∈ L then 1 else 0 := fun i _ => by split <;> norm_num
    split
    · rename_i h
      obtain ⟨i, hi⟩ := h
      have := Finset.single_le_sum h0 (Finset.mem_univ i)
      simpa only [hi, if_true] using this
    · exact Finset.sum_nonneg h0
  refine h2.trans ((Finset.sum_le_sum (fun i _ => h1 i)).trans (le_of_eq ?_))
  rw [Finset.sum_const, Finset.card_univ, Fintype.card_fin, nsmul_eq_mul]
  ring

/-- **C106** (any game). A game is played with `k` random scalars, by an adversary that may compute SHAKE128, at most `q`
times, adaptively and at inputs of its choice. SHAKE128 is a random function. When the scalars are drawn by `generate_fr`
with 32 random bytes each (with any salts), the probability of any event about the result differs by at most
`k²/2^257 + q·k/2^256` from the one with uniform scalars that have nothing to do with SHAKE128. -/
theorem C106_game {α : Type} (k q : Nat) (salt : Fin k → Bytes) (S : Finset Bytes)
    (hS : ∀ i (rng : Seed), salt i ++ List.ofFn rng ∈ S) (game : (Fin k → Fr) → OracleProg Bytes Wide α)
    (hq : ∀ s, (game s).QueryBound q) (ev : α → Prop) :
    |prob (fun x : (S → Wide) × (Fin k → Seed) =>
        let shake := oracle S (fun _ => 0) x.1
        ev ((game (fun i => generateFrBytes shake (salt i) none (x.2 i))).eval shake))
      - prob (fun x : (S → Wide) × (Fin k → Fr) => ev ((game x.2).eval (oracle S (fun _ => 0) x.1)))|
      ≤ (k : ℚ) ^ 2 / 2 ^ 257 + q * k / 2 ^ 256 := by
  set sh : (S → Wide) → Bytes → Wide := oracle S (fun _ => 0) with hsh
  set f : (Fin k → Wide) → (S → Wide) → ℚ := fun w O =>
    if ev ((game (fun i => fromBytesWide (w i))).eval (sh O)) then 1 else 0 with hf
  have hf01 : ∀ w O, 0 ≤ f w O ∧ f w O ≤ 1 := fun w O => by simp only [hf]; split <;> norm_num
  -- the points of `S` the scalars come from
  let s : (Fin k → Seed) → Fin k → S := fun v i => ⟨salt i ++ List.ofFn (v i), hS i (v i)⟩
  have hreal : prob (fun x : (S → Wide) × (Fin k → Seed) =>
        ev ((game (fun i => generateFrBytes (sh x.1) (salt i) none (x.2 i))).eval (sh x.1)))
      = avg (fun v : Fin k → Seed => avg (fun O : S → Wide => f (fun i => O (s v i)) O)) := by
    rw [prob_eq_avg, avg_prod, avg_comm]
    refine avg_congr (fun v => avg_congr (fun O => ?_))
    have e : (fun i => generateFrBytes (sh O) (salt i) none (v i)) = fun i => fromBytesWide (O (s v i)) := by
      funext i
      simp only [generateFrBytes, generateFr, hsh, oracle, hS, dif_pos, s]
    simp only [e, hf]
  have hideal : |avg (fun O : S → Wide => avg (fun w : Fin k → Wide => f w O))
      - prob (fun x : (S → Wide) × (Fin k → Fr) => ev ((game x.2).eval (sh x.1)))| ≤ k / 2 ^ 257 := by
    rw [prob_eq_avg, avg_prod, avg_sub]
    refine (abs_avg_le _).trans ?_
    rw [← avg_const (X := S → Wide) ((k : ℚ) / 2 ^ 257)]
    refine avg_mono (fun O => ?_)
    have h := C82_several k (fun v => ev ((game v).eval (sh O)))
    rw [prob_eq_avg, prob_eq_avg] at h
    exact h
  have hmain : |avg (fun v : Fin k → Seed => avg (fun O : S → Wide => f (fun i => O (s v i)) O))
      - avg (fun O : S → Wide => avg (fun w : Fin k → Wide => f w O))|
      ≤ k * (k - 1) / 2 * (1 / (2 : ℚ) ^ 256) + q * k / 2 ^ 256 := by
    have hcol := prob_collision (X := Seed) k
    rw [card_seed, Nat.cast_pow, Nat.cast_ofNat, prob_eq_avg] at hcol
    -- the queries of the run
    let L : (S → Wide) → (Fin k → Wide) → List Bytes := fun O w => (game (fun i => fromBytesWide (w i))).trace (sh O)
    have hguess : avg (fun v : Fin k → Seed => avg (fun O : S → Wide => avg (fun w : Fin k → Wide =>
        if ∃ i, salt i ++ List.ofFn (v i) ∈ L O w then (1 : ℚ) else 0))) ≤ q * k / 2 ^ 256 := by
      rw [avg_comm]
      rw [← avg_const (X := S → Wide) ((q : ℚ) * k / 2 ^ 256)]
      refine avg_mono (fun O => ?_)
      rw [avg_comm, ← avg_const (X := Fin k → Wide) ((q : ℚ) * k / 2 ^ 256)]
      exact avg_mono (fun w => prob_guess salt (L O w) q (OracleProg.trace_length _ _ _ (hq _)))
    refine le_trans ?_ (add_le_add hcol hguess)
    rw [← avg_const (X := Fin k → Seed) (avg (fun O : S → Wide => avg (fun w : Fin k → Wide => f w O))), avg_sub, avg_add]
    refine (abs_avg_le _).trans (avg_mono (fun v => ?_))
    by_cases hv : Function.Injective v
    · simp only [hv, not_true_eq_false, if_false, zero_add]
      have hsi : Function.Injective (s v) := fun i j h => salted_injective salt hv (congrArg Subtype.val h)
      rw [← avg_overwrite (s v) hsi (fun O : S → Wide => f (fun i => O (s v i)) O), avg_sub]
      refine (abs_avg_le _).trans (avg_mono (fun O => ?_))
      rw [avg_sub]
      refine (abs_avg_le _).trans (avg_mono (fun w => ?_))
      have hw : (fun i => (fun x => if h : ∃ i, s v i = x then w h.choose else O x) (s v i)) = w := by
        funext i
        have hx : ∃ j, s v j = s v i := ⟨i, rfl⟩
        simp only [hx, dif_pos]
        exact congrArg w (hsi hx.choose_spec)
      rw [hw]
      split
      · rename_i h
        rw [abs_le]
        constructor <;> linarith [(hf01 w O).1, (hf01 w O).2,
          (hf01 w (fun x => if h : ∃ i, s v i = x then w h.choose else O x)).1,
          (hf01 w (fun x => if h : ∃ i, s v i = x then w h.choose else O x)).2]
      · rename_i h
        rw [not_exists] at h
        have : (game (fun i => fromBytesWide (w i))).eval (sh (fun x => if h : ∃ i, s v i = x then w h.choose else O x))
            = (game (fun i => fromBytesWide (w i))).eval (sh O) := by
          refine OracleProg.eval_congr _ _ _ (fun m hm => ?_)
          simp only [hsh, oracle]
          by_cases hmS : m ∈ S
          · simp only [hmS, dif_pos]
            rw [dif_neg]
            rintro ⟨i, hi⟩
            refine h i ?_
            have := congrArg Subtype.val hi
            simp only [s] at this
            rw [this]
            exact hm
          · simp only [hmS, dif_neg, not_false_eq_true]
        simp only [hf, this, sub_self, abs_zero, le_refl]
    · simp only [hv, not_false_eq_true, if_true]
      have a1 := avg_mem (fun O : S → Wide => hf01 (fun i => O (s v i)) O)
      have a2 := avg_mem (fun O : S → Wide => avg_mem (fun w => hf01 w O))
      have a3 : 0 ≤ avg (fun O : S → Wide => avg (fun w : Fin k → Wide =>
        if ∃ i, salt i ++ List.ofFn (v i) ∈ L O w then (1 : ℚ) else 0)) :=
        avg_nonneg (fun O => avg_nonneg (fun w => by split <;> norm_num))
      rw [abs_le]
      constructor <;> linarith [a1.1, a1.2, a2.1, a2.2]
  have := hreal
  simp only at this ⊢
  rw [this]
  refine le_trans (abs_sub_le _ _ _) (le_trans (add_le_add hmain hideal) (le_of_eq ?_))
  rw [show (257 : Nat) = 256 + 1 from rfl, pow_add]
  generalize (2 : ℚ) ^ 256 = N
  ring

/-! ### Anonymity -/

/-- An adversary as in C89 that may also compute SHAKE128. -/
inductive AnonShake (F G1 G2 J α : Type)
  | done (a : α)
  | shake (m : Bytes) (k : Wide → AnonShake F G1 G2 J α)
  | move (m : AnonMove F G1 J) (k : AnonResp F G1 G2 → AnonShake F G1 G2 J α)

/-- At most `N` moves. -/
def AnonShake.Moves {F G1 G2 J α : Type} : Nat → AnonShake F G1 G2 J α → Prop
  | _, .done _ => True
  | N, .shake _ k => ∀ r, (k r).Moves N
  | 0, .move _ _ => False
  | N + 1, .move _ k => ∀ r, (k r).Moves N

/-- At most `q` computations of SHAKE128. -/
def AnonShake.Hashes {F G1 G2 J α : Type} : Nat → AnonShake F G1 G2 J α → Prop
  | _, .done _ => True
  | 0, .shake _ _ => False
  | q + 1, .shake _ k => ∀ r, (k r).Hashes q
  | q, .move _ k => ∀ r, (k r).Hashes q

/-- The adversary of C89 that it is for one function `shake`. -/
def AnonShake.with {F G1 G2 J α : Type} (shake : Bytes → Wide) : AnonShake F G1 G2 J α → AnonProg F G1 G2 J α
  | .done a => .done a
  | .shake m k => (k (shake m)).with shake
  | .move m k => .move m (fun r => (k r).with shake)

/-- The random choices of a presentation made from something else, one by one. -/
def ProofRand.map {X Y : Type} (f : X → Y) (r : ProofRand X) : ProofRand Y :=
  ⟨f r.r0, f r.r1, f r.r2, f r.k0, f r.k1, f r.k2, f r.k3, f r.k4, f r.k5, f r.k6, f r.k7⟩

/-- The same for a move of the game. -/
def AnonRand.map {X Y : Type} {M : Nat} (f : X → Y) (r : AnonRand X M) : AnonRand Y M :=
  (fun i j => f (r.1 i j), r.2.1.map f, f r.2.2.1, f r.2.2.2)

/-- The `M² + 13` random choices of a move. -/
def anonIndex (X : Type) (M : Nat) : (Fin M × Fin M ⊕ Fin 13 → X) ≃ AnonRand X M where
  toFun v := (fun i j => v (.inl (i, j)), ⟨v (.inr 0), v (.inr 1), v (.inr 2), v (.inr 3), v (.inr 4), v (.inr 5),
    v (.inr 6), v (.inr 7), v (.inr 8), v (.inr 9), v (.inr 10)⟩, v (.inr 11), v (.inr 12))
  invFun r
    | .inl p => r.1 p.1 p.2
    | .inr i => ![r.2.1.r0, r.2.1.r1, r.2.1.r2, r.2.1.k0, r.2.1.k1, r.2.1.k2, r.2.1.k3, r.2.1.k4, r.2.1.k5, r.2.1.k6,
        r.2.1.k7, r.2.2.1, r.2.2.2] i
  left_inv v := by
    funext x
    rcases x with p | i
    · rfl
    · fin_cases i <;> rfl
  right_inv r := rfl

/-- All random choices of `N` moves. -/
noncomputable def anonAll (X : Type) (N M : Nat) : (Fin (N * (M ^ 2 + 13)) → X) ≃ (Fin N → AnonRand X M) :=
  (Equiv.arrowCongr (Fintype.equivFinOfCardEq (α := Fin N × (Fin M × Fin M ⊕ Fin 13)) (by
    rw [Fintype.card_prod, Fintype.card_sum, Fintype.card_prod, Fintype.card_fin, Fintype.card_fin, Fintype.card_fin, sq])).symm
    (Equiv.refl X)).trans ((Equiv.curry _ _ _).trans (Equiv.piCongrRight (fun _ => anonIndex X M)))

theorem anonAll_map {X Y : Type} {N M : Nat} (f : X → Y) (v : Fin (N * (M ^ 2 + 13)) → X) :
    anonAll Y N M (fun i => f (v i)) = fun i => (anonAll X N M v i).map f := rfl

theorem prob_equiv' {X Y : Type} (e : X ≃ Y) (p : Y → Prop) : prob (fun x => p (e x)) = prob p := by
  unfold prob
  rw [Nat.card_congr e, Nat.card_congr (e.subtypeEquiv (p := fun x => p (e x)) (q := p) (fun _ => Iff.rfl))]

section
variable {G1 G2 GT J : Type} [AddCommGroup G1] [Module Fr G1] [DecidableEq G1] [AddCommGroup G2] [Module Fr G2]
  [AddCommGroup GT] [Module Fr GT] [DecidableEq GT]

/-- The game as a program that computes SHAKE128. -/
noncomputable def AnonShake.play {α : Type} {M : Nat} (g : AnonGame Fr G1 G2 GT J) (b : Bool) :
    (ws : Nat → AnonRand Fr M) → AnonState Fr G1 G2 J → AnonShake Fr G1 G2 J α → OracleProg Bytes Wide α
  | _, _, .done a => .done a
  | ws, st, .shake m k => .ask m (fun r => AnonShake.play g b ws st (k r))
  | ws, st, .move m k => AnonShake.play g b (fun i => ws (i + 1)) (st.move g b (ws 0) m).1 (k (st.move g b (ws 0) m).2)

theorem AnonShake.play_eval {α : Type} {M : Nat} (g : AnonGame Fr G1 G2 GT J) (b : Bool) (O : Bytes → Wide) :
    ∀ (p : AnonShake Fr G1 G2 J α) (ws : Nat → AnonRand Fr M) (st : AnonState Fr G1 G2 J),
      (AnonShake.play g b ws st p).eval O = (p.with O).run g b ws st
  | .done a, ws, st => rfl
  | .shake m k, ws, st => by
    simp only [AnonShake.play, OracleProg.eval, AnonShake.with]
    exact AnonShake.play_eval g b O (k (O m)) ws st
  | .move m k, ws, st => by
    simp only [AnonShake.play, AnonShake.with, AnonProg.run]
    exact AnonShake.play_eval g b O (k _) _ _

theorem AnonShake.play_bound {α : Type} {M : Nat} (g : AnonGame Fr G1 G2 GT J) (b : Bool) :
    ∀ (p : AnonShake Fr G1 G2 J α) (q : Nat), p.Hashes q → ∀ (ws : Nat → AnonRand Fr M) (st : AnonState Fr G1 G2 J),
      (AnonShake.play g b ws st p).QueryBound q
  | .done a, q, _, ws, st => by simp [AnonShake.play, OracleProg.QueryBound]
  | .shake m k, 0, h, ws, st => absurd h id
  | .shake m k, q + 1, h, ws, st => fun r => AnonShake.play_bound g b (k r) q (h r) ws st
  | .move m k, q, h, ws, st => by
    simp only [AnonShake.play]
    refine AnonShake.play_bound g b (k _) q ?_ _ _
    cases q <;> exact h _

theorem AnonShake.with_bound {F G1 G2 J α : Type} (O : Bytes → Wide) : ∀ (p : AnonShake F G1 G2 J α) (N : Nat),
    p.Moves N → (p.with O).Bound N
  | .done a, N, _ => by cases N <;> trivial
  | .shake m k, N, h => by
    simp only [AnonShake.with]
    exact AnonShake.with_bound O (k (O m)) N (by cases N <;> exact h _)
  | .move m k, 0, h => absurd h id
  | .move m k, N + 1, h => fun r => AnonShake.with_bound O (k r) N (h r)

/-- **C106** (anonymity with the randomness the code draws). As C89, but every scalar that a client draws is made by
`generate_fr(SALT, None, OsRng)` from 32 random bytes, and the adversary may compute SHAKE128, a random function, at most
`q` times, before, during and after its at most `N` moves. Clients draw at most `k = N·(M² + 13)` scalars. The
probabilities of any event in the two worlds differ by at most `2·(k²/2^257 + q·k/2^256)`. -/
theorem C106_anonymous {α : Type} (g : AnonGame Fr G1 G2 GT J) (hP : g.params.p2 ≠ 0) (hK : g.params.k2 ≠ 0)
    (hz : g.params.z1 ≠ 0) (hseed : ∀ d, 1 ≤ d → 1 ≤ g.seed d) (adv : AnonShake Fr G1 G2 J α) (N M q : Nat)
    (hN : adv.Moves N) (hq : adv.Hashes q) (S : Finset Bytes) (hS : ∀ rng : Seed, SALT ++ List.ofFn rng ∈ S)
    (ev : α → Prop) :
    let k : Nat := N * (M ^ 2 + 13)
    let P := fun b => prob (fun x : (S → Wide) × (Fin N → AnonRand Seed M) =>
      let shake := oracle S (fun _ => 0) x.1
      let drawn : Fin N → AnonRand Fr M := fun i => (x.2 i).map (generateFrBytes shake SALT none)
      ev ((adv.with shake).run g b (pad drawn) g.init))
    |P false - P true| ≤ 2 * ((k : ℚ) ^ 2 / 2 ^ 257 + q * k / 2 ^ 256) := by
  intro k P
  -- each world with uniform scalars
  have key : ∀ b, |P b - prob (fun x : (S → Wide) × (Fin N → AnonRand Fr M) =>
      ev ((adv.with (oracle S (fun _ => 0) x.1)).run g b (pad x.2) g.init))|
      ≤ (k : ℚ) ^ 2 / 2 ^ 257 + q * k / 2 ^ 256 := by
    intro b
    have h := C106_game k q (fun _ => SALT) S (fun _ => hS)
      (fun s => AnonShake.play g b (pad (anonAll Fr N M s)) g.init adv)
      (fun s => AnonShake.play_bound g b adv q hq _ _) ev
    simp only [AnonShake.play_eval] at h
    have e1 := prob_equiv' (Equiv.prodCongr (Equiv.refl (S → Wide)) (anonAll Seed N M))
      (fun x : (S → Wide) × (Fin N → AnonRand Seed M) =>
        let shake := oracle S (fun _ => 0) x.1
        let drawn : Fin N → AnonRand Fr M := fun i => (x.2 i).map (generateFrBytes shake SALT none)
        ev ((adv.with shake).run g b (pad drawn) g.init))
    have e2 := prob_equiv' (Equiv.prodCongr (Equiv.refl (S → Wide)) (anonAll Fr N M))
      (fun x : (S → Wide) × (Fin N → AnonRand Fr M) =>
        ev ((adv.with (oracle S (fun _ => 0) x.1)).run g b (pad x.2) g.init))
    simp only [P]
    rw [← e1, ← e2]
    exact h
  have same : prob (fun x : (S → Wide) × (Fin N → AnonRand Fr M) =>
      ev ((adv.with (oracle S (fun _ => 0) x.1)).run g false (pad x.2) g.init))
      = prob (fun x : (S → Wide) × (Fin N → AnonRand Fr M) =>
      ev ((adv.with (oracle S (fun _ => 0) x.1)).run g true (pad x.2) g.init)) := by
    rw [prob_eq_avg, prob_eq_avg, avg_prod, avg_prod]
    refine avg_congr (fun O => ?_)
    have := C89_anonymous g hP hK hz hseed (adv.with (oracle S (fun _ => 0) O)) N M (adv.with_bound _ N hN) ev
    rw [prob_eq_avg, prob_eq_avg] at this
    exact this
  have h0 := key false
  have h1 := key true
  rw [same] at h0
  rw [abs_sub_comm] at h1
  have := abs_sub_le (P false) (prob (fun x : (S → Wide) × (Fin N → AnonRand Fr M) =>
      ev ((adv.with (oracle S (fun _ => 0) x.1)).run g true (pad x.2) g.init))) (P true)
  linarith

end

/-! ### Unforgeability -/

/-- `C106_game` with further random choices `Ω`, independent of SHAKE128 and of the scalars. -/
theorem game_with {Ω α : Type} [Fintype Ω] [Nonempty Ω] (k q : Nat) (salt : Fin k → Bytes) (S : Finset Bytes)
    (hS : ∀ i (rng : Seed), salt i ++ List.ofFn rng ∈ S) (game : Ω → (Fin k → Fr) → OracleProg Bytes Wide α)
    (hq : ∀ ω s, (game ω s).QueryBound q) (ev : Ω → α → Prop) :
    |prob (fun x : Ω × (S → Wide) × (Fin k → Seed) =>
        let shake := oracle S (fun _ => 0) x.2.1
        ev x.1 ((game x.1 (fun i => generateFrBytes shake (salt i) none (x.2.2 i))).eval shake))
      - prob (fun x : Ω × (S → Wide) × (Fin k → Fr) => ev x.1 ((game x.1 x.2.2).eval (oracle S (fun _ => 0) x.2.1)))|
      ≤ (k : ℚ) ^ 2 / 2 ^ 257 + q * k / 2 ^ 256 := by
  rw [prob_eq_avg, prob_eq_avg, avg_prod, avg_prod, avg_sub]
  refine (abs_avg_le _).trans ?_
  rw [← avg_const (X := Ω) ((k : ℚ) ^ 2 / 2 ^ 257 + q * k / 2 ^ 256)]
  refine avg_mono (fun ω => ?_)
  have h := C106_game k q salt S hS (game ω) (hq ω) (ev ω)
  rw [prob_eq_avg, prob_eq_avg] at h
  exact h

/-- An adversary as in C88 that may also compute SHAKE128. -/
inductive FullShake (F G1 G2 α : Type) where
  | done (a : α)
  | shake (m : Bytes) (k : Wide → FullShake F G1 G2 α)
  | hash (q : Query) (k : F → FullShake F G1 G2 α)
  | call (op : Server.Op F) (k : Option G1 → FullView F G1 G2 → FullShake F G1 G2 α)
  | enrol (y c z x : F) (k : Option (G1 × G1) → FullShake F G1 G2 α)
  | prove (i : Nat) (eph : Bytes) (k : Option (CredProof F G1) → FullShake F G1 G2 α)

/-- At most `q` computations of SHAKE128, whatever happens. -/
def FullShake.Hashes {F G1 G2 α : Type} : Nat → FullShake F G1 G2 α → Prop
  | _, .done _ => True
  | 0, .shake _ _ => False
  | q + 1, .shake _ k => ∀ r, (k r).Hashes q
  | q, .hash _ k => ∀ r, (k r).Hashes q
  | q, .call _ k => ∀ r v, (k r v).Hashes q
  | q, .enrol _ _ _ _ k => ∀ r, (k r).Hashes q
  | q, .prove _ _ k => ∀ r, (k r).Hashes q

/-- At most `m` queries to the Fiat-Shamir hash and enrolments and at most `n` proofs, whatever happens. -/
def FullShake.Bound {F G1 G2 α : Type} : Nat → Nat → FullShake F G1 G2 α → Prop
  | _, _, .done _ => True
  | m, n, .shake _ k => ∀ r, (k r).Bound m n
  | 0, _, .hash _ _ => False
  | m + 1, n, .hash _ k => ∀ r, (k r).Bound m n
  | m, n, .call _ k => ∀ r v, (k r v).Bound m n
  | 0, _, .enrol _ _ _ _ _ => False
  | m + 1, n, .enrol _ _ _ _ k => ∀ r, (k r).Bound m n
  | _, 0, .prove _ _ _ => False
  | m, n + 1, .prove _ _ k => ∀ p, (k p).Bound m n

/-- The adversary of C88 that it is for one function `shake`. -/
def FullShake.with {F G1 G2 α : Type} (shake : Bytes → Wide) : FullShake F G1 G2 α → FullProg F G1 G2 α
  | .done a => .done a
  | .shake m k => (k (shake m)).with shake
  | .hash q k => .hash q (fun r => (k r).with shake)
  | .call op k => .call op (fun r v => (k r v).with shake)
  | .enrol y c z x k => .enrol y c z x (fun r => (k r).with shake)
  | .prove i eph k => .prove i eph (fun p => (k p).with shake)

section
variable {F G1 G2 GT α : Type} [Field F] [DecidableEq F] [AddCommGroup G1] [Module F G1]
  [AddCommGroup G2] [Module F G2] [AddCommGroup GT] [Module F GT] [DecidableEq GT]

/-- The game as a program that computes SHAKE128. -/
def FullShake.play (E : Pairing F G1 G2 GT) (enc : Enc G1 G2 GT) (params : AccParams G1 G2) (l : List F)
    (hs : List (F × F)) (O : Query → F) :
    (ws : Nat → ProofRand F) → List ((ValidHolder E params × Bytes) × CredProof F G1) → Game F G1 G2 →
    FullShake F G1 G2 α →
      OracleProg Bytes Wide (Rust (α × Game F G1 G2) × List ((ValidHolder E params × Bytes) × CredProof F G1))
  | _, L, g, .done a => .done (.ok (a, g), L)
  | ws, L, g, .shake m k => .ask m (fun r => FullShake.play E enc params l hs O ws L g (k r))
  | ws, L, g, .hash q k => FullShake.play E enc params l hs O ws L g (k (O q))
  | ws, L, g, .call op k =>
    if allowed g.server.ids g.left op then
      match g.server.step op with
      | .error e => .done (.error e, L)
      | .ok (s', r) =>
        FullShake.play E enc params l hs O ws L ⟨s', leftAfter g.server.ids g.left op, g.calls ++ [op]⟩ (k r s'.fullView)
    else FullShake.play E enc params l hs O ws L g (k none g.server.fullView)
  | ws, L, g, .enrol y c z x k =>
    if y ∈ l then
      match g.server.witness (fun _ _ => O (issueQuery enc params c z (x • params.k1))) enc params y c z (x • params.k1) with
      | .error e => .done (.error e, L)
      | .ok o => FullShake.play E enc params l hs O ws L g (k o)
    else FullShake.play E enc params l hs O ws L g (k none)
  | ws, L, g, .prove i eph k =>
    match hs[i]? with
    | none => FullShake.play E enc params l hs O ws L g (k none)
    | some (y, x) =>
      match honestHolder E enc params g.server y x with
      | none => FullShake.play E enc params l hs O ws L g (k none)
      | some h =>
        let pv := credProver E enc params holderOf
        let p := pv.respond (h, eph) (ws 0) (O (pv.commit (h, eph) (ws 0)))
        FullShake.play E enc params l hs O (fun i => ws (i + 1)) (L ++ [((h, eph), p)]) g (k (some p))

theorem FullShake.play_eval (E : Pairing F G1 G2 GT) (enc : Enc G1 G2 GT) (params : AccParams G1 G2) (l : List F)
    (hs : List (F × F)) (O : Query → F) (shake : Bytes → Wide) (p : FullShake F G1 G2 α) :
    ∀ (ws : Nat → ProofRand F) (L : List ((ValidHolder E params × Bytes) × CredProof F G1)) (g : Game F G1 G2),
      (FullShake.play E enc params l hs O ws L g p).eval shake
        = ((p.with shake).play E enc params l hs g).real (credProver E enc params holderOf) O ws L := by
  induction p with
  | done a => intro ws L g; rfl
  | shake m k ih => intro ws L g; exact ih _ ws L g
  | hash q k ih => intro ws L g; exact ih _ ws L g
  | call op k ih =>
    intro ws L g
    simp only [FullShake.play, FullShake.with, FullProg.play]
    split
    · split
      · rename_i h; rw [h]; rfl
      · rename_i h; rw [h]; exact ih _ _ ws L _
    · exact ih _ _ ws L g
  | enrol y c z x k ih =>
    intro ws L g
    simp only [FullShake.play, FullShake.with, FullProg.play]
    split
    · simp only [ProverProg.real]
      split
      · rename_i h; rw [h]; rfl
      · rename_i h; rw [h]; exact ih _ ws L g
    · exact ih _ ws L g
  | prove i eph k ih =>
    intro ws L g
    simp only [FullShake.play, FullShake.with, FullProg.play]
    rcases h : hs[i]? with _ | ⟨y, x⟩
    · exact ih _ ws L g
    · dsimp only
      rcases h' : honestHolder E enc params g.server y x with _ | hh
      · exact ih _ ws L g
      · dsimp only
        simp only [ProverProg.real]
        exact ih _ _ _ g

theorem FullShake.with_bound (shake : Bytes → Wide) (p : FullShake F G1 G2 α) :
    ∀ m n, p.Bound m n → (p.with shake).Bound m n := by
  induction p with
  | done a => intro m n _; cases m <;> cases n <;> trivial
  | shake x k ih =>
    intro m n h
    exact ih _ m n (by cases m <;> cases n <;> exact h _)
  | hash x k ih =>
    intro m n h
    cases m with
    | zero => cases n <;> exact absurd h id
    | succ m => cases n <;> exact fun r => ih r _ _ (h r)
  | call x k ih =>
    intro m n h
    cases m <;> cases n <;> exact fun r v => ih r v _ _ (h r v)
  | enrol y c z x k ih =>
    intro m n h
    cases m with
    | zero => cases n <;> exact absurd h id
    | succ m => cases n <;> exact fun r => ih r _ _ (h r)
  | prove i eph k ih =>
    intro m n h
    cases n with
    | zero => cases m <;> exact absurd h id
    | succ n => cases m <;> exact fun r => ih r _ _ (h r)

theorem FullShake.play_bound (E : Pairing F G1 G2 GT) (enc : Enc G1 G2 GT) (params : AccParams G1 G2) (l : List F)
    (hs : List (F × F)) (O : Query → F) (p : FullShake F G1 G2 α) :
    ∀ (q : Nat), p.Hashes q → ∀ (ws : Nat → ProofRand F) (L : List ((ValidHolder E params × Bytes) × CredProof F G1))
      (g : Game F G1 G2), (FullShake.play E enc params l hs O ws L g p).QueryBound q := by
  have hd : ∀ (q : Nat) (a : Rust (α × Game F G1 G2) × List ((ValidHolder E params × Bytes) × CredProof F G1)),
      OracleProg.QueryBound q (.done a : OracleProg Bytes Wide _) := fun q a => by cases q <;> trivial
  induction p with
  | done a => intro q _ ws L g; exact hd q _
  | shake m k ih =>
    intro q hq ws L g
    cases q with
    | zero => exact absurd hq id
    | succ q => exact fun r => ih r q (hq r) ws L g
  | hash m k ih =>
    intro q hq ws L g
    exact ih _ q (by cases q <;> exact hq _) ws L g
  | call op k ih =>
    intro q hq ws L g
    have hq' : ∀ r v, (k r v).Hashes q := by cases q <;> exact hq
    simp only [FullShake.play]
    split
    · split
      · exact hd q _
      · exact ih _ _ q (hq' _ _) ws L _
    · exact ih _ _ q (hq' _ _) ws L g
  | enrol y c z x k ih =>
    intro q hq ws L g
    have hq' : ∀ r, (k r).Hashes q := by cases q <;> exact hq
    simp only [FullShake.play]
    split
    · split
      · exact hd q _
      · exact ih _ q (hq' _) ws L g
    · exact ih _ q (hq' _) ws L g
  | prove i eph k ih =>
    intro q hq ws L g
    have hq' : ∀ r, (k r).Hashes q := by cases q <;> exact hq
    simp only [FullShake.play]
    rcases h : hs[i]? with _ | ⟨y, x⟩
    · exact ih _ q (hq' _) ws L g
    · dsimp only
      rcases h' : honestHolder E enc params g.server y x with _ | hh
      · exact ih _ q (hq' _) ws L g
      · exact ih _ q (hq' _) _ _ g

end

/-- The eleven random choices of a presentation. -/
def proofIndex (X : Type) : (Fin 11 → X) ≃ ProofRand X where
  toFun v := ⟨v 0, v 1, v 2, v 3, v 4, v 5, v 6, v 7, v 8, v 9, v 10⟩
  invFun r := ![r.r0, r.r1, r.r2, r.k0, r.k1, r.k2, r.k3, r.k4, r.k5, r.k6, r.k7]
  left_inv v := by
    funext i
    fin_cases i <;> rfl
  right_inv r := rfl

/-- The server's three secrets and the random choices of `n` presentations. -/
def fullAll (X : Type) (n : Nat) : (Fin 3 ⊕ Fin n × Fin 11 → X) ≃ (X × X × X) × (Fin n → ProofRand X) where
  toFun v := ((v (.inl 0), v (.inl 1), v (.inl 2)), fun i => proofIndex X (fun j => v (.inr (i, j))))
  invFun r
    | .inl i => ![r.1.1, r.1.2.1, r.1.2.2] i
    | .inr p => (proofIndex X).symm (r.2 p.1) p.2
  left_inv v := by
    funext x
    rcases x with i | p
    · fin_cases i <;> rfl
    · simp
  right_inv r := by
    ext1
    · rfl
    · funext i
      simp

/-- The salt each of them is drawn with: src/accumulator/key.rs:40, src/witness.rs:178-192. -/
def fullSalt {n : Nat} : Fin 3 ⊕ Fin n × Fin 11 → Bytes
  | .inl _ => ascii "VB-ACC-KEYGEN-SALT-"
  | .inr _ => SALT

section
variable {G1 G2 GT : Type} [AddCommGroup G1] [Module Fr G1] [AddCommGroup G2] [Module Fr G2]
  [AddCommGroup GT] [Module Fr GT] [DecidableEq GT] {Ω : Type} [Fintype Ω] [Nonempty Ω]

/-- **C106** (unforgeability with the randomness the code draws). In the game of C105, the server's secrets are made by
`SecretKey::new(None)` and the scalars for the proofs of honest users by `generate_fr(SALT, None, OsRng)`, from 32 random
bytes each, and the adversary may also compute SHAKE128, a random function, at most `q` times. Its probability of winning
differs by at most `k²/2^257 + q·k/2^256`, for `k = 3 + 11n`, from the one in the game of C105, with uniform secrets, of
the adversary that chooses the values of SHAKE128 itself, at random. So the bound of C105 applies to the code's
randomness. -/
theorem C106_unforgeable [Fintype G1] (E : Pairing Fr G1 G2 GT) (enc : Enc G1 G2 GT) (h2 : Bytes → Bytes → G2)
    (T : Finset (Bytes × Bytes)) (U l : List Fr) (hs : List (Fr × Fr)) (Q : Finset Query)
    (adv : Ω → AccParams G1 G2 → FullView Fr G1 G2 → FullShake Fr G1 G2 (Presentation Fr G1 G2)) (n q : Nat)
    (hq : ∀ ω P v, (adv ω P v).Hashes q) (S : Finset Bytes) (hS : ∀ rng : Seed, SALT ++ List.ofFn rng ∈ S)
    (hS' : ∀ rng : Seed, ascii "VB-ACC-KEYGEN-SALT-" ++ List.ofFn rng ∈ S) :
    let adv' : Ω × (S → Wide) → FullAdv Fr G1 G2 := fun x P v => (adv x.1 P v).with (oracle S (fun _ => 0) x.2)
    let k : Nat := 3 + 11 * n
    |prob (fun x : (T → G1) × (((Ω × (S → Wide)) × Seed × Seed × Seed) × (Q → Fr) × (Fin n → ProofRand Seed)) =>
        let shake := oracle S (fun _ => 0) x.2.1.1.2
        let key := generateFrBytes shake (ascii "VB-ACC-KEYGEN-SALT-") none
        let drawn : Fin n → ProofRand Fr := fun i => (x.2.2.2 i).map (generateFrBytes shake SALT none)
        PlayWins E enc (hashedParams E h2 T x.1) U l hs (adv' x.2.1.1) (key x.2.1.2.1) (key x.2.1.2.2.1)
          (key x.2.1.2.2.2) (oracle Q 0 x.2.2.1) (pad drawn))
      - prob (fun x : (T → G1) × (((Ω × (S → Wide)) × Fr × Fr × Fr) × (Q → Fr) × (Fin n → ProofRand Fr)) =>
        PlayWins E enc (hashedParams E h2 T x.1) U l hs (adv' x.2.1.1) x.2.1.2.1 x.2.1.2.2.1 x.2.1.2.2.2
          (oracle Q 0 x.2.2.1) (pad x.2.2.2))| ≤ (k : ℚ) ^ 2 / 2 ^ 257 + q * k / 2 ^ 256 := by
  intro adv' k
  -- all scalars in a row
  let ix : Fin 3 ⊕ Fin n × Fin 11 ≃ Fin k := Fintype.equivFinOfCardEq (by
    rw [Fintype.card_sum, Fintype.card_prod, Fintype.card_fin, Fintype.card_fin, Fintype.card_fin, mul_comm])
  let all : ∀ X : Type, (Fin k → X) ≃ (X × X × X) × (Fin n → ProofRand X) := fun X =>
    (Equiv.arrowCongr ix.symm (Equiv.refl X)).trans (fullAll X n)
  let Ω' := (T → G1) × Ω × (Q → Fr)
  let par : Ω' → AccParams G1 G2 := fun w => hashedParams E h2 T w.1
  let game : (w : Ω') → (Fin k → Fr) → OracleProg Bytes Wide Prop := fun w s =>
    let a := all Fr s
    let srv := Server.new (par w) a.1.1 a.1.2.2 a.1.2.1
    (FullShake.play E enc (par w) l hs (oracle Q 0 w.2.2) (pad a.2) [] ⟨srv, U, []⟩ (adv w.2.1 (par w) srv.fullView)).map
      (fun out => ∃ p g, out.1 = .ok (p, g) ∧ p.accepted E (asHash (oracle Q 0 w.2.2)) enc (par w) ∧
        g.server.getAccumulator = .ok p.accumulator ∧ p.keys = g.server.getPublicKeys ∧
        ∀ z ∈ out.2, (shown (publicOf holderOf) z.1 z.2).query E enc (par w) ≠ p.query E enc (par w))
  have hgame : ∀ w s O, (game w s).eval (oracle S (fun _ => 0) O)
      = PlayWins E enc (par w) U l hs (adv' (w.2.1, O)) (all Fr s).1.1 (all Fr s).1.2.1 (all Fr s).1.2.2
        (oracle Q 0 w.2.2) (pad (all Fr s).2) := by
    intro w s O
    simp only [game, OracleProg.eval_map, FullShake.play_eval]
    rfl
  have h := game_with (Ω := Ω') k q (fun i => fullSalt (ix.symm i)) S (by
      intro i rng
      rcases ix.symm i with j | j
      · exact hS' rng
      · exact hS rng) game (fun w s => OracleProg.queryBound_map _ _ _ (FullShake.play_bound E enc _ l hs _ _ q (hq _ _ _) _ _ _))
      (fun _ p => p)
  have hdraw : ∀ (shake : Bytes → Wide) (v : Fin k → Seed),
      all Fr (fun i => generateFrBytes shake (fullSalt (ix.symm i)) none (v i)) =
        ((generateFrBytes shake (ascii "VB-ACC-KEYGEN-SALT-") none (all Seed v).1.1,
          generateFrBytes shake (ascii "VB-ACC-KEYGEN-SALT-") none (all Seed v).1.2.1,
          generateFrBytes shake (ascii "VB-ACC-KEYGEN-SALT-") none (all Seed v).1.2.2),
          fun i => ((all Seed v).2 i).map (generateFrBytes shake SALT none)) := by
    intro shake v
    have e : (Equiv.arrowCongr ix.symm (Equiv.refl Fr))
          (fun i => generateFrBytes shake (fullSalt (ix.symm i)) none (v i))
        = fun j => generateFrBytes shake (fullSalt j) none ((Equiv.arrowCongr ix.symm (Equiv.refl Seed)) v j) := by
      funext j
      simp only [Equiv.arrowCongr_apply, Function.comp_apply, Equiv.refl_apply, Equiv.symm_symm, Equiv.symm_apply_apply]
    show fullAll Fr n _ = _
    rw [e]
    rfl
  simp only [hgame, hdraw] at h
  -- the same sample spaces, in another order
  let re : ∀ X : Type, Ω' × (S → Wide) × (Fin k → X) ≃
      (T → G1) × (((Ω × (S → Wide)) × X × X × X) × (Q → Fr) × (Fin n → ProofRand X)) := fun X =>
    { toFun := fun x => (x.1.1, ((x.1.2.1, x.2.1), (all X x.2.2).1), x.1.2.2, (all X x.2.2).2)
      invFun := fun y => ((y.1, y.2.1.1.1, y.2.2.1), y.2.1.1.2, (all X).symm (y.2.1.2, y.2.2.2))
      left_inv := fun x => by simp
      right_inv := fun y => by simp }
  refine le_of_eq_of_le (congrArg abs (congrArg₂ (· - ·) ?_ ?_)) h
  · exact (prob_equiv' (re Seed) _).symm
  · exact (prob_equiv' (re Fr) _).symm

theorem mono_forking {x y c M R : ℚ} (hM : 0 < M) (hc : 0 ≤ c) (hx : 0 ≤ x) (hxy : x ≤ y) (hR : 0 ≤ R)
    (h : y * (y / M - c) ≤ R) : x * (x / M - c) ≤ R := by
  by_cases h0 : x / M - c ≤ 0
  · exact (mul_nonpos_of_nonneg_of_nonpos hx h0).trans hR
  · have h1 : x / M - c ≤ y / M - c := by gcongr
    exact (mul_le_mul hxy h1 (le_of_lt (not_le.1 h0)) (hx.trans hxy)).trans h

/-- **C106** (unforgeability without corrupted users). The bound of C105, for the randomness the code draws. -/
theorem C106_outsider [Fintype G1] (E : Pairing Fr G1 G2 GT) (enc : Enc G1 G2 GT) (he1 : Function.Injective enc.g1)
    (he2 : Function.Injective enc.g2) (he3 : Function.Injective enc.gt) (h2 : Bytes → Bytes → G2) (hK : hashedK2 h2 ≠ 0)
    (T : Finset (Bytes × Bytes)) (hT : ∀ n : UInt8, 250 ≤ n → genString n ∈ T) (U : List Fr) (hs : List (Fr × Fr))
    (adv : Ω → AccParams G1 G2 → FullView Fr G1 G2 → FullShake Fr G1 G2 (Presentation Fr G1 G2)) (m n q : Nat)
    (hb : ∀ ω P v, (adv ω P v).Bound m n) (hq : ∀ ω P v, (adv ω P v).Hashes q) (S : Finset Bytes)
    (hS : ∀ rng : Seed, SALT ++ List.ofFn rng ∈ S) (hS' : ∀ rng : Seed, ascii "VB-ACC-KEYGEN-SALT-" ++ List.ofFn rng ∈ S) :
    ∃ Q₀ : Finset Query, ∀ Q, Q₀ ⊆ Q → ∀ X : G1,
    let adv' : Ω × (S → Wide) → FullAdv Fr G1 G2 := fun x P v => (adv x.1 P v).with (oracle S (fun _ => 0) x.2)
    let ids := hs.map (·.1)
    let K2 := hashedK2 h2
    let k : Nat := 3 + 11 * n
    let a := prob (fun x : (T → G1) × (((Ω × (S → Wide)) × Seed × Seed × Seed) × (Q → Fr) × (Fin n → ProofRand Seed)) =>
        let shake := oracle S (fun _ => 0) x.2.1.1.2
        let key := generateFrBytes shake (ascii "VB-ACC-KEYGEN-SALT-") none
        let drawn : Fin n → ProofRand Fr := fun i => (x.2.2.2 i).map (generateFrBytes shake SALT none)
        PlayWins E enc (hashedParams E h2 T x.1) U [] hs (adv' x.2.1.1) (key x.2.1.2.1) (key x.2.1.2.2.1)
          (key x.2.1.2.2.2) (oracle Q 0 x.2.2.1) (pad drawn))
    let a' := a - ((k : ℚ) ^ 2 / 2 ^ 257 + q * k / 2 ^ 256) - ((U.length : ℚ) + 2 + hs.length) / Nat.card Fr
      - n * (m + 1 + n) * (1 / (Nat.card Fr : ℚ) ^ 5)
    0 ≤ a' →
    a' * (a' / (m + 1) - 1 / Nat.card Fr) ≤
      prob (fun x : (Fin 3 → G1) × (Secrets (Ω × (S → Wide)) Fr × (Fin n → CredProof Fr G1)) × (Q → Fr) × (Q → Fr) =>
        SolvesAlpha E enc K2 U [] ids adv' Q x.1 x.2.1.1 x.2.1.2 x.2.2.1 x.2.2.2) +
      prob (fun x : (Fin 3 → G1) × (Secrets (Ω × (S → Wide)) Fr × (Fin n → CredProof Fr G1)) × (Q → Fr) × (Q → Fr) =>
        SolvesSign E enc K2 U [] ids adv' Q x.1 x.2.1.1 x.2.1.2 x.2.2.1 x.2.2.2) +
      prob (fun x : (Secrets (Ω × (S → Wide)) Fr × (Fin n → CredProof Fr G1)) × ((Fin 3 → Fr) × (Fin 3 → Fr)) ×
          (Q → Fr) × (Q → Fr) =>
        logFromXYZ E enc K2 U [] ids adv' Q X x.1.1 x.1.2 x.2.1.1 x.2.1.2 x.2.2.1 x.2.2.2 • E.g1 = X)
          / (1 - 1 / Nat.card Fr) +
      prob (fun x : (((Ω × (S → Wide)) × Fr × Fr × Fr) × (Fin n → CredProof Fr G1) × (Fin 3 → G1)) ×
          ((Fin 2 → Fr) × (Fin 2 → Fr)) × (Q → Fr) × (Q → Fr) =>
        logFromK E enc K2 U [] ids (adv' x.1.1.1) Q X x.1.1.2.1 x.1.1.2.2.1 x.1.1.2.2.2 x.1.2.1 x.1.2.2 x.2.1.1 x.2.1.2
          x.2.2.1 x.2.2.2 • E.g1 = X) / (1 - 1 / Nat.card Fr) := by
  obtain ⟨Q₀, h⟩ := C105_outsider (Ω := Ω × (S → Wide)) E enc he1 he2 he3 h2 hK T hT U hs
    (fun x P v => (adv x.1 P v).with (oracle S (fun _ => 0) x.2)) m n
    (fun ω P v => FullShake.with_bound _ _ m n (hb ω.1 P v))
  refine ⟨Q₀, fun Q hQ X => ?_⟩
  intro adv' ids K2 k a a' ha'
  have h1 := C106_unforgeable E enc h2 T U [] hs Q adv n q hq S hS hS'
  have h2 := (abs_le.1 h1).2
  have h3 := h Q hQ X
  simp only at h3
  have hcard : (1 : ℚ) ≤ Nat.card Fr := by
    have : 0 < Nat.card Fr := Nat.card_pos
    exact_mod_cast this
  have hpos : ∀ z : ℚ, 0 ≤ z → 0 ≤ z / (1 - 1 / Nat.card Fr) := fun z hz =>
    div_nonneg hz (by
      rw [sub_nonneg, div_le_one (by linarith)]
      exact hcard)
  refine mono_forking (by positivity) (by positivity) ha' ?_ ?_ (h3 (le_trans ha' ?_))
  · simp only [a', a]
    linarith
  · exact add_nonneg (add_nonneg (add_nonneg (prob_nonneg _) (prob_nonneg _)) (hpos _ (prob_nonneg _)))
      (hpos _ (prob_nonneg _))
  · simp only [a', a]
    linarith

end
end Allo
