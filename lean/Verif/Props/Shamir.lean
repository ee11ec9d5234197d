import Verif.Lemmas.ShamirCheck
import Verif.Model.User
import Mathlib.Data.Rat.Defs
import Mathlib.Algebra.Field.Rat

/-!
# C33 – C37: secret sharing (`src/utils.rs:111-227`) and what coalitions of servers see

Throughout, `hc : ∀ i, 0 < i → i ≤ n → (i : F) ≠ 0` says that the number of servers is below the
field characteristic (for BLS12-381 it is about `2^255`).
-/

set_option linter.unusedSectionVars false
set_option linter.unusedVariables false
namespace Allo
open Spec Finset

section
variable {F M : Type} [Field F] [DecidableEq F] [AddCommGroup M] [Module F M] [DecidableEq M]

/-! ## C33 -/

/-- `shamir_share` returns the values at `1, …, n` of a polynomial of degree `< t` whose constant term
is the secret. -/
theorem C33_shares (t n : Nat) (ht : 1 ≤ t) (secret : F) (coef : Nat → F) :
    ∃ A : List F, A.length = t ∧ A.head? = some secret ∧
      shamirShare t n secret coef = .ok ((List.range n).map
        (fun i => (((i + 1 : Nat) : F), polyVal ((i + 1 : Nat) : F) A))) :=
  ⟨_, sharePoly_length t ht secret coef, rfl, shamirShare_ok t n ht secret coef⟩

/-- Every such polynomial is used for some randomness. -/
theorem C33_shares_onto (t n : Nat) (A : List F) (a : F) (hA : (a :: A).length = t) :
    ∃ coef : Nat → F, shamirShare t n a coef = .ok ((List.range n).map
        (fun i => (((i + 1 : Nat) : F), polyVal ((i + 1 : Nat) : F) (a :: A)))) := by
  simp at hA
  refine ⟨fun k => A.getD (k - 1) 0, ?_⟩
  rw [shamirShare_ok t n (by omega)]
  have : sharePoly t a (fun k => A.getD (k - 1) 0) = a :: A := by
    unfold sharePoly
    congr 1
    apply List.ext_getElem
    · simp; omega
    · intro i h1 h2; simp [h2]
  rw [this]

/-- Threshold 0 is a panic. -/
theorem C33_zero_threshold (n : Nat) (secret : F) (coef : Nat → F) :
    shamirShare 0 n secret coef = .error .index := rfl

/-- Shares at pairwise distinct non-zero points of a polynomial of degree `< t`: rebuilding any `t` of
them gives the value at `0`. -/
theorem rebuild_exact (t : Nat) (ht : 1 ≤ t) (A : List M) (hA : A.length = t) (sel : List (F × M))
    (hl : sel.length = t) (h0 : (0 : F) ∉ sel.map (·.1)) (hd : (sel.map (·.1)).Nodup)
    (hv : ∀ p ∈ sel, p.2 = polyVal p.1 A) :
    ∃ cs, shamirCoefficients t sel = .ok (cs, none) ∧
      shamirRebuildPoint sel cs none = .ok (some (polyVal (0 : F) A)) := by
  have hp : GoodPts t sel := goodPts_of t sel (by omega)
    (by rwa [List.take_of_length_le (by omega)]) (by rwa [List.take_of_length_le (by omega)])
  have hvv : ∀ i < t, ptV sel i = polyVal (ptX sel i) A := by
    intro i hi
    rw [← ptV_lt (by omega), ← ptX_lt (by omega)]
    exact hv _ (List.getElem_mem _)
  refine ⟨_, shamirCoefficients_exact t sel hp hl, ?_⟩
  rw [rebuild_nocheck t sel _ (by omega), ← lagr_polyVal (range t) (ptX sel) hp.injOn 0 A (by simp [hA])]
  congr 2
  apply sum_congr rfl
  intro i hi
  rw [mem_range] at hi
  rw [hvv i hi]

theorem sharing_pts (t n : Nat) (ht : 1 ≤ t) (hc : ∀ i, 0 < i → i ≤ n → (i : F) ≠ 0)
    (secret : F) (coef : Nat → F) (shares : List (F × F))
    (hs : shamirShare t n secret coef = .ok shares) :
    shares.length = n ∧ (0 : F) ∉ shares.map (·.1) ∧ (shares.map (·.1)).Nodup ∧
      (∀ p ∈ shares, p.2 = polyVal p.1 (sharePoly t secret coef)) ∧
      (∀ i < n, ptX shares i = ((i + 1 : Nat) : F)) := by
  rw [shamirShare_ok t n ht] at hs
  injection hs with hs
  subst hs
  refine ⟨by simp, ?_, ?_, ?_, ?_⟩
  · simp only [List.map_map, List.mem_map, not_exists, not_and]
    intro i hi
    rw [List.mem_range] at hi
    exact hc (i + 1) (by omega) (by omega)
  · rw [List.map_map]
    apply List.Nodup.map_on _ List.nodup_range
    intro i hi j hj e
    rw [List.mem_range] at hi hj
    have := cast_inj_of hc (by omega) (by omega) e
    omega
  · simp only [List.mem_map]
    rintro p ⟨i, _, rfl⟩; rfl
  · intro i hi; simp [ptX, hi]

/-- The round trip on all `n ≥ t` shares: with the check coefficients the code computes (present exactly
when `n > t`) and also without using them, the secret comes back. -/
theorem C33_round_trip (t n : Nat) (ht : 1 ≤ t) (hn : t ≤ n)
    (hc : ∀ i, 0 < i → i ≤ n → (i : F) ≠ 0) (secret : F) (coef : Nat → F) :
    ∃ shares cs ch, shamirShare t n secret coef = .ok shares ∧
      shamirCoefficients t shares = .ok (cs, ch) ∧ (ch.isSome ↔ t < n) ∧
      shamirRebuildScalar shares cs ch = .ok (some secret) ∧
      shamirRebuildScalar shares cs none = .ok (some secret) := by
  obtain ⟨shares, hs⟩ : ∃ shares, shamirShare t n secret coef = .ok shares :=
    ⟨_, shamirShare_ok t n ht secret coef⟩
  obtain ⟨hl, h0, hd, hv, hx⟩ := sharing_pts t n ht hc secret coef shares hs
  have hp : ∀ m ≤ n, GoodPts m shares := fun m hm => goodPts_std hc shares hl hx m hm
  have hg := sharePoly_polyFn t ht secret coef
  have hvv : ∀ i < n, ptV shares i = polyVal (ptX shares i) (sharePoly t secret coef) := by
    intro i hi
    rw [← ptV_lt (by omega), ← ptX_lt (by omega)]
    exact hv _ (List.getElem_mem _)
  have hno : shamirRebuildScalar shares ((List.range t).map (lagr (range t) (ptX shares) 0)) none
      = .ok (some secret) := by
    rw [rebuildScalar_eq, rebuild_nocheck t shares _ (by omega)]
    congr 2
    rw [← sharePoly_zero t secret coef, ← hg.interp (range t) (by simp) (ptX shares) (hp t hn).injOn 0]
    apply sum_congr rfl
    intro i hi
    rw [mem_range] at hi
    rw [hvv i (by omega)]
  obtain ⟨cs, ch, h1, h2⟩ := rebuild_polyFn t ht shares shares _ hg (by omega) rfl
    (hp _ (by omega)) (fun _ _ => rfl) (fun i hi => hvv i (by omega))
    (fun h => by rw [hx 0 (by omega)]; simp)
  refine ⟨shares, cs, ch, hs, h1, ?_, ?_, ?_⟩
  · by_cases he : n = t
    · rw [shamirCoefficients_exact t shares (hp t hn) (by omega)] at h1
      injection h1 with h1; injection h1 with _ h1; subst h1; simp; omega
    · rw [shamirCoefficients_extra t ht shares (hp _ (by omega))] at h1
      injection h1 with h1; injection h1 with _ h1; subst h1; simp; omega
  · rw [rebuildScalar_eq, h2]
    show Except.ok (some (polyVal (0 : F) (sharePoly t secret coef))) = _
    rw [sharePoly_zero]
  · have : cs = (List.range t).map (lagr (range t) (ptX shares) 0) := by
      by_cases he : n = t
      · rw [shamirCoefficients_exact t shares (hp t hn) (by omega)] at h1
        injection h1 with h1; injection h1 with h1 _; exact h1.symm
      · rw [shamirCoefficients_extra t ht shares (hp _ (by omega))] at h1
        injection h1 with h1; injection h1 with h1 _; exact h1.symm
    rw [this]; exact hno

/-- Any `t` of the shares, in any order, rebuild the secret. -/
theorem C33_any_t_shares (t n : Nat) (ht : 1 ≤ t) (hc : ∀ i, 0 < i → i ≤ n → (i : F) ≠ 0)
    (secret : F) (coef : Nat → F) (shares : List (F × F))
    (hs : shamirShare t n secret coef = .ok shares) (sel : List (F × F)) (hsub : sel ⊆ shares)
    (hnd : sel.Nodup) (hl : sel.length = t) :
    ∃ cs, shamirCoefficients t sel = .ok (cs, none) ∧
      shamirRebuildScalar sel cs none = .ok (some secret) := by
  obtain ⟨_, h0, _, hv, _⟩ := sharing_pts t n ht hc secret coef shares hs
  have := rebuild_exact t ht (sharePoly t secret coef) (sharePoly_length t ht _ _) sel hl
    (fun h => by
      obtain ⟨p, hp, e⟩ := List.mem_map.1 h
      exact h0 (List.mem_map.2 ⟨p, hsub hp, e⟩))
    (List.Nodup.map_on (fun p hp q hq e => by
      apply Prod.ext e
      rw [hv p (hsub hp), hv q (hsub hq), e]) hnd)
    (fun p hp => hv p (hsub hp))
  obtain ⟨cs, h1, h2⟩ := this
  refine ⟨cs, h1, ?_⟩
  rw [rebuildScalar_eq, h2, sharePoly_zero]

/-! ## C34 -/

/-- Share number `i` of `σ` under the randomness `c`, read off `shamir_share`'s result. -/
def shareAt (t n : Nat) (σ : F) (c : Nat → F) (i : Nat) : F :=
  match shamirShare t n σ c with
  | .ok l => (l.map (·.2)).getD i 0
  | .error _ => 0

theorem shareAt_eq (t n : Nat) (ht : 1 ≤ t) (σ : F) (c : Nat → F) (i : Nat) (hi : i < n) :
    shareAt t n σ c i = polyVal ((i + 1 : Nat) : F) (sharePoly t σ c) := by
  unfold shareAt
  rw [shamirShare_ok t n ht]
  simp [hi]

theorem PolyFn.listSum {t : Nat} (ht : 1 ≤ t) (l : List (F × (Nat → F) × M)) (w0 : M) :
    PolyFn t (fun z : F => w0 + (l.map (fun s => polyVal z (sharePoly t s.1 s.2.1) • s.2.2)).sum) := by
  induction l generalizing w0 with
  | nil => simpa using PolyFn.const t ht w0
  | cons s l ih =>
    have h := (PolyFn.smul (sharePoly_polyFn t ht s.1 s.2.1) s.2.2).add (ih w0)
    have e : (fun z : F => w0 + ((s :: l).map (fun s => polyVal z (sharePoly t s.1 s.2.1) • s.2.2)).sum)
        = fun z => polyVal z (sharePoly t s.1 s.2.1) • s.2.2 + (w0 + (l.map (fun s =>
          polyVal z (sharePoly t s.1 s.2.1) • s.2.2)).sum) := by
      funext z; simp only [List.map_cons, List.sum_cons]; abel
    rw [e]; exact h

/-- Each party combines its shares of the secrets `σ₁, …, σ_m` to `w₀ + Σ share_j • w_j` (the `w_j` may be
scalars or curve points). Rebuilding the results, with the check if there is one, gives
`w₀ + Σ σ_j • w_j`. `coefPts` is whatever share vector the coefficients were computed from. -/
theorem C34_affine (t n : Nat) (ht : 1 ≤ t) (hn : t ≤ n) (hc : ∀ i, 0 < i → i ≤ n → (i : F) ≠ 0)
    (w0 : M) (terms : List (F × (Nat → F) × M)) {T : Type} (coefPts : List (F × T))
    (hpts : coefPts.map (·.1) = (List.range n).map (fun i => ((i + 1 : Nat) : F))) :
    ∃ cs ch, shamirCoefficients t coefPts = .ok (cs, ch) ∧
      shamirRebuildPoint ((List.range n).map (fun i => (((i + 1 : Nat) : F),
          w0 + (terms.map (fun s => shareAt t n s.1 s.2.1 i • s.2.2)).sum))) cs ch
        = .ok (some (w0 + (terms.map (fun s => s.1 • s.2.2)).sum)) := by
  have hlen : coefPts.length = n := by simpa using congrArg List.length hpts
  have hX : ∀ i < n, ptX coefPts i = ((i + 1 : Nat) : F) := by
    intro i hi; simp [ptX, hpts, hi]
  have hg := PolyFn.listSum ht terms w0
  have := rebuild_polyFn t ht coefPts ((List.range n).map (fun i => (((i + 1 : Nat) : F),
          w0 + (terms.map (fun s => shareAt t n s.1 s.2.1 i • s.2.2)).sum))) _ hg (by simpa using hn)
    (by simp [hlen]) (goodPts_std hc coefPts hlen hX _ (by omega))
    (fun i hi => by
      simp at hi
      rw [hX i hi]; simp [ptX, hi])
    (fun i hi => by
      simp at hi
      rw [hX i (by omega)]
      simp only [ptV, List.map_map]
      rw [List.getD_eq_getElem?_getD]
      simp only [List.getElem?_map, List.getElem?_range (show i < n by omega), Option.map_some,
        Option.getD_some, Function.comp]
      congr 2
      apply List.map_congr_left
      intro s _
      rw [shareAt_eq t n ht _ _ _ (by omega)])
    (fun h => by rw [hX 0 (by omega)]; simp)
  obtain ⟨cs, ch, h1, h2⟩ := this
  refine ⟨cs, ch, h1, ?_⟩
  rw [h2]
  simp only [sharePoly_zero]

/-! ## C35, C36: the consistency check -/

/-- What rebuilding does with `n > t` shares at distinct non-zero points, whatever the values: it always
returns, the result depends on the first `t + 1` shares only, and it is `Some` exactly when
`x₀² • v_t` continues the polynomial through the first `t` shares. -/
theorem rebuild_outcome (t : Nat) (ht : 1 ≤ t) {T : Type} (coefPts : List (F × T))
    (shares : List (F × M)) (hl : t < shares.length)
    (hpts : coefPts.map (·.1) = shares.map (·.1))
    (h0 : (0 : F) ∉ (shares.take (t + 1)).map (·.1)) (hd : ((shares.take (t + 1)).map (·.1)).Nodup) :
    ∃ cs ch, shamirCoefficients t coefPts = .ok (cs, some ch) ∧
      shamirRebuildPoint shares cs (some ch)
      = .ok (if ptX shares 0 ^ 2 • ptV shares t
            = ∑ i ∈ range t, lagr (range t) (ptX shares) (ptX shares t) i • ptV shares i
        then some (∑ i ∈ range t, lagr (range t) (ptX shares) 0 i • ptV shares i) else none) := by
  have hp : GoodPts (t + 1) shares := goodPts_of _ _ hl h0 hd
  have hX := ptX_congr _ _ hpts
  have hlen : coefPts.length = shares.length := by simpa using congrArg List.length hpts
  have hp' : GoodPts (t + 1) coefPts :=
    ⟨by omega, by rw [hX]; exact hp.ne0, by rw [hX]; exact hp.inj⟩
  refine ⟨_, _, shamirCoefficients_extra t ht coefPts hp', ?_⟩
  rw [rebuild_check_general t ht shares coefPts hp' (fun i _ => by rw [hX]) hl, hX]

/-- First evaluation point 1 (what `shamir_share` produces): the check is exact, for every share vector,
however it was made. The secret returned is the value at 0 of the polynomial. -/
theorem C35_exact (t : Nat) (ht : 1 ≤ t) {T : Type} (coefPts : List (F × T))
    (shares : List (F × M)) (hl : t < shares.length) (hpts : coefPts.map (·.1) = shares.map (·.1))
    (h0 : (0 : F) ∉ (shares.take (t + 1)).map (·.1)) (hd : ((shares.take (t + 1)).map (·.1)).Nodup)
    (h1 : (shares.map (·.1)).head? = some 1) :
    ∃ cs ch r, shamirCoefficients t coefPts = .ok (cs, some ch) ∧
      shamirRebuildPoint shares cs (some ch) = .ok r ∧
      (r ≠ none ↔ OnPoly t (shares.take (t + 1))) ∧
      (∀ A : List M, A.length = t → (∀ p ∈ shares.take (t + 1), p.2 = polyVal p.1 A) →
        r = some (polyVal (0 : F) A)) := by
  have hp : GoodPts (t + 1) shares := goodPts_of _ _ hl h0 hd
  obtain ⟨cs, ch, hc, hr⟩ := rebuild_outcome t ht coefPts shares hl hpts h0 hd
  have hx0 : ptX shares 0 = 1 := by
    rw [ptX, List.getD_eq_getElem?_getD, ← List.head?_eq_getElem?, h1]; rfl
  rw [hx0, one_pow, one_smul] at hr
  refine ⟨cs, ch, _, hc, hr, ?_, ?_⟩
  · rw [onPoly_check_iff t shares hp]
    split <;> simp_all
  · intro A hA hv
    rw [if_pos ((onPoly_check_iff t shares hp).1 ⟨A, hA, hv⟩),
      ← lagr_polyVal (range t) (ptX shares) (hp.mono (by omega)).injOn 0 A (by simp [hA])]
    congr 1
    apply sum_congr rfl
    intro i hi
    rw [mem_range] at hi
    rw [← ptV_lt (show i < shares.length by omega), ← ptX_lt (show i < shares.length by omega)]
    rw [hv _ (List.mem_take_iff_getElem.2 ⟨i, by omega, rfl⟩)]

/-- … so changing the value of exactly one of the first `t + 1` shares of a consistent vector is always
noticed. -/
theorem C35_tamper (t : Nat) (ht : 1 ≤ t) {T : Type} (coefPts : List (F × T))
    (shares : List (F × M)) (hl : t < shares.length) (hpts : coefPts.map (·.1) = shares.map (·.1))
    (h0 : (0 : F) ∉ (shares.take (t + 1)).map (·.1)) (hd : ((shares.take (t + 1)).map (·.1)).Nodup)
    (h1 : (shares.map (·.1)).head? = some 1) (hok : OnPoly t (shares.take (t + 1)))
    (j : Nat) (hj : j ≤ t) (v : M) (hv : v ≠ (shares[j]'(by omega)).2) :
    ∃ cs ch, shamirCoefficients t coefPts = .ok (cs, some ch) ∧
      shamirRebuildPoint (shares.set j ((shares[j]'(by omega)).1, v)) cs (some ch) = .ok none := by
  have hj' : j < shares.length := by omega
  have hmap : (shares.set j ((shares[j]'(by omega)).1, v)).map (·.1) = shares.map (·.1) := by
    rw [List.map_set]
    apply List.ext_getElem (by simp)
    intro i h1 h2
    rw [List.getElem_set]
    split
    · rename_i e; subst e; simp
    · rfl
  have hmapt : ((shares.set j ((shares[j]'(by omega)).1, v)).take (t + 1)).map (·.1)
      = (shares.take (t + 1)).map (·.1) := by
    rw [List.map_take, List.map_take, hmap]
  obtain ⟨cs, ch, r, hc, hr, hiff, _⟩ := C35_exact t ht coefPts
    (shares.set j ((shares[j]'(by omega)).1, v)) (by simpa using hl) (by rw [hmap, hpts])
    (by rwa [hmapt]) (by rwa [hmapt]) (by rwa [hmap])
  refine ⟨cs, ch, hc, ?_⟩
  rw [hr]
  congr 1
  by_contra hne
  have hon := hiff.1 hne
  have hp : GoodPts (t + 1) shares := goodPts_of _ _ hl h0 hd
  rw [onPoly_take_iff t (t + 1) _ (by simpa using hl)] at hon hok
  obtain ⟨A, hA, hAv⟩ := hok
  obtain ⟨B, hB, hBv⟩ := hon
  have hXe := ptX_congr _ _ hmap
  rw [hXe] at hBv
  have hVj : ptV (shares.set j ((shares[j]'(by omega)).1, v)) j = v := by
    simp [ptV, hj']
  have hVi : ∀ i, i ≠ j → ptV (shares.set j ((shares[j]'(by omega)).1, v)) i = ptV shares i := by
    intro i hi
    simp only [ptV, List.map_set, List.getD_eq_getElem?_getD, List.getElem?_set]
    rw [if_neg (Ne.symm hi)]
  have hinj : Set.InjOn (ptX shares) ((range (t + 1)).erase j : Finset Nat) := by
    intro a ha b hb e
    simp at ha hb
    exact hp.inj a (by omega) b (by omega) e
  have hcard : ((range (t + 1)).erase j).card = t := by
    rw [card_erase_of_mem (mem_range.2 (by omega))]; simp
  have := polyVal_unique ((range (t + 1)).erase j) (ptX shares) hinj A B (by omega) (by omega)
    (fun i hi => by
      rw [mem_erase, mem_range] at hi
      rw [← hAv i hi.2, ← hBv i hi.2, hVi i hi.1]) (ptX shares j)
  rw [← hAv j (by omega), ← hBv j (by omega), hVj, ← ptV_lt hj'] at this
  exact hv this.symm

/-- … and the shares after the first `t + 1` are never looked at. -/
theorem C35_rest_ignored (t : Nat) (ht : 1 ≤ t) (pts shares shares' : List (F × M))
    (hl : t < pts.length) (hp1 : pts.map (·.1) = shares.map (·.1))
    (hp2 : pts.map (·.1) = shares'.map (·.1))
    (h0 : (0 : F) ∉ (pts.take (t + 1)).map (·.1)) (hd : ((pts.take (t + 1)).map (·.1)).Nodup)
    (he : shares.take (t + 1) = shares'.take (t + 1)) :
    ∃ cs ch r, shamirCoefficients t pts = .ok (cs, some ch) ∧
      shamirRebuildPoint shares cs (some ch) = .ok r ∧
      shamirRebuildPoint shares' cs (some ch) = .ok r := by
  have hl1 : shares.length = pts.length := by simpa using (congrArg List.length hp1).symm
  have hl2 : shares'.length = pts.length := by simpa using (congrArg List.length hp2).symm
  have hm1 : (shares.take (t + 1)).map (·.1) = (pts.take (t + 1)).map (·.1) := by
    rw [List.map_take, List.map_take, hp1]
  have hm2 : (shares'.take (t + 1)).map (·.1) = (pts.take (t + 1)).map (·.1) := by
    rw [List.map_take, List.map_take, hp2]
  obtain ⟨cs, ch, h1, h2⟩ := rebuild_outcome t ht pts shares (by omega) hp1 (by rwa [hm1]) (by rwa [hm1])
  obtain ⟨cs', ch', h1', h2'⟩ := rebuild_outcome t ht pts shares' (by omega) hp2 (by rwa [hm2])
    (by rwa [hm2])
  rw [h1] at h1'
  injection h1' with h1'; injection h1' with ha hb; injection hb with hb; subst ha; subst hb
  refine ⟨cs, ch, _, h1, h2, ?_⟩
  rw [h2']
  have hX : ptX shares' = ptX shares := ptX_congr _ _ (by rw [← hp1, hp2])
  have hV : ∀ i < t + 1, ptV shares' i = ptV shares i := by
    intro i hi
    rw [← ptV_take shares' (t + 1) i hi, ← he, ptV_take shares (t + 1) i hi]
  have hs : ∀ z, ∑ i ∈ range t, lagr (range t) (ptX shares) z i • ptV shares' i
      = ∑ i ∈ range t, lagr (range t) (ptX shares) z i • ptV shares i := by
    intro z
    apply sum_congr rfl
    intro i hi
    rw [mem_range] at hi
    rw [hV i (by omega)]
  rw [hX, hs, hs, hV t (by omega)]

/-- The finding: for shares that do lie on one polynomial, at any distinct non-zero points, the code's
check accepts exactly when `x₀² = 1` or the share at the extra point is zero. (The documentation
promises acceptance always.) -/
theorem C36_honest_accepted_iff (t : Nat) (ht : 1 ≤ t) {T : Type} (coefPts : List (F × T))
    (shares : List (F × M)) (hl : t < shares.length) (hpts : coefPts.map (·.1) = shares.map (·.1))
    (h0 : (0 : F) ∉ (shares.take (t + 1)).map (·.1)) (hd : ((shares.take (t + 1)).map (·.1)).Nodup)
    (A : List M) (hA : A.length = t) (hv : ∀ p ∈ shares.take (t + 1), p.2 = polyVal p.1 A) :
    ∃ cs ch r, shamirCoefficients t coefPts = .ok (cs, some ch) ∧
      shamirRebuildPoint shares cs (some ch) = .ok r ∧
      (r = some (polyVal (0 : F) A) ∨ r = none) ∧
      (r = some (polyVal (0 : F) A) ↔
        (shares[0]'(by omega)).1 ^ 2 = 1 ∨ (shares[t]'hl).2 = 0) := by
  have hp : GoodPts (t + 1) shares := goodPts_of _ _ hl h0 hd
  obtain ⟨cs, ch, hc, hr⟩ := rebuild_outcome t ht coefPts shares hl hpts h0 hd
  have hon := (onPoly_check_iff t shares hp).1 ⟨A, hA, hv⟩
  have hres : ∑ i ∈ range t, lagr (range t) (ptX shares) 0 i • ptV shares i = polyVal (0 : F) A := by
    rw [← lagr_polyVal (range t) (ptX shares) (hp.mono (by omega)).injOn 0 A (by simp [hA])]
    apply sum_congr rfl
    intro i hi
    rw [mem_range] at hi
    rw [← ptV_lt (show i < shares.length by omega), ← ptX_lt (show i < shares.length by omega)]
    rw [hv _ (List.mem_take_iff_getElem.2 ⟨i, by omega, rfl⟩)]
  rw [← hon, hres] at hr
  have hiff : (ptX shares 0 ^ 2 • ptV shares t = ptV shares t)
      ↔ ((shares[0]'(by omega)).1 ^ 2 = 1 ∨ (shares[t]'hl).2 = 0) := by
    rw [ptX_lt, ptV_lt]
    constructor
    · intro h
      have h' : (ptX shares 0 ^ 2 - 1) • ptV shares t = 0 := by rw [sub_smul, one_smul, h, sub_self]
      rcases smul_eq_zero.1 h' with h'' | h''
      · exact Or.inl (sub_eq_zero.1 h'')
      · exact Or.inr h''
    · rintro (h | h)
      · rw [h, one_smul]
      · rw [h, smul_zero]
  refine ⟨cs, ch, _, hc, hr, ?_, ?_⟩
  · split <;> simp
  · rw [← hiff]
    split <;> simp_all

/-! ### the same for `shamir_rebuild_scalar` -/

/-- C34 for `shamir_rebuild_scalar`. -/
theorem C34_affine_scalar (t n : Nat) (ht : 1 ≤ t) (hn : t ≤ n) (hc : ∀ i, 0 < i → i ≤ n → (i : F) ≠ 0)
    (w0 : F) (terms : List (F × (Nat → F) × F)) {T : Type} (coefPts : List (F × T))
    (hpts : coefPts.map (·.1) = (List.range n).map (fun i => ((i + 1 : Nat) : F))) :
    ∃ cs ch, shamirCoefficients t coefPts = .ok (cs, ch) ∧
      shamirRebuildScalar ((List.range n).map (fun i => (((i + 1 : Nat) : F),
          w0 + (terms.map (fun s => shareAt t n s.1 s.2.1 i * s.2.2)).sum))) cs ch
        = .ok (some (w0 + (terms.map (fun s => s.1 * s.2.2)).sum)) := by
  simp only [rebuildScalar_eq]
  exact C34_affine t n ht hn hc w0 terms coefPts hpts

/-- C35 (exact check) for `shamir_rebuild_scalar`. -/
theorem C35_exact_scalar (t : Nat) (ht : 1 ≤ t) {T : Type} (coefPts : List (F × T))
    (shares : List (F × F)) (hl : t < shares.length) (hpts : coefPts.map (·.1) = shares.map (·.1))
    (h0 : (0 : F) ∉ (shares.take (t + 1)).map (·.1)) (hd : ((shares.take (t + 1)).map (·.1)).Nodup)
    (h1 : (shares.map (·.1)).head? = some 1) :
    ∃ cs ch r, shamirCoefficients t coefPts = .ok (cs, some ch) ∧
      shamirRebuildScalar shares cs (some ch) = .ok r ∧
      (r ≠ none ↔ OnPoly t (shares.take (t + 1))) ∧
      (∀ A : List F, A.length = t → (∀ p ∈ shares.take (t + 1), p.2 = polyVal p.1 A) →
        r = some (polyVal (0 : F) A)) := by
  simp only [rebuildScalar_eq]
  exact C35_exact t ht coefPts shares hl hpts h0 hd h1

/-- C35 (tampering) for `shamir_rebuild_scalar`. -/
theorem C35_tamper_scalar (t : Nat) (ht : 1 ≤ t) {T : Type} (coefPts : List (F × T))
    (shares : List (F × F)) (hl : t < shares.length) (hpts : coefPts.map (·.1) = shares.map (·.1))
    (h0 : (0 : F) ∉ (shares.take (t + 1)).map (·.1)) (hd : ((shares.take (t + 1)).map (·.1)).Nodup)
    (h1 : (shares.map (·.1)).head? = some 1) (hok : OnPoly t (shares.take (t + 1)))
    (j : Nat) (hj : j ≤ t) (v : F) (hv : v ≠ (shares[j]'(by omega)).2) :
    ∃ cs ch, shamirCoefficients t coefPts = .ok (cs, some ch) ∧
      shamirRebuildScalar (shares.set j ((shares[j]'(by omega)).1, v)) cs (some ch) = .ok none := by
  simp only [rebuildScalar_eq]
  exact C35_tamper t ht coefPts shares hl hpts h0 hd h1 hok j hj v hv

/-- C35 (the rest is ignored) for `shamir_rebuild_scalar`. -/
theorem C35_rest_ignored_scalar (t : Nat) (ht : 1 ≤ t) (pts shares shares' : List (F × F))
    (hl : t < pts.length) (hp1 : pts.map (·.1) = shares.map (·.1))
    (hp2 : pts.map (·.1) = shares'.map (·.1))
    (h0 : (0 : F) ∉ (pts.take (t + 1)).map (·.1)) (hd : ((pts.take (t + 1)).map (·.1)).Nodup)
    (he : shares.take (t + 1) = shares'.take (t + 1)) :
    ∃ cs ch r, shamirCoefficients t pts = .ok (cs, some ch) ∧
      shamirRebuildScalar shares cs (some ch) = .ok r ∧
      shamirRebuildScalar shares' cs (some ch) = .ok r := by
  simp only [rebuildScalar_eq]
  exact C35_rest_ignored t ht pts shares shares' hl hp1 hp2 h0 hd he

/-- C36 for `shamir_rebuild_scalar`. -/
theorem C36_honest_accepted_iff_scalar (t : Nat) (ht : 1 ≤ t) {T : Type} (coefPts : List (F × T))
    (shares : List (F × F)) (hl : t < shares.length) (hpts : coefPts.map (·.1) = shares.map (·.1))
    (h0 : (0 : F) ∉ (shares.take (t + 1)).map (·.1)) (hd : ((shares.take (t + 1)).map (·.1)).Nodup)
    (A : List F) (hA : A.length = t) (hv : ∀ p ∈ shares.take (t + 1), p.2 = polyVal p.1 A) :
    ∃ cs ch r, shamirCoefficients t coefPts = .ok (cs, some ch) ∧
      shamirRebuildScalar shares cs (some ch) = .ok r ∧
      (r = some (polyVal (0 : F) A) ∨ r = none) ∧
      (r = some (polyVal (0 : F) A) ↔
        (shares[0]'(by omega)).1 ^ 2 = 1 ∨ (shares[t]'hl).2 = 0) := by
  simp only [rebuildScalar_eq]
  exact C36_honest_accepted_iff t ht coefPts shares hl hpts h0 hd A hA hv

/-- Concrete: the sharing `5 + 7x` at the points 2, 3, 4 with `t = 2` (honest, distinct, non-zero points) is
rejected; at 1, 2, 3 it is accepted. -/
theorem C36_counterexample :
    (match shamirCoefficients 2 [((2 : ℚ), (19 : ℚ)), (3, 26), (4, 33)] with
      | .ok (cs, ch) => (match shamirRebuildScalar [((2 : ℚ), (19 : ℚ)), (3, 26), (4, 33)] cs ch with
        | .ok r => decide (r = none)
        | .error _ => false)
      | .error _ => false) = true ∧
    (match shamirCoefficients 2 [((1 : ℚ), (12 : ℚ)), (2, 19), (3, 26)] with
      | .ok (cs, ch) => (match shamirRebuildScalar [((1 : ℚ), (12 : ℚ)), (2, 19), (3, 26)] cs ch with
        | .ok r => decide (r = some 5)
        | .error _ => false)
      | .error _ => false) = true := by
  constructor <;> decide +kernel

/-- the hypotheses of `C35_*` and `C36_*` are met by an honest sharing and by a tampered one -/
example : ∃ shares : List (ℚ × ℚ), 2 < shares.length ∧ (0 : ℚ) ∉ (shares.take 3).map (·.1) ∧
    ((shares.take 3).map (·.1)).Nodup ∧ (shares.map (·.1)).head? = some 1 ∧
    OnPoly 2 (shares.take 3) :=
  ⟨[(1, 12), (2, 19), (3, 26)], by simp, by simp, by simp, rfl, [5, 7], rfl,
    by intro p hp; simp at hp; rcases hp with rfl | rfl | rfl <;> norm_num⟩

example : ∀ i : Nat, 0 < i → i ≤ 1000 → (i : ℚ) ≠ 0 := fun i hi _ => by exact_mod_cast hi.ne'

end
end Allo
