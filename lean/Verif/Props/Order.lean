import Verif.Lemmas.Affine
import Verif.Props.Race
import Verif.Props.LogLeak

/-!
# C111: answers handed to `post_update` in the wrong order

`post_update` takes the servers' answers by position: position `i` must hold the answer of server `i + 1`. The answers
carry nothing that says whose they are, and the consistency check between them tests only whether they lie on
polynomials of degree `< t`.
-/

set_option linter.unusedSectionVars false
set_option linter.unusedVariables false
namespace Allo
open Spec Finset User Server Rom

section
variable {F G1 G2 GT : Type} [Field F] [DecidableEq F] [AddCommGroup G1] [Module F G1]
  [DecidableEq G1] [AddCommGroup G2] [Module F G2] [AddCommGroup GT] [Module F GT] [DecidableEq GT]

/-- The vector of the values at `x` of `k` sharing polynomials: the one of number `j` (from 0) has constant
coefficient `id ^ (j + 1)` and coefficients `rand j 1, …, rand j (t - 1)`. -/
def sharesAt (t k : Nat) (id : F) (rand : Nat → Nat → F) (x : F) : List F :=
  (List.range k).map (fun j => id ^ (j + 1) + ∑ l ∈ range (t - 1), rand j (l + 1) * x ^ (l + 1))

theorem sharePoly_sum (t : Nat) (a : F) (coef : Nat → F) (x : F) :
    polyVal x (sharePoly t a coef) = a + ∑ l ∈ range (t - 1), coef (l + 1) * x ^ (l + 1) := by
  unfold sharePoly
  have : ∀ (n : Nat) (f : Nat → F), polyVal x ((List.range n).map f) = ∑ l ∈ range n, f l * x ^ l := by
    intro n
    induction n with
    | zero => intro f; rfl
    | succ n ih =>
      intro f
      rw [List.range_succ_eq_map, List.map_cons, List.map_map, polyVal, ih, Finset.sum_range_succ', pow_zero, mul_one,
        add_comm, smul_eq_mul, Finset.mul_sum]
      congr 1
      refine Finset.sum_congr rfl (fun l _ => ?_)
      simp only [Function.comp, pow_succ]
      ring
  rw [polyVal, this, smul_eq_mul, Finset.mul_sum]
  congr 1
  refine Finset.sum_congr rfl (fun l _ => ?_)
  rw [pow_succ]; ring

theorem shVec_eq (t k : Nat) (id : F) (rand : Nat → Nat → F) (x : F) :
    shVec t k id rand x = sharesAt t k id rand x := by
  unfold shVec sharesAt
  refine List.map_congr_left (fun j _ => sharePoly_sum _ _ _ _)

/-- What `post_update` computes from the values `ds`, `vs` rebuilt for each piece: the loop of src/user.rs, stops at a
`d` that is 0, otherwise replaces the witness `C` by `(C - v)/d`. -/
def followPieces (w : G1) (ds : List F) (vs : List G1) : Except String G1 :=
  if 0 ∈ ds then .error "user has been deleted"
  else .ok ((ds.zip vs).foldl (fun C p => p.1⁻¹ • (C - p.2)) w)

theorem loopSpec_pieces (d : Nat → F) (v : Nat → G1) (c : Nat) (w : G1) :
    loopSpec (fun j => some (d j)) (fun j => some (v j)) (List.range c) w
      = followPieces w ((List.range c).map d) ((List.range c).map v) := by
  rw [loopSpec_honest, followPieces, List.zip_map', List.foldl_map]
  by_cases h : ∀ j ∈ List.range c, d j ≠ 0
  · rw [if_pos h, if_neg]
    intro h0
    obtain ⟨j, hj, e⟩ := List.mem_map.1 h0
    exact h j hj e
  · rw [if_neg h, if_pos]
    push Not at h
    obtain ⟨j, hj, e⟩ := h
    exact List.mem_map.2 ⟨j, hj, e⟩

/-- answers at positions that are an affine function of the right ones -/
theorem misplaced (seed : Nat → Nat) (hseed : ∀ d, 1 ≤ d → 1 ≤ seed d) (u : User F G1 G2)
    (e : Nat) (he : u.epoch < e) (s : Server F G1 G2)
    (hlen : s.accumulators.length = s.deletions.length + 1) (servers : List (Server F G1 G2))
    (hs : Synced servers s) (t : Nat) (ht : 2 ≤ t) (hn : t ≤ servers.length)
    (hc : ∀ i : Nat, 0 < i → i ≤ servers.length → (i : F) ≠ 0) (rand : Nat → Nat → F) (upd : UserUpdate F)
    (hp : u.prepareForUpdate seed e servers.length t rand = .ok (.ok upd)) (m : Nat)
    (hm1 : 1 ≤ m) (hm : m ≤ s.deletions.length) (w : G1) :
    ∃ k, 2 ≤ k ∧ chunkSize (e - u.epoch) (seed (e - u.epoch)) = .ok (k + 1) ∧
      (∀ i < servers.length, upd.yShares[i]? = some (sharesAt t k u.id rand ((i + 1 : Nat) : F))) ∧
      (∃ ans, AnsweredBy servers m upd ans) ∧
      ∀ (a b : F) (resp : Nat → Bool) (σ : Nat → Nat),
      (resp 0 = true) → t ≤ ((List.range servers.length).filter resp).length →
      (∀ i < servers.length, resp i = true → σ i < servers.length ∧
        ((σ i + 1 : Nat) : F) = a * ((i + 1 : Nat) : F) + b) →
      ∀ ans got, AnsweredBy servers m upd ans → got.length = servers.length →
        (∀ i < servers.length, got[i]? = if resp i then ans[σ i]? else some ([], [])) →
      s.update m (sharesAt t k u.id rand b) = .ok
          ((List.range (nChunks k m)).map (fun j => dAns (shVec t k u.id rand b) (chunkAt k (s.published m) j)),
           (List.range (nChunks k m)).map (fun j => vAnsP (shVec t k u.id rand b) (chunkAt k (s.published m) j))) ∧
      postUpdate w t upd.yShares upd.yValues got = .ok (followPieces w
          ((List.range (nChunks k m)).map (fun j => dAns (shVec t k u.id rand b) (chunkAt k (s.published m) j)))
          ((List.range (nChunks k m)).map (fun j => vAnsP (shVec t k u.id rand b) (chunkAt k (s.published m) j)))) := by
  obtain ⟨k, hk, hyl, hyv, hcs, hget, hh⟩ := answered_closed seed hseed u e he s hlen servers hs t ht hn rand upd hp m hm1 hm
  refine ⟨k, hk, hcs, fun i hi => by rw [hget i hi, shVec_eq]; rfl, ⟨_, (hh _).2 rfl⟩, ?_⟩
  intro a b resp σ h0 hr hσ ans got ha hgl hg
  constructor
  · have := update_published s hlen m hm (sharesAt t k u.id rand b)
      (by intro e; have := congrArg List.length e; simp [sharesAt] at this; omega) (s.deletions.length + 1) (by omega)
    unfold Server.update
    rw [this, ← shVec_eq, shVec_length]
  · rw [(hh ans).1 ha] at hg
    have hgot : got = answers servers.length (nChunks k m) resp
        (fun i j => (fun x => dAns (shVec t k u.id rand (a * x + b)) (chunkAt k (s.published m) j)) (xOf F i))
        (fun i j => (fun x => vAnsP (shVec t k u.id rand (a * x + b)) (chunkAt k (s.published m) j)) (xOf F i)) := by
      apply List.ext_getElem?
      intro i
      by_cases hi : i < servers.length
      · rw [hg i hi]
        by_cases hri : resp i = true
        · obtain ⟨h1, h2⟩ := hσ i hi hri
          simp only [hri, if_true, answers, List.getElem?_map, List.getElem?_range h1, List.getElem?_range hi,
            Option.map_some]
          simp only [xOf]
          rw [h2]
        · simp only [hri, answers, List.getElem?_map, List.getElem?_range hi, Option.map_some, if_false]
          simp
      · rw [List.getElem?_eq_none (by omega), List.getElem?_eq_none (by simp [answers]; omega)]
    rw [hgot, hyv, postUpdate_honest w t servers.length (nChunks k m) (by omega) (nChunks_pos _ _ (by omega) hm1) hc resp
      (fun j x => dAns (shVec t k u.id rand (a * x + b)) (chunkAt k (s.published m) j))
      (fun j x => vAnsP (shVec t k u.id rand (a * x + b)) (chunkAt k (s.published m) j))
      (fun j => (dAns_polyFn t k (by omega) u.id rand (chunkAt k (s.published m) j)).comp_affine a b)
      (fun j => (vAnsP_polyFn t k (by omega) u.id rand (chunkAt k (s.published m) j)).comp_affine a b)
      hr (Or.inl h0) upd.yShares hyl, loopSpec_pieces]
    simp only [mul_zero, zero_add]

theorem reverse_get {n : Nat} {α : Type} (l : List α) (hl : l.length = n) (i : Nat) (hi : i < n) :
    l.reverse[i]? = l[n - 1 - i]? := by
  rw [List.getElem?_reverse (by omega), hl]

theorem reverse_affine {n : Nat} (i : Nat) (hi : i < n) :
    ((n - 1 - i + 1 : Nat) : F) = (-1) * ((i + 1 : Nat) : F) + ((n + 1 : Nat) : F) := by
  rw [show n - 1 - i + 1 = n + 1 - (i + 1) by omega, Nat.cast_sub (by omega)]
  ring

theorem shifted_count (n : Nat) :
    ((List.range n).filter (fun i => decide (i + 1 < n))).length = n - 1 := by
  cases n with
  | zero => rfl
  | succ n =>
    rw [List.range_succ, List.filter_append]
    have h1 : (List.range n).filter (fun i => decide (i + 1 < n + 1)) = List.range n :=
      List.filter_eq_self.2 (fun i hi => by have := List.mem_range.1 hi; simpa using this)
    rw [h1]
    simp

/-- **C111** (reversed). Honest answers of `n ≥ t` servers with one log, handed over in the reverse order: the answers
pass the consistency check, and `post_update` goes on with what a server would answer for the share vector at the
point `n + 1`, instead of the one at 0 (which consists of the powers of the id). The vectors sent to the servers are
those at `1, …, n`. -/
theorem C111_reversed (seed : Nat → Nat) (hseed : ∀ d, 1 ≤ d → 1 ≤ seed d) (u : User F G1 G2)
    (e : Nat) (he : u.epoch < e) (s : Server F G1 G2)
    (hlen : s.accumulators.length = s.deletions.length + 1) (servers : List (Server F G1 G2))
    (hs : ∀ s' ∈ servers, s'.accumulators = s.accumulators ∧ s'.deletions = s.deletions)
    (t : Nat) (ht : 2 ≤ t) (hn : t ≤ servers.length)
    (hc : ∀ i : Nat, 0 < i → i ≤ servers.length → (i : F) ≠ 0) (rand : Nat → Nat → F) (upd : UserUpdate F)
    (hp : u.prepareForUpdate seed e servers.length t rand = .ok (.ok upd)) (m : Nat)
    (hm1 : 1 ≤ m) (hm : m ≤ s.deletions.length) (w : G1) :
    ∃ k ds vs, (∀ i < servers.length, upd.yShares[i]? = some (sharesAt t k u.id rand ((i + 1 : Nat) : F))) ∧
      s.update m (sharesAt t k u.id rand ((servers.length + 1 : Nat) : F)) = .ok (ds, vs) ∧
      (∃ ans, AnsweredBy servers m upd ans) ∧ ∀ ans, AnsweredBy servers m upd ans →
        postUpdate w t upd.yShares upd.yValues ans.reverse = .ok (followPieces w ds vs) := by
  obtain ⟨k, hk, -, hys, hex, hall⟩ := misplaced seed hseed u e he s hlen servers hs t ht hn hc rand upd hp m hm1 hm w
  have key : ∀ ans, AnsweredBy servers m upd ans → _ := fun ans ha =>
    hall (-1) ((servers.length + 1 : Nat) : F) (fun _ => true) (fun i => servers.length - 1 - i) rfl
      (by rw [List.filter_true, List.length_range]; exact hn)
      (fun i hi _ => ⟨by omega, reverse_affine i hi⟩) ans ans.reverse ha (by rw [List.length_reverse, ha.1])
      (fun i hi => by rw [if_pos rfl]; exact reverse_get ans ha.1 i hi)
  obtain ⟨a0, ha0⟩ := hex
  exact ⟨k, _, _, hys, (key a0 ha0).1, ⟨a0, ha0⟩, fun ans ha => (key ans ha).2⟩

/-- **C111** (one off). The same with the answers one position off — those of the servers `2, …, n` handed over as those
of `1, …, n - 1`, and no answer for the last — when still `t` of them are left: the outcome is that for the vector
that was sent to server 1. -/
theorem C111_shifted (seed : Nat → Nat) (hseed : ∀ d, 1 ≤ d → 1 ≤ seed d) (u : User F G1 G2)
    (e : Nat) (he : u.epoch < e) (s : Server F G1 G2)
    (hlen : s.accumulators.length = s.deletions.length + 1) (servers : List (Server F G1 G2))
    (hs : ∀ s' ∈ servers, s'.accumulators = s.accumulators ∧ s'.deletions = s.deletions)
    (t : Nat) (ht : 2 ≤ t) (hn : t + 1 ≤ servers.length)
    (hc : ∀ i : Nat, 0 < i → i ≤ servers.length → (i : F) ≠ 0) (rand : Nat → Nat → F) (upd : UserUpdate F)
    (hp : u.prepareForUpdate seed e servers.length t rand = .ok (.ok upd)) (m : Nat)
    (hm1 : 1 ≤ m) (hm : m ≤ s.deletions.length) (w : G1) :
    ∃ ys ds vs, upd.yShares[0]? = some ys ∧ s.update m ys = .ok (ds, vs) ∧
      (∃ ans, AnsweredBy servers m upd ans) ∧ ∀ ans, AnsweredBy servers m upd ans →
        postUpdate w t upd.yShares upd.yValues (ans.tail ++ [([], [])]) = .ok (followPieces w ds vs) := by
  obtain ⟨k, hk, -, hys, hex, hall⟩ := misplaced seed hseed u e he s hlen servers hs t ht (by omega) hc rand upd hp m hm1 hm w
  have key : ∀ ans, AnsweredBy servers m upd ans → _ := fun ans ha =>
    hall 1 1 (fun i => decide (i + 1 < servers.length)) (fun i => i + 1) (by simp; omega)
      (by rw [shifted_count]; omega)
      (fun i hi hr => ⟨by simpa using hr, by push_cast; ring⟩) ans (ans.tail ++ [([], [])]) ha
      (by rw [List.length_append, List.length_tail, ha.1, List.length_singleton]; omega)
      (fun i hi => by
        by_cases h : i + 1 < servers.length
        · simp only [h, decide_true, if_true]
          rw [List.getElem?_append_left (by rw [List.length_tail, ha.1]; omega), List.getElem?_tail]
        · simp only [h, decide_false]
          rw [List.getElem?_append_right (by rw [List.length_tail, ha.1]; omega), List.length_tail, ha.1,
            show i - (servers.length - 1) = 0 by omega]
          simp)
  obtain ⟨a0, ha0⟩ := hex
  refine ⟨_, _, _, hys 0 (by omega), ?_, ⟨a0, ha0⟩, fun ans ha => (key ans ha).2⟩
  have := (key a0 ha0).1
  simpa only [zero_add, Nat.cast_one] using this

/-- **C111** (exactly the threshold). With exactly `t` servers no order of their answers is detected: whatever
permutation of the answers is handed over, `post_update` never returns `"malicious server"` and never panics. -/
theorem C111_exactly_t (seed : Nat → Nat) (hseed : ∀ d, 1 ≤ d → 1 ≤ seed d) (u : User F G1 G2)
    (e : Nat) (he : u.epoch < e) (s : Server F G1 G2)
    (hlen : s.accumulators.length = s.deletions.length + 1) (servers : List (Server F G1 G2))
    (hs : ∀ s' ∈ servers, s'.accumulators = s.accumulators ∧ s'.deletions = s.deletions)
    (ht : 2 ≤ servers.length)
    (hc : ∀ i : Nat, 0 < i → i ≤ servers.length → (i : F) ≠ 0) (rand : Nat → Nat → F) (upd : UserUpdate F)
    (hp : u.prepareForUpdate seed e servers.length servers.length rand = .ok (.ok upd)) (m : Nat)
    (hm1 : 1 ≤ m) (hm : m ≤ s.deletions.length) (w : G1) (ans got : List (List F × List G1))
    (ha : AnsweredBy servers m upd ans) (hg : got.Perm ans) :
    postUpdate w servers.length upd.yShares upd.yValues got = .ok (.error "user has been deleted") ∨
      ∃ W, postUpdate w servers.length upd.yShares upd.yValues got = .ok (.ok W) := by
  obtain ⟨k, hk, hyl, hyv, -, -, hh⟩ := answered_closed seed hseed u e he s hlen servers hs servers.length ht le_rfl
    rand upd hp m hm1 hm
  set n := servers.length with hnn
  have hans := (hh ans).1 ha
  have hgl : got.length = n := by rw [hg.length_eq, ha.1]
  have hsig : ∀ i, ∃ j, i < n → j < n ∧ got[i]? = ans[j]? := by
    intro i
    by_cases hi : i < n
    · have hmem : got[i]'(by omega) ∈ ans := hg.mem_iff.1 (List.getElem_mem (by omega))
      obtain ⟨j, hj, hje⟩ := List.getElem_of_mem hmem
      refine ⟨j, fun _ => ⟨by rw [ha.1] at hj; exact hj, ?_⟩⟩
      rw [List.getElem?_eq_getElem (by omega), List.getElem?_eq_getElem hj, hje]
    · exact ⟨0, fun h => absurd h hi⟩
  choose σ hσ using hsig
  have hpoly : ∀ (M : Type) [AddCommGroup M] [Module F M] (f : Nat → M),
      ∃ g : F → M, PolyFn n g ∧ ∀ i < n, g (xOf F i) = f i := by
    intro M _ _ f
    obtain ⟨A, hA1, -, hA3⟩ := exists_polyVal (M := M) (range n) (xOf F) (by
      intro i hi j hj e
      have hi := Finset.mem_range.1 hi
      have hj := Finset.mem_range.1 hj
      have := cast_inj_of hc (i := i + 1) (j := j + 1) (by omega) (by omega) e
      omega) f
    exact ⟨fun z => polyVal z A, ⟨A, by rw [hA1, card_range], fun _ => rfl⟩,
      fun i hi => hA3 i (Finset.mem_range.2 hi)⟩
  choose gD hgD1 hgD2 using fun j => hpoly F
    (fun i => dAns (shVec n k u.id rand (xOf F (σ i))) (chunkAt k (s.published m) j))
  choose gV hgV1 hgV2 using fun j => hpoly G1
    (fun i => vAnsP (shVec n k u.id rand (xOf F (σ i))) (chunkAt k (s.published m) j))
  have hgot : got = answers n (nChunks k m) (fun _ => true) (fun i j => gD j (xOf F i)) (fun i j => gV j (xOf F i)) := by
    apply List.ext_getElem?
    intro i
    by_cases hi : i < n
    · obtain ⟨h1, h2⟩ := hσ i hi
      rw [h2, hans]
      simp only [answers, List.getElem?_map, List.getElem?_range h1, List.getElem?_range hi, Option.map_some, if_true]
      congr 2
      · exact List.map_congr_left (fun j _ => (hgD2 j i hi).symm)
      · exact List.map_congr_left (fun j _ => (hgV2 j i hi).symm)
    · rw [List.getElem?_eq_none (by omega), List.getElem?_eq_none (by simp [answers]; omega)]
  rw [hgot, hyv, postUpdate_honest w n n (nChunks k m) (by omega) (nChunks_pos _ _ (by omega) hm1) hc (fun _ => true)
      gD gV hgD1 hgV1 (by rw [List.filter_true, List.length_range]) (Or.inl rfl) upd.yShares hyl, loopSpec_honest]
  split
  · exact Or.inr ⟨_, rfl⟩
  · exact Or.inl rfl

/-! ### how likely the outcome is wrong -/

/-- The coefficients of the sharing polynomials: `x j` for the linear coefficient of number `j < m`, and `r` for all
others. -/
def withLinear {m : Nat} (x : Fin m → F) (r : Nat → Nat → F) (j l : Nat) : F :=
  if h : l = 1 ∧ j < m then x ⟨j, h.2⟩ else r j l

theorem sharesAt_affVec {m : Nat} (t k : Nat) (ht : 2 ≤ t) (id : F) (x : Fin m → F) (r : Nat → Nat → F) (b : F) :
    shVec t k id (withLinear x r) b
      = (List.range k).map (affVec m b (fun j => polyVal b (sharePoly t (id ^ (j + 1))
          (withLinear (fun _ : Fin m => 0) r j))) x) := by
  unfold shVec
  refine List.map_congr_left (fun j _ => ?_)
  obtain ⟨t', rfl⟩ : ∃ t', t = t' + 2 := ⟨t - 2, by omega⟩
  have e : ∀ coef : Nat → F, sharePoly (t' + 2) (id ^ (j + 1)) coef
      = id ^ (j + 1) :: coef 1 :: (List.range t').map (fun l => coef (l + 2)) := by
    intro coef
    unfold sharePoly
    rw [show t' + 2 - 1 = t' + 1 by omega, List.range_succ_eq_map, List.map_cons, List.map_map]
    rfl
  have e2 : ∀ x : Fin m → F, ∀ l, withLinear x r j (l + 2) = r j (l + 2) := by
    intro x l
    unfold withLinear
    rw [dif_neg (by omega)]
  unfold affVec
  simp only [e, e2, polyVal, smul_eq_mul]
  by_cases h : j < m
  · simp only [withLinear, h, and_self, dif_pos]
    ring
  · simp only [withLinear, h, and_false, dif_neg, not_false_iff]
    ring

variable [Fintype F]

/-- a random vector with entries `cst j + b x_j`, `b ≠ 0`, in place of the powers of the id: the outcome is `Ok` and
invalid, but for a fraction `2m/|F|` of the `x` -/
theorem wrong_prob_vec (E : Pairing F G1 G2 GT) (params : AccParams G1 G2) (hP : params.p2 ≠ 0)
    (hK : params.k2 ≠ 0) (α sM : F) (s : Server F G1 G2)
    (hkeys : s.publicKeys = ⟨α • params.p2, sM • params.k2⟩)
    (hlen : s.accumulators.length = s.deletions.length + 1) (u : User F G1 G2) (hu : u.publicKeys = s.getPublicKeys)
    (k : Nat) (hk : 1 ≤ k) (m : Nat) (hm1 : 1 ≤ m) (hm : m ≤ s.deletions.length)
    (w : Witness F G1) (hw : u.witness = some w) (V : G1) (hV0 : V ≠ 0) (b : F) (hb : b ≠ 0) (cst : Nat → F) :
    1 - 2 * (m : ℚ) / Nat.card F ≤ prob (fun x : Fin m → F => ∃ W, followPieces w.witness
          ((List.range (nChunks k m)).map (fun j => dAns ((List.range k).map (affVec m b cst x)) (chunkAt k (s.published m) j)))
          ((List.range (nChunks k m)).map (fun j => vAnsP ((List.range k).map (affVec m b cst x)) (chunkAt k (s.published m) j)))
        = .ok W ∧
        ({ u with witness := some { w with witness := W } } : User F G1 G2).checkWitness E params V ≠ .ok ()) := by
  classical
  have hPl := published_length s hlen m hm
  set B : (Fin m → F) → Prop := fun x => ∃ j < nChunks k m,
    dAns ((List.range k).map (affVec m b cst x)) (chunkAt k (s.published m) j) = 0 with hB
  set C : (Fin m → F) → Prop := fun x => u.id + α ≠ 0 ∧ (List.range (nChunks k m)).foldr (fun j T =>
        vAnsP ((List.range k).map (affVec m b cst x)) (chunkAt k (s.published m) j)
          + dAns ((List.range k).map (affVec m b cst x)) (chunkAt k (s.published m) j) • T) ((u.id + α)⁻¹ • V)
          = w.witness with hC
  set G : (Fin m → F) → Prop := fun x => ∃ W, followPieces w.witness
          ((List.range (nChunks k m)).map (fun j => dAns ((List.range k).map (affVec m b cst x)) (chunkAt k (s.published m) j)))
          ((List.range (nChunks k m)).map (fun j => vAnsP ((List.range k).map (affVec m b cst x)) (chunkAt k (s.published m) j)))
        = .ok W ∧
        ({ u with witness := some { w with witness := W } } : User F G1 G2).checkWitness E params V ≠ .ok () with hG
  have hcov : ∀ x, G x ∨ (B x ∨ C x) := by
    intro x
    by_cases hBx : B x
    · exact Or.inr (Or.inl hBx)
    · have hd : ∀ j ∈ List.range (nChunks k m),
          dAns ((List.range k).map (affVec m b cst x)) (chunkAt k (s.published m) j) ≠ 0 :=
        fun j hj h0 => hBx ⟨j, List.mem_range.1 hj, h0⟩
      have hres := loopSpec_pieces
        (fun j => dAns ((List.range k).map (affVec m b cst x)) (chunkAt k (s.published m) j))
        (fun j => vAnsP ((List.range k).map (affVec m b cst x)) (chunkAt k (s.published m) j)) (nChunks k m) w.witness
      rw [loopSpec_honest, if_pos (hd)] at hres
      by_cases hCx : C x
      · exact Or.inr (Or.inr hCx)
      · refine Or.inl ⟨_, hres.symm, fun hok => hCx ?_⟩
        rw [Server.getPublicKeys, hkeys] at hu
        rw [(C23_check_witness E params hP hK α sM _ (by exact hu) V).1] at hok
        obtain ⟨w', e1, e2, -⟩ := hok
        cases e1
        unfold IsWitness at e2
        simp only at e2
        have hne : u.id + α ≠ 0 := by
          intro h0; rw [h0, zero_smul] at e2; exact hV0 e2.symm
        refine ⟨hne, ?_⟩
        rw [← foldl_eq_foldr _ _ _ hd]
        rw [← e2, inv_smul_smul₀ hne]
  have h1 : prob B ≤ (nChunks k m : ℚ) / Nat.card F := prob_some_zero m k hk b hb cst _ hPl
  have h2 : prob C ≤ (nChunks k m : ℚ) / Nat.card F := by
    by_cases hne : u.id + α = 0
    · have : prob C = 0 := by
        unfold prob
        have : IsEmpty {x // C x} := ⟨fun x => x.2.1 hne⟩
        simp
      rw [this]; positivity
    · exact (prob_mono' (fun x hx => hx.2)).trans
        (prob_back m k hm1 hk b hb cst _ hPl w.witness _ (smul_ne_zero (inv_ne_zero hne) hV0))
  have hone : (1 : ℚ) ≤ prob G + (prob B + prob C) := by
    have e : prob (fun _ : Fin m → F => True) = 1 := by
      rw [prob_eq_avg]; simp only [if_true]; exact avg_const 1
    rw [← e]
    refine (prob_le_add' (A := fun _ => True) (B := G) (C := fun x => B x ∨ C x) (fun x _ => hcov x)).trans ?_
    gcongr
    exact prob_le_add' (fun x hx => hx)
  have hle : (nChunks k m : ℚ) ≤ m := by exact_mod_cast nChunks_le k m hk
  have h3 : (nChunks k m : ℚ) / Nat.card F ≤ m / Nat.card F := by gcongr
  have : 2 * (m : ℚ) / Nat.card F = m / Nat.card F + m / Nat.card F := by ring
  linarith

/-- the wrong point `b ≠ 0`: the outcome is `Ok` and invalid, but for a fraction `2m/|F|` of the coefficients -/
theorem wrong_prob (E : Pairing F G1 G2 GT) (params : AccParams G1 G2) (hP : params.p2 ≠ 0)
    (hK : params.k2 ≠ 0) (α sM : F) (s : Server F G1 G2)
    (hkeys : s.publicKeys = ⟨α • params.p2, sM • params.k2⟩)
    (hlen : s.accumulators.length = s.deletions.length + 1) (u : User F G1 G2) (hu : u.publicKeys = s.getPublicKeys)
    (t k : Nat) (ht : 2 ≤ t) (hk : 1 ≤ k) (r : Nat → Nat → F) (m : Nat) (hm1 : 1 ≤ m) (hm : m ≤ s.deletions.length)
    (w : Witness F G1) (hw : u.witness = some w) (V : G1) (hV0 : V ≠ 0) (b : F) (hb : b ≠ 0) :
    1 - 2 * (m : ℚ) / Nat.card F ≤ prob (fun x : Fin m → F => ∃ W, followPieces w.witness
          ((List.range (nChunks k m)).map (fun j => dAns (shVec t k u.id (withLinear x r) b) (chunkAt k (s.published m) j)))
          ((List.range (nChunks k m)).map (fun j => vAnsP (shVec t k u.id (withLinear x r) b) (chunkAt k (s.published m) j)))
        = .ok W ∧
        ({ u with witness := some { w with witness := W } } : User F G1 G2).checkWitness E params V ≠ .ok ()) := by
  have := wrong_prob_vec E params hP hK α sM s hkeys hlen u hu k hk m hm1 hm w hw V hV0 b hb
    (fun j => polyVal b (sharePoly t (u.id ^ (j + 1)) (withLinear (fun _ : Fin m => 0) r j)))
  simpa only [← sharesAt_affVec t k ht] using this

/-- **C111** (how often). Servers in any state reached by calls and any user; the linear coefficients of the first
`m` sharing polynomials are drawn at random, the others are arbitrary. With the answers in the reverse order,
`post_update` returns `Ok` with a witness that does not verify for `V`, with probability at least `1 - 2m/|F|`, `m`
being the number of deletions asked for. `V` is any accumulator that is not the identity, in particular the current
one of the servers. -/
theorem C111_reversed_wrong (E : Pairing F G1 G2 GT) (params : AccParams G1 G2) (hP : params.p2 ≠ 0)
    (hK : params.k2 ≠ 0) (α sM v : F) (ops : List (Op F)) (s : Server F G1 G2)
    (h : (Server.new params α sM v).run ops = .ok s) (servers : List (Server F G1 G2))
    (hs : ∀ s' ∈ servers, s'.accumulators = s.accumulators ∧ s'.deletions = s.deletions)
    (seed : Nat → Nat) (hseed : ∀ d, 1 ≤ d → 1 ≤ seed d) (u : User F G1 G2)
    (hu : u.publicKeys = s.getPublicKeys) (e : Nat) (he : u.epoch < e)
    (t : Nat) (ht : 2 ≤ t) (hn : t ≤ servers.length)
    (hc : ∀ i : Nat, 0 < i → i ≤ servers.length + 1 → (i : F) ≠ 0) (r : Nat → Nat → F) (m : Nat)
    (hm1 : 1 ≤ m) (hm : m ≤ s.deletions.length) (w : Witness F G1) (hw : u.witness = some w)
    (V : G1) (hV0 : V ≠ 0) :
    1 - 2 * (m : ℚ) / Nat.card F ≤ prob (fun x : Fin m → F => ∃ upd ans W,
      u.prepareForUpdate seed e servers.length t (withLinear x r) = .ok (.ok upd) ∧ AnsweredBy servers m upd ans ∧
      postUpdate w.witness t upd.yShares upd.yValues ans.reverse = .ok (.ok W) ∧
      ({ u with witness := some { w with witness := W } } : User F G1 G2).checkWitness E params V ≠ .ok ()) := by
  have hlen := accs_length_run params α sM v _ s h
  obtain ⟨k', upd', hk', hk3, -⟩ := prepareForUpdate_ok seed hseed u e servers.length t ht hn he r
  refine (wrong_prob E params hP hK α sM s (keys_run h).1 hlen u hu t (k' - 1) ht (by omega) r m hm1 hm w hw V hV0
    ((servers.length + 1 : Nat) : F) (hc _ (by omega) le_rfl)).trans (prob_mono' ?_)
  rintro x ⟨W, hW, hbad⟩
  obtain ⟨k₂, upd, hk₂, -, hp, -⟩ := prepareForUpdate_ok seed hseed u e servers.length t ht hn he (withLinear x r)
  obtain ⟨k, hk, hcs, -, ⟨ans, ha⟩, hall⟩ := misplaced seed hseed u e he s hlen servers hs t ht hn
    (fun i h1 h2 => hc i h1 (by omega)) (withLinear x r) upd hp m hm1 hm w.witness
  have hkk : k = k' - 1 := by
    rw [hk'] at hcs
    injection hcs with hcs
    omega
  have := (hall (-1) ((servers.length + 1 : Nat) : F) (fun _ => true) (fun i => servers.length - 1 - i) rfl
      (by rw [List.filter_true, List.length_range]; exact hn)
      (fun i hi _ => ⟨by omega, reverse_affine i hi⟩) ans ans.reverse ha (by rw [List.length_reverse, ha.1])
      (fun i hi => by rw [if_pos rfl]; exact reverse_get ans ha.1 i hi)).2
  rw [hkk, hW] at this
  exact ⟨upd, ans, W, hp, ha, this, hbad⟩

/-- **C111** (how often, one off). The same for answers one position off, when `n > t`. -/
theorem C111_shifted_wrong (E : Pairing F G1 G2 GT) (params : AccParams G1 G2) (hP : params.p2 ≠ 0)
    (hK : params.k2 ≠ 0) (α sM v : F) (ops : List (Op F)) (s : Server F G1 G2)
    (h : (Server.new params α sM v).run ops = .ok s) (servers : List (Server F G1 G2))
    (hs : ∀ s' ∈ servers, s'.accumulators = s.accumulators ∧ s'.deletions = s.deletions)
    (seed : Nat → Nat) (hseed : ∀ d, 1 ≤ d → 1 ≤ seed d) (u : User F G1 G2)
    (hu : u.publicKeys = s.getPublicKeys) (e : Nat) (he : u.epoch < e)
    (t : Nat) (ht : 2 ≤ t) (hn : t + 1 ≤ servers.length)
    (hc : ∀ i : Nat, 0 < i → i ≤ servers.length → (i : F) ≠ 0) (r : Nat → Nat → F) (m : Nat)
    (hm1 : 1 ≤ m) (hm : m ≤ s.deletions.length) (w : Witness F G1) (hw : u.witness = some w)
    (V : G1) (hV0 : V ≠ 0) :
    1 - 2 * (m : ℚ) / Nat.card F ≤ prob (fun x : Fin m → F => ∃ upd ans W,
      u.prepareForUpdate seed e servers.length t (withLinear x r) = .ok (.ok upd) ∧ AnsweredBy servers m upd ans ∧
      postUpdate w.witness t upd.yShares upd.yValues (ans.tail ++ [([], [])]) = .ok (.ok W) ∧
      ({ u with witness := some { w with witness := W } } : User F G1 G2).checkWitness E params V ≠ .ok ()) := by
  have hlen := accs_length_run params α sM v _ s h
  obtain ⟨k', upd', hk', hk3, -⟩ := prepareForUpdate_ok seed hseed u e servers.length t ht (by omega) he r
  refine (wrong_prob E params hP hK α sM s (keys_run h).1 hlen u hu t (k' - 1) ht (by omega) r m hm1 hm w hw V hV0
    1 one_ne_zero).trans (prob_mono' ?_)
  rintro x ⟨W, hW, hbad⟩
  obtain ⟨k₂, upd, hk₂, -, hp, -⟩ := prepareForUpdate_ok seed hseed u e servers.length t ht (by omega) he (withLinear x r)
  obtain ⟨k, hk, hcs, -, ⟨ans, ha⟩, hall⟩ := misplaced seed hseed u e he s hlen servers hs t ht (by omega)
    hc (withLinear x r) upd hp m hm1 hm w.witness
  have hkk : k = k' - 1 := by
    rw [hk'] at hcs
    injection hcs with hcs
    omega
  have := (hall 1 1 (fun i => decide (i + 1 < servers.length)) (fun i => i + 1) (by simp; omega)
      (by rw [shifted_count]; omega)
      (fun i hi hr => ⟨by simpa using hr, by push_cast; ring⟩) ans (ans.tail ++ [([], [])]) ha
      (by rw [List.length_append, List.length_tail, ha.1, List.length_singleton]; omega)
      (fun i hi => by
        by_cases h : i + 1 < servers.length
        · simp only [h, decide_true, if_true]
          rw [List.getElem?_append_left (by rw [List.length_tail, ha.1]; omega), List.getElem?_tail]
        · simp only [h, decide_false]
          rw [List.getElem?_append_right (by rw [List.length_tail, ha.1]; omega), List.length_tail, ha.1,
            show i - (servers.length - 1) = 0 by omega]
          simp)).2
  rw [hkk, hW] at this
  exact ⟨upd, ans, W, hp, ha, this, hbad⟩

end
/-! ### the hypotheses are met -/

/-- member 3 of `leakSrv`, with its witness from before the two deletions -/
def ordUser : User (ZMod 7) (ZMod 7) (ZMod 7) := ⟨3, some ⟨0, 4, 2⟩, 2, ⟨1, 1⟩, 1⟩

theorem ord_synced : ∀ s' ∈ [leakSrv, leakSrv, leakSrv], s'.accumulators = leakSrv.accumulators ∧
    s'.deletions = leakSrv.deletions := by simp

theorem ord_chars : ∀ i : Nat, 0 < i → i ≤ 4 → (i : ZMod 7) ≠ 0 := by
  intro i h1 h2
  interval_cases i <;> decide

/-- C111_reversed, C111_shifted: three servers, threshold 2, two deletions, all coefficients 4. In order, the result
is the witness 3, the one valid for the accumulator 5; reversed it is 6, and one off it is 5. -/
example : ∃ upd ans, ordUser.prepareForUpdate (fun _ => 1) 3 3 2 (fun _ _ => 4) = .ok (.ok upd) ∧
    AnsweredBy [leakSrv, leakSrv, leakSrv] 2 upd ans ∧
    postUpdate (4 : ZMod 7) 2 upd.yShares upd.yValues ans = .ok (.ok 3) ∧
    postUpdate (4 : ZMod 7) 2 upd.yShares upd.yValues ans.reverse = .ok (.ok 6) ∧
    postUpdate (4 : ZMod 7) 2 upd.yShares upd.yValues (ans.tail ++ [([], [])]) = .ok (.ok 5) := by
  refine ⟨⟨2, [[0, 6], [4, 3], [1, 0]], [1, 2, 3]⟩, [([1], [6]), ([0], [0]), ([6], [1])], by with_unfolding_all rfl, ⟨rfl, ?_⟩,
    by with_unfolding_all rfl, by with_unfolding_all rfl, by with_unfolding_all rfl⟩
  intro i s' hi
  have hlt := (List.getElem?_eq_some_iff.1 hi).1
  simp only [List.length_cons, List.length_nil] at hlt
  have hs' : s' = leakSrv := by
    have := List.mem_of_getElem? hi
    simpa using this
  subst hs'
  interval_cases i
  · exact ⟨[0, 6], _, rfl, rfl, by with_unfolding_all rfl⟩
  · exact ⟨[4, 3], _, rfl, rfl, by with_unfolding_all rfl⟩
  · exact ⟨[1, 0], _, rfl, rfl, by with_unfolding_all rfl⟩

/-- The hypotheses of C111_reversed and C111_shifted, for all coefficients. -/
example (rand : Nat → Nat → ZMod 7) (upd : UserUpdate (ZMod 7))
    (hp : ordUser.prepareForUpdate (fun _ => 1) 3 3 2 rand = .ok (.ok upd)) :
    ∃ ds vs ds' vs', ∀ ans, AnsweredBy [leakSrv, leakSrv, leakSrv] 2 upd ans →
      postUpdate (4 : ZMod 7) 2 upd.yShares upd.yValues ans.reverse = .ok (followPieces (4 : ZMod 7) (ds : List (ZMod 7)) vs) ∧
      postUpdate (4 : ZMod 7) 2 upd.yShares upd.yValues (ans.tail ++ [([], [])]) = .ok (followPieces (4 : ZMod 7) (ds' : List (ZMod 7)) vs') := by
  obtain ⟨k, ds, vs, -, -, -, h1⟩ := C111_reversed (fun _ => 1) (fun _ _ => le_refl _) ordUser 3 (by decide) leakSrv rfl
    [leakSrv, leakSrv, leakSrv] ord_synced 2 le_rfl (by decide)
    (fun i a b => ord_chars i a (le_trans b (by decide))) rand upd hp 2 (by decide) (by decide) 4
  obtain ⟨ys, ds', vs', -, -, -, h2⟩ := C111_shifted (fun _ => 1) (fun _ _ => le_refl _) ordUser 3 (by decide) leakSrv rfl
    [leakSrv, leakSrv, leakSrv] ord_synced 2 le_rfl (by decide)
    (fun i a b => ord_chars i a (le_trans b (by decide))) rand upd hp 2 (by decide) (by decide) 4
  exact ⟨ds, vs, ds', vs', fun ans ha => ⟨h1 ans ha, h2 ans ha⟩⟩

/-- C111_exactly_t: three servers, threshold 3, the answers of the first two exchanged. -/
example (rand : Nat → Nat → ZMod 7) (upd : UserUpdate (ZMod 7)) (a b c : List (ZMod 7) × List (ZMod 7))
    (hp : ordUser.prepareForUpdate (fun _ => 1) 3 3 3 rand = .ok (.ok upd))
    (ha : AnsweredBy [leakSrv, leakSrv, leakSrv] 2 upd [a, b, c]) :
    postUpdate (4 : ZMod 7) 3 upd.yShares upd.yValues [b, a, c] = .ok (.error "user has been deleted") ∨
      ∃ W, postUpdate (4 : ZMod 7) 3 upd.yShares upd.yValues [b, a, c] = .ok (.ok W) :=
  C111_exactly_t (fun _ => 1) (fun _ _ => le_refl _) ordUser 3 (by decide) leakSrv rfl [leakSrv, leakSrv, leakSrv]
    ord_synced (by decide) (fun i h1 h2 => ord_chars i h1 (le_trans h2 (by decide))) rand upd hp 2 (by decide) (by decide)
    4 [a, b, c] [b, a, c] ha (List.Perm.swap _ _ _)

/-- C111_reversed_wrong, C111_shifted_wrong: the bound for one deletion is `1 - 2/7`. -/
example (r : Nat → Nat → ZMod 7) :
    (5 / 7 : ℚ) ≤ prob (fun x : Fin 1 → ZMod 7 => ∃ upd ans W,
      ordUser.prepareForUpdate (fun _ => 1) 3 3 2 (withLinear x r) = .ok (.ok upd) ∧
      AnsweredBy [leakSrv, leakSrv, leakSrv] 1 upd ans ∧
      postUpdate (4 : ZMod 7) 2 upd.yShares upd.yValues ans.reverse = .ok (.ok W) ∧
      ({ ordUser with witness := some { (⟨0, 4, 2⟩ : Witness (ZMod 7) (ZMod 7)) with witness := W } } :
        User (ZMod 7) (ZMod 7) (ZMod 7)).checkWitness (Pairing.field (ZMod 7)) onePar 5 ≠ .ok ()) ∧
    (5 / 7 : ℚ) ≤ prob (fun x : Fin 1 → ZMod 7 => ∃ upd ans W,
      ordUser.prepareForUpdate (fun _ => 1) 3 3 2 (withLinear x r) = .ok (.ok upd) ∧
      AnsweredBy [leakSrv, leakSrv, leakSrv] 1 upd ans ∧
      postUpdate (4 : ZMod 7) 2 upd.yShares upd.yValues (ans.tail ++ [([], [])]) = .ok (.ok W) ∧
      ({ ordUser with witness := some { (⟨0, 4, 2⟩ : Witness (ZMod 7) (ZMod 7)) with witness := W } } :
        User (ZMod 7) (ZMod 7) (ZMod 7)).checkWitness (Pairing.field (ZMod 7)) onePar 5 ≠ .ok ()) := by
  have h1 := C111_reversed_wrong (Pairing.field (ZMod 7)) onePar (by decide) (by decide) 1 1 2 leakOps leakSrv leakSrv_run
    [leakSrv, leakSrv, leakSrv] ord_synced (fun _ => 1) (fun _ _ => le_refl _) ordUser rfl 3 (by decide) 2 le_rfl
    (by decide) ord_chars r 1 le_rfl (by decide) ⟨0, 4, 2⟩ rfl 5 (by decide)
  have h2 := C111_shifted_wrong (Pairing.field (ZMod 7)) onePar (by decide) (by decide) 1 1 2 leakOps leakSrv leakSrv_run
    [leakSrv, leakSrv, leakSrv] ord_synced (fun _ => 1) (fun _ _ => le_refl _) ordUser rfl 3 (by decide) 2 le_rfl
    (by decide) (fun i a b => ord_chars i a (le_trans b (by decide))) r 1 le_rfl (by decide) ⟨0, 4, 2⟩ rfl 5 (by decide)
  have e : (1 - 2 * ((1 : Nat) : ℚ) / Nat.card (ZMod 7)) = 5 / 7 := by
    rw [Nat.card_eq_fintype_card, ZMod.card]; norm_num
  rw [e] at h1 h2
  exact ⟨h1, h2⟩

end Allo
