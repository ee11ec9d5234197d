import Verif.Props.UpdateServer
import Mathlib.SetTheory.Cardinal.Finite

/-!
# C37: fewer than `t` servers learn nothing about the user's id
-/

set_option linter.unusedSectionVars false
set_option linter.unusedVariables false
namespace Allo
open Spec Finset

section
variable {F G1 G2 GT : Type} [Field F] [DecidableEq F] [AddCommGroup G1] [Module F G1]
  [DecidableEq G1] [AddCommGroup G2] [Module F G2] [AddCommGroup GT] [Module F GT]

theorem sharePoly_add (t : Nat) (a b : F) (f g : Nat → F) (z : F) :
    polyVal z (sharePoly t (a + b) (fun k => f k + g k))
      = polyVal z (sharePoly t a f) + polyVal z (sharePoly t b g) := by
  rw [← polyVal_zipWith z _ _ (by simp [sharePoly])]
  congr 1
  unfold sharePoly
  rw [List.zipWith_cons_cons]
  congr 1
  apply List.ext_getElem <;> simp

/-- a sharing polynomial of any secret that vanishes at fewer than `t` given servers -/
theorem exists_vanishing (t n : Nat) (hc : ∀ i, 0 < i → i ≤ n → (i : F) ≠ 0) (I : Finset Nat)
    (hI : ∀ i ∈ I, i < n) (hcard : I.card < t) (Δ : F) :
    ∃ δ : Nat → F, (∀ k, t ≤ k → δ k = 0) ∧
      ∀ i ∈ I, polyVal ((i + 1 : Nat) : F) (sharePoly t Δ δ) = 0 := by
  obtain ⟨A, hA1, -, hA3⟩ := exists_polyVal (M := F) (insert 0 (I.image (· + 1)))
    (fun i => ((i : Nat) : F)) (by
      have hle : ∀ i ∈ insert 0 (I.image (· + 1)), i ≤ n := by
        intro i hi
        rcases Finset.mem_insert.1 hi with rfl | hi
        · omega
        · obtain ⟨j, hj, rfl⟩ := Finset.mem_image.1 hi
          have := hI j hj
          omega
      intro i hi j hj e
      exact cast_inj_of hc (hle i hi) (hle j hj) e) (fun i => if i = 0 then Δ else 0)
  have hlen : A.length ≤ t := by
    rw [hA1]
    refine le_trans (Finset.card_insert_le _ _) ?_
    have := Finset.card_image_le (s := I) (f := (· + 1))
    omega
  have h0 : polyVal (0 : F) A = Δ := by
    have := hA3 0 (Finset.mem_insert_self _ _)
    simpa using this
  refine ⟨fun k => A.getD k 0, fun k hk => ?_, fun i hi => ?_⟩
  · simp [List.getD_eq_getElem?_getD, List.getElem?_eq_none (show A.length ≤ k by omega)]
  · have hv := hA3 (i + 1) (Finset.mem_insert_of_mem (Finset.mem_image.2 ⟨i, hi, rfl⟩))
    rw [if_neg (by omega)] at hv
    have hpad : sharePoly t Δ (fun k => A.getD k 0) = A ++ List.replicate (t - A.length) 0 := by
      have hpos : 1 ≤ A.length := by
        rw [hA1]; exact Finset.card_pos.2 ⟨0, Finset.mem_insert_self _ _⟩
      apply List.ext_getElem?
      intro k
      cases A with
      | nil => simp at hpos
      | cons a A =>
        simp only [polyVal, zero_smul, add_zero] at h0
        subst h0
        cases k with
        | zero => simp [sharePoly]
        | succ k =>
          simp only [sharePoly, List.getElem?_cons_succ, List.cons_append, List.getElem?_map,
            List.getD_eq_getElem?_getD, List.length_cons]
          by_cases hk : k < t - 1
          · rw [List.getElem?_range hk]
            by_cases hk2 : k < A.length
            · rw [List.getElem?_append_left hk2]
              simp [hk2]
            · rw [List.getElem?_append_right (by omega), List.getElem?_replicate, if_pos (by simp at hlen; omega)]
              simp [hk2]
          · rw [List.getElem?_eq_none (by simpa using hk), List.getElem?_eq_none]
            · rfl
            · simp at hlen ⊢; omega
    rw [hpad, polyVal_append]
    have : ∀ m, polyVal ((i + 1 : Nat) : F) (List.replicate m (0 : F)) = 0 := by
      intro m; induction m with
      | zero => rfl
      | succ m ih => rw [List.replicate_succ, polyVal, ih]; simp
    rw [this, hv]; simp

theorem shVec_translate (t w : Nat) (y y' : F) (rand δ : Nat → Nat → F) (z : F)
    (h : ∀ j, polyVal z (sharePoly t (y' ^ (j + 1) - y ^ (j + 1)) (δ j)) = 0) :
    shVec t w y' (fun j k => rand j k + δ j k) z = shVec t w y rand z := by
  unfold shVec
  apply List.map_congr_left
  intro j _
  have := sharePoly_add t (y ^ (j + 1)) (y' ^ (j + 1) - y ^ (j + 1)) (rand j) (δ j) z
  rw [h j, add_zero, add_sub_cancel] at this
  exact this

/-- C37: let `u` and `u'` have any two ids and the same epoch, and let `I` be any set of at most `t - 1` of
the `n` servers. Translating the sharing randomness by a fixed amount `δ` (a bijection) makes the messages
(epoch difference and share vector) all servers in `I` receive from `u'` identical to those from `u`. -/
theorem C37_secrecy (seed : Nat → Nat) (hseed : ∀ d, 1 ≤ d → 1 ≤ seed d) (u u' : User F G1 G2)
    (newEpoch n t : Nat) (ht : 2 ≤ t) (hn : t ≤ n) (hc : ∀ i, 0 < i → i ≤ n → (i : F) ≠ 0)
    (he : u.epoch < newEpoch) (hee : u'.epoch = u.epoch) (I : Finset Nat) (hI : ∀ i ∈ I, i < n)
    (hcard : I.card < t) :
    ∃ δ : Nat → Nat → F, (∀ j k, t ≤ k → δ j k = 0) ∧ ∀ rand : Nat → Nat → F, ∃ upd upd',
      u.prepareForUpdate seed newEpoch n t rand = .ok (.ok upd) ∧
      u'.prepareForUpdate seed newEpoch n t (fun j k => rand j k + δ j k) = .ok (.ok upd') ∧
      upd'.epochDiff = upd.epochDiff ∧ upd'.yValues = upd.yValues ∧
      ∀ i ∈ I, upd'.yShares[i]? = upd.yShares[i]? := by
  choose δ hδ0 hδ using fun j => exists_vanishing t n hc I hI hcard (u'.id ^ (j + 1) - u.id ^ (j + 1))
  refine ⟨δ, fun j => hδ0 j, fun rand => ?_⟩
  obtain ⟨k, upd, hk, hk3, hp, h1, h2, -, -, h3, -⟩ :=
    prepareForUpdate_ok seed hseed u newEpoch n t ht hn he rand
  obtain ⟨k', upd', hk', hk3', hp', h1', h2', -, -, h3', -⟩ :=
    prepareForUpdate_ok seed hseed u' newEpoch n t ht hn (by omega) (fun j k => rand j k + δ j k)
  rw [hee, hk] at hk'
  injection hk' with hk'
  subst hk'
  refine ⟨upd, upd', hp, hp', by rw [h1, h1', hee], by rw [h2, h2'], fun i hi => ?_⟩
  rw [h3, h3', List.getElem?_map, List.getElem?_map, List.getElem?_range (hI i hi)]
  simp only [Option.map_some, Option.some.injEq]
  exact shVec_translate t (k - 1) u.id u'.id rand δ _ (fun j => hδ j i hi)

/-- C37 across sessions: any family of update preparations (any index type `ι`), each by some user towards its
own server set, with the colluders seeing fewer than the threshold in each of them (possibly different
servers, so that together they may see `t` or more messages of one user). Translating the randomness of every
session makes everything the colluders see in all sessions together the same for the users `u'` as for `u`:
the sessions of one user (`u` constant) cannot be told from sessions of unrelated users with these epochs. -/
theorem C37_sessions {ι : Type} (seed : Nat → Nat) (hseed : ∀ d, 1 ≤ d → 1 ≤ seed d)
    (u u' : ι → User F G1 G2) (newEpoch n t : ι → Nat) (ht : ∀ s, 2 ≤ t s) (hn : ∀ s, t s ≤ n s)
    (hc : ∀ s i, 0 < i → i ≤ n s → (i : F) ≠ 0) (he : ∀ s, (u s).epoch < newEpoch s)
    (hee : ∀ s, (u' s).epoch = (u s).epoch) (I : ι → Finset Nat) (hI : ∀ s, ∀ i ∈ I s, i < n s)
    (hcard : ∀ s, (I s).card < t s) :
    ∃ φ : Equiv.Perm (ι → Nat → Nat → F), ∀ rand : ι → Nat → Nat → F, ∃ upd upd' : ι → UserUpdate F,
      ∀ s, (u s).prepareForUpdate seed (newEpoch s) (n s) (t s) (rand s) = .ok (.ok (upd s)) ∧
        (u' s).prepareForUpdate seed (newEpoch s) (n s) (t s) (φ rand s) = .ok (.ok (upd' s)) ∧
        (upd' s).epochDiff = (upd s).epochDiff ∧
        ∀ i ∈ I s, (upd' s).yShares[i]? = (upd s).yShares[i]? := by
  choose δ _ hδ using fun s => C37_secrecy seed hseed (u s) (u' s) (newEpoch s) (n s) (t s) (ht s) (hn s)
    (hc s) (he s) (hee s) (I s) (hI s) (hcard s)
  refine ⟨Equiv.addRight δ, fun rand => ?_⟩
  choose upd upd' h1 h2 h3 _ h5 using fun s => hδ s (rand s)
  exact ⟨upd, upd', fun s => ⟨h1 s, h2 s, h3 s, h5 s⟩⟩

/-- the random coefficients that are drawn: `m` powers with `t - 1` coefficients each -/
def extRand (m t : Nat) (r : Fin m → Fin (t - 1) → F) (j k : Nat) : F :=
  if h : j < m ∧ 1 ≤ k ∧ k < t then r ⟨j, h.1⟩ ⟨k - 1, by omega⟩ else 0

theorem shVec_congr (t w : Nat) (id : F) (rand rand' : Nat → Nat → F) (z : F)
    (h : ∀ j < w, ∀ k, 1 ≤ k → k < t → rand j k = rand' j k) :
    shVec t w id rand z = shVec t w id rand' z := by
  unfold shVec
  apply List.map_congr_left
  intro j hj
  rw [List.mem_range] at hj
  congr 1
  unfold sharePoly
  congr 1
  apply List.map_congr_left
  intro k hk
  rw [List.mem_range] at hk
  exact h j hj (k + 1) (by omega) (by omega)

/-- C37, as counting: for every possible joint view of the servers in `I`, the number of random choices
(`m` polynomials with `t - 1` coefficients each) that produce it is the same for both ids. -/
theorem C37_equal_counts (seed : Nat → Nat) (hseed : ∀ d, 1 ≤ d → 1 ≤ seed d) (u u' : User F G1 G2)
    (newEpoch n t : Nat) (ht : 2 ≤ t) (hn : t ≤ n) (hc : ∀ i, 0 < i → i ≤ n → (i : F) ≠ 0)
    (he : u.epoch < newEpoch) (hee : u'.epoch = u.epoch) (I : Finset Nat) (hI : ∀ i ∈ I, i < n)
    (hcard : I.card < t) (k : Nat)
    (hk : chunkSize (newEpoch - u.epoch) (seed (newEpoch - u.epoch)) = .ok k) (m : Nat) (hm : k - 1 ≤ m)
    (view : Nat → Option (List F)) :
    Nat.card {r : Fin m → Fin (t - 1) → F // ∃ upd,
        u.prepareForUpdate seed newEpoch n t (extRand m t r) = .ok (.ok upd) ∧
        ∀ i ∈ I, upd.yShares[i]? = view i}
      = Nat.card {r : Fin m → Fin (t - 1) → F // ∃ upd,
        u'.prepareForUpdate seed newEpoch n t (extRand m t r) = .ok (.ok upd) ∧
        ∀ i ∈ I, upd.yShares[i]? = view i} := by
  choose δ hδ0 hδ using fun j => exists_vanishing t n hc I hI hcard (u'.id ^ (j + 1) - u.id ^ (j + 1))
  let Δ : Fin m → Fin (t - 1) → F := fun j k => δ j (k + 1)
  have hview : ∀ (v : User F G1 G2), v.epoch = u.epoch → ∀ r, (∃ upd,
        v.prepareForUpdate seed newEpoch n t (extRand m t r) = .ok (.ok upd) ∧
        ∀ i ∈ I, upd.yShares[i]? = view i) ↔
        ∀ i ∈ I, some (shVec t (k - 1) v.id (extRand m t r) ((i + 1 : Nat) : F)) = view i := by
    intro v hv r
    obtain ⟨k', upd, hk', hk3, hp, h1, h2, -, -, h3, -⟩ :=
      prepareForUpdate_ok seed hseed v newEpoch n t ht hn (by omega) (extRand m t r)
    rw [hv, hk] at hk'
    injection hk' with hk'
    subst hk'
    have hget : ∀ i ∈ I, upd.yShares[i]? = some (shVec t (k - 1) v.id (extRand m t r) ((i + 1 : Nat) : F)) := by
      intro i hi
      rw [h3, List.getElem?_map, List.getElem?_range (hI i hi)]; rfl
    constructor
    · rintro ⟨upd', hp', hv'⟩ i hi
      rw [hp] at hp'
      injection hp' with hp'
      injection hp' with hp'
      subst hp'
      rw [← hget i hi]; exact hv' i hi
    · intro h
      exact ⟨upd, hp, fun i hi => by rw [hget i hi]; exact h i hi⟩
  have hiff : ∀ r, (∃ upd, u.prepareForUpdate seed newEpoch n t (extRand m t r) = .ok (.ok upd) ∧
        ∀ i ∈ I, upd.yShares[i]? = view i) ↔ (∃ upd,
        u'.prepareForUpdate seed newEpoch n t (extRand m t (r + Δ)) = .ok (.ok upd) ∧
        ∀ i ∈ I, upd.yShares[i]? = view i) := by
    intro r
    rw [hview u rfl, hview u' hee]
    apply forall_congr'
    intro i
    apply forall_congr'
    intro hi
    rw [← shVec_translate t (k - 1) u.id u'.id (extRand m t r) δ _ (fun j => hδ j i hi)]
    rw [shVec_congr t (k - 1) u'.id (extRand m t (r + Δ)) (fun j k => extRand m t r j k + δ j k)]
    intro j hj k' h1 h2
    unfold extRand
    rw [dif_pos ⟨by omega, h1, h2⟩, dif_pos ⟨by omega, h1, h2⟩]
    simp only [Pi.add_apply, Δ]
    rw [Nat.sub_add_cancel h1]
  exact Nat.card_congr ((Equiv.addRight Δ).subtypeEquiv hiff)

/-- hypotheses of C37: 5 servers, threshold 3, servers 1 and 4 collude -/
example : (∀ i, 0 < i → i ≤ 5 → ((i : Nat) : ℚ) ≠ 0) ∧ (∀ i ∈ ({1, 4} : Finset Nat), i < 5) ∧
    ({1, 4} : Finset Nat).card < 3 :=
  ⟨fun i h _ => by exact_mod_cast Nat.pos_iff_ne_zero.1 h, by decide, by decide⟩

theorem shVec_determines_id (t n : Nat) (ht : 1 ≤ t) (hc : ∀ i, 0 < i → i ≤ n → (i : F) ≠ 0)
    (w w' : Nat) (hw : 1 ≤ w) (hw' : 1 ≤ w') (y y' : F) (rand rand' : Nat → Nat → F) (I : Finset Nat)
    (hI : ∀ i ∈ I, i < n) (hcard : t ≤ I.card)
    (h : ∀ i ∈ I, shVec t w y rand ((i + 1 : Nat) : F) = shVec t w' y' rand' ((i + 1 : Nat) : F)) :
    y = y' := by
  have h' : ∀ i ∈ I, polyVal ((i + 1 : Nat) : F) (sharePoly t y (rand 0))
      = polyVal ((i + 1 : Nat) : F) (sharePoly t y' (rand' 0)) := by
    intro i hi
    have := congrArg (fun l : List F => l[0]?) (h i hi)
    simpa [shVec, show 0 < w by omega, show 0 < w' by omega] using this
  have := polyVal_unique I (fun i => ((i + 1 : Nat) : F)) (fun i hi j hj e => by
    have := cast_inj_of hc (show i + 1 ≤ n from hI i hi) (show j + 1 ≤ n from hI j hj) e
    omega) _ _ (by rw [sharePoly_length t ht]; exact hcard) (by rw [sharePoly_length t ht]; exact hcard) h' 0
  rwa [sharePoly_zero, sharePoly_zero] at this

/-- **C37**, the bound on the number of colluding servers is needed: the messages to `t` of them determine the id. If
two users (at any epochs, with any randomness) send the same share vectors to some `t` servers, their ids are equal. -/
theorem C37_t_servers_learn_the_id (seed : Nat → Nat) (hseed : ∀ d, 1 ≤ d → 1 ≤ seed d) (u u' : User F G1 G2)
    (newEpoch newEpoch' n t : Nat) (ht : 2 ≤ t) (hn : t ≤ n) (hc : ∀ i, 0 < i → i ≤ n → (i : F) ≠ 0)
    (he : u.epoch < newEpoch) (he' : u'.epoch < newEpoch') (rand rand' : Nat → Nat → F) (upd upd' : UserUpdate F)
    (hp : u.prepareForUpdate seed newEpoch n t rand = .ok (.ok upd))
    (hp' : u'.prepareForUpdate seed newEpoch' n t rand' = .ok (.ok upd')) (I : Finset Nat) (hI : ∀ i ∈ I, i < n)
    (hcard : t ≤ I.card) (h : ∀ i ∈ I, upd.yShares[i]? = upd'.yShares[i]?) : u.id = u'.id := by
  obtain ⟨k, upd₁, -, hk3, hq, -, -, -, -, hys, -⟩ := prepareForUpdate_ok seed hseed u newEpoch n t ht hn he rand
  obtain ⟨k', upd₂, -, hk3', hq', -, -, -, -, hys', -⟩ := prepareForUpdate_ok seed hseed u' newEpoch' n t ht hn he' rand'
  rw [hp] at hq
  rw [hp'] at hq'
  cases hq
  cases hq'
  refine shVec_determines_id t n (by omega) hc (k - 1) (k' - 1) (by omega) (by omega) u.id u'.id rand rand' I hI hcard ?_
  intro i hi
  have := h i hi
  rw [hys, hys'] at this
  simpa [hI i hi] using this

end
end Allo
