import Verif.Props.Retry

/-!
# C115: the arguments of `post_update` beside the answers

`prepare_for_update` and `post_update` are given the threshold separately, and `post_update` runs over the shares that were
sent, not over the answers.
-/

set_option linter.unusedSectionVars false
set_option linter.unusedVariables false
namespace Allo
open Spec Finset User Server Rom

section
variable {F G1 G2 GT : Type} [Field F] [DecidableEq F] [AddCommGroup G1] [Module F G1]
  [DecidableEq G1] [AddCommGroup G2] [Module F G2] [AddCommGroup GT] [Module F GT] [DecidableEq GT]

theorem PolyFn.mono_le {M : Type} [AddCommGroup M] [Module F M] {t t' : Nat} {g : F → M} (h : PolyFn t g) (hle : t ≤ t') :
    PolyFn t' g := by
  induction t', hle using Nat.le_induction with
  | base => exact h
  | succ n _ ih => exact ih.mono

/-- **C115** (a larger threshold). Updates prepared with threshold `t` and finished with a larger one, at most the number of
servers: the result for honest answers is the same. -/
theorem C115_larger (seed : Nat → Nat) (hseed : ∀ d, 1 ≤ d → 1 ≤ seed d) (u : User F G1 G2)
    (e : Nat) (he : u.epoch < e) (s : Server F G1 G2)
    (hlen : s.accumulators.length = s.deletions.length + 1) (servers : List (Server F G1 G2))
    (hs : ∀ s' ∈ servers, s'.accumulators = s.accumulators ∧ s'.deletions = s.deletions)
    (t t' : Nat) (ht : 2 ≤ t) (htt : t ≤ t') (hn : t' ≤ servers.length)
    (hc : ∀ i : Nat, 0 < i → i ≤ servers.length → (i : F) ≠ 0) (rand : Nat → Nat → F) (upd : UserUpdate F)
    (hp : u.prepareForUpdate seed e servers.length t rand = .ok (.ok upd)) (m : Nat)
    (hm1 : 1 ≤ m) (hm : m ≤ s.deletions.length) (w : G1) (ans : List (List F × List G1))
    (ha : AnsweredBy servers m upd ans) :
    postUpdate w t' upd.yShares upd.yValues ans = postUpdate w t upd.yShares upd.yValues ans := by
  obtain ⟨k, hk, hyl, hyv, -, -, hh⟩ := answered_closed seed hseed u e he s hlen servers hs t ht (by omega) rand upd hp m hm1 hm
  have key : ∀ t₀, t ≤ t₀ → t₀ ≤ servers.length → postUpdate w t₀ upd.yShares upd.yValues ans
      = .ok (loopSpec (fun j => some (dAns (shVec t k u.id rand 0) (chunkAt k (s.published m) j)))
          (fun j => some (vAnsP (shVec t k u.id rand 0) (chunkAt k (s.published m) j))) (List.range (nChunks k m)) w) := by
    intro t₀ h1 h2
    rw [(hh ans).1 ha, hyv]
    exact postUpdate_honest w t₀ servers.length (nChunks k m) (by omega) (nChunks_pos _ _ (by omega) hm1) hc (fun _ => true)
      (fun j x => dAns (shVec t k u.id rand x) (chunkAt k (s.published m) j))
      (fun j x => vAnsP (shVec t k u.id rand x) (chunkAt k (s.published m) j))
      (fun j => (dAns_polyFn t k (by omega) u.id rand (chunkAt k (s.published m) j)).mono_le h1)
      (fun j => (vAnsP_polyFn t k (by omega) u.id rand (chunkAt k (s.published m) j)).mono_le h1)
      (by rw [List.filter_true, List.length_range]; exact h2) (Or.inl rfl) upd.yShares hyl
  rw [key t' htt hn, key t le_rfl (by omega)]

theorem foldlM_fails {σ β : Type} (f : σ → β → Rust σ) (b : β) (hf : ∀ st, ∃ p, f st b = .error p) :
    ∀ (l : List β) (st : σ), b ∈ l → ∃ p, l.foldlM f st = .error p := by
  intro l
  induction l with
  | nil => intro st h; simp at h
  | cons a l ih =>
    intro st h
    rw [List.foldlM_cons]
    cases hfa : f st a with
    | error p => exact ⟨p, rfl⟩
    | ok st' =>
      rcases List.mem_cons.1 h with rfl | h
      · obtain ⟨p, hp⟩ := hf st
        rw [hp] at hfa; cases hfa
      · obtain ⟨p, hp⟩ := ih st' h
        exact ⟨p, hp⟩

theorem foldlM_congr_mem {σ β : Type} (f g : σ → β → Rust σ) :
    ∀ (l : List β) (st : σ), (∀ b ∈ l, ∀ st, f st b = g st b) → l.foldlM f st = l.foldlM g st := by
  intro l
  induction l with
  | nil => intro st _; rfl
  | cons a l ih =>
    intro st h
    rw [List.foldlM_cons, List.foldlM_cons, h a (by simp)]
    congr 1
    funext st'
    exact ih st' (fun b hb => h b (by simp [hb]))

/-- **C115** (extra and missing answers). Answers beyond the servers that were asked are ignored; if there are fewer
answers than servers that were asked, `post_update` panics. -/
theorem C115_lengths (w : G1) (t : Nat) (yShares : List (List F)) (yValues : List F) (ans extra : List (List F × List G1)) :
    (yShares.length ≤ ans.length →
      postUpdate w t yShares yValues (ans ++ extra) = postUpdate w t yShares yValues ans) ∧
    (ans.length < yShares.length → ∃ p, postUpdate w t yShares yValues ans = .error p) := by
  constructor
  · intro h
    have hstep : ∀ (T : Type) (A X : List (List T)) (c : List (List (F × T))) (i : Nat), i < A.length →
        collectStep yValues (A ++ X) c i = collectStep yValues A c i := by
      intro T A X c i hi
      unfold collectStep
      rw [idx_lt (by rw [List.length_append]; omega), idx_lt hi, List.getElem_append_left hi]
    have hcol : collect yShares.length yValues (ans ++ extra) = collect yShares.length yValues ans := by
      unfold collect
      refine foldlM_congr_mem _ _ _ _ (fun i hi st => ?_)
      have hi := lt_of_lt_of_le (List.mem_range.1 hi) h
      simp only [List.map_append]
      rw [hstep _ _ _ _ _ (by simpa using hi), hstep _ _ _ _ _ (by simpa using hi)]
    unfold postUpdate
    rw [hcol]
  · intro h
    have hcol : ∃ p, collect yShares.length yValues ans = .error p := by
      unfold collect
      refine foldlM_fails _ ans.length (fun st => ⟨.index, ?_⟩) _ _ (List.mem_range.2 h)
      have : idx (ans.map (·.1)) ans.length = .error .index := by
        unfold idx; rw [List.getElem?_eq_none (by simp)]
      simp only [collectStep, this]
      rfl
    obtain ⟨p, hp⟩ := hcol
    refine ⟨p, ?_⟩
    unfold postUpdate
    rw [hp]; rfl

variable [Fintype F]

/-- **C115** (a smaller threshold). An update prepared with threshold `t` and finished with a smaller one, `t'`: if all
servers answer, `post_update` returns "malicious server", with probability at least `1 - 1/|F|` in the coefficients of
the first `m` sharing polynomials, although all answers are honest. -/
theorem C115_smaller (s : Server F G1 G2)
    (hlen : s.accumulators.length = s.deletions.length + 1) (servers : List (Server F G1 G2))
    (hs : ∀ s' ∈ servers, s'.accumulators = s.accumulators ∧ s'.deletions = s.deletions)
    (seed : Nat → Nat) (hseed : ∀ d, 1 ≤ d → 1 ≤ seed d) (u : User F G1 G2) (e : Nat) (he : u.epoch < e)
    (t t' : Nat) (ht' : 1 ≤ t') (htt : t' < t) (hn : t ≤ servers.length)
    (hc : ∀ i : Nat, 0 < i → i ≤ servers.length → (i : F) ≠ 0) (m : Nat) (hm1 : 1 ≤ m) (hm : m ≤ s.deletions.length)
    (w : G1) (r : Nat → Nat → F) :
    1 - 1 / (Nat.card F : ℚ) ≤ prob (fun x : Fin (t - 1) → Fin m → F => ∃ upd ans,
      u.prepareForUpdate seed e servers.length t (withRows x r) = .ok (.ok upd) ∧
      AnsweredBy servers m upd ans ∧
      postUpdate w t' upd.yShares upd.yValues ans = .ok (.error "malicious server")) := by
  classical
  have hinj := xOf_injOn (F := F) hc
  have hmem : ∀ i < t' + 1, i ∈ (range servers.length : Finset Nat) := fun i hi => Finset.mem_range.2 (by omega)
  have hinjt : Set.InjOn (xOf F) (range (t' + 1) : Finset Nat) := hinj.mono (by
    intro i hi; exact Finset.mem_coe.2 (hmem i (Finset.mem_range.1 hi)))
  have hinjt' : Set.InjOn (xOf F) (range t' : Finset Nat) := hinj.mono (by
    intro i hi; exact Finset.mem_coe.2 (hmem i (by have := Finset.mem_range.1 hi; omega)))
  have hx0 : ∀ i < t' + 1, xOf F i ≠ 0 := fun i hi => hc _ (by omega) (by omega)
  set wt : Nat → F := fun i => if i < t' then lagr (range t') (xOf F) (xOf F t') i else -1 with hwt
  have hchk : ∀ f : Nat → F, (∑ i ∈ range (t' + 1), wt i * f i = 0) ↔
      f t' = ∑ i ∈ range t', lagr (range t') (xOf F) (xOf F t') i • f i := by
    intro f
    rw [Finset.sum_range_succ]
    have : ∑ i ∈ range t', wt i * f i = ∑ i ∈ range t', lagr (range t') (xOf F) (xOf F t') i • f i :=
      Finset.sum_congr rfl (fun i hi => by simp only [hwt, Finset.mem_range.1 hi, if_true, smul_eq_mul])
    rw [this]
    simp only [hwt, lt_irrefl, if_false]
    constructor
    · intro h; linear_combination -h
    · intro h; linear_combination -h
  have hpow0 : ∀ l < t', ∑ i ∈ range (t' + 1), wt i * xOf F i ^ l = 0 := by
    intro l hl
    rw [hchk (fun i => xOf F i ^ l)]
    simp only [smul_eq_mul]
    rw [lagr_pow (range t') (xOf F) hinjt' (xOf F t') l (by simpa using hl)]
  -- the check does not vanish at degree `t'`
  have hne : ∑ i ∈ range (t' + 1), wt i * xOf F i ^ (t' - 1 + 1) ≠ 0 := by
    obtain ⟨l, hl, h⟩ := exists_power (range (t' + 1)) (xOf F) hinjt (fun i hi => hx0 i (Finset.mem_range.1 hi)) (t' + 2)
      (by simp) (fun i => wt i * (xOf F i)⁻¹) t' (by simp) (mul_ne_zero (by simp [hwt])
        (inv_ne_zero (hx0 t' (by omega))))
    have e : ∀ l, ∑ i ∈ range (t' + 1), wt i * (xOf F i)⁻¹ * xOf F i ^ (l + 1)
        = ∑ i ∈ range (t' + 1), wt i * xOf F i ^ l := by
      intro l
      refine Finset.sum_congr rfl (fun i hi => ?_)
      rw [pow_succ', mul_assoc, inv_mul_cancel_left₀ (hx0 i (Finset.mem_range.1 hi))]
    rw [e] at h
    rcases Nat.lt_or_ge l t' with h1 | h1
    · exact absurd (hpow0 l h1) h
    · rw [show t' - 1 + 1 = l by omega]; exact h
  obtain ⟨k', upd', hk', hk3, -⟩ := prepareForUpdate_ok seed hseed u e servers.length t (by omega) hn he r
  have hl0 : t' - 1 < t - 1 := by omega
  refine le_prob_row (⟨t' - 1, hl0⟩ : Fin (t - 1)) _ _ (fun x => ?_)
  set k := k' - 1 with hkdef
  have hk : 1 ≤ k := by omega
  set P := chunkAt k (s.published m) 0 with hP
  set ci : Nat → Nat → F := fun i j => polyVal (xOf F i) (sharePoly t (u.id ^ (j + 1))
            (withRows (Function.update x (⟨t' - 1, hl0⟩ : Fin (t - 1)) (fun _ => 0)) r j)) with hci
  refine le_prob_not _ (fun row : Fin m → F => ∑ i ∈ range (t' + 1), wt i *
    dAns ((List.range k).map (affVec m (xOf F i ^ (t' - 1 + 1)) (ci i) row)) P = 0) _ (fun row hrow => ?_) ?_
  · obtain ⟨k₂, upd, -, -, hp, -⟩ := prepareForUpdate_ok seed hseed u e servers.length t (by omega) hn he
      (withRows (Function.update x (⟨t' - 1, hl0⟩ : Fin (t - 1)) row) r)
    obtain ⟨k₁, -, hyl, hyv, hcs, -, hh⟩ := answered_closed seed hseed u e he s hlen servers hs t (by omega) hn _ upd hp
      m hm1 hm
    have e₁ : k₁ = k := by rw [hk'] at hcs; injection hcs with h; omega
    rw [e₁] at hh
    refine ⟨upd, _, hp, (hh _).2 rfl, ?_⟩
    rw [hyv]
    refine postUpdate_inconsistent w t' servers.length (nChunks k m) ht' (by omega) (nChunks_pos _ _ hk hm1) hc _ _ _ hyl ?_
    intro h
    apply hrow
    rw [hchk (fun i => dAns ((List.range k).map (affVec m (xOf F i ^ (t' - 1 + 1)) (ci i) row)) P)]
    simp only [shVec_row] at h
    exact h
  · have hPl := published_length s hlen m hm
    have h1 := chunkAt_pos k hk (s.published m) 0 (by rw [hPl]; exact nChunks_pos _ _ hk hm1)
    have h2 := chunkAt_le k (s.published m) 0
    rw [hPl, ← hP] at h2
    rw [← hP] at h1
    have key := prob_coord_le (⟨P.length - 1, by omega⟩ : Fin m) 1 (fun row : Fin m → F => ∑ i ∈ range (t' + 1), wt i *
      dAns ((List.range k).map (affVec m (xOf F i ^ (t' - 1 + 1)) (ci i) row)) P = 0) (fun row S hS => ?_)
    · simpa using key
    · rw [Finset.card_le_one]
      choose ei hei using fun i => dAns_coord P k h1 (chunkAt_length _ _ _) (affVec m (xOf F i ^ (t' - 1 + 1)) (ci i) row)
      have hval : ∀ y i, dAns ((List.range k).map (affVec m (xOf F i ^ (t' - 1 + 1)) (ci i)
          (Function.update row (⟨P.length - 1, by omega⟩ : Fin m) y))) P
          = (-1) ^ P.length * (xOf F i ^ (t' - 1 + 1) * y + ci i (P.length - 1)) + ei i := by
        intro y i
        obtain ⟨u1, u2⟩ := affVec_update m (xOf F i ^ (t' - 1 + 1)) (ci i) row (⟨P.length - 1, by omega⟩ : Fin m) y
        rw [hei i _ (fun j hj => u1 j (by simp only; omega))]
        simp only at u2
        rw [u2]
      have hlin : ∀ y ∈ S, (-1) ^ P.length * (∑ i ∈ range (t' + 1), wt i * xOf F i ^ (t' - 1 + 1)) * y
          + ∑ i ∈ range (t' + 1), wt i * ((-1) ^ P.length * ci i (P.length - 1) + ei i) = 0 := by
        intro y hy
        have := hS y hy
        simp only [hval] at this
        rw [← this, mul_assoc, Finset.sum_mul, Finset.mul_sum, ← Finset.sum_add_distrib]
        exact Finset.sum_congr rfl (fun i _ => by ring)
      have hne' : (-1) ^ P.length * (∑ i ∈ range (t' + 1), wt i * xOf F i ^ (t' - 1 + 1)) ≠ 0 :=
        mul_ne_zero (pow_ne_zero _ (by simp)) hne
      intro y hy y' hy'
      apply mul_left_cancel₀ hne'
      linear_combination hlin y hy - hlin y' hy'

/-- **C115** (a smaller threshold, no spare answer). An update prepared with threshold `t` and finished with a smaller
one, `t'`, when exactly `t'` servers answer: `post_update` returns `Ok` with a witness that does not verify for `V`, with
probability at least `1 - 2m/|F|`; `V` is any accumulator that is not the identity. -/
theorem C115_smaller_exact (E : Pairing F G1 G2 GT) (params : AccParams G1 G2) (hP : params.p2 ≠ 0)
    (hK : params.k2 ≠ 0) (α sM v : F) (ops : List (Op F)) (s : Server F G1 G2)
    (h : (Server.new params α sM v).run ops = .ok s) (servers : List (Server F G1 G2))
    (hs : ∀ s' ∈ servers, s'.accumulators = s.accumulators ∧ s'.deletions = s.deletions)
    (seed : Nat → Nat) (hseed : ∀ d, 1 ≤ d → 1 ≤ seed d) (u : User F G1 G2)
    (hu : u.publicKeys = s.getPublicKeys) (e : Nat) (he : u.epoch < e)
    (t t' : Nat) (ht' : 1 ≤ t') (htt : t' < t) (hn : t ≤ servers.length)
    (hc : ∀ i : Nat, 0 < i → i ≤ servers.length → (i : F) ≠ 0) (m : Nat)
    (hm1 : 1 ≤ m) (hm : m ≤ s.deletions.length) (w : Witness F G1) (hw : u.witness = some w)
    (V : G1) (hV0 : V ≠ 0) (r : Nat → Nat → F) (resp : Nat → Bool)
    (hresp : ((List.range servers.length).filter resp).length = t') :
    1 - 2 * (m : ℚ) / Nat.card F ≤ prob (fun x : Fin (t - 1) → Fin m → F => ∃ upd ans W,
      u.prepareForUpdate seed e servers.length t (withRows x r) = .ok (.ok upd) ∧
      AnsweredBy servers m upd ans ∧
      postUpdate w.witness t' upd.yShares upd.yValues
        (mixAt resp (List.replicate servers.length ([], [])) ans) = .ok (.ok W) ∧
      ({ u with witness := some { w with witness := W } } : User F G1 G2).checkWitness E params V ≠ .ok ()) := by
  classical
  have hlen := accs_length_run params α sM v _ s h
  set n := servers.length with hnn
  set D : Finset Nat := (range n).filter (fun i => resp i = true) with hD
  have hDmem : ∀ i, i ∈ D ↔ i < n ∧ resp i = true := fun i => by simp [hD]
  have hrs : ∀ i, i ∈ (List.range n).filter resp ↔ i ∈ D := fun i => by simp [hD]
  have hDcard : D.card = t' := by
    have : ((List.range n).filter resp).toFinset = D := by ext i; simp [hD]
    rw [← this, List.toFinset_card_of_nodup (List.nodup_range.filter _), hresp]
  have hinj : Set.InjOn (xOf F) (D : Finset Nat) := (xOf_injOn (F := F) hc).mono (by
    intro i hi; exact Finset.mem_coe.2 (Finset.mem_range.2 ((hDmem i).1 hi).1))
  have hx0 : ∀ i ∈ D, xOf F i ≠ 0 := fun i hi => hc _ (by omega) (by have := ((hDmem i).1 hi).1; omega)
  set wt : Nat → F := lagr D (xOf F) 0 with hwt
  have hone : ∑ i ∈ D, wt i = 1 := by
    have := lagr_pow D (xOf F) hinj 0 0 (by omega)
    simpa using this
  obtain ⟨i₀, hi₀⟩ := Finset.card_pos.1 (by omega : 0 < D.card)
  obtain ⟨l, hl, hne⟩ := exists_power D (xOf F) hinj hx0 t (by omega) wt i₀ hi₀
    (lagr_ne_zero _ _ hinj _ _ hi₀ (fun j hj _ e => hx0 j hj e.symm))
  obtain ⟨k', upd', hk', hk3, -⟩ := prepareForUpdate_ok seed hseed u e n t (by omega) hn he r
  set k := k' - 1 with hkdef
  have hk : 1 ≤ k := by omega
  refine le_prob_row (⟨l, hl⟩ : Fin (t - 1)) _ _ (fun x => ?_)
  set ci : Nat → Nat → F := fun i j => polyVal (xOf F i) (sharePoly t (u.id ^ (j + 1))
            (withRows (Function.update x (⟨l, hl⟩ : Fin (t - 1)) (fun _ => 0)) r j)) with hci
  have hcomb : ∀ row : Fin m → F, (fun j => ∑ i ∈ D, wt i * affVec m (xOf F i ^ (l + 1)) (ci i) row j)
      = affVec m (∑ i ∈ D, wt i * xOf F i ^ (l + 1)) (fun j => ∑ i ∈ D, wt i * ci i j) row := by
    intro row
    funext j
    simp only [affVec]
    rw [Finset.sum_mul, ← Finset.sum_add_distrib]
    exact Finset.sum_congr rfl (fun i _ => by ring)
  refine (wrong_prob_vec E params hP hK α sM s (keys_run h).1 hlen u hu k hk m hm1 hm w hw V hV0
    (∑ i ∈ D, wt i * xOf F i ^ (l + 1)) hne (fun j => ∑ i ∈ D, wt i * ci i j)).trans (prob_mono' ?_)
  rintro row ⟨W, hW, hbad⟩
  obtain ⟨k₂, upd, -, -, hp, -⟩ := prepareForUpdate_ok seed hseed u e n t (by omega) hn he
    (withRows (Function.update x (⟨l, hl⟩ : Fin (t - 1)) row) r)
  obtain ⟨k₁, -, hyl, hyv, hcs, -, hh⟩ := answered_closed seed hseed u e he s hlen servers hs t (by omega) hn _ upd hp
    m hm1 hm
  have e₁ : k₁ = k := by rw [hk'] at hcs; injection hcs with h; omega
  rw [e₁] at hh
  refine ⟨upd, _, W, hp, (hh _).2 rfl, ?_, hbad⟩
  rw [hyv]
  simp only [shVec_row]
  set gD : Nat → Nat → F := fun i j => dAns ((List.range k).map (affVec m (xOf F i ^ (l + 1)) (ci i) row))
    (chunkAt k (s.published m) j) with hgD
  set gV : Nat → Nat → G1 := fun i j => vAnsP ((List.range k).map (affVec m (xOf F i ^ (l + 1)) (ci i) row))
    (chunkAt k (s.published m) j) with hgV
  have hgot : mixAt resp (List.replicate n (([], []) : List F × List G1)) (answers n (nChunks k m) (fun _ => true) gD gV)
      = answers n (nChunks k m) resp gD gV := by
    have : List.replicate n (([], []) : List F × List G1) = (List.range n).map (fun _ => ([], [])) := by simp
    rw [this, answers, mixAt_range, answers]
    exact List.map_congr_left (fun i _ => by simp)
  have hpoly : ∀ (M : Type) [AddCommGroup M] [Module F M] (f : Nat → M),
      ∃ g : F → M, PolyFn t' g ∧ (∀ i ∈ D, f i = g (xOf F i)) ∧ g 0 = ∑ i ∈ D, wt i • f i := by
    intro M _ _ f
    obtain ⟨A, hA1, hA2, hA3⟩ := exists_polyVal (M := M) D (xOf F) hinj f
    exact ⟨fun z => polyVal z A, ⟨A, by rw [hA1, hDcard], fun _ => rfl⟩, fun i hi => (hA3 i hi).symm, hA2 0⟩
  choose pD pD1 pD2 pD3 using fun j => hpoly F (fun i => gD i j)
  choose pV pV1 pV2 pV3 using fun j => hpoly G1 (fun i => gV i j)
  have key := postUpdate_used w.witness t' n (nChunks k m) ht' (nChunks_pos _ _ hk hm1) hc resp pD pV pD1 pV1 (by omega)
    gD gV (fun i hi j _ => pD2 j i ((hrs i).1 (List.mem_of_mem_take hi)))
    (fun i hi j _ => pV2 j i ((hrs i).1 (List.mem_of_mem_take hi))) (Or.inr hresp) upd.yShares hyl
  refine (congrArg _ hgot).trans (key.trans ?_)
  · rw [loopSpec_pieces, ← hW]
    congr 2
    · refine List.map_congr_left (fun j _ => ?_)
      rw [pD3, ← hcomb, dAns_comb _ _ hone _ _ (chunkAt_length _ _ _)]
    · refine List.map_congr_left (fun j _ => ?_)
      rw [pV3, ← hcomb, vAnsP_comb _ _ hone _ _ (chunkAt_length _ _ _)]

end
/-! ### the hypotheses are met -/

/-- Three servers, prepared with threshold 2, all coefficients 4: finished with threshold 2 or 3 the result is the valid
witness 3; with threshold 1 the honest answers are refused, and if only server 1 answers the result is 5. A fourth
answer is ignored, and with two answers the call panics. -/
example : ∃ upd ans, ordUser.prepareForUpdate (fun _ => 1) 3 3 2 (fun _ _ => 4) = .ok (.ok upd) ∧
    AnsweredBy (List.replicate 3 leakSrv) 2 upd ans ∧
    postUpdate (4 : ZMod 7) 2 upd.yShares upd.yValues ans = .ok (.ok 3) ∧
    postUpdate (4 : ZMod 7) 3 upd.yShares upd.yValues ans = .ok (.ok 3) ∧
    postUpdate (4 : ZMod 7) 1 upd.yShares upd.yValues ans = .ok (.error "malicious server") ∧
    postUpdate (4 : ZMod 7) 1 upd.yShares upd.yValues (mixAt (· == 0) (List.replicate 3 ([], [])) ans) = .ok (.ok 5) ∧
    postUpdate (4 : ZMod 7) 2 upd.yShares upd.yValues (ans ++ [([6], [6])]) = .ok (.ok 3) ∧
    postUpdate (4 : ZMod 7) 2 upd.yShares upd.yValues (ans.take 2) = .error .index := by
  refine ⟨⟨2, [[0, 6], [4, 3], [1, 0]], [1, 2, 3]⟩, [([1], [6]), ([0], [0]), ([6], [1])], by with_unfolding_all rfl,
    leak_answered 3 _ _ rfl (fun i hi => ?_), by with_unfolding_all rfl, by with_unfolding_all rfl,
    by with_unfolding_all rfl, by with_unfolding_all rfl, by with_unfolding_all rfl, by with_unfolding_all rfl⟩
  interval_cases i
  · exact ⟨[0, 6], _, rfl, rfl, by with_unfolding_all rfl⟩
  · exact ⟨[4, 3], _, rfl, rfl, by with_unfolding_all rfl⟩
  · exact ⟨[1, 0], _, rfl, rfl, by with_unfolding_all rfl⟩

/-- C115_larger: the hypotheses, for all coefficients. -/
example (rand : Nat → Nat → ZMod 7) (upd : UserUpdate (ZMod 7)) (ans : List (List (ZMod 7) × List (ZMod 7)))
    (hp : ordUser.prepareForUpdate (fun _ => 1) 3 3 2 rand = .ok (.ok upd))
    (ha : AnsweredBy (List.replicate 3 leakSrv) 2 upd ans) :
    postUpdate (4 : ZMod 7) 3 upd.yShares upd.yValues ans = postUpdate (4 : ZMod 7) 2 upd.yShares upd.yValues ans :=
  C115_larger (fun _ => 1) (fun _ _ => le_refl _) ordUser 3 (by decide) leakSrv rfl (List.replicate 3 leakSrv)
    (leak_synced 3) 2 3 le_rfl (by decide) (by decide) (fun i a b => ord_chars i a (le_trans b (by decide))) rand upd hp 2
    (by decide) (by decide) 4 ans ha

/-- C115_lengths. -/
example : postUpdate (F := ZMod 7) (4 : ZMod 7) 2 [[0, 6], [4, 3]] [1, 2] ([([1], [6]), ([0], [0])] ++ [([6], [1])])
      = postUpdate (F := ZMod 7) (4 : ZMod 7) 2 [[0, 6], [4, 3]] [1, 2] [([1], [6]), ([0], [0])] ∧
    ∃ p, postUpdate (F := ZMod 7) (4 : ZMod 7) 2 [[0, 6], [4, 3]] [1, 2] [([1], [6])] = .error p :=
  ⟨(C115_lengths (F := ZMod 7) (4 : ZMod 7) 2 [[0, 6], [4, 3]] [1, 2] _ _).1 (by decide),
    (C115_lengths (F := ZMod 7) (4 : ZMod 7) 2 [[0, 6], [4, 3]] [1, 2] _ []).2 (by decide)⟩

/-- C115_smaller: prepared with threshold 3, finished with 2: refused with probability at least `6/7`.
C115_smaller_exact: only the servers 1 and 3 answer: wrong with probability at least `5/7`. -/
example (r : Nat → Nat → ZMod 7) :
    (6 / 7 : ℚ) ≤ prob (fun x : Fin 2 → Fin 2 → ZMod 7 => ∃ upd ans,
      ordUser.prepareForUpdate (fun _ => 1) 3 3 3 (withRows (t := 3) x r) = .ok (.ok upd) ∧
      AnsweredBy (List.replicate 3 leakSrv) 2 upd ans ∧
      postUpdate (4 : ZMod 7) 2 upd.yShares upd.yValues ans = .ok (.error "malicious server")) ∧
    (5 / 7 : ℚ) ≤ prob (fun x : Fin 2 → Fin 1 → ZMod 7 => ∃ upd ans W,
      ordUser.prepareForUpdate (fun _ => 1) 3 3 3 (withRows (t := 3) x r) = .ok (.ok upd) ∧
      AnsweredBy (List.replicate 3 leakSrv) 1 upd ans ∧
      postUpdate (4 : ZMod 7) 2 upd.yShares upd.yValues (mixAt (· != 1) (List.replicate 3 ([], [])) ans) = .ok (.ok W) ∧
      ({ ordUser with witness := some { (⟨0, 4, 2⟩ : Witness (ZMod 7) (ZMod 7)) with witness := W } } :
        User (ZMod 7) (ZMod 7) (ZMod 7)).checkWitness (Pairing.field (ZMod 7)) onePar 5 ≠ .ok ()) := by
  have h1 := C115_smaller leakSrv rfl (List.replicate 3 leakSrv) (leak_synced 3) (fun _ => 1) (fun _ _ => le_refl _)
    ordUser 3 (by decide) 3 2 (by decide) (by decide) (by decide)
    (fun i a b => ord_chars i a (le_trans b (by decide))) 2 (by decide) (by decide) 4 r
  have h2 := C115_smaller_exact (Pairing.field (ZMod 7)) onePar (by decide) (by decide) 1 1 2 leakOps leakSrv leakSrv_run
    (List.replicate 3 leakSrv) (leak_synced 3) (fun _ => 1) (fun _ _ => le_refl _) ordUser rfl 3 (by decide) 3 2
    (by decide) (by decide) (by decide) (fun i a b => ord_chars i a (le_trans b (by decide))) 1 le_rfl (by decide)
    ⟨0, 4, 2⟩ rfl 5 (by decide) r (· != 1) (by decide)
  have e1 : (1 - 1 / (Nat.card (ZMod 7) : ℚ)) = 6 / 7 := by
    rw [Nat.card_eq_fintype_card, ZMod.card]; norm_num
  have e2 : (1 - 2 * ((1 : Nat) : ℚ) / Nat.card (ZMod 7)) = 5 / 7 := by
    rw [Nat.card_eq_fintype_card, ZMod.card]; norm_num
  rw [e1] at h1
  rw [e2] at h2
  exact ⟨h1, h2⟩

end Allo
