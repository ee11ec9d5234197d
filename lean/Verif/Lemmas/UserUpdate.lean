import Verif.Props.UpdateServer

/-! `User::update` against up-to-date servers, in closed form. -/

set_option linter.unusedSectionVars false
set_option linter.unusedVariables false
namespace Allo
open Spec Finset

section
variable {F G1 G2 GT : Type} [Field F] [DecidableEq F] [AddCommGroup G1] [Module F G1]
  [DecidableEq G1] [AddCommGroup G2] [Module F G2] [AddCommGroup GT] [Module F GT]

/-- all servers publish the same log -/
def Synced (servers : List (Server F G1 G2)) (s : Server F G1 G2) : Prop :=
  ∀ s' ∈ servers, s'.accumulators = s.accumulators ∧ s'.deletions = s.deletions

/-- the honest answers -/
theorem answers_honest (s : Server F G1 G2) (hlen : s.accumulators.length = s.deletions.length + 1)
    (servers : List (Server F G1 G2)) (hs : Synced servers s) (d : Nat) (hd : d ≤ s.deletions.length)
    (t w : Nat) (hw : 1 ≤ w) (id : F) (rand : Nat → Nat → F) :
    (List.range servers.length).mapM (fun i => do
        let sv ← idx servers i
        let ys ← idx ((List.range servers.length).map (fun i => shVec t w id rand ((i + 1 : Nat) : F))) i
        sv.update d ys)
      = .ok (answers servers.length (nChunks w d) (fun _ => true)
          (fun i j => dAns (shVec t w id rand (xOf F i)) (chunkAt w (s.published d) j))
          (fun i j => vAnsP (shVec t w id rand (xOf F i)) (chunkAt w (s.published d) j))) := by
  unfold answers
  simp only [if_true]
  apply mapM_ok
  intro i hi
  rw [List.mem_range] at hi
  rw [idx_lt hi, idx_lt (show i < ((List.range servers.length).map
    (fun i => shVec t w id rand ((i + 1 : Nat) : F))).length by simpa using hi)]
  simp only [bind, Except.bind, List.getElem_map, List.getElem_range]
  obtain ⟨h1, h2⟩ := hs _ (List.getElem_mem hi)
  have hp : (servers[i]).published d = s.published d := by
    unfold Server.published; rw [h1, h2]
  have := update_published servers[i] (by rw [h1, h2]; exact hlen) d (by rw [h2]; exact hd)
    (shVec t w id rand ((i + 1 : Nat) : F))
    (by intro e; have := congrArg List.length e; simp at this; omega)
    (servers[i].deletions.length + 1) (by rw [h2]; omega)
  unfold Server.update
  rw [this, hp, shVec_length]
  rfl

/-- the value rebuilt from honest answers -/
theorem loop_closed (s : Server F G1 G2) (hlen : s.accumulators.length = s.deletions.length + 1) (d : Nat)
    (hdle : d ≤ s.deletions.length) (t k : Nat) (hk : 1 ≤ k) (id : F) (rand : Nat → Nat → F) (w : G1) :
    loopSpec (fun j => some (dAns (shVec t k id rand 0) (chunkAt k (s.published d) j)))
        (fun j => some (vAnsP (shVec t k id rand 0) (chunkAt k (s.published d) j)))
        (List.range (nChunks k d)) w
      = if id ∈ s.deletions.drop (s.deletions.length - d) then .error "user has been deleted"
        else .ok (followLog id (s.published d) w) := by
  rw [loopSpec_honest]
  simp only [shVec_zero]
  have hdv : ∀ j, dAns ((List.range k).map (fun j => id ^ (j + 1)))
      (chunkAt k (s.published d) j)
      = prodMinus id ((chunkAt k (s.published d) j).map (·.1)) :=
    fun j => dAns_powers _ _ _ (chunkAt_length _ _ _)
  have hvv : ∀ j, vAnsP ((List.range k).map (fun j => id ^ (j + 1)))
      (chunkAt k (s.published d) j) = _ :=
    fun j => vAnsP_powers _ _ _ (chunkAt_length _ _ _)
  simp only [hdv, hvv]
  have hmem : id ∈ s.deletions.drop (s.deletions.length - d) ↔ ∃ j < nChunks k d,
      id ∈ (chunkAt k (s.published d) j).map (·.1) := by
    rw [← published_fst s hlen d]
    constructor
    · intro h
      obtain ⟨p, hp, e⟩ := List.mem_map.1 h
      obtain ⟨j, hj, hj'⟩ := (mem_chunkAt k (by omega) _ p).1 hp
      rw [published_length s hlen d hdle] at hj
      exact ⟨j, hj, List.mem_map.2 ⟨p, hj', e⟩⟩
    · rintro ⟨j, _, h⟩
      obtain ⟨p, hp, e⟩ := List.mem_map.1 h
      exact List.mem_map.2 ⟨p, List.mem_of_mem_drop (List.mem_of_mem_take hp), e⟩
  by_cases hdel : id ∈ s.deletions.drop (s.deletions.length - d)
  · obtain ⟨j, hj, hj'⟩ := hmem.1 hdel
    rw [if_neg, if_pos hdel]
    intro h
    exact h j (List.mem_range.2 hj) (prodMinus_eq_zero.2 hj')
  · rw [if_pos, if_neg hdel]
    · congr 1
      have hf := followLog_chunks id k (by omega) (s.published d) w
      rw [published_length s hlen d hdle] at hf
      rw [← hf]
      apply List.foldl_ext
      intro C j hj
      rw [List.mem_range] at hj
      rw [chunk_follow]
      intro hc'
      exact hdel (hmem.2 ⟨j, hj, hc'⟩)
    · intro j hj
      rw [List.mem_range] at hj
      rw [Ne, prodMinus_eq_zero]
      intro hc'
      exact hdel (hmem.2 ⟨j, hj, hc'⟩)

/-- `update` in closed form: follow the published log, or report that the user was deleted -/
theorem update_core (seed : Nat → Nat) (hseed : ∀ d, 1 ≤ d → 1 ≤ seed d) (u : User F G1 G2)
    (w : Witness F G1) (hw : u.witness = some w) (s : Server F G1 G2)
    (hlen : s.accumulators.length = s.deletions.length + 1) (V : G1)
    (hV : s.accumulators.getLast? = some V) (servers : List (Server F G1 G2))
    (hs : Synced servers s) (t : Nat) (ht : 2 ≤ t) (hn : t ≤ servers.length)
    (hc : ∀ i, 0 < i → i ≤ servers.length → (i : F) ≠ 0) (he1 : 1 ≤ u.epoch)
    (he2 : u.epoch < s.accumulators.length) (rand : Nat → Nat → F) :
    u.update seed servers t rand = .ok
      (if u.id ∈ s.deletions.drop (u.epoch - 1) then (u, .error "user has been deleted")
       else ({ u with witness := (some { w with witness :=
            (followLog u.id (s.published (s.accumulators.length - u.epoch)) w.witness) }), accumulator := V },
          .ok ())) := by
  set d := s.accumulators.length - u.epoch with hd
  have hdle : d ≤ s.deletions.length := by omega
  obtain ⟨s0, rest, rfl⟩ : ∃ s0 rest, servers = s0 :: rest := by
    cases servers with
    | nil => simp at hn; omega
    | cons a b => exact ⟨a, b, rfl⟩
  obtain ⟨h01, h02⟩ := hs s0 (by simp)
  have hep : s0.getEpoch = s.accumulators.length := by rw [Server.getEpoch, h01]
  obtain ⟨k, upd, hk, hk3, hprep, hed, hyv, hyl, _, hys, _⟩ := prepareForUpdate_ok seed hseed u s0.getEpoch
    (s0 :: rest).length t ht hn (by omega) rand
  rw [hep, ← hd] at hed
  unfold User.update
  rw [hw]
  simp only [bind, Except.bind]
  rw [idx_lt (show 0 < (s0 :: rest).length by simp)]
  simp only [List.getElem_cons_zero, hprep, hys, hed]
  have hans := answers_honest s hlen (s0 :: rest) hs d hdle t (k - 1) (by omega) u.id rand
  simp only [bind, Except.bind] at hans
  rw [hans]
  simp only
  have hpost := postUpdate_honest w.witness t (s0 :: rest).length (nChunks (k - 1) d) (by omega)
    (nChunks_pos _ _ (by omega) (by omega)) hc (fun _ => true)
    (fun j z => dAns (shVec t (k - 1) u.id rand z) (chunkAt (k - 1) (s.published d) j))
    (fun j z => vAnsP (shVec t (k - 1) u.id rand z) (chunkAt (k - 1) (s.published d) j))
    (fun j => dAns_polyFn t (k - 1) (by omega) u.id rand _)
    (fun j => vAnsP_polyFn t (k - 1) (by omega) u.id rand _)
    (by rw [List.filter_true, List.length_range]; exact hn) (Or.inl rfl)
    ((List.range (s0 :: rest).length).map (fun i => shVec t (k - 1) u.id rand ((i + 1 : Nat) : F)))
    (by rw [List.length_map, List.length_range])
  rw [hyv]
  rw [show (List.range (s0 :: rest).length).map (fun i => ((i + 1 : Nat) : F))
    = (List.range (s0 :: rest).length).map (xOf F) from rfl, hpost, loop_closed s hlen d hdle t (k - 1) (by omega),
    show s.deletions.length - d = u.epoch - 1 by omega]
  by_cases hdel : u.id ∈ s.deletions.drop (u.epoch - 1)
  · rw [if_pos hdel, if_pos hdel]; rfl
  · rw [if_neg hdel, if_neg hdel]
    simp only [Server.getAccumulator, h01, hV, unwrap]
    rfl

/-! ### following a consistent log -/

/-- the pairs are successive deletions leading from `V` to `W` -/
def Chain (α : F) : G1 → List (F × G1) → G1 → Prop
  | V, [], W => W = V
  | V, p :: r, W => V = (p.1 + α) • p.2 ∧ Chain α p.2 r W

theorem followLog_affine (α y : F) (log : List (F × G1)) (V W C : G1) (hch : Chain α V log W)
    (hy : y ∉ log.map (·.1)) :
    (y + α) • followLog y log C
      = W + (prodMinus y (log.map (·.1)))⁻¹ • ((y + α) • C - V) := by
  induction log generalizing V C with
  | nil =>
    rw [Chain] at hch
    subst hch
    simp [followLog]
  | cons p r ih =>
    obtain ⟨h1, h2⟩ := hch
    simp only [List.map_cons, List.mem_cons, not_or] at hy
    have hne : p.1 - y ≠ 0 := sub_ne_zero.2 (Ne.symm hy.1)
    rw [followLog_cons, ih _ _ h2 hy.2, List.map_cons, prodMinus_cons, mul_inv, mul_comm (p.1 - y)⁻¹,
      mul_smul]
    congr 2
    rw [smul_comm, smul_sub, smul_sub, smul_sub]
    have e : (p.1 - y)⁻¹ • V = (p.1 - y)⁻¹ • (y + α) • p.2 + p.2 := by
      rw [h1]
      have : p.1 + α = (y + α) + (p.1 - y) := by ring
      rw [this, add_smul, smul_add, smul_smul (p.1 - y)⁻¹ (p.1 - y), inv_mul_cancel₀ hne, one_smul]
    rw [e]; abel

theorem chain_published {α : F} {V₀ : G1} {s : Server F G1 G2} (hI : Server.InvA α V₀ s) (i : Nat)
    (hi : i ≤ s.deletions.length) :
    Chain α (accAfter α V₀ (s.deletions.take i)) (s.published (s.deletions.length - i))
      (accAfter α V₀ s.deletions) := by
  have hlen := hI.length
  have key : ∀ m i, i + m = s.deletions.length →
      Chain α (accAfter α V₀ (s.deletions.take i)) ((s.deletions.zip (s.accumulators.drop 1)).drop i)
        (accAfter α V₀ s.deletions) := by
    intro m
    induction m with
    | zero =>
      intro i hi
      rw [List.drop_eq_nil_of_le (by simp; omega), List.take_of_length_le (by omega), Chain]
    | succ m ih =>
      intro i hi
      have hz : i < (s.deletions.zip (s.accumulators.drop 1)).length := by simp; omega
      rw [List.drop_eq_getElem_cons hz, Chain]
      have hacc : s.accumulators[1 + i]'(by omega) = accAfter α V₀ (s.deletions.take (i + 1)) := by
        have := hI.get (1 + i) (by omega)
        rw [List.getElem?_eq_getElem (by omega)] at this
        rw [Option.some.inj this, add_comm]
      simp only [List.getElem_zip, List.getElem_drop]
      rw [hacc]
      refine ⟨?_, ih (i + 1) (by omega)⟩
      have hid : i < s.deletions.length := by omega
      rw [List.take_add_one, List.getElem?_eq_getElem hid]
      simp only [Option.toList_some]
      rw [accAfter_snoc', smul_smul, mul_inv_cancel₀, one_smul]
      intro e
      apply hI.noneg
      rw [← eq_neg_of_add_eq_zero_left e]
      exact List.getElem_mem _
  have := key (s.deletions.length - i) i (by omega)
  unfold Server.published
  rwa [show s.deletions.length - (s.deletions.length - i) = i by omega]
where
  accAfter_snoc' {α : F} {V₀ : G1} {l : List F} {y : F} :
    accAfter α V₀ (l ++ [y]) = (y + α)⁻¹ • accAfter α V₀ l := Server.accAfter_snoc α V₀ l y

end
end Allo
