import Verif.Lemmas.Protocol
import Verif.Props.Server
import Mathlib.Data.Nat.Sqrt

/-!
# C28 – C32: sizes, errors and termination of the update protocol; the server's answers
-/

set_option linter.unusedSectionVars false
set_option linter.unusedVariables false
namespace Allo
open Spec Finset

/-! ## C32: chunk size -/

/-- For every epoch difference `d ≥ 1` and every starting value `seed ≥ 1` the search ends, and its result
`k` is the least value `≥ seed` with `⌊5(d+k-1)/k⌋ ≤ 2k`; also `k ≥ 3`. The result does not depend on
the bound on the number of iterations in the model. -/
theorem C32_chunk_size (d seed : Nat) (hd : 1 ≤ d) (hs : 1 ≤ seed) :
    ∃ k, chunkSize d seed = .ok k ∧ seed ≤ k ∧ 3 ≤ k ∧ k ≤ max seed (d + 5) ∧
      5 * (d + k - 1) / k ≤ 2 * k ∧
      (∀ j, seed ≤ j → j < k → 2 * j < 5 * (d + j - 1) / j) ∧
      (∀ fuel, d + 6 ≤ fuel → chunkSizeFuel fuel d seed = .ok k) := by
  obtain ⟨k, h1, h2, h3, h4⟩ := exists_chunk d seed
  have hfuel : ∀ fuel, d + 6 ≤ fuel → chunkSizeFuel fuel d seed = .ok k := by
    intro fuel hf
    apply chunkSize_loop d k h3 fuel seed hs h1 h4
    rcases le_total seed (d + 5) with h | h
    · rw [max_eq_right h] at h2; omega
    · rw [max_eq_left h] at h2; omega
  refine ⟨k, hfuel _ (by omega), h1, ?_, h2, by omega, h4, hfuel⟩
  by_contra hlt
  have hk : k = 1 ∨ k = 2 := by omega
  rcases hk with rfl | rfl
  · apply h3; simp; omega
  · apply h3
    have : 5 ≤ 5 * (d + 2 - 1) / 2 := by
      rw [Nat.le_div_iff_mul_le (by omega)]; omega
    omega

/-- the seed of the code, `⌊√(2.5 d)⌋` (up to floating point), is at least 1 -/
example (d : Nat) (hd : 1 ≤ d) : 1 ≤ Nat.sqrt (5 * d / 2) := by
  rw [Nat.le_sqrt]; omega

section
variable {F G1 G2 GT : Type} [Field F] [DecidableEq F] [AddCommGroup G1] [Module F G1]
  [DecidableEq G1] [AddCommGroup G2] [Module F G2] [AddCommGroup GT] [Module F GT]

/-- `prepare_for_update` with a valid threshold and `d ≥ 1` epochs to catch up, with the share vectors written out. -/
theorem prepareForUpdate_ok (seed : Nat → Nat) (hseed : ∀ d, 1 ≤ d → 1 ≤ seed d) (u : User F G1 G2)
    (newEpoch n t : Nat) (ht : 2 ≤ t) (hn : t ≤ n) (he : u.epoch < newEpoch) (rand : Nat → Nat → F) :
    ∃ k upd, chunkSize (newEpoch - u.epoch) (seed (newEpoch - u.epoch)) = .ok k ∧ 3 ≤ k ∧
      u.prepareForUpdate seed newEpoch n t rand = .ok (.ok upd) ∧
      upd.epochDiff = newEpoch - u.epoch ∧
      upd.yValues = (List.range n).map (fun i => ((i + 1 : Nat) : F)) ∧
      upd.yShares.length = n ∧ (∀ ys ∈ upd.yShares, ys.length = k - 1) ∧
      upd.yShares = (List.range n).map (fun i => shVec t (k - 1) u.id rand ((i + 1 : Nat) : F)) ∧
      (∀ j < k - 1, ∃ shares, shamirShare t n (u.id ^ (j + 1)) (rand j) = .ok shares ∧
        shares = (upd.yValues.zip (upd.yShares.map (fun ys => ys.getD j 0)))) := by
  obtain ⟨k, hk, _, hk3, _⟩ := C32_chunk_size (newEpoch - u.epoch) (seed (newEpoch - u.epoch))
    (by omega) (hseed _ (by omega))
  refine ⟨k, ⟨newEpoch - u.epoch,
      (List.range n).map (fun i => shVec t (k - 1) u.id rand ((i + 1 : Nat) : F)),
      (List.range n).map (fun i => ((i + 1 : Nat) : F))⟩, hk, hk3, ?_, rfl, rfl, by simp, ?_, rfl, ?_⟩
  · unfold User.prepareForUpdate
    rw [if_neg (by omega), if_neg (by omega), usub_le (by omega)]
    simp only [bind, Except.bind, pure, Except.pure]
    rw [hk]
    simp only
    rw [shareVectors_ok u.id n t k (by omega) (by omega)]
  · intro ys hys
    obtain ⟨i, _, rfl⟩ := List.mem_map.1 hys
    simp
  · intro j hj
    refine ⟨_, shamirShare_ok t n (by omega) _ _, ?_⟩
    simp only [List.map_map]
    rw [List.zip_map']
    apply List.map_congr_left
    intro i _
    simp [shVec, hj]

/-- C32: with a valid threshold and `d ≥ 1` epochs to catch up, `prepare_for_update` succeeds: `n` vectors of
exactly `k - 1 ≥ 2` shares, where `k` is the chunk size, evaluation points `1..n`; the `j`-th entries of the
vectors are the shares that `shamir_share` gives for `id^(j+1)`. -/
theorem C32_prepare (seed : Nat → Nat) (hseed : ∀ d, 1 ≤ d → 1 ≤ seed d) (u : User F G1 G2)
    (newEpoch n t : Nat) (ht : 2 ≤ t) (hn : t ≤ n) (he : u.epoch < newEpoch) (rand : Nat → Nat → F) :
    ∃ k upd, chunkSize (newEpoch - u.epoch) (seed (newEpoch - u.epoch)) = .ok k ∧ 3 ≤ k ∧
      u.prepareForUpdate seed newEpoch n t rand = .ok (.ok upd) ∧
      upd.epochDiff = newEpoch - u.epoch ∧
      upd.yValues = (List.range n).map (fun i => ((i + 1 : Nat) : F)) ∧
      upd.yShares.length = n ∧ (∀ ys ∈ upd.yShares, ys.length = k - 1) ∧
      (∀ j < k - 1, ∃ shares, shamirShare t n (u.id ^ (j + 1)) (rand j) = .ok shares ∧
        shares = (upd.yValues.zip (upd.yShares.map (fun ys => ys.getD j 0)))) := by
  obtain ⟨k, upd, h1, h2, h3, h4, h5, h6, h7, -, h8⟩ := prepareForUpdate_ok seed hseed u newEpoch n t ht hn he rand
  exact ⟨k, upd, h1, h2, h3, h4, h5, h6, h7, h8⟩

example : ∃ (seed : Nat → Nat) (u : User ℚ ℚ ℚ), (∀ d, 1 ≤ d → 1 ≤ seed d) ∧ u.epoch < 8 :=
  ⟨fun d => Nat.sqrt (5 * d / 2), ⟨3, none, 1, ⟨1, 1⟩, 4⟩, fun d hd => by rw [Nat.le_sqrt]; omega, by decide⟩

/-! ## C29: argument errors -/

/-- `prepare_for_update` returns an error exactly for `t ≤ 1` or `t > n`, always "invalid threshold". -/
theorem C29_threshold (seed : Nat → Nat) (u : User F G1 G2) (newEpoch n t : Nat)
    (rand : Nat → Nat → F) (e : String) :
    u.prepareForUpdate seed newEpoch n t rand = .ok (.error e) ↔
      (t ≤ 1 ∨ n < t) ∧ e = "invalid threshold" := by
  unfold User.prepareForUpdate
  by_cases h1 : n < t
  · simp [h1, pure, Except.pure, eq_comm]
  · by_cases h2 : t ≤ 1
    · simp [h1, h2, pure, Except.pure, eq_comm]
    · simp only [h1, h2, if_false, bind, Except.bind, pure, Except.pure]
      constructor
      · intro h
        cases hu : usub newEpoch u.epoch with
        | error a => rw [hu] at h; simp at h
        | ok d =>
          rw [hu] at h
          simp only at h
          cases hk : chunkSize d (seed d) with
          | error a => rw [hk] at h; simp at h
          | ok k =>
            rw [hk] at h
            simp only at h
            cases hv : User.shareVectors u.id n t k rand with
            | error a => rw [hv] at h; simp at h
            | ok v => rw [hv] at h; simp at h
      · rintro ⟨h | h, _⟩ <;> exact h.elim

/-- Without a witness `update` returns `Err("No witness")`, whatever the servers. With one and no servers it
panics; with an invalid threshold it returns "invalid threshold". -/
theorem C29_update_errors (seed : Nat → Nat) (u : User F G1 G2) (servers : List (Server F G1 G2))
    (t : Nat) (rand : Nat → Nat → F) :
    (u.witness = none → u.update seed servers t rand = .ok (u, .error "No witness")) ∧
    (u.witness ≠ none → servers = [] → u.update seed servers t rand = .error .index) ∧
    (u.witness ≠ none → servers ≠ [] → (t ≤ 1 ∨ servers.length < t) →
      u.update seed servers t rand = .ok (u, .error "invalid threshold")) := by
  refine ⟨?_, ?_, ?_⟩
  · intro h
    unfold User.update
    rw [h]; rfl
  · intro h hs
    unfold User.update
    cases hw : u.witness with
    | none => exact absurd hw h
    | some w => subst hs; rfl
  · intro h hs ht
    unfold User.update
    cases hw : u.witness with
    | none => exact absurd hw h
    | some w =>
      cases servers with
      | nil => exact absurd rfl hs
      | cons s0 rest =>
        simp only [idx, List.getElem?_cons_zero, bind, Except.bind]
        rw [(C29_threshold seed u s0.getEpoch (s0 :: rest).length t rand "invalid threshold").2 ⟨ht, rfl⟩]
        rfl

/-- Whenever `update` returns an error the user is unchanged. -/
theorem C29_error_unchanged (seed : Nat → Nat) (u u' : User F G1 G2) (servers : List (Server F G1 G2))
    (t : Nat) (rand : Nat → Nat → F) (e : String)
    (h : u.update seed servers t rand = .ok (u', .error e)) : u' = u := by
  unfold User.update at h
  cases hw : u.witness with
  | none => rw [hw] at h; injection h with h; injection h with h _; exact h.symm
  | some w =>
    rw [hw] at h
    simp only [bind, Except.bind] at h
    split at h
    · cases h
    · split at h
      · cases h
      · split at h
        · injection h with h; injection h with h _; exact h.symm
        · split at h
          · cases h
          · split at h
            · cases h
            · split at h
              · split at h
                · cases h
                · injection h with h; injection h with _ h; cases h
              · injection h with h; injection h with h _; exact h.symm

/-! ## C28: nothing to update, or an epoch from the future, is a panic -/

/-- If there is no new epoch (`seed 0 = ⌊√0⌋ = 0`), `update` panics, for every user with a witness, every valid
threshold and every set of servers. -/
theorem C28_no_new_epoch_panics (seed : Nat → Nat) (hseed : seed 0 = 0) (u : User F G1 G2)
    (hw : u.witness ≠ none) (s0 : Server F G1 G2) (rest : List (Server F G1 G2)) (t : Nat)
    (ht : 2 ≤ t) (hn : t ≤ (s0 :: rest).length) (he : u.epoch = s0.getEpoch) (rand : Nat → Nat → F) :
    u.update seed (s0 :: rest) t rand = .error .overflow := by
  unfold User.update
  cases hw' : u.witness with
  | none => exact absurd hw' hw
  | some w =>
    simp only [idx, List.getElem?_cons_zero, bind, Except.bind]
    unfold User.prepareForUpdate
    rw [if_neg (by omega), if_neg (by omega), usub_le (by omega), he]
    simp only [bind, Except.bind, pure, Except.pure, Nat.sub_self, hseed]
    rfl

/-- An epoch ahead of the servers' is a panic too (subtraction overflow). -/
theorem C28_future_epoch_panics (seed : Nat → Nat) (u : User F G1 G2)
    (hw : u.witness ≠ none) (s0 : Server F G1 G2) (rest : List (Server F G1 G2)) (t : Nat)
    (ht : 2 ≤ t) (hn : t ≤ (s0 :: rest).length) (he : s0.getEpoch < u.epoch) (rand : Nat → Nat → F) :
    u.update seed (s0 :: rest) t rand = .error .overflow := by
  unfold User.update
  cases hw' : u.witness with
  | none => exact absurd hw' hw
  | some w =>
    simp only [idx, List.getElem?_cons_zero, bind, Except.bind]
    unfold User.prepareForUpdate
    rw [if_neg (by omega), if_neg (by omega)]
    simp only [bind, Except.bind, usub, if_neg (show ¬ u.epoch ≤ s0.getEpoch by omega)]

/-! ## C30: shape and termination of `Server::update` -/

theorem accs_length_run (params : AccParams G1 G2) (α sM v : F) (ops : List (Server.Op F))
    (s : Server F G1 G2) (h : (Server.new params α sM v).run ops = .ok s) :
    s.accumulators.length = s.deletions.length + 1 := by
  refine Server.run_inv (fun s => s.accumulators.length = s.deletions.length + 1) (fun _ => True) ?_ ops
    (fun _ _ => trivial) h rfl
  intro s op s' r _ hI h
  rcases Server.step_cases h with ⟨rfl, -, -⟩ | ⟨y, V, rfl, hy, hV, h0, -, rfl⟩ |
    ⟨y, C, rfl, hC, -, rfl⟩ | ⟨y, V, rfl, hy, hV, h0, -, rfl⟩
  · exact hI
  · exact hI
  · simp [hI]
  · simp [hI]

/-- For every server state reached from `Server::new` (any calls): asking for more epochs than there are
deletions gives two empty vectors; a non-empty share vector gives two vectors of length
`⌈num_epochs / |shares|⌉`; with an empty share vector and at least one epoch the loop never ends. In the
terminating cases the result does not depend on the iteration bound of the model. -/
theorem C30_update_shape (params : AccParams G1 G2) (α sM v : F) (ops : List (Server.Op F))
    (s : Server F G1 G2) (h : (Server.new params α sM v).run ops = .ok s) (n : Nat) (ys : List F) :
    (s.deletions.length < n → ∀ fuel, s.updateFuel fuel n ys = .ok ([], [])) ∧
    (n ≤ s.deletions.length → ys ≠ [] → ∃ ds vs, s.update n ys = .ok (ds, vs) ∧
      ds.length = (n + ys.length - 1) / ys.length ∧ vs.length = (n + ys.length - 1) / ys.length ∧
      ∀ fuel, n < fuel → s.updateFuel fuel n ys = .ok (ds, vs)) ∧
    (1 ≤ n → n ≤ s.deletions.length → ∀ fuel, s.updateFuel fuel n [] = .error .diverge) ∧
    (∀ fuel, 1 ≤ fuel → s.updateFuel fuel 0 ys = .ok ([], [])) := by
  have hlen := accs_length_run params α sM v ops s h
  refine ⟨?_, ?_, ?_, ?_⟩
  · intro hn fuel
    unfold Server.updateFuel
    rw [if_pos hn]; rfl
  · intro hn hys
    refine ⟨_, _, update_published s hlen n hn ys hys _ (by omega), by simp [nChunks], by simp [nChunks],
      fun fuel hf => update_published s hlen n hn ys hys fuel hf⟩
  · intro h1 hn fuel
    unfold Server.updateFuel
    rw [if_neg (by omega)]
    simp only
    rw [usub_le hn, usub_le (show n ≤ s.accumulators.length by omega)]
    simp only [bind, Except.bind]
    have key : ∀ fuel (st : Server.UpdateState F G1), st.delStart < s.deletions.length →
        st.accStart = st.delStart + 1 →
        whileFuel (fun st => pure (decide (st.delStart < s.deletions.length))) (Server.updateBody s []) fuel st
          = .error .diverge := by
      intro fuel
      induction fuel with
      | zero => intro st _ _; rfl
      | succ fuel ih =>
        intro st h1 h2
        unfold whileFuel
        simp only [bind, Except.bind, pure, Except.pure, h1, decide_true, if_true]
        rw [updateBody_ok s hlen [] st h1 h2]
        simp only
        exact ih _ (by simpa using h1) (by simpa using h2)
    rw [key fuel _ (by simp only; omega) (by simp only; omega)]
  · intro fuel hf
    unfold Server.updateFuel
    rw [if_neg (by omega)]
    simp only
    rw [usub_le (by omega), usub_le (by omega)]
    obtain ⟨f, rfl⟩ : ∃ f, fuel = f + 1 := ⟨fuel - 1, by omega⟩
    simp [bind, Except.bind, whileFuel, pure, Except.pure]

/-! ## C31: on plain powers of an id the answers are the exact update -/

/-- If the share vector is `y, y², …, y^w` (no sharing at all), the answers `(d, v)` applied one after the
other by `C ← (C - v)/d` do exactly what `C ← (C - V')/(y' - y)` does over the last `n` deletions `y'`
with the accumulators `V'` right after them. `y` must not be among them. -/
theorem C31_plain_powers (params : AccParams G1 G2) (α sM v : F) (ops : List (Server.Op F))
    (s : Server F G1 G2) (h : (Server.new params α sM v).run ops = .ok s) (n w : Nat) (hw : 1 ≤ w)
    (hn : n ≤ s.deletions.length) (y : F)
    (hy : y ∉ s.deletions.drop (s.deletions.length - n)) (C : G1) :
    ∃ ds vs, s.update n ((List.range w).map (fun j => y ^ (j + 1))) = .ok (ds, vs) ∧
      (∀ d ∈ ds, d ≠ 0) ∧
      (ds.zip vs).foldl (fun C p => p.1⁻¹ • (C - p.2)) C
        = ((s.deletions.drop (s.deletions.length - n)).zip
            (s.accumulators.drop (s.accumulators.length - n))).foldl
              (fun C p => (p.1 - y)⁻¹ • (C - p.2)) C := by
  have hlen := accs_length_run params α sM v ops s h
  have hys : ((List.range w).map (fun j => y ^ (j + 1))) ≠ [] := by simp; omega
  have hup := update_published s hlen n hn _ hys (s.deletions.length + 1) (by omega)
  have hyl : ((List.range w).map (fun j => y ^ (j + 1))).length = w := by simp
  rw [hyl] at hup
  have hnot : ∀ j, y ∉ (chunkAt w (s.published n) j).map (·.1) := by
    intro j hc
    apply hy
    rw [← published_fst s hlen n]
    obtain ⟨p, hp, e⟩ := List.mem_map.1 hc
    exact List.mem_map.2 ⟨p, List.mem_of_mem_drop (List.mem_of_mem_take hp), e⟩
  refine ⟨_, _, hup, ?_, ?_⟩
  · intro d hd
    obtain ⟨j, _, rfl⟩ := List.mem_map.1 hd
    rw [dAns_powers y w _ (chunkAt_length w _ j), Ne, prodMinus_eq_zero]
    exact hnot j
  · rw [List.zip_map', List.foldl_map]
    have hpub : s.published n = (s.deletions.drop (s.deletions.length - n)).zip
        (s.accumulators.drop (s.accumulators.length - n)) := by
      unfold Server.published
      rw [List.zip_eq_zipWith, List.zip_eq_zipWith, List.drop_zipWith, List.drop_drop]
      congr 2; omega
    rw [← hpub]
    have := followLog_chunks y w hw (s.published n) C
    rw [published_length s hlen n hn] at this
    rw [show (s.published n).foldl (fun C p => (p.1 - y)⁻¹ • (C - p.2)) C = followLog y (s.published n) C
      from rfl, ← this]
    congr 1
    funext C j
    rw [dAns_powers y w _ (chunkAt_length w _ j), vAnsP_powers y w _ (chunkAt_length w _ j),
      chunk_follow y _ (hnot j)]

/-- a reached state with deletions, for C30 and C31 -/
example : ∃ s, (Server.new exParams 4 9 6).run exOps = .ok s ∧ s.deletions.length = 1 ∧
    (7 : ℚ) ∉ s.deletions.drop (s.deletions.length - 1) := by
  obtain ⟨s, h1, h2, _⟩ := exRun
  exact ⟨s, h1, by simp [h2], by simp [h2]⟩

end
end Allo
