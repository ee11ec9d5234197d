import Verif.Props.Replicas
import Verif.Props.Direct
import Verif.Props.Credential

/-!
# C93: restoring an old copy of a server

`s₀` is the copy on disk, `lost` the calls made after it was written and before the crash (giving `s₁`), `next` the
calls made after the copy was restored (giving `s₂`). C69 says that nothing happens if nothing is lost. What if?
-/

set_option linter.unusedSectionVars false
set_option linter.unusedVariables false
namespace Allo
open Spec Server

section
variable {F G1 G2 GT : Type} [Field F] [DecidableEq F] [AddCommGroup G1] [Module F G1]
  [DecidableEq G1] [AddCommGroup G2] [Module F G2] [AddCommGroup GT] [Module F GT] [DecidableEq GT]

/-- calls only ever append to the list of accumulators -/
theorem accs_prefix {s s' : Server F G1 G2} {ops : List (Op F)} (h : s.run ops = .ok s') :
    s.accumulators <+: s'.accumulators := by
  refine run_inv (fun x => s.accumulators <+: x.accumulators) (fun _ => True) ?_ ops (fun _ _ => trivial) h
    (List.prefix_refl _)
  intro x op x' r _ hI h
  rcases step_cases h with ⟨rfl, -, -⟩ | ⟨y, V, rfl, hy, hV, h0, -, rfl⟩ |
    ⟨y, C, rfl, hC, -, rfl⟩ | ⟨y, V, rfl, hy, hV, h0, -, rfl⟩
  · exact hI
  · exact hI
  · exact hI.trans (List.prefix_append _ _)
  · exact hI.trans (List.prefix_append _ _)

/-- **C93** (no loss if the deletions are repeated). If after the restart the same deletions succeed in the same
order (whatever happens to the `add`s), the published history, the keys and the answers to update requests are
those before the crash. -/
theorem C93_repeated (params : AccParams G1 G2) (α sM v : F) (ops lost next : List (Op F))
    (hu₁ : Unmixed (ops ++ lost)) (hu₂ : Unmixed (ops ++ next)) (s₀ s₁ s₂ : Server F G1 G2)
    (h₀ : (Server.new params α sM v).run ops = .ok s₀) (h₁ : s₀.run lost = .ok s₁) (h₂ : s₀.run next = .ok s₂)
    (hd : s₁.deletions = s₂.deletions) :
    s₂.accumulators = s₁.accumulators ∧ s₂.getEpoch = s₁.getEpoch ∧ s₂.getPublicKeys = s₁.getPublicKeys ∧
    s₂.getAccumulator = s₁.getAccumulator ∧ ∀ n ys, s₂.update n ys = s₁.update n ys := by
  have r₁ : (Server.new params α sM v).run (ops ++ lost) = .ok s₁ := run_append.2 ⟨s₀, h₀, h₁⟩
  have r₂ : (Server.new params α sM v).run (ops ++ next) = .ok s₂ := run_append.2 ⟨s₀, h₀, h₂⟩
  have hlog : (regRun (ops ++ lost)).log = (regRun (ops ++ next)).log := by
    rw [← (C15_refines params α sM v _ s₁ r₁).1, ← (C15_refines params α sM v _ s₂ r₂).1, hd]
  obtain ⟨a, -, b, c, d, e⟩ := C75_same_log params α sM v _ _ hu₁ hu₂ s₁ s₂ r₁ r₂ hlog
  exact ⟨a, b, d, c, e⟩

/-- **C93** (garbage in, garbage out). For any user at a recorded epoch, with any witness, who is not in the log
since: `update` with any `n ≥ t ≥ 2` synchronised servers returns `Ok`, and what it stores passes
`check_witness` for the servers' accumulator **exactly if** the old witness passed for the accumulator the
servers had at that epoch. An invalid start is never noticed and never repaired. -/
theorem C93_update_iff (E : Pairing F G1 G2 GT) (params : AccParams G1 G2) (hP : params.p2 ≠ 0)
    (hK : params.k2 ≠ 0) (α sM v : F) (ops : List (Op F)) (hu : Unmixed ops) (s : Server F G1 G2)
    (h : (Server.new params α sM v).run ops = .ok s) (servers : List (Server F G1 G2))
    (hs : ∀ s' ∈ servers, s'.accumulators = s.accumulators ∧ s'.deletions = s.deletions)
    (t : Nat) (ht : 2 ≤ t) (hn : t ≤ servers.length)
    (hc : ∀ i : Nat, 0 < i → i ≤ servers.length → (i : F) ≠ 0)
    (seed : Nat → Nat) (hseed : ∀ d, 1 ≤ d → 1 ≤ seed d)
    (u : User F G1 G2) (hw : u.witness ≠ none) (hpk : u.publicKeys = s.getPublicKeys) (he1 : 1 ≤ u.epoch)
    (he2 : u.epoch < s.getEpoch) (Ve : G1) (hVe : s.accumulators[u.epoch - 1]? = some Ve)
    (hid : u.id ∉ s.deletions.drop (u.epoch - 1)) (rand : Nat → Nat → F) :
    ∃ u' V, s.getAccumulator = .ok V ∧ u.update seed servers t rand = .ok (u', .ok ()) ∧ u'.accumulator = V ∧
      u'.publicKeys = u.publicKeys ∧
      (u'.checkWitness E params V = .ok () ↔ u.checkWitness E params Ve = .ok ()) := by
  obtain ⟨o1, o2, rfl, a1, a2⟩ := hu
  have hI := invA_run params α sM v o1 o2 a1 a2 s h
  obtain ⟨w, hw⟩ := Option.ne_none_iff_exists'.1 hw
  have hlen := hI.length
  rw [Server.getEpoch] at he2
  refine ⟨{ u with
      witness := some { w with
        witness := followLog u.id (s.published (s.accumulators.length - u.epoch)) w.witness }
      accumulator := accAfter α (v • params.p1) s.deletions }, accAfter α (v • params.p1) s.deletions,
    by rw [Server.getAccumulator, hI.last]; rfl, by
    rw [update_core seed hseed u w hw s hlen _ hI.last servers hs t ht hn hc he1 he2 rand, if_neg hid], rfl, rfl, ?_⟩
  have hi : u.epoch - 1 ≤ s.deletions.length := by omega
  rw [hI.get _ hi] at hVe
  have hVe := Option.some.inj hVe
  have hch := chain_published hI (u.epoch - 1) hi
  rw [hVe, show s.deletions.length - (u.epoch - 1) = s.accumulators.length - u.epoch by omega] at hch
  have hfst : (s.published (s.accumulators.length - u.epoch)).map (·.1)
      = s.deletions.drop (u.epoch - 1) := by
    rw [published_fst s hlen]
    congr 1; omega
  have hnot : u.id ∉ (s.published (s.accumulators.length - u.epoch)).map (·.1) := by rw [hfst]; exact hid
  have haff := followLog_affine α u.id _ _ _ w.witness hch hnot
  simp only [User.checkWitness, hw, hpk]
  rw [getPublicKeys, (keys_run h).1, credVerify_iff E params hP hK, credVerify_iff E params hP hK]
  unfold IsWitness
  simp only
  rw [haff]
  have hne : (prodMinus u.id ((s.published (s.accumulators.length - u.epoch)).map (·.1)))⁻¹ ≠ 0 :=
    inv_ne_zero (by rw [Ne, prodMinus_eq_zero]; exact hnot)
  refine and_congr_left fun _ => ?_
  rw [add_eq_left, smul_eq_zero, or_iff_right hne, sub_eq_zero]

/-- **C93** (users from the lost future). A user with a witness valid for epoch `e` of the lost history:
* if the restored servers have not passed epoch `e`, its update panics;
* if they have, and its id was not deleted from epoch `e` on in the new history, `update` returns `Ok` and what it
  stores is valid exactly if the two histories have the same accumulator at epoch `e`, that is (for a
  non-identity initial value) if the products of `d + α` over the first `e - 1` deletions are the same. -/
theorem C93_lost_future (E : Pairing F G1 G2 GT) (params : AccParams G1 G2) (hP : params.p2 ≠ 0)
    (hK : params.k2 ≠ 0) (α sM v : F) (ops lost next : List (Op F))
    (hu₁ : Unmixed (ops ++ lost)) (hu₂ : Unmixed (ops ++ next)) (s₀ s₁ s₂ : Server F G1 G2)
    (h₀ : (Server.new params α sM v).run ops = .ok s₀) (h₁ : s₀.run lost = .ok s₁) (h₂ : s₀.run next = .ok s₂)
    (servers : List (Server F G1 G2))
    (hs : ∀ s' ∈ servers, s'.accumulators = s₂.accumulators ∧ s'.deletions = s₂.deletions)
    (t : Nat) (ht : 2 ≤ t) (hn : t ≤ servers.length)
    (hc : ∀ i : Nat, 0 < i → i ≤ servers.length → (i : F) ≠ 0)
    (seed : Nat → Nat) (hseed : ∀ d, 1 ≤ d → 1 ≤ seed d) (hseed0 : seed 0 = 0)
    (u : User F G1 G2) (hpk : u.publicKeys = s₁.getPublicKeys) (he1 : 1 ≤ u.epoch) (V₁ : G1)
    (hV₁ : s₁.accumulators[u.epoch - 1]? = some V₁) (hw : u.checkWitness E params V₁ = .ok ())
    (rand : Nat → Nat → F) :
    (s₂.getEpoch ≤ u.epoch → u.update seed servers t rand = .error .overflow) ∧
    (u.epoch < s₂.getEpoch → u.id ∉ s₂.deletions.drop (u.epoch - 1) →
      ∃ u' V V₂, s₂.getAccumulator = .ok V ∧ s₂.accumulators[u.epoch - 1]? = some V₂ ∧
        u.update seed servers t rand = .ok (u', .ok ()) ∧
        (u'.checkWitness E params V = .ok () ↔ V₂ = V₁) ∧
        (v • params.p1 ≠ 0 → (V₂ = V₁ ↔
          ((s₂.deletions.take (u.epoch - 1)).map (fun d => d + α)).prod
            = ((s₁.deletions.take (u.epoch - 1)).map (fun d => d + α)).prod))) := by
  have r₁ : (Server.new params α sM v).run (ops ++ lost) = .ok s₁ := run_append.2 ⟨s₀, h₀, h₁⟩
  have r₂ : (Server.new params α sM v).run (ops ++ next) = .ok s₂ := run_append.2 ⟨s₀, h₀, h₂⟩
  have hwn : u.witness ≠ none := by
    intro h0
    simp [User.checkWitness, h0] at hw
  obtain ⟨w, hw'⟩ := Option.ne_none_iff_exists'.1 hwn
  obtain ⟨f, rest, rfl⟩ : ∃ f rest, servers = f :: rest := by
    cases servers with
    | nil => simp at hn; omega
    | cons f rest => exact ⟨f, rest, rfl⟩
  have hf : f.getEpoch = s₂.getEpoch := by
    rw [Server.getEpoch, (hs f (by simp)).1]; rfl
  constructor
  · intro hle
    rcases Nat.lt_or_ge f.getEpoch u.epoch with hlt | hge
    · exact C28_future_epoch_panics seed u hwn f rest t ht hn hlt rand
    · exact C28_no_new_epoch_panics seed hseed0 u hwn f rest t ht hn (by omega) rand
  · intro hlt hid
    have hk : s₂.getPublicKeys = s₁.getPublicKeys := by
      rw [getPublicKeys, getPublicKeys, (keys_run r₁).1, (keys_run r₂).1]
    obtain ⟨o1, o2, e1, a1, a2⟩ := hu₁
    obtain ⟨o1', o2', e2, b1, b2⟩ := id hu₂
    have hI₁ := invA_run params α sM v o1 o2 a1 a2 s₁ (e1 ▸ r₁)
    have hI₂ := invA_run params α sM v o1' o2' b1 b2 s₂ (e2 ▸ r₂)
    have l₂ := hI₂.length
    have l₁ := hI₁.length
    rw [Server.getEpoch] at hlt
    have hV₂ := hI₂.get (u.epoch - 1) (by omega)
    obtain ⟨u', V, hV, hup, -, -, hiff⟩ := C93_update_iff E params hP hK α sM v _ hu₂ s₂ r₂ _ hs t ht hn hc seed hseed u
      hwn (by rw [hpk, hk]) he1 hlt _ hV₂ hid rand
    have hi₁ : u.epoch - 1 ≤ s₁.deletions.length := by
      obtain ⟨hx, -⟩ := List.getElem?_eq_some_iff.1 hV₁
      omega
    rw [hI₁.get _ hi₁] at hV₁
    have hV₁' := Option.some.inj hV₁
    refine ⟨u', V, _, hV, hV₂, hup, hiff.trans ?_, ?_⟩
    · simp only [User.checkWitness, hw', hpk] at hw ⊢
      rw [getPublicKeys, (keys_run r₁).1, credVerify_iff E params hP hK] at hw ⊢
      unfold IsWitness at hw ⊢
      rw [hw.1]
      exact ⟨fun x => x.1.symm, fun x => ⟨x.symm, hw.2⟩⟩
    · intro hv
      rw [← hV₁']
      unfold accAfter
      have e : ∀ l : List F, (l.map (fun d => d + α)).prod = prodPlus α l := fun l => by
        simp [prodPlus]
      rw [e, e]
      constructor
      · intro hh
        have := smul_left_injective F hv hh
        exact inv_injective this
      · intro hh
        rw [hh]

/-- **C93** (lost revocations). A user with a witness valid for an epoch of the saved copy, who was deleted in the
lost calls and not (yet) in the new ones: before the crash it was locked out; the restored servers update it to a
valid witness, and a verifier that uses their accumulator accepts its presentations. -/
theorem C93_revives (E : Pairing F G1 G2 GT) (H : Oracle F) (enc : Enc G1 G2 GT) (params : AccParams G1 G2)
    (hP : params.p2 ≠ 0) (hK : params.k2 ≠ 0) (α sM v : F) (ops lost next : List (Op F))
    (hu₁ : Unmixed (ops ++ lost)) (hu₂ : Unmixed (ops ++ next)) (s₀ s₁ s₂ : Server F G1 G2)
    (h₀ : (Server.new params α sM v).run ops = .ok s₀) (h₁ : s₀.run lost = .ok s₁) (h₂ : s₀.run next = .ok s₂)
    (n t : Nat) (ht : 2 ≤ t) (hn : t ≤ n) (hc : ∀ i : Nat, 0 < i → i ≤ n → (i : F) ≠ 0)
    (seed : Nat → Nat) (hseed : ∀ d, 1 ≤ d → 1 ≤ seed d)
    (u : User F G1 G2) (hpk : u.publicKeys = s₀.getPublicKeys) (he1 : 1 ≤ u.epoch) (Ve : G1)
    (hVe : s₀.accumulators[u.epoch - 1]? = some Ve) (hw : u.checkWitness E params Ve = .ok ())
    (hdel : u.id ∈ s₁.deletions.drop (u.epoch - 1)) (hnew : u.id ∉ s₂.deletions.drop (u.epoch - 1))
    (he2 : u.epoch < s₂.getEpoch) (rand : Nat → Nat → F) :
    u.update seed (List.replicate n s₁) t rand = .ok (u, .error "user has been deleted") ∧
    ∃ u' V, s₂.getAccumulator = .ok V ∧ u.update seed (List.replicate n s₂) t rand = .ok (u', .ok ()) ∧
      u'.checkWitness E params V = .ok () ∧
      ∀ eph prand, ∃ p, u'.makeMembershipProof E H enc params s₂.getPublicKeys eph prand = some p ∧
        checkProof E H enc p params s₂.getPublicKeys V eph = true := by
  have r₁ : (Server.new params α sM v).run (ops ++ lost) = .ok s₁ := run_append.2 ⟨s₀, h₀, h₁⟩
  have r₂ : (Server.new params α sM v).run (ops ++ next) = .ok s₂ := run_append.2 ⟨s₀, h₀, h₂⟩
  have hwn : u.witness ≠ none := by
    intro h0
    simp [User.checkWitness, h0] at hw
  obtain ⟨w, hw'⟩ := Option.ne_none_iff_exists'.1 hwn
  have hk₁ : s₁.getPublicKeys = s₀.getPublicKeys := by
    rw [getPublicKeys, getPublicKeys, (keys_run r₁).1, (keys_run h₀).1]
  have hk₂ : s₂.getPublicKeys = s₀.getPublicKeys := by
    rw [getPublicKeys, getPublicKeys, (keys_run r₂).1, (keys_run h₀).1]
  obtain ⟨o1, o2, e1, a1, a2⟩ := hu₁
  have hI₁ := invA_run params α sM v o1 o2 a1 a2 s₁ (e1 ▸ r₁)
  have hlen : u.epoch - 1 < s₀.accumulators.length := (List.getElem?_eq_some_iff.1 hVe).1
  have hVe₂ : s₂.accumulators[u.epoch - 1]? = some Ve := by
    obtain ⟨l, hl⟩ := accs_prefix h₂
    rw [← hl, List.getElem?_append_left hlen, hVe]
  constructor
  · have l₁ := hI₁.length
    have hlt : u.epoch < s₁.accumulators.length := by
      have := List.length_pos_of_mem hdel
      rw [List.length_drop] at this
      omega
    rw [update_core seed hseed u w hw' s₁ l₁ _ hI₁.last (List.replicate n s₁)
      (fun s' hs' => by rw [List.eq_of_mem_replicate hs']; exact ⟨rfl, rfl⟩) t ht (by simpa using hn)
      (by simpa using hc) he1 hlt rand, if_pos hdel]
  · obtain ⟨u', V, hV, hup, hacc, hk', hiff⟩ := C93_update_iff E params hP hK α sM v _ hu₂ s₂ r₂ (List.replicate n s₂)
      (fun s' hs' => by rw [List.eq_of_mem_replicate hs']; exact ⟨rfl, rfl⟩) t ht (by simpa using hn)
      (by simpa using hc) seed hseed u hwn (by rw [hpk, hk₂]) he1 he2 Ve hVe₂ hnew rand
    have hck := hiff.2 hw
    refine ⟨u', V, hV, hup, hck, fun eph prand => ?_⟩
    have := (C42_user E H enc u' params eph prand).1 (by rw [hacc]; exact hck)
    rwa [hacc, hk', hpk, ← hk₂] at this

end

/-! ### concrete cases -/

/-- Ids 1, 2, 3 are enrolled and the copy is written; 2 is deleted; crash; 1 and then 2 are deleted. User 3 had
followed the lost deletion (epoch 2, accumulator 1, while the new history has 6/5 there): the hypotheses of
`C93_lost_future` hold, and what its update stores is invalid. User 2 (epoch 1) meets those of `C93_revives` until
it is deleted again. -/
example : ∃ s₀ s₁ s₂ s₃ : Server ℚ ℚ ℚ,
    (Server.new exParams 4 9 6).run [.add 1, .add 2, .add 3] = .ok s₀ ∧ s₀.run [.delete 2] = .ok s₁ ∧
    s₀.run [.delete 1] = .ok s₂ ∧ s₀.run [.delete 1, .delete 2] = .ok s₃ ∧
    Unmixed [Op.add (1 : ℚ), .add 2, .add 3, .delete 2] ∧ Unmixed [Op.add (1 : ℚ), .add 2, .add 3, .delete 1] ∧
    s₁.accumulators[1]? = some 1 ∧ s₃.accumulators[1]? = some (6 / 5) ∧ (2 : ℕ) < s₃.getEpoch ∧
    (⟨3, some ⟨10, 1 / 7, 8 / 3⟩, 1, ⟨4, 9⟩, 2⟩ : User ℚ ℚ ℚ).checkWitness (Pairing.field ℚ) exParams 1 = .ok () ∧
    (3 : ℚ) ∉ s₃.deletions.drop 1 ∧
    s₀.accumulators[0]? = some 6 ∧
    (⟨2, some ⟨10, 1, 32 / 11⟩, 6, ⟨4, 9⟩, 1⟩ : User ℚ ℚ ℚ).checkWitness (Pairing.field ℚ) exParams 6 = .ok () ∧
    (2 : ℚ) ∈ s₁.deletions.drop 0 ∧ (2 : ℚ) ∉ s₂.deletions.drop 0 ∧ (1 : ℕ) < s₂.getEpoch := by
  refine ⟨⟨[6], 4, ⟨4, 9⟩, 9, [3, 2, 1], [(3, 6 / 7), (2, 1), (1, 6 / 5)], []⟩,
    ⟨[6, 1], 4, ⟨4, 9⟩, 9, [3, 2, 1], [(3, 1 / 7), (1, 1 / 5)], [2]⟩,
    ⟨[6, 6 / 5], 4, ⟨4, 9⟩, 9, [3, 2, 1], [(3, 6 / 35), (2, 1 / 5)], [1]⟩,
    ⟨[6, 6 / 5, 1 / 5], 4, ⟨4, 9⟩, 9, [3, 2, 1], [(3, 1 / 35)], [1, 2]⟩, ?_, ?_, ?_, ?_,
    ⟨_, [], (List.append_nil _).symm, by simp [Op.isQuick], by simp⟩,
    ⟨_, [], (List.append_nil _).symm, by simp [Op.isQuick], by simp⟩, ?_⟩
  · with_unfolding_all rfl
  · with_unfolding_all rfl
  · with_unfolding_all rfl
  · with_unfolding_all rfl
  · refine ⟨rfl, rfl, by decide, ?_, by decide +kernel, rfl, ?_, by decide +kernel, by decide +kernel, by decide⟩ <;>
      simp [User.checkWitness, credVerify_pairing, exParams, Pairing.field] <;> norm_num

end Allo
