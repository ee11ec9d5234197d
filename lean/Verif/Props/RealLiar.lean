import Verif.Props.Real
import Verif.Props.SilentGuess
import Verif.Props.Threshold

/-!
# C114, C115 and C124 over the scalar field the crate uses

There `1/|F|` is at most `2⁻²⁵⁴`, and the check is mis-scaled exactly if the first server is silent, for every number of servers that fits in a `usize`.
-/

set_option linter.unusedSectionVars false
set_option linter.unusedVariables false
namespace Allo
open Spec Finset User Rom

/-- the square of a point `2, …, n` is not 1 -/
theorem Fr.sq_ne_one {i : Nat} (h0 : 0 < i) (h1 : i < 2 ^ 64) : ((i + 1 : Nat) : Fr) ^ 2 ≠ 1 := by
  have hq : 2 ^ 65 < groupOrder := by decide +kernel
  intro h
  have h2 : ((i + 1 : Nat) : Fr) ^ 2 - 1 = (i : Fr) * ((i + 2 : Nat) : Fr) := by push_cast; ring
  rw [h, sub_self] at h2
  rcases mul_eq_zero.1 h2.symm with h3 | h3
  · exact Fr.natCast_ne_zero h0 (by omega) h3
  · exact Fr.natCast_ne_zero (by omega) (by omega) h3

/-- the first server is silent exactly if the first server that answers is another one -/
theorem first_answers {n : Nat} (Q : Finset Nat) (r : List Nat) (hr : r = (List.range n).filter (fun i => decide (i ∉ Q)))
    (hrl : 0 < r.length) : r[0] = 0 ↔ 0 ∉ Q := by
  subst hr
  have hm := List.getElem_mem hrl
  constructor
  · intro h
    rw [h] at hm
    simpa using (List.mem_filter.1 hm).2
  · intro h
    cases n with
    | zero => simp at hrl
    | succ n => simp [List.range_succ_eq_map, List.filter_cons_of_pos, h]

section
variable {G1 G2 : Type} [AddCommGroup G1] [Module Fr G1] [DecidableEq G1] [AddCommGroup G2] [Module Fr G2]

/-- the size of the field -/
theorem Fr.card_ge : (2 : ℚ) ^ 254 ≤ Nat.card Fr := by
  rw [Nat.card_eq_fintype_card, ZMod.card]
  have : 2 ^ 254 ≤ groupOrder := by decide +kernel
  exact_mod_cast this

/-- **C114** (more servers than the threshold) over the scalar field of BLS12-381. -/
theorem C114_mixed_detected_bls (s : Server Fr G1 G2)
    (hlen : s.accumulators.length = s.deletions.length + 1) (servers : List (Server Fr G1 G2))
    (hs : ∀ s' ∈ servers, s'.accumulators = s.accumulators ∧ s'.deletions = s.deletions)
    (seed : Nat → Nat) (hseed : ∀ d, 1 ≤ d → 1 ≤ seed d) (u : User Fr G1 G2) (e : Nat) (he : u.epoch < e)
    (t : Nat) (ht : 2 ≤ t) (hn : t + 1 ≤ servers.length) (hlt : servers.length < 2 ^ 64)
    (m : Nat) (hm1 : 1 ≤ m) (hm : m ≤ s.deletions.length)
    (w : G1) (r₁ r : Nat → Nat → Fr) (B : Nat → Bool) (i₁ i₂ : Nat) (h₁ : i₁ ≤ t) (h₂ : i₂ ≤ t) (hB₁ : B i₁ = false)
    (hB₂ : B i₂ = true) :
    1 - 1 / 2 ^ 254 ≤ prob (fun x : Fin (t - 1) → Fin m → Fr => ∃ upd₁ upd₂ ans₁ ans₂,
      u.prepareForUpdate seed e servers.length t r₁ = .ok (.ok upd₁) ∧
      u.prepareForUpdate seed e servers.length t (withRows x r) = .ok (.ok upd₂) ∧
      AnsweredBy servers m upd₁ ans₁ ∧ AnsweredBy servers m upd₂ ans₂ ∧
      postUpdate w t upd₂.yShares upd₂.yValues (mixAt B ans₁ ans₂) = .ok (.error "malicious server")) := by
  refine le_trans ?_ (C114_mixed_detected s hlen servers hs seed hseed u e he t ht hn (Fr.usize_points hlt) m hm1 hm w r₁ r B
    i₁ i₂ h₁ h₂ hB₁ hB₂)
  have := one_div_le_one_div_of_le (by positivity) Fr.card_ge
  linarith

/-- **C115** (a smaller threshold) over the scalar field of BLS12-381. -/
theorem C115_smaller_bls (s : Server Fr G1 G2)
    (hlen : s.accumulators.length = s.deletions.length + 1) (servers : List (Server Fr G1 G2))
    (hs : ∀ s' ∈ servers, s'.accumulators = s.accumulators ∧ s'.deletions = s.deletions)
    (seed : Nat → Nat) (hseed : ∀ d, 1 ≤ d → 1 ≤ seed d) (u : User Fr G1 G2) (e : Nat) (he : u.epoch < e)
    (t t' : Nat) (ht' : 1 ≤ t') (htt : t' < t) (hn : t ≤ servers.length) (hlt : servers.length < 2 ^ 64)
    (m : Nat) (hm1 : 1 ≤ m) (hm : m ≤ s.deletions.length) (w : G1) (r : Nat → Nat → Fr) :
    1 - 1 / 2 ^ 254 ≤ prob (fun x : Fin (t - 1) → Fin m → Fr => ∃ upd ans,
      u.prepareForUpdate seed e servers.length t (withRows x r) = .ok (.ok upd) ∧
      AnsweredBy servers m upd ans ∧
      postUpdate w t' upd.yShares upd.yValues ans = .ok (.error "malicious server")) := by
  refine le_trans ?_ (C115_smaller s hlen servers hs seed hseed u e he t t' ht' htt hn (Fr.usize_points hlt) m hm1 hm w r)
  have := one_div_le_one_div_of_le (by positivity) Fr.card_ge
  linarith

/-- **C124** (the accepted lie) over the scalar field of BLS12-381: a lie proper exactly if the first server is silent. -/
theorem C124_accepted_lie_bls (n t : Nat) (ht : 2 ≤ t) (hn : n < 2 ^ 64) (Q : Finset Nat)
    (r : List Nat) (hr : r = (List.range n).filter (fun i => decide (i ∉ Q))) (hrl : t < r.length) (p : Nat) (hpt : p < t) :
    ∃ k : Fr, (k ≠ 0 ↔ 0 ∈ Q) ∧
    ∀ (params : AccParams G1 G2) (α sM v : Fr) (ops : List (Server.Op Fr))
      (srv : Server Fr G1 G2), (Server.new params α sM v).run ops = .ok srv → ∀ (seed : Nat → Nat),
      (∀ d, 1 ≤ d → 1 ≤ seed d) → ∀ (u : User Fr G1 G2), 1 ≤ u.epoch → u.epoch < srv.getEpoch →
      ∀ (rand : Nat → Nat → Fr) (upd : UserUpdate Fr), u.prepareForUpdate seed srv.getEpoch n t rand = .ok (.ok upd) →
      ∀ (w : G1) (honest : List (List Fr × List G1)), HonestAnswers srv n upd honest →
      ∃ a q, honest[r[p]]? = some a ∧ honest[r[t]]? = some q ∧ DiffersOn {r[p]} honest (honest.set r[p] (addTimes k a q)) ∧
        ((∃ W, postUpdate w t upd.yShares upd.yValues (silence Q (honest.set r[p] (addTimes k a q))) = .ok (.ok W)) ∨
          postUpdate w t upd.yShares upd.yValues (silence Q (honest.set r[p] (addTimes k a q)))
            = .ok (.error "user has been deleted")) := by
  obtain ⟨k, hk, h⟩ := C124_accepted_lie (F := Fr) (G1 := G1) (G2 := G2) n t ht (Fr.usize_points hn) Q r hr hrl p hpt
  refine ⟨k, ?_, h⟩
  have h0 : 0 < r.length := by omega
  have hf := first_answers Q r hr h0
  have hlt : r[0] < n := by
    have hsub : ∀ i ∈ r, i < n := fun i hi => by
      rw [hr] at hi; exact List.mem_range.1 (List.mem_filter.1 hi).1
    exact hsub _ (List.getElem_mem h0)
  rw [Ne, hk, not_iff_comm, ← hf]
  constructor
  · intro h; simp [h]
  · intro h
    by_contra hne
    exact Fr.sq_ne_one (Nat.pos_of_ne_zero hne) (by omega) h

/-- **C124** (the lie must be guessed) over the scalar field of BLS12-381: if the first server is silent, a liar that sees
the shares of fewer than `t - 1` servers has a chance of at most `2⁻²⁵⁴`. -/
theorem C124_guess_bls (params : AccParams G1 G2) (α sM v : Fr) (ops : List (Server.Op Fr))
    (srv : Server Fr G1 G2) (h : (Server.new params α sM v).run ops = .ok srv) (seed : Nat → Nat)
    (hseed : ∀ d, 1 ≤ d → 1 ≤ seed d) (u : User Fr G1 G2) (n t : Nat)
    (hn : n < 2 ^ 64) (he1 : 1 ≤ u.epoch) (he2 : u.epoch < srv.getEpoch) (w : G1) (Q : Finset Nat) (h0 : 0 ∈ Q)
    (r : List Nat) (hr : r = (List.range n).filter (fun i => decide (i ∉ Q))) (hrl : t < r.length)
    (p : Nat) (hpt : p < t) (I : Finset Nat) (hI : ∀ i ∈ I, i < n)
    (hpI : r[p] ∈ I) (htI : r[t] ∉ I) (hcard : I.card + 1 < t) (A : (Nat → Option (List Fr)) → List Fr × List G1)
    (m : Nat) (hm : srv.getEpoch - u.epoch ≤ m) (rest : Nat → Nat → Fr) :
    prob (fun x : Fin (t - 1) → Fin m → Fr => ∃ upd honest W,
      u.prepareForUpdate seed srv.getEpoch n t (withRows x rest) = .ok (.ok upd) ∧ HonestAnswers srv n upd honest ∧
      DiffersOn {r[p]} honest (honest.set r[p] (A (jointView I upd))) ∧
      postUpdate w t upd.yShares upd.yValues (silence Q (honest.set r[p] (A (jointView I upd)))) = .ok (.ok W))
      ≤ 1 / 2 ^ 254 := by
  have hr0 : 0 < r.length := by omega
  have hf := first_answers Q r hr hr0
  have hlt : r[0] < n := by
    have hsub : ∀ i ∈ r, i < n := fun i hi => by
      rw [hr] at hi; exact List.mem_range.1 (List.mem_filter.1 hi).1
    exact hsub _ (List.getElem_mem hr0)
  refine le_trans (C124_guess params α sM v ops srv h seed hseed u n t (Fr.usize_points hn) he1 he2 w Q r hr hrl p hpt
    (Fr.sq_ne_one (Nat.pos_of_ne_zero (fun h => hf.1 h h0)) (by omega)) I hI hpI htI hcard A m hm rest) ?_
  exact one_div_le_one_div_of_le (by positivity) Fr.card_ge

end
end Allo
