import Verif.Model.User
import Verif.Lemmas.ShamirCheck
import Verif.Lemmas.Server

/-! Lemmas about the update protocol: chunk size, share vectors, the servers' answers. -/

set_option linter.unusedSectionVars false
namespace Allo
open Spec Finset

/-! ### chunk size -/

theorem chunkCond_ok (d k : Nat) (hk : 1 ≤ k) :
    chunkCond d k = .ok (decide (2 * k < 5 * (d + k - 1) / k)) := by
  unfold chunkCond
  rw [usub_le (by omega)]
  simp only [bind, Except.bind, udiv, if_neg (show ¬ k = 0 by omega)]
  rfl

theorem chunkSize_loop (d m : Nat) (hm : ¬ 2 * m < 5 * (d + m - 1) / m) :
    ∀ fuel s, 1 ≤ s → s ≤ m → (∀ j, s ≤ j → j < m → 2 * j < 5 * (d + j - 1) / j) → m - s < fuel →
      chunkSizeFuel fuel d s = .ok m := by
  intro fuel
  induction fuel with
  | zero => intro s _ _ _ h; omega
  | succ fuel ih =>
    intro s hs hsm hlt hf
    unfold chunkSizeFuel whileFuel
    rw [chunkCond_ok d s hs]
    simp only [bind, Except.bind, pure, Except.pure]
    by_cases he : s = m
    · subst he; simp [hm]
    · have := hlt s le_rfl (by omega)
      simp only [this, decide_true, if_true]
      exact ih (s + 1) (by omega) (by omega) (fun j hj => hlt j (by omega)) (by omega)

theorem chunk_stop (d k : Nat) (hk : d + 5 ≤ k) : ¬ 2 * k < 5 * (d + k - 1) / k := by
  rw [not_lt]
  have : 5 * (d + k - 1) / k ≤ 10 := by
    apply Nat.div_le_of_le_mul
    omega
  omega

/-- the least stopping value -/
theorem exists_chunk (d seed : Nat) : ∃ m, seed ≤ m ∧ m ≤ max seed (d + 5) ∧
    ¬ 2 * m < 5 * (d + m - 1) / m ∧ ∀ j, seed ≤ j → j < m → 2 * j < 5 * (d + j - 1) / j := by
  have hex : ∃ m, seed ≤ m ∧ ¬ 2 * m < 5 * (d + m - 1) / m :=
    ⟨max seed (d + 5), le_max_left _ _, chunk_stop d _ (le_max_right _ _)⟩
  classical
  refine ⟨Nat.find hex, (Nat.find_spec hex).1, ?_, (Nat.find_spec hex).2, ?_⟩
  · exact Nat.find_min' hex ⟨le_max_left _ _, chunk_stop d _ (le_max_right _ _)⟩
  · intro j hj hlt
    have := Nat.find_min hex hlt
    by_contra hc
    exact this ⟨hj, hc⟩

section
variable {F G1 G2 GT : Type} [Field F] [DecidableEq F] [AddCommGroup G1] [Module F G1]
  [DecidableEq G1]

/-! ### the share vectors -/

/-- the share vector that is the value of the sharing polynomials at `z` -/
def shVec (t w : Nat) (id : F) (rand : Nat → Nat → F) (z : F) : List F :=
  (List.range w).map (fun j => polyVal z (sharePoly t (id ^ (j + 1)) (rand j)))

@[simp] theorem shVec_length (t w : Nat) (id : F) (rand : Nat → Nat → F) (z : F) :
    (shVec t w id rand z).length = w := by simp [shVec]

theorem foldl_push {α β : Type} (g : β → α) (l : List β) : ∀ (k : Nat) (st : List (List α)),
    ((l.zipIdx k).foldl (fun ys (p : β × Nat) => ys.modify p.2 (· ++ [g p.1])) st).length = st.length ∧
    ∀ i, ((l.zipIdx k).foldl (fun ys (p : β × Nat) => ys.modify p.2 (· ++ [g p.1])) st)[i]?
      = (st[i]?).map (fun a => a ++ (if k ≤ i then (l[i - k]?).toList.map g else [])) := by
  induction l with
  | nil => intro k st; simp
  | cons b l ih =>
    intro k st
    rw [List.zipIdx_cons, List.foldl_cons]
    obtain ⟨h1, h2⟩ := ih (k + 1) (st.modify k (· ++ [g b]))
    refine ⟨by rw [h1]; simp, fun i => ?_⟩
    rw [h2, List.getElem?_modify]
    by_cases hik : k = i
    · subst hik
      simp only [if_true, if_neg (show ¬ k + 1 ≤ k by omega), le_refl, Nat.sub_self, List.getElem?_cons_zero]
      cases st[k]? <;> simp
    · simp only [hik, if_false]
      by_cases hle : k ≤ i
      · rw [if_pos (show k + 1 ≤ i by omega), if_pos hle,
          show i - k = (i - (k + 1)) + 1 by omega, List.getElem?_cons_succ]
        cases st[i]? <;> simp
      · rw [if_neg (show ¬ k + 1 ≤ i by omega), if_neg hle]
        cases st[i]? <;> simp

theorem shareLoop (id : F) (n t : Nat) (ht : 1 ≤ t) (rand : Nat → Nat → F) (m : Nat) :
    (List.range' 1 m).foldlM (fun (st : List (List F) × F) j => do
      let yPower := st.2 * id
      let shares ← shamirShare t n yPower (rand j)
      let ys := shares.zipIdx.foldl (fun ys (p, i) => ys.modify i (· ++ [p.2])) st.1
      pure (ys, yPower)) ((List.range n).map (fun i => shVec t 1 id rand ((i + 1 : Nat) : F)), id)
    = (.ok ((List.range n).map (fun i => shVec t (m + 1) id rand ((i + 1 : Nat) : F)), id ^ (m + 1))
        : Rust (List (List F) × F)) := by
  induction m with
  | zero => simp [pure, Except.pure]
  | succ m ih =>
    rw [List.range'_concat, List.foldlM_append, ih]
    simp only [List.foldlM_cons, List.foldlM_nil, bind, Except.bind, one_mul]
    rw [shamirShare_ok t n ht]
    simp only [pure, Except.pure]
    congr 1
    refine Prod.ext ?_ (pow_succ _ _).symm
    simp only
    have := foldl_push (fun p : F × F => p.2) ((List.range n).map (fun i => (((i + 1 : Nat) : F),
      polyVal ((i + 1 : Nat) : F) (sharePoly t (id ^ (m + 1) * id) (rand (1 + m)))))) 0
      ((List.range n).map (fun i => shVec t (m + 1) id rand ((i + 1 : Nat) : F)))
    obtain ⟨h1, h2⟩ := this
    apply List.ext_getElem?
    intro i
    rw [h2]
    by_cases hi : i < n
    · simp [hi, shVec, List.range_succ, pow_succ, add_comm 1 m]
    · simp [hi]

theorem shareVectors_ok (id : F) (n t k : Nat) (ht : 1 ≤ t) (hk : 2 ≤ k) (rand : Nat → Nat → F) :
    User.shareVectors id n t k rand = .ok
      ((List.range n).map (fun i => shVec t (k - 1) id rand ((i + 1 : Nat) : F)),
       (List.range n).map (fun i => ((i + 1 : Nat) : F))) := by
  unfold User.shareVectors
  rw [shamirShare_ok t n ht]
  simp only [bind, Except.bind]
  rw [usub_le (by omega)]
  simp only
  have h1 : ((List.range n).map (fun i => (((i + 1 : Nat) : F),
      polyVal ((i + 1 : Nat) : F) (sharePoly t id (rand 0))))).map (fun p => [p.2])
      = (List.range n).map (fun i => shVec t 1 id rand ((i + 1 : Nat) : F)) := by
    rw [List.map_map]
    apply List.map_congr_left
    intro i _
    simp [shVec]
  have := shareLoop id n t ht rand (k - 1 - 1)
  rw [h1]
  simp only [bind, Except.bind] at this
  rw [this]
  simp only [pure, Except.pure, List.map_map]
  rw [show k - 1 - 1 + 1 = k - 1 by omega]
  rfl

end
end Allo
