import Verif.Lemmas.ServerUpdate

/-! `User::post_update` in closed form. -/

set_option linter.unusedSectionVars false
namespace Allo
open Spec Finset User

section
variable {F T : Type} [Field F] [DecidableEq F]

/-- the shares of chunk `j`, in the order of the servers, of the servers that answered it -/
def column (xs : List F) (A : List (List T)) (j : Nat) : List (F × T) :=
  (xs.zip A).filterMap (fun p => (p.2[j]?).map (fun v => (p.1, v)))

/-- length of the first non-empty answer (0 if there is none) -/
def firstLen (A : List (List T)) : Nat := ((A.find? (fun a => !a.isEmpty)).map List.length).getD 0

theorem firstLen_zero {A : List (List T)} : firstLen A = 0 ↔ ∀ a ∈ A, a = [] := by
  unfold firstLen
  cases h : A.find? (fun a => !a.isEmpty) with
  | none =>
    rw [List.find?_eq_none] at h
    simp only [Option.map_none, Option.getD_none, true_iff]
    intro a ha
    simpa using h a ha
  | some b =>
    have hb := List.find?_some h
    have hm := List.mem_of_find?_eq_some h
    simp only [Option.map_some, Option.getD_some]
    constructor
    · intro hl; rw [List.length_eq_zero_iff] at hl; subst hl; simp at hb
    · intro hall; rw [hall b hm]; rfl

theorem firstLen_snoc (A : List (List T)) (a : List T) :
    firstLen (A ++ [a]) = if firstLen A = 0 then a.length else firstLen A := by
  by_cases h : firstLen A = 0
  · rw [if_pos h]
    have h' := firstLen_zero.1 h
    unfold firstLen
    rw [List.find?_append]
    have : A.find? (fun a => !a.isEmpty) = none := by
      rw [List.find?_eq_none]; intro b hb; simp [h' b hb]
    rw [this]
    cases a <;> simp
  · rw [if_neg h]
    unfold firstLen at h ⊢
    rw [List.find?_append]
    cases hf : A.find? (fun a => !a.isEmpty) with
    | none => rw [hf] at h; simp at h
    | some b => simp

theorem firstLen_append (A B : List (List T)) (h : firstLen A ≠ 0) : firstLen (A ++ B) = firstLen A := by
  unfold firstLen at h ⊢
  rw [List.find?_append]
  cases hf : A.find? (fun a => !a.isEmpty) with
  | none => rw [hf] at h; simp at h
  | some b => simp

theorem column_snoc (xs : List F) (A : List (List T)) (a : List T) (h : A.length < xs.length) (j : Nat) :
    column xs (A ++ [a]) j = column xs A j ++ (a[j]?).toList.map (fun v => (xs[A.length], v)) := by
  unfold column
  have : xs.zip (A ++ [a]) = xs.zip A ++ [(xs[A.length], a)] := by
    apply List.ext_getElem
    · simp; omega
    · intro i h1 h2
      simp at h1
      by_cases hi : i < A.length
      · rw [List.getElem_append_left (by simp; omega)]
        simp [List.getElem_append_left hi]
      · have : i = A.length := by omega
        subst this
        rw [List.getElem_append_right (by simp)]
        simp [Nat.min_eq_right (Nat.le_of_lt h)]
  rw [this, List.filterMap_append]
  cases hj : a[j]? <;> simp [hj]

theorem column_all_empty (xs : List F) (A : List (List T)) (h : ∀ a ∈ A, a = []) (j : Nat) :
    column xs A j = [] := by
  unfold column
  rw [List.filterMap_eq_nil_iff]
  intro p hp
  have := h p.2 (List.of_mem_zip hp).2
  rw [this]; rfl

/-! ### the collecting loop -/

theorem pushM_ok (xs : List F) (i : Nat) (hi : i < xs.length) (l : List T) :
    ∀ (k : Nat) (st : List (List (F × T))), k + l.length ≤ st.length →
    (l.zipIdx k).foldlM (fun chunks (p : T × Nat) => do
      let x ← idx xs i
      let _ ← idx chunks p.2
      pure (chunks.modify p.2 (· ++ [(x, p.1)]))) st
    = (.ok ((l.zipIdx k).foldl (fun ys (p : T × Nat) => ys.modify p.2 (· ++ [(xs[i], p.1)])) st)
        : Rust (List (List (F × T)))) := by
  induction l with
  | nil => intro k st _; rfl
  | cons a l ih =>
    intro k st hk
    simp at hk
    rw [List.zipIdx_cons, List.foldlM_cons, List.foldl_cons, idx_lt hi]
    simp only [bind, Except.bind, pure, Except.pure] at ih ⊢
    rw [idx_lt (show k < st.length by omega)]
    simp only
    rw [← ih (k + 1) _ (by simp; omega)]
    rw [idx_lt hi]

theorem pushM_err (xs : List F) (i : Nat) (hi : i < xs.length) (l : List T) :
    ∀ (k : Nat) (st : List (List (F × T))), k ≤ st.length → st.length < k + l.length →
    (l.zipIdx k).foldlM (fun chunks (p : T × Nat) => do
      let x ← idx xs i
      let _ ← idx chunks p.2
      pure (chunks.modify p.2 (· ++ [(x, p.1)]))) st
    = (.error .index : Rust (List (List (F × T)))) := by
  induction l with
  | nil => intro k st h1 h2; simp at h2; omega
  | cons a l ih =>
    intro k st h1 h2
    simp at h2
    rw [List.zipIdx_cons, List.foldlM_cons, idx_lt hi]
    simp only [bind, Except.bind, pure, Except.pure] at ih ⊢
    by_cases hk : k < st.length
    · rw [idx_lt hk]
      simp only
      rw [idx_lt hi] at ih
      exact ih (k + 1) _ (by simp; omega) (by simp; omega)
    · rw [idx_ge (by omega)]

theorem collectStep_eq (xs : List F) (A : List (List T)) (i : Nat) (hA : i < A.length) (hx : i < xs.length)
    (chunks : List (List (F × T))) :
    collectStep xs A chunks i =
      if chunks = [] then .ok (A[i].map (fun v => [(xs[i], v)]))
      else if A[i].length ≤ chunks.length then
        .ok ((List.range chunks.length).map (fun j =>
          chunks.getD j [] ++ (A[i][j]?).toList.map (fun v => (xs[i], v))))
      else .error .index := by
  unfold collectStep
  rw [idx_lt hA]
  simp only [bind, Except.bind]
  have hpush := pushM_ok xs i hx A[i] 0
  have herr := pushM_err xs i hx A[i] 0
  simp only [bind, Except.bind] at hpush herr
  by_cases hc : chunks = []
  · subst hc
    simp only [List.isEmpty_nil, if_true]
    rw [hpush (List.replicate A[i].length []) (by simp)]
    congr 1
    obtain ⟨h1, h2⟩ := foldl_push (fun v : T => (xs[i], v)) A[i] 0 (List.replicate A[i].length [])
    apply List.ext_getElem?
    intro j
    rw [h2]
    by_cases hj : j < A[i].length
    · simp [hj]
    · simp [hj]
  · have : chunks.isEmpty = false := by cases chunks <;> simp_all
    simp only [this, hc, if_false]
    by_cases hle : A[i].length ≤ chunks.length
    · rw [if_pos hle]
      simp only [Bool.false_eq_true, if_false]
      rw [hpush chunks (by simpa using hle)]
      congr 1
      obtain ⟨h1, h2⟩ := foldl_push (fun v : T => (xs[i], v)) A[i] 0 chunks
      apply List.ext_getElem?
      intro j
      rw [h2]
      by_cases hj : j < chunks.length
      · simp [hj]
      · simp [hj]
    · rw [if_neg hle]
      simp only [Bool.false_eq_true, if_false]
      exact herr chunks (by simp) (by simpa using hle)

/-- the collection of one component: the columns, unless a server answered more than the first -/
theorem collect_one (xs : List F) (A : List (List T)) (hl : xs.length = A.length) (m : Nat)
    (hm : m ≤ A.length) :
    (List.range m).foldlM (collectStep xs A) [] =
      if ∀ a ∈ A.take m, a.length ≤ firstLen (A.take m) then
        .ok ((List.range (firstLen (A.take m))).map (column xs (A.take m)))
      else .error .index := by
  induction m with
  | zero => simp [firstLen, pure, Except.pure]
  | succ m ih =>
    rw [List.range_succ, List.foldlM_append, ih (by omega)]
    have htake : A.take (m + 1) = A.take m ++ [A[m]] := by
      rw [List.take_add_one, List.getElem?_eq_getElem (by omega)]; rfl
    have hlen : (A.take m).length = m := by simp; omega
    rw [htake, firstLen_snoc]
    by_cases hgood : ∀ a ∈ A.take m, a.length ≤ firstLen (A.take m)
    · rw [if_pos hgood]
      simp only [bind, Except.bind, List.foldlM_cons, List.foldlM_nil, pure, Except.pure]
      rw [collectStep_eq xs A m (by omega) (by omega)]
      by_cases h0 : firstLen (A.take m) = 0
      · have hall := firstLen_zero.1 h0
        rw [h0]
        simp only [List.range_zero, List.map_nil, if_true]
        rw [if_pos]
        · congr 1
          apply List.ext_getElem
          · simp
          · intro j h1 h2
            simp at h1
            simp only [List.getElem_map, List.getElem_range]
            rw [column_snoc xs _ _ (by omega), column_all_empty xs _ hall]
            simp [h1, hlen]
        · intro a ha
          rw [List.mem_append] at ha
          rcases ha with ha | ha
          · simp [hall a ha]
          · simp at ha; rw [ha]
      · have hne : (List.range (firstLen (A.take m))).map (column xs (A.take m)) ≠ [] := by
          simp [h0]
        rw [if_neg hne, if_neg h0]
        simp only [List.length_map, List.length_range]
        by_cases hle : A[m].length ≤ firstLen (A.take m)
        · rw [if_pos hle, if_pos]
          · simp only
            congr 1
            apply List.map_congr_left
            intro j hj
            rw [List.mem_range] at hj
            rw [column_snoc xs _ _ (by omega)]
            simp [hj, hlen]
          · intro a ha
            rw [List.mem_append] at ha
            rcases ha with ha | ha
            · exact hgood a ha
            · simp at ha; rw [ha]; exact hle
        · rw [if_neg hle, if_neg]
          intro hall
          exact hle (hall _ (List.mem_append_right _ (List.mem_singleton.2 rfl)))
    · rw [if_neg hgood, if_neg]
      · rfl
      · intro hall
        apply hgood
        have h0 : firstLen (A.take m) ≠ 0 := by
          intro h0
          apply hgood
          intro a ha
          simp [firstLen_zero.1 h0 a ha]
        rw [if_neg h0] at hall
        exact fun a ha => hall a (List.mem_append_left _ ha)

theorem foldlM_pair {α β : Type} (f : α → Nat → Rust α) (g : β → Nat → Rust β) (l : List Nat)
    (hf : ∀ a i, i ∈ l → (∃ a', f a i = .ok a') ∨ f a i = .error .index)
    (hg : ∀ a i, i ∈ l → (∃ a', g a i = .ok a') ∨ g a i = .error .index) : ∀ (a : α) (b : β),
    l.foldlM (fun (st : α × β) i => do
        let x ← f st.1 i
        let y ← g st.2 i
        pure (x, y)) (a, b) = (match l.foldlM f a, l.foldlM g b with
      | .ok a', .ok b' => .ok (a', b')
      | _, _ => .error .index) := by
  induction l with
  | nil => intro a b; rfl
  | cons i l ih =>
    intro a b
    have hl := ih (fun a j hj => hf a j (by simp [hj])) (fun a j hj => hg a j (by simp [hj]))
    have herr : ∀ (γ : Type) (h : γ → Nat → Rust γ) (c : γ), (∀ a j, j ∈ l → (∃ a', h a j = .ok a') ∨
        h a j = .error .index) → (∃ c', l.foldlM h c = .ok c') ∨ l.foldlM h c = .error .index := by
      intro γ h
      clear ih hl hf hg
      induction l with
      | nil => intro c _; exact Or.inl ⟨c, rfl⟩
      | cons j l ih2 =>
        intro c hh
        rw [List.foldlM_cons]
        rcases hh c j (by simp) with ⟨a', h1⟩ | h1
        · rw [h1]; exact ih2 a' (fun a k hk => hh a k (by simp [hk]))
        · rw [h1]; exact Or.inr rfl
    rw [List.foldlM_cons, List.foldlM_cons, List.foldlM_cons]
    rcases hf a i (by simp) with ⟨a', h1⟩ | h1 <;> rcases hg b i (by simp) with ⟨b', h2⟩ | h2
    · rw [h1, h2]
      simp only [bind, Except.bind, pure, Except.pure] at hl ⊢
      rw [hl]
    · rw [h1, h2]
      simp only [bind, Except.bind]
      rcases herr α f a' (fun a j hj => hf a j (by simp [hj])) with ⟨c', h3⟩ | h3 <;>
        simp [h3]
    · rw [h1, h2]
      simp only [bind, Except.bind]
    · rw [h1, h2]
      simp only [bind, Except.bind]

variable {G1 G2 : Type} [AddCommGroup G1] [Module F G1] [DecidableEq G1]

theorem collectStep_total (xs : List F) (A : List (List T)) (hl : xs.length = A.length) (n : Nat)
    (hn : n ≤ A.length) (st : List (List (F × T))) (i : Nat) (hi : i ∈ List.range n) :
    (∃ c, collectStep xs A st i = .ok c) ∨ collectStep xs A st i = .error .index := by
  rw [List.mem_range] at hi
  rw [collectStep_eq xs A i (by omega) (by omega)]
  split
  · exact Or.inl ⟨_, rfl⟩
  · split
    · exact Or.inl ⟨_, rfl⟩
    · exact Or.inr rfl

theorem collect_eq (xs : List F) (dvs : List (List F × List G1)) (hl : xs.length = dvs.length) :
    collect dvs.length xs dvs =
      if (∀ p ∈ dvs, p.1.length ≤ firstLen (dvs.map (·.1))) ∧
          (∀ p ∈ dvs, p.2.length ≤ firstLen (dvs.map (·.2))) then
        .ok ((List.range (firstLen (dvs.map (·.1)))).map (column xs (dvs.map (·.1))),
             (List.range (firstLen (dvs.map (·.2)))).map (column xs (dvs.map (·.2))))
      else .error .index := by
  unfold collect
  rw [foldlM_pair (collectStep xs (dvs.map (·.1))) (collectStep xs (dvs.map (·.2))) _
    (fun a i hi => collectStep_total xs _ (by simpa using hl) dvs.length (by simp) a i hi)
    (fun a i hi => collectStep_total xs _ (by simpa using hl) dvs.length (by simp) a i hi)]
  rw [collect_one xs (dvs.map (·.1)) (by simpa using hl) dvs.length (by simp),
    collect_one xs (dvs.map (·.2)) (by simpa using hl) dvs.length (by simp)]
  rw [List.take_of_length_le (show (dvs.map (·.1)).length ≤ _ by simp),
    List.take_of_length_le (show (dvs.map (·.2)).length ≤ _ by simp)]
  simp only [List.forall_mem_map]
  by_cases h1 : ∀ p ∈ dvs, p.1.length ≤ firstLen (dvs.map (·.1)) <;>
    by_cases h2 : ∀ p ∈ dvs, p.2.length ≤ firstLen (dvs.map (·.2))
  · rw [if_pos h1, if_pos h2, if_pos ⟨h1, h2⟩]
  · rw [if_pos h1, if_neg h2, if_neg (fun h => h2 h.2)]
  · rw [if_neg h1, if_pos h2, if_neg (fun h => h1 h.1)]
  · rw [if_neg h1, if_neg h2, if_neg (fun h => h1 h.1)]

/-! ### the rebuilding loop -/

/-- the rebuilding loop as a function of the rebuilt values -/
def loopSpec (rD : Nat → Option F) (rV : Nat → Option G1) : List Nat → G1 → Except String G1
  | [], w => .ok w
  | j :: js, w =>
    match rD j with
    | none => .error "malicious server"
    | some d => if d = 0 then .error "user has been deleted" else
      match rV j with
      | none => .error "malicious server"
      | some v => loopSpec rD rV js (d⁻¹ • (w - v))

theorem rebuildLoop_spec (cs : List F) (ch : Option (List F)) (colD : Nat → List (F × F))
    (colV : Nat → List (F × G1)) (c : Nat) (rD : Nat → Option F) (rV : Nat → Option G1)
    (hD : ∀ j < c, shamirRebuildScalar (colD j) cs ch = .ok (rD j))
    (hV : ∀ j < c, shamirRebuildPoint (colV j) cs ch = .ok (rV j)) (m : Nat) :
    ∀ i w, i + m = c →
      rebuildLoop cs ch ((List.range c).map colV) i ((List.range' i m).map colD) w
        = .ok (loopSpec rD rV (List.range' i m) w) := by
  induction m with
  | zero => intro i w _; rfl
  | succ m ih =>
    intro i w hi
    rw [List.range'_succ, List.map_cons]
    unfold rebuildLoop loopSpec
    rw [hD i (by omega)]
    simp only [bind, Except.bind]
    cases hr : rD i with
    | none => rfl
    | some d =>
      simp only
      by_cases h0 : d = 0
      · simp [h0, pure, Except.pure]
      · rw [if_neg h0, if_neg h0, idx_lt (show i < ((List.range c).map colV).length by simp; omega)]
        simp only [List.getElem_map, List.getElem_range]
        rw [hV i (by omega)]
        cases hv : rV i with
        | none => rfl
        | some v =>
          simp only
          rw [inv!_ne h0]
          simp only
          exact ih (i + 1) _ (by omega)

/-- all rebuilt: one step per chunk, or the user was deleted -/
theorem loopSpec_honest (d : Nat → F) (v : Nat → G1) (js : List Nat) (w : G1) :
    loopSpec (fun j => some (d j)) (fun j => some (v j)) js w
      = if ∀ j ∈ js, d j ≠ 0 then .ok (js.foldl (fun C j => (d j)⁻¹ • (C - v j)) w)
        else .error "user has been deleted" := by
  induction js generalizing w with
  | nil => simp [loopSpec]
  | cons j js ih =>
    unfold loopSpec
    by_cases h0 : d j = 0
    · simp [h0]
    · simp only [h0, if_false, ih, List.foldl_cons]
      by_cases hall : ∀ k ∈ js, d k ≠ 0
      · rw [if_pos hall, if_pos]
        intro k hk
        rcases List.mem_cons.1 hk with rfl | hk
        · exact h0
        · exact hall k hk
      · rw [if_neg hall, if_neg]
        intro h
        exact hall (fun k hk => h k (by simp [hk]))

/-- some values rejected: the honest outcome or "malicious server" -/
theorem loopSpec_sound (rD : Nat → Option F) (rV : Nat → Option G1) (d : Nat → F) (v : Nat → G1)
    (js : List Nat) (hD : ∀ j ∈ js, rD j = none ∨ rD j = some (d j))
    (hV : ∀ j ∈ js, rV j = none ∨ rV j = some (v j)) (w : G1) :
    loopSpec rD rV js w = loopSpec (fun j => some (d j)) (fun j => some (v j)) js w ∨
    loopSpec rD rV js w = .error "malicious server" := by
  induction js generalizing w with
  | nil => exact Or.inl rfl
  | cons j js ih =>
    unfold loopSpec
    rcases hD j (by simp) with h | h
    · rw [h]; exact Or.inr rfl
    · rw [h]
      by_cases h0 : d j = 0
      · simp [h0]
      · simp only [h0, if_false]
        rcases hV j (by simp) with h' | h'
        · rw [h']; exact Or.inr rfl
        · rw [h']
          exact ih (fun k hk => hD k (by simp [hk])) (fun k hk => hV k (by simp [hk])) _

theorem loopSpec_congr (rD rD' : Nat → Option F) (rV rV' : Nat → Option G1) (js : List Nat)
    (hD : ∀ j ∈ js, rD j = rD' j) (hV : ∀ j ∈ js, rV j = rV' j) (w : G1) :
    loopSpec rD rV js w = loopSpec rD' rV' js w := by
  induction js generalizing w with
  | nil => rfl
  | cons j js ih =>
    unfold loopSpec
    rw [hD j (by simp), hV j (by simp)]
    cases rD' j with
    | none => rfl
    | some d =>
      simp only
      split
      · rfl
      · cases rV' j with
        | none => rfl
        | some v => exact ih (fun k hk => hD k (by simp [hk])) (fun k hk => hV k (by simp [hk])) _

end
end Allo
