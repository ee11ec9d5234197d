import Verif.Props.Adaptive

/-!
# C86: the accumulator against adversaries that choose the history as it unfolds

The counterpart of C84 for the plain accumulator (`src/accumulator`). The adversary plays against a manager that holds the
secret key, the accumulator and the list of accumulated elements. It has elements of its choice added and removed, one by
one or in batches (then it gets the published coefficients), and asks for membership witnesses of accumulated elements and
for non-membership witnesses of any elements, deciding after every answer what to ask next. Nothing is fixed in advance
except a bound on the number of accumulated elements.
-/

set_option linter.unusedSectionVars false
set_option linter.unusedVariables false
namespace Allo
open Spec Rom

section game
variable {F G1 G2 GT Q α : Type} [Field F] [DecidableEq F] [AddCommGroup G1] [Module F G1]
  [AddCommGroup G2] [Module F G2] [AddCommGroup GT] [Module F GT]

/-- What the manager can be asked for. -/
inductive VbOp (F : Type)
  | add (y : F)
  | remove (y : F)
  | update (additions deletions : List F)
  | membership (y : F)
  | nonMembership (y : F)

/-- What it publishes: the accumulator, the coefficients of a batch update, the witness asked for. -/
structure VbAnswer (F G1 : Type) where
  accumulator : G1
  coefficients : List G1
  witness : Option G1
  nonWitness : Option (NonMembershipWitness F G1)

/-- The state of the manager, without its secret key. -/
structure VbState (F G1 : Type) where
  accumulator : G1
  members : List F

/-- The manager refuses to accumulate more than `n` elements, to remove elements that are not accumulated (as often), and
to give membership witnesses for elements that are not. (`Accumulator::remove` and `MembershipWitness::new` do not check
this: C02, C03.) -/
def VbOp.allowed (n : Nat) (L : List F) : VbOp F → Bool
  | .add _ => decide (L.length < n)
  | .remove y => decide (y ∈ L)
  | .update A D => decide ((A ++ L).length ≤ n) && decide (∀ y ∈ D, D.count y ≤ (A ++ L).count y)
  | .membership y => decide (y ∈ L)
  | .nonMembership _ => true

/-- The members afterwards. -/
def VbOp.members (L : List F) : VbOp F → List F
  | .add y => y :: L
  | .remove y => L.erase y
  | .update A D => (A ++ L).diff D
  | .membership _ => L
  | .nonMembership _ => L

/-- One call, done with `Accumulator::{add, remove, update}` (src/accumulator/acc.rs:178-223),
`MembershipWitness::new` and `NonMembershipWitness::new` (src/accumulator/witness.rs:59-61, 237-259). -/
def VbState.step (E : Pairing F G1 G2 GT) (sk : F) (g : VbState F G1) (op : VbOp F) :
    Rust (VbState F G1 × VbAnswer F G1) :=
  match op with
  | .add y =>
    let V := accAdd g.accumulator sk y
    pure (⟨V, op.members g.members⟩, ⟨V, [], none, none⟩)
  | .remove y => do
    let V ← accRemove g.accumulator sk y
    pure (⟨V, op.members g.members⟩, ⟨V, [], none, none⟩)
  | .update A D => do
    let (V, cs) ← accUpdate g.accumulator sk A D
    pure (⟨V, op.members g.members⟩, ⟨V, cs, none, none⟩)
  | .membership y => do
    let w ← mwNew y g.accumulator sk
    pure (g, ⟨g.accumulator, [], w, none⟩)
  | .nonMembership y => do
    let w ← nmwNew E y g.members sk
    pure (g, ⟨g.accumulator, [], none, w⟩)

/-- An adversary. -/
inductive VbProg (F G1 Q α : Type) where
  | done (a : α)
  | hash (q : Q) (k : F → VbProg F G1 Q α)
  | call (op : VbOp F) (k : Option (VbAnswer F G1) → VbProg F G1 Q α)

/-- At most `n` hash queries, whatever happens. -/
def VbProg.HashBound : Nat → VbProg F G1 Q α → Prop
  | _, .done _ => True
  | 0, .hash _ _ => False
  | n + 1, .hash _ k => ∀ r, HashBound n (k r)
  | n, .call _ k => ∀ r, HashBound n (k r)

/-- The game. Refused calls have no effect. -/
def VbProg.play (E : Pairing F G1 G2 GT) (sk : F) (n : Nat) :
    VbProg F G1 Q α → VbState F G1 → OracleProg Q F (Rust (α × VbState F G1))
  | .done a, g => .done (.ok (a, g))
  | .hash q k, g => .ask q (fun r => (k r).play E sk n g)
  | .call op k, g =>
    if op.allowed n g.members then
      match g.step E sk op with
      | .error e => .done (.error e)
      | .ok (g', ans) => (k (some ans)).play E sk n g'
    else (k none).play E sk n g

/-- The game from the start: the accumulator is `Accumulator::default()`, the adversary is given the public key. -/
def runVb (E : Pairing F G1 G2 GT) (sk : F) (n : Nat) (adv : G2 → VbProg F G1 Q α) :
    OracleProg Q F (Rust (α × VbState F G1)) :=
  (adv (publicKey E sk)).play E sk n ⟨accDefault E, []⟩

/-! ### The simulator: it is given points, not the secret key -/

/-- The elements that become relevant with a call. -/
def VbOp.fresh : VbOp F → List F
  | .add y => [y]
  | .remove _ => []
  | .update A _ => A
  | .membership _ => []
  | .nonMembership y => [y]

/-- The coefficients of a batch update, from power points. -/
def simCoefficients (pts : List G1) (L A D : List F) : List G1 :=
  let va := (List.range A.length).foldl (fun va s =>
    pg1Add va ((linProd (A.drop (s + 1))).map (fun e => e • comb pts (coeffs (A.take s ++ L))))) []
  let vd := (List.range D.length).foldl (fun vd s =>
    pg1Add vd ((linProd (D.take s)).map (fun e => e • comb pts (coeffs ((A ++ L).diff (D.take (s + 1))))))) []
  pg1Add va (vd.map (fun P => -P))

/-- The answer to a call. -/
def simAnswer (pts : List G1) (L : List F) (op : VbOp F) : VbAnswer F G1 :=
  let V := comb pts (coeffs (op.members L))
  match op with
  | .add _ => ⟨V, [], none, none⟩
  | .remove _ => ⟨V, [], none, none⟩
  | .update A D => ⟨V, simCoefficients pts L A D, none, none⟩
  | .membership y => ⟨V, [], some (comb pts (coeffs (L.erase y))), none⟩
  | .nonMembership y => ⟨V, [], none, if y ∈ L then none else some ⟨comb pts (quotient y L), prodMinus y L⟩⟩

variable [DecidableEq G1]

/-- The adversary against the simulator, whose state are the members. When an element `y` comes up with `y + α = 0` (which
can be seen from the points) it stops with `y`. -/
def VbProg.simulate (pts : List G1) (n : Nat) : VbProg F G1 Q α → List F → OracleProg Q F (F ⊕ α × List F)
  | .done a, L => .done (.inr (a, L))
  | .hash q k, L => .ask q (fun r => (k r).simulate pts n L)
  | .call op k, L =>
    if op.allowed n L then
      match op.fresh.find? (fun y => decide (comb pts [y, 1] = 0)) with
      | some y => .done (.inl y)
      | none => (k (some (simAnswer pts L op))).simulate pts n (op.members L)
    else (k none).simulate pts n L

/-- The whole simulation. -/
def runVbSim (pts : List G1) (key : G2) (n : Nat) (adv : G2 → VbProg F G1 Q α) : OracleProg Q F (F ⊕ α × List F) :=
  (adv key).simulate pts n []

/-! ### Lemmas -/

omit [DecidableEq G1] in
/-- mapping a sum of polynomials -/
theorem pg1Add_map {M N : Type} [AddCommGroup M] [AddCommGroup N] (f : M →+ N) (a b : List M) :
    (pg1Add a b).map f = pg1Add (a.map f) (b.map f) := by
  have aux : ∀ (l : List Nat) (s : List M), (l.foldl (fun s i => s.modify i (· + b.getD i 0)) s).map f
      = l.foldl (fun s i => s.modify i (· + (b.map f).getD i 0)) (s.map f) := by
    intro l
    induction l with
    | nil => intro s; rfl
    | cons i l ih =>
      intro s
      rw [List.foldl_cons, List.foldl_cons, ih]
      congr 1
      apply List.ext_getElem?
      intro j
      simp only [List.getElem?_map, List.getElem?_modify]
      cases s[j]? with
      | none => simp
      | some x =>
        by_cases h : i = j
        · subst h
          by_cases hi : i < b.length
          · simp [hi]
          · simp [Nat.le_of_not_lt hi]
        · simp [h]
  unfold pg1Add
  simp only [List.length_map]
  rw [aux]
  split <;> simp

theorem polyAdd_eq_pg1Add (a b : List F) : polyAdd a b = pg1Add a b := rfl

/-- multiplying by a fixed point -/
def smulHom (V : G1) : F →+ G1 := ⟨⟨fun c => c • V, zero_smul _ _⟩, fun a b => add_smul a b V⟩

theorem prodPlus_diff (a : F) : ∀ (D M : List F), (∀ y ∈ D, D.count y ≤ M.count y) →
    prodPlus a D * prodPlus a (M.diff D) = prodPlus a M
  | [], M, _ => by simp
  | y :: D, M, h => by
    have hy : y ∈ M := by
      have := h y (by simp)
      rw [List.count_cons_self] at this
      exact List.count_pos_iff.1 (by omega)
    rw [List.diff_cons, prodPlus_cons, mul_assoc, prodPlus_diff a D (M.erase y), ← prodPlus_erase a M y hy]
    intro z hz
    have := h z (by simp [hz])
    by_cases e : z = y
    · subst e
      rw [List.count_cons_self] at this
      rw [List.count_erase_self]; omega
    · rw [List.count_cons_of_ne (Ne.symm e)] at this
      rwa [List.count_erase_of_ne e]

theorem subset_of_count {D M : List F} (h : ∀ y ∈ D, D.count y ≤ M.count y) : ∀ y ∈ D, y ∈ M := fun y hy =>
  List.count_pos_iff.1 (lt_of_lt_of_le (List.count_pos_iff.2 hy) (h y hy))

theorem count_take {D M : List F} (h : ∀ y ∈ D, D.count y ≤ M.count y) (s : Nat) :
    ∀ y ∈ D.take s, (D.take s).count y ≤ M.count y := fun y hy =>
  le_trans ((List.take_sublist s D).count_le y) (h y (List.mem_of_mem_take hy))

theorem diff_length_le (M D : List F) : (M.diff D).length ≤ M.length := (List.diff_sublist M D).length_le

theorem comb_coeffs (a : F) (B : G1) (n : Nat) (L : List F) (h : L.length ≤ n) :
    comb (powers a B n) (coeffs L) = prodPlus a L • B := by
  rw [comb_powers _ _ _ _ (by rw [coeffs_length]; omega), coeffs_val]

/-- the coefficients are simulated -/
theorem simCoefficients_eq (a : F) (B : G1) (n : Nat) (L A D : List F) (hn : (A ++ L).length ≤ n)
    (hD : ∀ y ∈ D, D.count y ≤ (A ++ L).count y) (h0 : ∀ y ∈ D, y + a ≠ 0) :
    ∃ cs, createCoefficients a A D = .ok cs ∧
      cs.map (fun c => c • (prodPlus a L • B)) = simCoefficients (powers a B n) L A D := by
  let V : G1 := prodPlus a L • B
  -- the additions
  have hva : ∀ m, m ≤ A.length → ((List.range m).foldl (fun va s =>
      let c := if s = 0 then 1 else batchAdditions a (A.take s)
      let poly := polyScale (linProd (A.drop (s + 1))) c
      polyAdd va poly) []).map (smulHom V : F →+ G1) = (List.range m).foldl (fun va s =>
        pg1Add va ((linProd (A.drop (s + 1))).map (fun e => e • comb (powers a B n) (coeffs (A.take s ++ L))))) [] := by
    intro m
    induction m with
    | zero => intro _; rfl
    | succ m ih =>
      intro hm
      have hc : (if m = 0 then 1 else batchAdditions a (A.take m)) = prodPlus a (A.take m) := by
        split
        · next h => simp [h]
        · rw [batchAdditions_eq]
      rw [List.range_succ, List.foldl_append, List.foldl_append, List.foldl_cons, List.foldl_cons, List.foldl_nil,
        List.foldl_nil, ← ih (by omega)]
      simp only [hc]
      rw [polyAdd_eq_pg1Add, pg1Add_map]
      congr 1
      rw [polyScale, List.map_map]
      apply List.map_congr_left
      intro e _
      have hl : (A.take m ++ L).length ≤ n := by
        simp only [List.length_append, List.length_take] at hn ⊢; omega
      rw [comb_coeffs _ _ _ _ hl, prodPlus_append]
      simp only [Function.comp, smulHom, AddMonoidHom.coe_mk, ZeroHom.coe_mk, V, smul_smul, mul_assoc]
  -- the deletions
  have hvd : ∀ m, m ≤ D.length → ∃ vd, (List.range m).foldlM (fun vd s => do
      let c ← batchDeletions a (D.take (s + 1))
      let poly := polyScale (linProd (D.take s)) c
      pure (polyAdd vd poly)) [] = (.ok vd : Rust (List F)) ∧
      vd.map (smulHom (prodPlus a A • V) : F →+ G1) = (List.range m).foldl (fun vd s =>
        pg1Add vd ((linProd (D.take s)).map (fun e => e • comb (powers a B n) (coeffs ((A ++ L).diff (D.take (s + 1))))))) [] := by
    intro m
    induction m with
    | zero => intro _; exact ⟨[], rfl, rfl⟩
    | succ m ih =>
      intro hm
      obtain ⟨vd, h1, h2⟩ := ih (by omega)
      have hs : -a ∉ D.take (m + 1) := fun hm => h0 _ (List.mem_of_mem_take hm) (by ring)
      refine ⟨polyAdd vd (polyScale (linProd (D.take m)) (prodPlus a (D.take (m + 1)))⁻¹), ?_, ?_⟩
      · rw [List.range_succ, List.foldlM_append, h1]
        simp only [List.foldlM_cons, List.foldlM_nil, bind, Except.bind, pure, Except.pure]
        rw [batchDeletions_ok hs]
      · rw [List.range_succ, List.foldl_append, List.foldl_cons, List.foldl_nil, ← h2, polyAdd_eq_pg1Add, pg1Add_map]
        congr 1
        rw [polyScale, List.map_map]
        apply List.map_congr_left
        intro e _
        have hl : ((A ++ L).diff (D.take (m + 1))).length ≤ n := le_trans (diff_length_le _ _) hn
        have hne : prodPlus a (D.take (m + 1)) ≠ 0 := by rwa [Ne, prodPlus_eq_zero]
        have hp := prodPlus_diff a (D.take (m + 1)) (A ++ L) (count_take hD _)
        rw [prodPlus_append] at hp
        rw [comb_coeffs _ _ _ _ hl]
        simp only [Function.comp, smulHom, AddMonoidHom.coe_mk, ZeroHom.coe_mk, V, smul_smul]
        congr 1
        rw [mul_assoc, ← hp, inv_mul_cancel_left₀ hne]
  obtain ⟨vd, h1, h2⟩ := hvd D.length le_rfl
  refine ⟨polySub (vaLoop a A) (polyScale vd (batchAdditions a A)), ?_, ?_⟩
  · have : vdLoop a D = .ok vd := h1
    simp [createCoefficients, this, bind, Except.bind, pure, Except.pure]
  · have e1 := hva A.length le_rfl
    have e2 : (vaLoop a A).map (smulHom V : F →+ G1) = _ := e1
    change List.map (smulHom V : F →+ G1) _ = _
    rw [polySub_eq, polyAdd_eq_pg1Add, pg1Add_map, e2]
    unfold simCoefficients
    simp only
    congr 1
    rw [← h2, polyScale, List.map_map, List.map_map, List.map_map]
    apply List.map_congr_left
    intro e _
    simp only [Function.comp, smulHom, AddMonoidHom.coe_mk, ZeroHom.coe_mk, V, batchAdditions_eq, neg_smul, smul_smul]
    rw [← neg_smul]
    congr 1
    ring

/-- the elements that can become members after a call -/
theorem members_subset (L : List F) (op : VbOp F) : ∀ y ∈ op.members L, y ∈ op.fresh ∨ y ∈ L := by
  intro y hy
  cases op with
  | add z => rcases List.mem_cons.1 hy with rfl | h; exacts [.inl (by simp [VbOp.fresh]), .inr h]
  | remove z => exact .inr (List.mem_of_mem_erase hy)
  | update A D =>
    have := (List.diff_sublist (A ++ L) D).subset hy
    exact List.mem_append.1 this
  | membership z => exact .inr hy
  | nonMembership z => exact .inr hy

theorem members_length (n : Nat) (L : List F) (hL : L.length ≤ n) (op : VbOp F) (h : op.allowed n L = true) :
    (op.members L).length ≤ n := by
  cases op with
  | add z => simp [VbOp.allowed] at h; simp [VbOp.members]; omega
  | remove z => exact le_trans (List.erase_sublist).length_le hL
  | update A D =>
    simp only [VbOp.allowed, Bool.and_eq_true, decide_eq_true_eq] at h
    exact le_trans (diff_length_le _ _) h.1
  | membership z => exact hL
  | nonMembership z => exact hL

/-- one call is simulated -/
theorem vb_step (E : Pairing F G1 G2 GT) (sk : F) (n : Nat) (L : List F) (hL : L.length ≤ n) (hs : ∀ y ∈ L, y + sk ≠ 0)
    (op : VbOp F) (h : op.allowed n L = true) (hf : ∀ y ∈ op.fresh, y + sk ≠ 0) :
    (⟨prodPlus sk L • E.g1, L⟩ : VbState F G1).step E sk op
      = .ok (⟨prodPlus sk (op.members L) • E.g1, op.members L⟩, simAnswer (powers sk E.g1 n) L op) := by
  have hV := comb_coeffs sk E.g1 n (op.members L) (members_length n L hL op h)
  unfold simAnswer
  simp only [hV]
  cases op with
  | add y =>
    simp only [VbState.step, accAdd, VbOp.members, pure, Except.pure, prodPlus_cons, smul_smul, add_comm y sk]
  | remove y =>
    have hy : y ∈ L := by simpa [VbOp.allowed] using h
    have h0 : sk + y ≠ 0 := by rw [add_comm]; exact hs y hy
    simp only [VbState.step, accRemove, inv!_ne h0, VbOp.members, bind, Except.bind, pure, Except.pure, smul_smul]
    rw [prodPlus_erase sk L y hy, add_comm sk y, inv_mul_cancel_left₀ (hs y hy)]
  | update A D =>
    simp only [VbOp.allowed, Bool.and_eq_true, decide_eq_true_eq] at h
    have hD0 : ∀ y ∈ D, y + sk ≠ 0 := fun y hy => by
      rcases List.mem_append.1 (subset_of_count h.2 y hy) with ha | hl
      · exact hf y ha
      · exact hs y hl
    have hd : -sk ∉ D := fun hm => hD0 _ hm (by ring)
    obtain ⟨cs, h1, h2⟩ := simCoefficients_eq sk E.g1 n L A D h.1 h.2 hD0
    have hne : prodPlus sk D ≠ 0 := by rwa [Ne, prodPlus_eq_zero]
    have hp := prodPlus_diff sk D (A ++ L) h.2
    simp only [VbState.step, accUpdate, accUpdateAssign, batchDeletions_ok hd, h1, batchAdditions_eq, bind, Except.bind,
      pure, Except.pure, h2, VbOp.members]
    have : prodPlus sk A * (prodPlus sk D)⁻¹ * prodPlus sk L = prodPlus sk ((A ++ L).diff D) := by
      rw [prodPlus_append] at hp
      field_simp
      rw [← hp]
    rw [smul_smul, this]
  | membership y =>
    have hy : y ∈ L := by simpa [VbOp.allowed] using h
    have h0 : sk + y ≠ 0 := by rw [add_comm]; exact hs y hy
    simp only [VbState.step, mwNew, accRemove, inv!_ne h0, VbOp.members, bind, Except.bind, pure, Except.pure, smul_smul]
    rw [comb_coeffs sk E.g1 n _ (le_trans (List.erase_sublist).length_le hL), prodPlus_erase sk L y hy, add_comm sk y,
      inv_mul_cancel_left₀ (hs y hy)]
  | nonMembership y =>
    have h0 : y + sk ≠ 0 := hf y (by simp [VbOp.fresh])
    have : DecidableEq GT := Classical.decEq _
    simp only [VbState.step, nmwNew_eq, VbOp.members, bind, Except.bind, pure, Except.pure, if_neg h0]
    by_cases hy : y ∈ L
    · simp [hy]
    · simp only [if_neg hy]
      rw [comb_powers _ _ _ _ (by have := quotient_length y L; omega)]
      have : (prodPlus sk L - prodMinus y L) * (y + sk)⁻¹ = polyVal sk (quotient y L) := by
        rw [quotient_val sk y L, add_sub_cancel_right, mul_comm (y + sk), mul_assoc, mul_inv_cancel₀ h0, mul_one]
      rw [this]

/-- the whole game is simulated -/
theorem vb_play (E : Pairing F G1 G2 GT) (sk : F) (n : Nat) (hn : 1 ≤ n) (O : Q → F) :
    ∀ (adv : VbProg F G1 Q α) (L : List F), L.length ≤ n → (∀ y ∈ L, y + sk ≠ 0) →
      (∃ y, (adv.simulate (powers sk E.g1 n) n L).eval O = .inl y ∧ y + sk = 0) ∨
      (∃ o L', (adv.simulate (powers sk E.g1 n) n L).eval O = .inr (o, L') ∧ L'.length ≤ n ∧
        (adv.play E sk n ⟨prodPlus sk L • E.g1, L⟩).eval O = .ok (o, ⟨prodPlus sk L' • E.g1, L'⟩))
  | .done a, L, hL, hs => .inr ⟨a, L, rfl, hL, rfl⟩
  | .hash q k, L, hL, hs => vb_play E sk n hn O (k (O q)) L hL hs
  | .call op k, L, hL, hs => by
    rw [VbProg.play, VbProg.simulate]
    have hk : ∀ y, comb (powers sk E.g1 n) [y, 1] = 0 ↔ y + sk = 0 := by
      intro y
      rw [comb_powers _ _ _ _ (by simpa using hn)]
      simp [polyVal, E.g1_ne]
    by_cases ha : op.allowed n L = true
    · rw [if_pos ha, if_pos ha]
      cases hf : op.fresh.find? (fun y => decide (comb (powers sk E.g1 n) [y, 1] = 0)) with
      | some y =>
        have := List.find?_some hf
        exact .inl ⟨y, rfl, (hk y).1 (of_decide_eq_true this)⟩
      | none =>
        have hf' : ∀ y ∈ op.fresh, y + sk ≠ 0 := by
          intro y hy h0
          have := List.find?_eq_none.1 hf y hy
          simp [hk, h0] at this
        rw [vb_step E sk n L hL hs op ha hf']
        exact vb_play E sk n hn O _ (op.members L) (members_length n L hL op ha)
          (fun y hy => (members_subset L op y hy).elim (hf' y) (hs y))
    · rw [if_neg ha, if_neg ha]
      exact vb_play E sk n hn O _ L hL hs

/-! ## C86 -/

/-- **C86** (simulation). The simulator, which is given the points `P, αP, …, α^n P` and the public key, but not `α`, either
stops with an element `y` such that `y + α = 0`, or it ends like the game: the game does not panic, the output and the
members are the same, and the accumulator is that of the members. -/
theorem C86_simulation (E : Pairing F G1 G2 GT) (sk : F) (n : Nat) (hn : 1 ≤ n) (adv : G2 → VbProg F G1 Q α)
    (O : Q → F) :
    (∃ y, (runVbSim (powers sk E.g1 n) (publicKey E sk) n adv).eval O = .inl y ∧ y + sk = 0) ∨
    (∃ o L, (runVbSim (powers sk E.g1 n) (publicKey E sk) n adv).eval O = .inr (o, L) ∧
      (runVb E sk n adv).eval O = .ok (o, ⟨accWithElements E sk L, L⟩)) := by
  have h := vb_play E sk n hn O (adv (publicKey E sk)) [] (by simp) (by simp)
  rw [prodPlus_nil, one_smul] at h
  rcases h with h | ⟨o, L, h1, -, h2⟩
  · exact .inl h
  · refine .inr ⟨o, L, h1, ?_⟩
    rw [accWithElements, batchAdditions_eq]
    exact h2

variable [DecidableEq GT]

/-- A forged witness. -/
inductive VbForgery (F G1 : Type)
  | member (C : G1)
  | nonMember (w : NonMembershipWitness F G1)

/-- The witness is accepted for `y` against the accumulator although `y` is not (is) accumulated. For non-membership the
forgery must have `d ≠ 0`; with `d = 0` every member can make one (C10). -/
def VbForged (E : Pairing F G1 G2 GT) (pk : G2) (g : VbState F G1) (y : F) : VbForgery F G1 → Prop
  | .member C => y ∉ g.members ∧ mwVerify E C y pk g.accumulator = true
  | .nonMember w => y ∈ g.members ∧ w.d ≠ 0 ∧ nmwVerify E w y pk g.accumulator = true

/-- The solution of the SDH problem, from the result of the simulation. -/
def vbSolution (pts : List G1) : F ⊕ (F × VbForgery F G1) × List F → F × G1
  | .inl y => (1 + y, comb pts [(1 : F)])
  | .inr ((y, .member C), L) => (y, (prodMinus y L)⁻¹ • (C - comb pts (quotient y L)))
  | .inr ((y, .nonMember w), L) => (y, w.d⁻¹ • (comb pts (coeffs (L.erase y)) - w.c))

theorem vb_found (E : Pairing F G1 G2 GT) (sk : F) (n : Nat) (y : F) (h : y + sk = 0) :
    SolvesSdh sk E.g1 (1 + y) (comb (powers sk E.g1 n) [(1 : F)] : G1) := by
  refine ⟨E.g1_ne, ?_⟩
  rw [comb_powers _ _ _ _ (by simp), add_assoc, h]
  simp [polyVal]

theorem vb_member (E : Pairing F G1 G2 GT) (sk : F) (n : Nat) (L : List F) (hL : L.length ≤ n) (y : F) (hy : y ∉ L) (C : G1)
    (h : mwVerify E C y (publicKey E sk) (prodPlus sk L • E.g1) = true) :
    SolvesSdh sk E.g1 y ((prodMinus y L)⁻¹ • (C - comb (powers sk E.g1 n) (quotient y L)) : G1) := by
  refine ⟨E.g1_ne, ?_⟩
  rw [mwVerify_iff] at h
  rw [smul_comm, smul_sub, h, comb_powers _ _ _ _ (by have := quotient_length y L; omega), smul_smul (y + sk), ← sub_smul,
    quotient_val sk y, smul_smul, add_sub_cancel_left, inv_mul_cancel₀ (prodMinus_ne_zero' hy), one_smul]

theorem vb_nonMember (E : Pairing F G1 G2 GT) (sk : F) (n : Nat) (L : List F) (hL : L.length ≤ n) (y : F) (hy : y ∈ L)
    (w : NonMembershipWitness F G1) (hd : w.d ≠ 0)
    (h : nmwVerify E w y (publicKey E sk) (prodPlus sk L • E.g1) = true) :
    SolvesSdh sk E.g1 y (w.d⁻¹ • (comb (powers sk E.g1 n) (coeffs (L.erase y)) - w.c) : G1) := by
  refine ⟨E.g1_ne, ?_⟩
  rw [nmwVerify_iff] at h
  rw [smul_comm, smul_sub, comb_coeffs sk E.g1 n _ (le_trans (List.erase_sublist).length_le hL), smul_smul (y + sk),
    ← prodPlus_erase sk L y hy, ← h, add_sub_cancel_left, inv_smul_smul₀ hd]

/-- **C86** (every forgery is a solution). If the adversary ends with a forged witness against the current accumulator, then
from the result of the simulation the reduction computes a solution of the `n`-SDH problem. -/
theorem C86_forgery (E : Pairing F G1 G2 GT) (sk : F) (n : Nat) (hn : 1 ≤ n) (O : Q → F)
    (adv : G2 → VbProg F G1 Q (F × VbForgery F G1)) (y : F) (f : VbForgery F G1) (g : VbState F G1)
    (h : (runVb E sk n adv).eval O = .ok ((y, f), g)) (hf : VbForged E (publicKey E sk) g y f) :
    let pts := powers sk E.g1 n
    let sol := vbSolution pts ((runVbSim pts (publicKey E sk) n adv).eval O)
    SolvesSdh sk E.g1 sol.1 sol.2 := by
  intro pts sol
  have hp := vb_play E sk n hn O (adv (publicKey E sk)) [] (by simp) (by simp)
  rw [prodPlus_nil, one_smul] at hp
  rcases hp with ⟨z, h1, h2⟩ | ⟨o, L, h1, hL, h2⟩
  · have : sol = (1 + z, comb pts [(1 : F)]) := by
      change vbSolution pts ((runVbSim pts (publicKey E sk) n adv).eval O) = _
      rw [runVbSim, h1]; rfl
    rw [this]
    exact vb_found E sk n z h2
  · have h' : (runVb E sk n adv).eval O = .ok (o, ⟨prodPlus sk L • E.g1, L⟩) := h2
    rw [h] at h'
    simp only [Except.ok.injEq, Prod.mk.injEq] at h'
    obtain ⟨rfl, rfl⟩ := h'
    have e : sol = vbSolution pts (.inr ((y, f), L)) := by
      change vbSolution pts ((runVbSim pts (publicKey E sk) n adv).eval O) = _
      rw [runVbSim, h1]
    rw [e]
    cases f with
    | member C => exact vb_member E sk n L hL y hf.1 C hf.2
    | nonMember w => exact vb_nonMember E sk n L hL y hf.1 w hf.2.1 hf.2.2

end game

section prob
variable {F G1 G2 GT I : Type} [Field F] [DecidableEq F] [Fintype F] [AddCommGroup G1] [Module F G1] [DecidableEq G1]
  [AddCommGroup G2] [Module F G2] [AddCommGroup GT] [Module F GT] [DecidableEq GT]
variable {Ω : Type} [Fintype Ω] [Nonempty Ω]

/-- **C86** (witnesses). For a random secret key, the probability that an adversary that steers the accumulator ends with a
forged membership or non-membership witness is at most the probability that the reduction, given the points
`P, αP, …, α^n P` and the public key only, solves the `n`-SDH problem. -/
theorem C86_witness {Q : Type} (E : Pairing F G1 G2 GT) (n : Nat) (hn : 1 ≤ n) (O : Q → F)
    (adv : Ω → G2 → VbProg F G1 Q (F × VbForgery F G1)) :
    prob (fun x : Ω × F => ∃ y f g, (runVb E x.2 n (adv x.1)).eval O = .ok ((y, f), g) ∧
        VbForged E (publicKey E x.2) g y f)
      ≤ prob (fun x : Ω × F =>
        let pts := powers x.2 E.g1 n
        let sol := vbSolution pts ((runVbSim pts (publicKey E x.2) n (adv x.1)).eval O)
        SolvesSdh x.2 E.g1 sol.1 sol.2) := by
  refine prob_mono ?_
  rintro ⟨ω, sk⟩ ⟨y, f, g, h, hf⟩
  exact C86_forgery E sk n hn O (adv ω) y f g h hf

/-- The query that counts for the result of the simulation (an arbitrary one if it stopped early). -/
def vbQuery {Pf : Type} (query : Shown Pf F I → Query) : F ⊕ Shown Pf F I × List F → Query
  | .inl _ => (⟨"", []⟩, "")
  | .inr (out, _) => query out

theorem vb_bound {α : Type} (pts : List G1) (m : Nat) (p : VbProg F G1 Query α) :
    ∀ (n : Nat) (L : List F), p.HashBound n → (p.simulate pts m L).QueryBound n := by
  induction p with
  | done o => intro n L _; cases n <;> trivial
  | hash q k ih =>
    intro n L h
    cases n with
    | zero => exact absurd h id
    | succ n => exact fun r => ih r n L (h r)
  | call op k ih =>
    intro n L h
    have h : ∀ r, (k r).HashBound n := by cases n <;> exact h
    rw [VbProg.simulate]
    split
    · split
      · cases n <;> trivial
      · exact ih _ n _ (h _)
    · exact ih _ n _ (h _)

/-- **C86** (the set of queries): a finite set of queries as used in the following theorems exists. -/
theorem C86_query_set {Pf : Type} (E : Pairing F G1 G2 GT) (n : Nat) (query : Shown Pf F I → Query)
    (adv : Ω → G2 → VbProg F G1 Query (Shown Pf F I)) (q : Nat) (hq : ∀ ω pk, (adv ω pk).HashBound q) :
    ∃ S : Finset Query, ∀ ω (sk : F) (H : S → F),
      vbQuery query ((runVbSim (powers sk E.g1 n) (publicKey E sk) n (adv ω)).eval (oracle S 0 H)) ∈ S := by
  obtain ⟨S, -, hS⟩ := C70_query_set (Ω := Ω × F) (F := F)
    (fun x => runVbSim (powers x.2 E.g1 n) (publicKey E x.2) n (adv x.1)) q (fun x => vb_bound _ _ _ q _ (hq _ _)) (vbQuery query)
  exact ⟨S, fun ω sk H => hS (ω, sk) _⟩

/-- both runs of the extractor -/
theorem vb_fork {Pf : Type} (E : Pairing F G1 G2 GT) (n : Nat) (hn : 1 ≤ n) (query : Shown Pf F I → Query)
    (adv : Ω → G2 → VbProg F G1 Query (Shown Pf F I)) (q : Nat) (hq : ∀ ω pk, (adv ω pk).HashBound q) (S : Finset Query)
    (hS : ∀ ω (sk : F) (H : S → F),
      vbQuery query ((runVbSim (powers sk E.g1 n) (publicKey E sk) n (adv ω)).eval (oracle S 0 H)) ∈ S)
    (ok : F → Shown Pf F I → VbState F G1 → Prop) :
    let a := prob (fun x : (Ω × F) × (S → F) => ∃ out g,
      (runVb E x.1.2 n (adv x.1.1)).eval (oracle S 0 x.2) = .ok (out, g) ∧
      oracle S 0 x.2 (query out) = out.challenge ∧ ok x.1.2 out g)
    a * (a / (q + 1) - 1 / Nat.card F) ≤ prob (fun x : (Ω × F) × (S → F) × (S → F) =>
      let prog := runVbSim (powers x.1.2 E.g1 n) (publicKey E x.1.2) n (adv x.1.1)
      let r := prog.eval (oracle S 0 x.2.1)
      let r' := rerun S prog (vbQuery query) x.2.1 x.2.2
      (∃ y, (r = .inl y ∨ r' = .inl y) ∧ y + x.1.2 = 0) ∨
      ∃ out L out' L', r = .inr (out, L) ∧ r' = .inr (out', L') ∧ L.length ≤ n ∧
        ok x.1.2 out ⟨prodPlus x.1.2 L • E.g1, L⟩ ∧ ok x.1.2 out' ⟨prodPlus x.1.2 L' • E.g1, L'⟩ ∧
        query out' = query out ∧ out.challenge ≠ out'.challenge) := by
  intro a
  let prog : Ω × F → OracleProg Query F (F ⊕ Shown Pf F I × List F) := fun x =>
    runVbSim (powers x.2 E.g1 n) (publicKey E x.2) n (adv x.1)
  let acc : Ω × F → F ⊕ Shown Pf F I × List F → F → Prop := fun x o c => ∀ out L, o = .inr (out, L) →
    c = out.challenge ∧ ok x.2 out ⟨prodPlus x.2 L • E.g1, L⟩
  have fk := forking (0 : F) S prog q (fun x => vb_bound _ _ _ q _ (hq _ _)) (fun _ => vbQuery query)
    (fun x H => hS _ _ H) acc
  have sim := fun (ω : Ω) (sk : F) (O : Query → F) => vb_play E sk n hn O (adv ω (publicKey E sk)) [] (by simp) (by simp)
  have hle : a ≤ prob (fun x : (Ω × F) × (S → F) => acc x.1 ((prog x.1).eval (oracle S 0 x.2))
      (oracle S 0 x.2 (vbQuery query ((prog x.1).eval (oracle S 0 x.2))))) := by
    refine prob_mono ?_
    rintro ⟨⟨ω, sk⟩, H⟩ ⟨out, g, h1, h2, h3⟩ out' L hL
    have hs := sim ω sk (oracle S 0 H)
    rw [prodPlus_nil, one_smul] at hs
    have hL : ((adv ω (publicKey E sk)).simulate (powers sk E.g1 n) n []).eval (oracle S 0 H) = .inr (out', L) := hL
    have hL2 : (prog (ω, sk)).eval (oracle S 0 H) = .inr (out', L) := hL
    have h1 : ((adv ω (publicKey E sk)).play E sk n ⟨E.g1, []⟩).eval (oracle S 0 H) = .ok (out, g) := h1
    rcases hs with ⟨y, hy, -⟩ | ⟨o, L', e1, -, e2⟩
    · rw [hL] at hy; cases hy
    · rw [h1] at e2
      rw [hL] at e1
      cases e1
      cases e2
      refine ⟨?_, h3⟩
      rw [hL2]
      exact h2
  have hmono : ∀ p : ℚ, a ≤ p → a * (a / (q + 1) - 1 / Nat.card F) ≤ max 0 (p * (p / (q + 1) - 1 / Nat.card F)) := by
    intro p hle
    have ha : 0 ≤ a := by simp only [a]; unfold prob; positivity
    by_cases hneg : a / (q + 1) - 1 / (Nat.card F : ℚ) ≤ 0
    · exact le_max_of_le_left (mul_nonpos_of_nonneg_of_nonpos ha hneg)
    · refine le_max_of_le_right (mul_le_mul hle ?_ (le_of_not_ge hneg) (le_trans ha hle))
      have : a / (q + 1) ≤ p / (q + 1) := by gcongr
      linarith
  refine le_trans (hmono _ hle) (max_le (by unfold prob; positivity) (le_trans fk (prob_mono ?_)))
  rintro ⟨⟨ω, sk⟩, H, G⟩ ⟨a1, a2, e3, e4⟩
  have s1 := sim ω sk (oracle S 0 H)
  have s2 := sim ω sk (oracle S 0 (splice S (before (oracle S 0 H) (prog (ω, sk)) (vbQuery query)) H G))
  rcases s1 with ⟨y, h1, h2⟩ | ⟨out, L, h1, hL, -⟩
  · exact .inl ⟨y, .inl h1, h2⟩
  rcases s2 with ⟨y, h1', h2⟩ | ⟨out', L', h1', -, -⟩
  · exact .inl ⟨y, .inr h1', h2⟩
  refine .inr ⟨out, L, out', L', h1, h1', hL, (a1 out L h1).2, (a2 out' L' h1').2, ?_, ?_⟩
  · have h1 : (prog (ω, sk)).eval (oracle S 0 H) = .inr (out, L) := h1
    have h1' : (prog (ω, sk)).eval (oracle S 0 (splice S (before (oracle S 0 H) (prog (ω, sk)) (vbQuery query)) H G))
      = .inr (out', L') := h1'
    have := e3
    rw [h1, h1'] at this
    exact this
  · intro hcc
    apply e4
    have c1 := (a1 out L h1).1
    have c2 := (a2 out' L' h1').1
    rw [e3] at c2
    rw [c2, c1]
    exact hcc.symm

/-- **C86** (membership proofs). If the adversary, with at most `q` hash queries, ends with probability `a` with a
`MembershipProof` accepted for the current accumulator and the public key, in an application that binds these, then with
probability at least `a (a/(q+1) - 1/|F|)` the extractor, which runs it twice against the simulator, computes an accumulated
element and its witness, or a solution of the `n`-SDH problem. -/
theorem C86_membership_proof (E : Pairing F G1 G2 GT) (enc : Enc G1 G2 GT) (h1 : Function.Injective enc.g1)
    (h3 : Function.Injective enc.gt) (params : ProofParams G1) (hx : params.x ≠ 0) (hy : params.y ≠ 0)
    (app : App I G1 G2) (hb : app.Binds) (label : String) (n : Nat) (hn : 1 ≤ n)
    (adv : Ω → G2 → VbProg F G1 Query (Shown (MemProof F G1) F I)) (q : Nat) (hq : ∀ ω pk, (adv ω pk).HashBound q)
    (S : Finset Query)
    (hS : ∀ ω (sk : F) (H : S → F), vbQuery (memQuery E enc params app label)
      ((runVbSim (powers sk E.g1 n) (publicKey E sk) n (adv ω)).eval (oracle S 0 H)) ∈ S) :
    let a := prob (fun x : (Ω × F) × (S → F) => ∃ out g,
      (runVb E x.1.2 n (adv x.1.1)).eval (oracle S 0 x.2) = .ok (out, g) ∧
      memAccepts E (asHash (oracle S 0 x.2)) enc out.proof g.accumulator params (publicKey E x.1.2)
        out.challenge (app.pre out.info) label ∧
      app.acc out.info = g.accumulator ∧ app.key out.info = publicKey E x.1.2)
    a * (a / (q + 1) - 1 / Nat.card F) ≤ prob (fun x : (Ω × F) × (S → F) × (S → F) =>
      let pts := powers x.1.2 E.g1 n
      let prog := runVbSim pts (publicKey E x.1.2) n (adv x.1.1)
      let r := prog.eval (oracle S 0 x.2.1)
      let r' := rerun S prog (vbQuery (memQuery E enc params app label)) x.2.1 x.2.2
      (∃ y, (r = .inl y ∨ r' = .inl y) ∧ SolvesSdh x.1.2 E.g1 (1 + y) (comb pts [(1 : F)])) ∨
      ∃ out L out' L', r = .inr (out, L) ∧ r' = .inr (out', L') ∧
        let y := out.proof.extractElement out'.proof out.challenge out'.challenge
        let C := out.proof.extractWitness params out'.proof out.challenge out'.challenge
        let sol := vbSolution pts (.inr ((y, .member C), L))
        (y ∈ L ∧ mwVerify E C y (publicKey E x.1.2) (accWithElements E x.1.2 L) = true) ∨
        SolvesSdh x.1.2 E.g1 sol.1 sol.2) := by
  intro a
  have fk := vb_fork E n hn (memQuery E enc params app label) adv q hq S hS
    (fun sk out g => app.acc out.info = g.accumulator ∧ app.key out.info = publicKey E sk)
  have e : a = prob (fun x : (Ω × F) × (S → F) => ∃ out g,
      (runVb E x.1.2 n (adv x.1.1)).eval (oracle S 0 x.2) = .ok (out, g) ∧
      oracle S 0 x.2 (memQuery E enc params app label out) = out.challenge ∧
      app.acc out.info = g.accumulator ∧ app.key out.info = publicKey E x.1.2) := by
    simp only [a]
    congr 1
    funext x
    apply propext
    constructor
    · rintro ⟨out, g, k1, k2, k3, k4⟩
      exact ⟨out, g, k1, by rw [memQuery, k3, k4]; exact k2, k3, k4⟩
    · rintro ⟨out, g, k1, k2, k3, k4⟩
      refine ⟨out, g, k1, ?_, k3, k4⟩
      rw [memQuery, k3, k4] at k2; exact k2
  rw [e]
  refine le_trans fk (prob_mono ?_)
  rintro ⟨⟨ω, sk⟩, H, G⟩ (⟨y, k1, k2⟩ | ⟨out, L, out', L', k1, k2, hL, ⟨k3, k4⟩, -, k5, k6⟩)
  · exact .inl ⟨y, k1, vb_found E sk n y k2⟩
  · refine .inr ⟨out, L, out', L', k1, k2, ?_⟩
    intro y C sol
    have hv : mwVerify E C y (publicKey E sk) (prodPlus sk L • E.g1) = true := by
      obtain ⟨ht, hf⟩ := MemFinal.bytes_inj' enc h1 h3 _ _ _ _ (Prod.mk.inj k5).1
      obtain ⟨hV, hk⟩ := hb _ _ ht
      rw [hV, hk] at hf
      have := C47_special_sound E params hx hy _ _ _ _ _ _ k6 hf.symm
      rwa [k3, k4] at this
    by_cases hm : y ∈ L
    · left
      refine ⟨hm, ?_⟩
      rw [accWithElements, batchAdditions_eq]; exact hv
    · exact .inr (vb_member E sk n L hL y hm C hv)

/-- **C86** (non-membership proofs). The same for `NonMembershipProof`: the extractor computes an element that is not
accumulated and its witness, or a solution of the `n`-SDH problem, or the discrete logarithm of the generator to the
base `K`. -/
theorem C86_nonmembership_proof (E : Pairing F G1 G2 GT) (enc : Enc G1 G2 GT) (h1 : Function.Injective enc.g1)
    (h3 : Function.Injective enc.gt) (params : ProofParams G1) (hx : params.x ≠ 0) (hy : params.y ≠ 0)
    (app : App I G1 G2) (hb : app.Binds) (label : String) (n : Nat) (hn : 1 ≤ n)
    (adv : Ω → G2 → VbProg F G1 Query (Shown (NonProof F G1) F I)) (q : Nat) (hq : ∀ ω pk, (adv ω pk).HashBound q)
    (S : Finset Query)
    (hS : ∀ ω (sk : F) (H : S → F), vbQuery (nonQuery E enc params app label)
      ((runVbSim (powers sk E.g1 n) (publicKey E sk) n (adv ω)).eval (oracle S 0 H)) ∈ S) :
    let a := prob (fun x : (Ω × F) × (S → F) => ∃ out g,
      (runVb E x.1.2 n (adv x.1.1)).eval (oracle S 0 x.2) = .ok (out, g) ∧
      nonAccepts E (asHash (oracle S 0 x.2)) enc out.proof g.accumulator params (publicKey E x.1.2)
        out.challenge (app.pre out.info) label ∧
      app.acc out.info = g.accumulator ∧ app.key out.info = publicKey E x.1.2)
    a * (a / (q + 1) - 1 / Nat.card F) ≤ prob (fun x : (Ω × F) × (S → F) × (S → F) =>
      let pts := powers x.1.2 E.g1 n
      let prog := runVbSim pts (publicKey E x.1.2) n (adv x.1.1)
      let r := prog.eval (oracle S 0 x.2.1)
      let r' := rerun S prog (vbQuery (nonQuery E enc params app label)) x.2.1 x.2.2
      (∃ y, (r = .inl y ∨ r' = .inl y) ∧ SolvesSdh x.1.2 E.g1 (1 + y) (comb pts [(1 : F)])) ∨
      ∃ out L out' L', r = .inr (out, L) ∧ r' = .inr (out', L') ∧
        let y := out.proof.extractElement out'.proof out.challenge out'.challenge
        let w := out.proof.extractWitness params out'.proof out.challenge out'.challenge
        let sol := vbSolution pts (.inr ((y, .nonMember w), L))
        (y ∉ L ∧ nmwVerify E w y (publicKey E x.1.2) (accWithElements E x.1.2 L) = true) ∨
        SolvesSdh x.1.2 E.g1 sol.1 sol.2 ∨
        E.g1 = quot out.proof.sW out'.proof.sW out.challenge out'.challenge • params.k) := by
  intro a
  have fk := vb_fork E n hn (nonQuery E enc params app label) adv q hq S hS
    (fun sk out g => app.acc out.info = g.accumulator ∧ app.key out.info = publicKey E sk)
  have e : a = prob (fun x : (Ω × F) × (S → F) => ∃ out g,
      (runVb E x.1.2 n (adv x.1.1)).eval (oracle S 0 x.2) = .ok (out, g) ∧
      oracle S 0 x.2 (nonQuery E enc params app label out) = out.challenge ∧
      app.acc out.info = g.accumulator ∧ app.key out.info = publicKey E x.1.2) := by
    simp only [a]
    congr 1
    funext x
    apply propext
    constructor
    · rintro ⟨out, g, k1, k2, k3, k4⟩
      exact ⟨out, g, k1, by rw [nonQuery, k3, k4]; exact k2, k3, k4⟩
    · rintro ⟨out, g, k1, k2, k3, k4⟩
      refine ⟨out, g, k1, ?_, k3, k4⟩
      rw [nonQuery, k3, k4] at k2; exact k2
  rw [e]
  refine le_trans fk (prob_mono ?_)
  rintro ⟨⟨ω, sk⟩, H, G⟩ (⟨y, k1, k2⟩ | ⟨out, L, out', L', k1, k2, hL, ⟨k3, k4⟩, -, k5, k6⟩)
  · exact .inl ⟨y, k1, vb_found E sk n y k2⟩
  · refine .inr ⟨out, L, out', L', k1, k2, ?_⟩
    intro y w sol
    have hv : nmwVerify E w y (publicKey E sk) (prodPlus sk L • E.g1) = true ∧
        (w.d ≠ 0 ∨ E.g1 = quot out.proof.sW out'.proof.sW out.challenge out'.challenge • params.k) := by
      obtain ⟨ht, hf⟩ := NonFinal.bytes_inj' enc h1 h3 _ _ _ _ (Prod.mk.inj k5).1
      obtain ⟨hV, hk⟩ := hb _ _ ht
      rw [hV, hk] at hf
      have := C50_special_sound E params hx hy _ _ _ _ _ _ k6 hf.symm
      rwa [k3, k4] at this
    rcases hv.2 with hd | hd
    · by_cases hm : y ∈ L
      · exact .inr (.inl (vb_nonMember E sk n L hL y hm w hd hv.1))
      · left
        refine ⟨hm, ?_⟩
        rw [accWithElements, batchAdditions_eq]; exact hv.1
    · exact .inr (.inr hd)

end prob

/-! ### A concrete case -/

/-- An adversary over the field with 7 elements: it adds 1 and 2 in a batch, gets the witness of 1 and a non-membership
witness of 5, removes 1 in a batch with the addition of 6, and guesses the secret key to forge a witness for 1. -/
def exVb (_ : ZMod 7) : VbProg (ZMod 7) (ZMod 7) Unit (ZMod 7 × VbForgery (ZMod 7) (ZMod 7)) :=
  .call (.update [1, 2] []) fun _ => .call (.membership 1) fun _ => .call (.nonMembership 5) fun _ =>
    .call (.update [6] [1]) fun ans => .hash () fun _ =>
      .done (1, .member ((1 + 3)⁻¹ * ((ans.map (·.accumulator)).getD 0)))

/-- With the secret key 3 the forgery succeeds: the hypotheses of `C86_forgery` are met. -/
theorem exVb_forges : ∃ y f g, (runVb (Pairing.field (ZMod 7)) 3 4 exVb).eval (fun _ => 6) = .ok ((y, f), g) ∧
    VbForged (Pairing.field (ZMod 7)) (publicKey (Pairing.field (ZMod 7)) 3) g y f ∧ g.members.length = 2 := by
  have h : (match (runVb (Pairing.field (ZMod 7)) 3 4 exVb).eval (fun _ => 6) with
    | .ok ((y, .member C), g) => decide (y ∉ g.members ∧
        mwVerify (Pairing.field (ZMod 7)) C y (publicKey (Pairing.field (ZMod 7)) 3) g.accumulator = true ∧
        g.members.length = 2)
    | _ => false) = true := by decide +kernel
  split at h
  · next y C g hg =>
    obtain ⟨h1, h2, h3⟩ := of_decide_eq_true h
    exact ⟨y, .member C, g, hg, ⟨h1, h2⟩, h3⟩
  · simp at h

end Allo
