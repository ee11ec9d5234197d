import Verif.Props.Replicas
import Verif.Props.SplitView

/-!
# C109: which secret key each operation uses, and what a stolen or wrong key does
-/

set_option linter.unusedSectionVars false
set_option linter.unusedVariables false
namespace Allo
open Spec Server

section
variable {F G1 G2 GT : Type} [Field F] [DecidableEq F] [AddCommGroup G1] [Module F G1]
  [DecidableEq G1] [AddCommGroup G2] [Module F G2] [AddCommGroup GT] [Module F GT] [DecidableEq GT]

/-- The same server with other secret keys (the public keys stay). -/
def Server.withKeys (s : Server F G1 G2) (a b : F) : Server F G1 G2 :=
  { s with witnessSecretKey := a, signSecretKey := b }

/-- The same for the result of a call. -/
def withKeysR (a b : F) (r : Rust (Server F G1 G2 × Option G1)) : Rust (Server F G1 G2 × Option G1) :=
  r.map (fun x => (x.1.withKeys a b, x.2))

/-- **C109** (who uses what). `delete`, `update` and the getters use no secret key; `add` and `quick_delete` do not use the
signing key; `witness` does not use the accumulator key. In all cases nothing, not even whether the call panics, changes
if the unused keys are replaced. -/
theorem C109_uses (s : Server F G1 G2) (a b : F) :
    (∀ y, (s.withKeys a b).delete y = withKeysR a b (s.delete y)) ∧
    (∀ n ys, (s.withKeys a b).update n ys = s.update n ys) ∧
    ((s.withKeys a b).getEpoch = s.getEpoch ∧ (s.withKeys a b).getAccumulator = s.getAccumulator ∧
      (s.withKeys a b).getPublicKeys = s.getPublicKeys ∧
      (s.withKeys a b).getWitnessPublicKey = s.getWitnessPublicKey ∧
      (s.withKeys a b).getSignPublicKey = s.getSignPublicKey) ∧
    (∀ y, (s.withKeys s.witnessSecretKey b).add y = withKeysR s.witnessSecretKey b (s.add y)) ∧
    (∀ y, (s.withKeys s.witnessSecretKey b).quickDelete y = withKeysR s.witnessSecretKey b (s.quickDelete y)) ∧
    (∀ (H : Oracle F) (enc : Enc G1 G2 GT) params y c z pk,
      (s.withKeys a s.signSecretKey).witness H enc params y c z pk = s.witness H enc params y c z pk) := by
  refine ⟨fun y => ?_, fun n ys => rfl, ⟨rfl, rfl, rfl, rfl, rfl⟩, fun y => ?_, fun y => ?_, fun H enc params y c z pk => rfl⟩
  · by_cases hy : y ∈ s.ids
    · obtain ⟨C, hC⟩ := mapGet_some_of_mem hy
      rw [delete_member hC, delete_member (s := s.withKeys a b) hC]
      rfl
    · rw [delete_nonmember hy, delete_nonmember (s := s.withKeys a b) hy]
      rfl
  · unfold Server.add withKeysR Server.withKeys
    dsimp only
    split
    · rfl
    · cases h1 : unwrap s.accumulators.getLast? with
      | error e => simp [bind, Except.bind, Except.map]
      | ok V =>
        cases h2 : inv! (y + s.witnessSecretKey) <;> simp [bind, Except.bind, Except.map, pure, Except.pure]
  · unfold Server.quickDelete withKeysR Server.withKeys
    dsimp only
    split
    · rfl
    · cases h1 : unwrap s.accumulators.getLast? with
      | error e => simp [bind, Except.bind, Except.map]
      | ok V =>
        cases h2 : inv! (y + s.witnessSecretKey) <;> simp [bind, Except.bind, Except.map, pure, Except.pure]

theorem mapGet_insert_ne {K V : Type} [DecidableEq K] (m : List (K × V)) (k : K) (v : V) (z : K) (h : z ≠ k) :
    mapGet (mapInsert m k v) z = mapGet m z := by
  unfold mapGet mapInsert mapErase
  rw [List.find?_cons_of_neg (by simpa using fun e => h e.symm), List.find?_filter]
  congr 2
  funext p
  by_cases hz : p.1 = z
  · simp [hz, h]
  · simp [hz]

theorem mapGet_delete {K V : Type} [DecidableEq K] (m : List (K × V)) (y : K) (f : K × V → V) (z : K) (h : z ≠ y) :
    mapGet ((mapErase m y).map (fun p => (p.1, f p))) z = (mapGet m z).map (fun C => f (z, C)) := by
  induction m with
  | nil => rfl
  | cons p m ih =>
    obtain ⟨k, C⟩ := p
    unfold mapGet mapErase at *
    by_cases hk : k = y
    · subst hk
      simp only [List.filter_cons, ne_eq, not_true, decide_false, Bool.false_eq_true, if_false]
      rw [List.find?_cons_of_neg (by simpa using fun e => h e.symm)]
      simpa using ih
    · simp only [List.filter_cons, ne_eq, hk, not_false_iff, decide_true, if_true, List.map_cons]
      by_cases hz : k = z
      · subst hz; simp
      · rw [List.find?_cons_of_neg (by simpa using hz), List.find?_cons_of_neg (by simpa using hz)]
        simpa using ih

/-- **C109** (replicas without keys). Take a copy of a server at any time and erase its secret keys (replace them by
anything). Let the original go on with any calls of `add` and `delete`, and tell the copy the deletions only. If nobody
is deleted who was added meanwhile, the copy publishes the same accumulators and deletions and answers every update
request as the original does. -/
theorem C109_keyless_replica (s s' : Server F G1 G2) (a b : F) (ops : List (Op F))
    (hq : ∀ op ∈ ops, op.isQuick = false) (hd : ∀ y, Op.delete y ∈ ops → Op.add y ∉ ops) (h : s.run ops = .ok s') :
    ∃ r, (s.withKeys a b).run (ops.filter (·.isDelete)) = .ok r ∧
      r.accumulators = s'.accumulators ∧ r.deletions = s'.deletions ∧ r.getEpoch = s'.getEpoch ∧
      r.getAccumulator = s'.getAccumulator ∧ r.getPublicKeys = s'.getPublicKeys ∧
      ∀ n ys, r.update n ys = s'.update n ys := by
  suffices H : ∀ (ops : List (Op F)) (D : F → Prop), (∀ op ∈ ops, op.isQuick = false) →
      (∀ y, Op.delete y ∈ ops → D y) → (∀ y, Op.add y ∈ ops → ¬ D y) → ∀ s r s' : Server F G1 G2,
      r.accumulators = s.accumulators → r.deletions = s.deletions → r.publicKeys = s.publicKeys →
      (∀ y, D y → mapGet r.allWitnesses y = mapGet s.allWitnesses y) → s.run ops = .ok s' →
      ∃ r', r.run (ops.filter (·.isDelete)) = .ok r' ∧ r'.accumulators = s'.accumulators ∧
        r'.deletions = s'.deletions ∧ r'.publicKeys = s'.publicKeys by
    obtain ⟨r, h1, h2, h3, h4⟩ := H ops (fun y => Op.delete y ∈ ops) hq (fun y h => h) (fun y h h' => hd y h' h) s
      (s.withKeys a b) s' rfl rfl rfl (fun y _ => rfl) h
    refine ⟨r, h1, h2, h3, ?_, ?_, h4, fun n ys => ?_⟩
    · unfold getEpoch; rw [h2]
    · unfold getAccumulator; rw [h2]
    · obtain ⟨x1, x2, x3, x4, x5, x6, x7⟩ := r
      obtain ⟨y1, y2, y3, y4, y5, y6, y7⟩ := s'
      simp only at h2 h3
      subst h2 h3
      rfl
  intro ops D
  induction ops with
  | nil =>
    intro _ _ _ s r s' h1 h2 h3 h4 h
    simp only [run_nil, Except.ok.injEq] at h
    subst h
    exact ⟨r, rfl, h1, h2, h3⟩
  | cons op ops ih =>
    intro hq hD hA s r s' h1 h2 h3 h4 h
    obtain ⟨s1, res, hs, hr⟩ := run_cons_ok h
    have hq' : ∀ op ∈ ops, op.isQuick = false := fun o ho => hq o (List.mem_cons_of_mem _ ho)
    have hD' : ∀ y, Op.delete y ∈ ops → D y := fun y hy => hD y (List.mem_cons_of_mem _ hy)
    have hA' : ∀ y, Op.add y ∈ ops → ¬ D y := fun y hy => hA y (List.mem_cons_of_mem _ hy)
    cases op with
    | quickDelete y => have := hq _ (List.mem_cons_self ..); simp [Op.isQuick] at this
    | add y =>
      rw [List.filter_cons_of_neg (by simp [Op.isDelete])]
      rcases step_cases hs with ⟨rfl, -⟩ | ⟨z, V, hz, hy, hV, h0, -, rfl⟩ | ⟨z, C, hz, -⟩ | ⟨z, V, hz, -⟩
      · exact ih hq' hD' hA' _ r s' h1 h2 h3 h4 hr
      · obtain rfl := Op.add.inj hz
        refine ih hq' hD' hA' { s with
          allUsers := setInsert s.allUsers y
          allWitnesses := mapInsert s.allWitnesses y ((y + s.witnessSecretKey)⁻¹ • V) } r s' h1 h2 h3 (fun x hx => ?_) hr
        have hxy : x ≠ y := fun e => hA y (List.mem_cons_self ..) (e ▸ hx)
        rw [h4 x hx]
        exact (mapGet_insert_ne _ _ _ _ hxy).symm
      · cases hz
      · cases hz
    | delete y =>
      have hy := hD y (List.mem_cons_self ..)
      rw [List.filter_cons_of_pos (by simp [Op.isDelete])]
      rcases step_cases hs with ⟨rfl, -, hno⟩ | ⟨z, V, hz, -⟩ | ⟨z, C, hz, hC, -, rfl⟩ | ⟨z, V, hz, -⟩
      · obtain ⟨r', g1, g2⟩ := ih hq' hD' hA' s1 r s' h1 h2 h3 h4 hr
        have hno' : y ∉ r.ids := by
          rcases hno with ⟨z, hz, -⟩ | ⟨z, hz, hno⟩
          · cases hz
          · rcases hz with hz | hz
            · obtain rfl := Op.delete.inj hz
              rw [Server.ids, ← mapGet_none, h4 y hy, mapGet_none]
              exact hno
            · cases hz
        exact ⟨r', run_cons_of (show r.step (.delete y) = _ from delete_nonmember hno') g1, g2⟩
      · cases hz
      · obtain rfl := Op.delete.inj hz
        have hC' : mapGet r.allWitnesses y = some C := (h4 y hy).trans hC
        obtain ⟨r', g1, g2⟩ := ih hq' hD' hA' { s with
          accumulators := s.accumulators ++ [C]
          allWitnesses := (mapErase s.allWitnesses y).map (fun p => (p.1, (y - p.1)⁻¹ • (p.2 - C)))
          deletions := s.deletions ++ [y] } { r with
          accumulators := r.accumulators ++ [C]
          allWitnesses := (mapErase r.allWitnesses y).map (fun p => (p.1, (y - p.1)⁻¹ • (p.2 - C)))
          deletions := r.deletions ++ [y] } s' (by simp [h1]) (by simp [h2]) h3 (by
            intro x hx
            by_cases hxy : x = y
            · subst hxy
              have hnone : ∀ m : List (F × G1),
                  mapGet ((mapErase m x).map (fun p => (p.1, (x - p.1)⁻¹ • (p.2 - C)))) x = none := by
                intro m
                rw [mapGet_none, List.map_map]
                intro hm
                obtain ⟨p, hp, hpx⟩ := List.mem_map.1 hm
                exact (mem_mapErase.1 hp).2 hpx
              exact (hnone _).trans (hnone _).symm
            · simp only
              rw [mapGet_delete _ _ (fun p => (y - p.1)⁻¹ • (p.2 - C)) _ hxy,
                mapGet_delete _ _ (fun p => (y - p.1)⁻¹ • (p.2 - C)) _ hxy, h4 x hx]) hr
        exact ⟨r', run_cons_of (show r.step (.delete y) = _ from delete_member hC') g1, g2⟩
      · cases hz

/-- **C109** (a replica with a wrong accumulator key). Let a copy of a server with the accumulator `V` hold the key `a`
instead. Except for the identifier `-a`, `add` and `quick_delete` succeed there as usual; the witness `add` hands out is valid exactly
if `a` is the right key (or the accumulator is the identity), and `quick_delete` publishes the accumulator of the
original exactly in the same case. -/
theorem C109_wrong_key (s : Server F G1 G2) (a b : F) (V : G1) (hV : s.getAccumulator = .ok V) (y : F) (hya : y ≠ -a) :
    (y ∉ s.ids → ∃ r W, (s.withKeys a b).add y = .ok (r, some W) ∧
      (IsWitness s.witnessSecretKey V y W ↔ a = s.witnessSecretKey ∨ V = 0)) ∧
    (y ∈ s.ids → y ≠ -s.witnessSecretKey → ∃ r W r₀ W₀, (s.withKeys a b).quickDelete y = .ok (r, some W) ∧
      s.quickDelete y = .ok (r₀, some W₀) ∧
      (r.getAccumulator = r₀.getAccumulator ↔ a = s.witnessSecretKey ∨ V = 0)) := by
  have hl : s.accumulators.getLast? = some V := by
    unfold getAccumulator at hV
    cases hh : s.accumulators.getLast? with
    | none => rw [hh] at hV; cases hV
    | some x => rw [hh] at hV; cases hV; rfl
  have h0 : y + a ≠ 0 := fun e => hya (eq_neg_of_add_eq_zero_left e)
  have key : (y + s.witnessSecretKey) • (y + a)⁻¹ • V = V ↔ a = s.witnessSecretKey ∨ V = 0 := by
    constructor
    · intro e
      rw [smul_smul] at e
      have e' : ((y + s.witnessSecretKey) * (y + a)⁻¹ - 1) • V = 0 := by rw [sub_smul, e, one_smul, sub_self]
      rcases smul_eq_zero.1 e' with e' | e'
      · left
        have e2 : y + s.witnessSecretKey = y + a := by
          have := sub_eq_zero.1 e'
          field_simp at this
          exact this
        exact (add_left_cancel e2).symm
      · exact .inr e'
    · rintro (rfl | rfl)
      · rw [smul_smul, mul_inv_cancel₀ h0, one_smul]
      · simp
  refine ⟨fun hy => ⟨_, _, add_new (s := s.withKeys a b) hy hl h0, key⟩, fun hy hy' => ?_⟩
  have h1 : y + s.witnessSecretKey ≠ 0 := fun e => hy' (eq_neg_of_add_eq_zero_left e)
  refine ⟨_, _, _, _, quickDelete_member (s := s.withKeys a b) hy hl h0, quickDelete_member hy hl h1, ?_⟩
  rw [← key]
  simp only [getAccumulator, List.getLast?_append, List.getLast?_singleton, Option.some_or]
  constructor
  · intro e
    have e' : (y + a)⁻¹ • V = (y + s.witnessSecretKey)⁻¹ • V := by
      have := Except.ok.inj (show (Except.ok _ : Rust G1) = .ok _ from e)
      exact this
    rw [e', smul_smul, mul_inv_cancel₀ h1, one_smul]
  · intro e
    have : (y + a)⁻¹ • V = (y + s.witnessSecretKey)⁻¹ • V := by
      conv_rhs => rw [← e]
      rw [smul_smul (y + s.witnessSecretKey)⁻¹, inv_mul_cancel₀ h1, one_smul]
    exact congrArg (fun x => (unwrap (some x) : Rust G1)) this

/-- **C109** (a stolen accumulator key ends revocation). Whoever knows `α` and holds a credential that was accepted for `y`
at any accumulator `V₀` (deleted since or not) can replace its witness so that it, and each presentation made from it, is accepted
for every accumulator `V`, in particular the current one. -/
theorem C109_stolen_accumulator_key (E : Pairing F G1 G2 GT) (H : Oracle F) (enc : Enc G1 G2 GT)
    (params : AccParams G1 G2) (hP : params.p2 ≠ 0) (hK : params.k2 ≠ 0) (α s : F) (y : F) (hy : y ≠ -α)
    (w : Witness F G1) (V₀ : G1)
    (hw : credVerify E V₀ ⟨α • params.p2, s • params.k2⟩ params y w = .ok ()) (V : G1) (eph : Bytes) (rand : ProofRand F) :
    let w' : Witness F G1 := { w with witness := (y + α)⁻¹ • V }
    credVerify E V ⟨α • params.p2, s • params.k2⟩ params y w' = .ok () ∧
    ∃ p, makeProof E H enc w' y V params ⟨α • params.p2, s • params.k2⟩ eph rand = some p ∧
      checkProof E H enc p params ⟨α • params.p2, s • params.k2⟩ V eph = true := by
  intro w'
  have h0 : y + α ≠ 0 := fun e => hy (eq_neg_of_add_eq_zero_left e)
  have h1 : credVerify E V ⟨α • params.p2, s • params.k2⟩ params y w' = .ok () :=
    (credVerify_iff E params hP hK α s V y w').2
      ⟨by show (y + α) • (y + α)⁻¹ • V = V; rw [smul_smul, mul_inv_cancel₀ h0, one_smul],
        ((credVerify_iff E params hP hK α s V₀ y w).1 hw).2⟩
  obtain ⟨c1, c2⟩ := C42_complete E H enc w' y V params ⟨α • params.p2, s • params.k2⟩ eph rand
  obtain ⟨p, hp⟩ := c1.2 h1
  exact ⟨h1, p, hp, c2 p hp⟩

/-- **C109** (a stolen signing key). Whoever knows `s` and holds a membership witness of `y` valid for `V` (that of any
member) can make a credential for `y` and any secret key of its own that is accepted for `V`, and so are its
presentations; without a valid witness
the signing key is of no use: every accepted credential contains one. -/
theorem C109_stolen_signing_key (E : Pairing F G1 G2 GT) (H : Oracle F) (enc : Enc G1 G2 GT)
    (params : AccParams G1 G2) (hP : params.p2 ≠ 0) (hK : params.k2 ≠ 0) (α s : F) (y : F) (hy : y ≠ -s) (x : F)
    (C V : G1) (eph : Bytes) (rand : ProofRand F) :
    let w' : Witness F G1 := ⟨x, C, (y + s)⁻¹ • (x • params.k1 + params.k0)⟩
    let keys : PublicKeys G2 := ⟨α • params.p2, s • params.k2⟩
    (credVerify E V keys params y w' = .ok () ↔ IsWitness α V y C) ∧
    (IsWitness α V y C → ∃ p, makeProof E H enc w' y V params keys eph rand = some p ∧
      checkProof E H enc p params keys V eph = true) ∧
    ∀ w : Witness F G1, credVerify E V keys params y w = .ok () → IsWitness α V y w.witness := by
  intro w' keys
  have h0 : y + s ≠ 0 := fun e => hy (eq_neg_of_add_eq_zero_left e)
  have h1 : credVerify E V keys params y w' = .ok () ↔ IsWitness α V y C :=
    (credVerify_iff E params hP hK α s V y w').trans
      (and_iff_left (by
        show (y + s) • (y + s)⁻¹ • (x • params.k1 + params.k0) = _
        rw [smul_smul, mul_inv_cancel₀ h0, one_smul]))
  refine ⟨h1, fun h => ?_, fun w hw => ((credVerify_iff E params hP hK α s V y w).1 hw).1⟩
  obtain ⟨c1, c2⟩ := C42_complete E H enc w' y V params keys eph rand
  obtain ⟨p, hp⟩ := c1.2 (h1.2 h)
  exact ⟨p, hp, c2 p hp⟩

end

section
open Allo

/-- Members 3, 2, 1 of a server with keys `1, 1` and accumulator 2 (as in the C108 examples). -/
def keysSrv : Server (ZMod 7) (ZMod 7) (ZMod 7) := ⟨[2], 1, ⟨1, 1⟩, 1, [3, 2, 1], [(3, 4), (2, 3), (1, 1)], []⟩

/-- C109_uses and C109_keyless_replica: the original adds 4 and deletes 1 and 2; the copy without keys (both 0) is told the
deletions only. -/
example : ∃ s' r, (Server.new (F := ZMod 7) onePar 1 1 2).run [.add 1, .add 2, .add 3] = .ok keysSrv ∧
    keysSrv.run [.add 4, .delete 1, .delete 2] = .ok s' ∧ (keysSrv.withKeys 0 0).run [.delete 1, .delete 2] = .ok r ∧
    r.accumulators = s'.accumulators ∧ s'.accumulators = [2, 1, 5] ∧ s'.update 2 [5] = r.update 2 [5] := by
  have h0 : (Server.new (F := ZMod 7) onePar 1 1 2).run [.add 1, .add 2, .add 3] = .ok keysSrv := by
    with_unfolding_all rfl
  have h1 : ∃ s', keysSrv.run [.add 4, .delete 1, .delete 2] = .ok s' ∧ s'.accumulators = [2, 1, 5] :=
    ⟨⟨[2, 1, 5], 1, ⟨1, 1⟩, 1, [4, 3, 2, 1], [(4, 1), (3, 3)], [1, 2]⟩, by with_unfolding_all rfl, rfl⟩
  obtain ⟨s', h1, h2⟩ := h1
  obtain ⟨r, g1, g2, -, -, -, -, g3⟩ := C109_keyless_replica keysSrv s' 0 0 [.add 4, .delete 1, .delete 2]
    (by decide) (by intro y h; simp at h; rcases h with rfl | rfl <;> simp <;> decide) h1
  exact ⟨s', r, h0, h1, g1, g2, h2, (g3 2 [5]).symm⟩

/-- The condition of C109_keyless_replica is needed: if 4 is added and deleted, the copy misses the deletion. -/
example : ∃ s' r, keysSrv.run [.add 4, .delete 4] = .ok s' ∧ (keysSrv.withKeys 0 0).run [.delete 4] = .ok r ∧
    s'.accumulators.length = 2 ∧ r.accumulators.length = 1 :=
  ⟨_, _, by with_unfolding_all rfl, by with_unfolding_all rfl, by decide, by decide⟩

/-- C109_wrong_key: the key 2 instead of 1, a new member 4, and `quick_delete` of 3. -/
example : (∃ r W, (keysSrv.withKeys 2 1).add 4 = .ok (r, some W) ∧ ¬ IsWitness (1 : ZMod 7) (2 : ZMod 7) 4 W) ∧
    ∃ r W r₀ W₀, (keysSrv.withKeys 2 1).quickDelete 3 = .ok (r, some W) ∧ keysSrv.quickDelete 3 = .ok (r₀, some W₀) ∧
      r.getAccumulator ≠ r₀.getAccumulator := by
  obtain ⟨r, W, h1, h2⟩ := (C109_wrong_key keysSrv 2 1 2 rfl 4 (by decide)).1 (by decide)
  obtain ⟨r', W', r₀, W₀, g1, g2, g3⟩ := (C109_wrong_key keysSrv 2 1 2 rfl 3 (by decide)).2 (by decide) (by decide)
  refine ⟨⟨r, W, h1, fun h => ?_⟩, r', W', r₀, W₀, g1, g2, fun h => ?_⟩
  · exact absurd (h2.1 h) (by decide)
  · exact absurd (g3.1 h) (by decide)

/-- C109_stolen_accumulator_key: the credential of 3 for the accumulator 2, after the accumulator has become 5. -/
example (H : Oracle (ZMod 7)) (rand : ProofRand (ZMod 7)) :
    credVerify (Pairing.field (ZMod 7)) (5 : ZMod 7) ⟨1, 1⟩ onePar 3 ⟨0, 4, 2⟩ ≠ .ok () ∧
    ∃ p, makeProof (Pairing.field (ZMod 7)) H enc7 ⟨0, (3 + 1 : ZMod 7)⁻¹ • 5, 2⟩ 3 5 onePar ⟨1, 1⟩ [] rand = some p ∧
      checkProof (Pairing.field (ZMod 7)) H enc7 p onePar ⟨1, 1⟩ 5 [] = true :=
  ⟨by decide +kernel, (C109_stolen_accumulator_key (Pairing.field (ZMod 7)) H enc7 onePar (by decide) (by decide) 1 1 3 (by decide)
    ⟨0, 4, 2⟩ 2 (by decide +kernel) 5 [] rand).2⟩

/-- C109_stolen_signing_key: the witness 4 of member 3 and a secret key 6 of the thief. -/
example (H : Oracle (ZMod 7)) (rand : ProofRand (ZMod 7)) :
    ∃ p, makeProof (Pairing.field (ZMod 7)) H enc7 ⟨6, 4, (3 + 1 : ZMod 7)⁻¹ • ((6 : ZMod 7) • onePar.k1 + onePar.k0)⟩ 3 2 onePar
        ⟨1, 1⟩ [] rand = some p ∧
      checkProof (Pairing.field (ZMod 7)) H enc7 p onePar ⟨1, 1⟩ 2 [] = true :=
  (C109_stolen_signing_key (Pairing.field (ZMod 7)) H enc7 onePar (by decide) (by decide) 1 1 3 (by decide) 6 4 2 [] rand).2.1
    (by unfold IsWitness; decide)

end
end Allo
