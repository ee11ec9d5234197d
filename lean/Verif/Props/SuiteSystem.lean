import Verif.Props.Suite
import Verif.Props.Rollback
import Mathlib.Data.Rat.Denumerable
import Mathlib.Tactic.IntervalCases

/-!
# C95 (continued): the tests of `src/tests.rs` that use servers and users
-/

set_option linter.unusedSectionVars false
set_option linter.unusedVariables false
namespace Allo
open Spec Server

section
variable {F G1 G2 GT : Type} [Field F] [DecidableEq F] [AddCommGroup G1] [Module F G1] [DecidableEq G1]
  [AddCommGroup G2] [Module F G2] [AddCommGroup GT] [Module F GT] [DecidableEq GT]

/-- what `enrol` gives for each user -/
structure Enrolled (E : Pairing F G1 G2 GT) (params : AccParams G1 G2) (α sM v : F) (u : User F G1 G2) : Prop where
  keys : u.publicKeys = ⟨α • params.p2, sM • params.k2⟩
  epoch : u.epoch = 1
  acc : u.accumulator = v • params.p1
  valid : u.checkWitness E params (v • params.p1) = .ok ()

theorem run_snoc {s s' s'' : Server F G1 G2} {ops : List (Op F)} {op : Op F} {r : Option G1}
    (h : s.run ops = .ok s') (h' : s'.step op = .ok (s'', r)) : s.run (ops ++ [op]) = .ok s'' := by
  refine run_append.2 ⟨s', h, ?_⟩
  simp [Server.run, h', bind, Except.bind, pure, Except.pure]

theorem regRun_snoc (ops : List (Op F)) (op : Op F) : regRun (ops ++ [op]) = regStep (regRun ops) op := by
  simp [regRun]

theorem regRun_adds_log (ids : List F) : (regRun (ids.map Op.add)).log = [] := by
  induction ids using List.reverseRecOn with
  | nil => rfl
  | append_singleton l y ih =>
    rw [List.map_append, List.map_singleton, regRun_snoc]
    simp only [regStep, Registry.add]
    split <;> exact ih

theorem enrol_step (E : Pairing F G1 G2 GT) (H : Oracle F) (enc : Enc G1 G2 GT) (params : AccParams G1 G2)
    (hP : params.p2 ≠ 0) (hK : params.k2 ≠ 0) (α sM v : F) (ids : List F) (s : Server F G1 G2)
    (h : (Server.new params α sM v).run (ids.map Op.add) = .ok s) (y key k : F) (hα : y ≠ -α) (hs : y ≠ -sM) :
    ∃ u u' s' r, User.new s y = .ok u ∧ s.add u.getId = .ok (s', r) ∧
      (Server.new params α sM v).run ((ids ++ [y]).map Op.add) = .ok s' ∧
      u.createWitness H enc params s' key k = .ok u' ∧ s'.getAccumulator = .ok (v • params.p1) ∧
      u'.id = y ∧ Enrolled E params α sM v u' := by
  obtain ⟨-, -, h3, V, hV⟩ := C20_no_panic params α sM v _ s h y
  obtain ⟨⟨s', r⟩, hadd⟩ : ∃ r, s.add y = .ok r := by
    cases hx : s.add y with
    | error e => exact absurd (h3.1 ⟨e, hx⟩).1 hα
    | ok r => exact ⟨r, rfl⟩
  have h' : (Server.new params α sM v).run ((ids ++ [y]).map Op.add) = .ok s' := by
    rw [List.map_append]
    exact run_snoc h hadd
  have hq : ∀ op ∈ (ids ++ [y]).map Op.add, op.isQuick = false := by
    intro op ho
    obtain ⟨z, -, rfl⟩ := List.mem_map.1 ho
    rfl
  obtain ⟨k1, k2, k3, k4⟩ := C16_add_keeps s s' y r hadd
  have hI := invW_run params α sM v _ hq s' h'
  have hdel : s'.deletions = [] := by
    rw [(C15_refines params α sM v _ s' h').1, regRun_adds_log]
  have hV' : s'.getAccumulator = .ok (v • params.p1) := by
    rw [getAccumulator, hI.last, hdel]
    simp [unwrap, accAfter]
  have hV0 : s.getAccumulator = .ok (v • params.p1) := by rw [← hV', getAccumulator, getAccumulator, k1]
  obtain ⟨u, hu⟩ : ∃ u, User.new s y = .ok u := ⟨_, by simp [User.new, hV0, bind, Except.bind, pure, Except.pure]; rfl⟩
  have hu' : User.new s' y = .ok u := by
    rw [← hu]
    simp [User.new, hV0, hV', getPublicKeys, k3, k4]
  have hid : u.getId = y := by
    simp [User.new, hV0, bind, Except.bind, pure, Except.pure] at hu
    rw [← hu]; rfl
  obtain ⟨u', V', c1, c2, c3, c4, c5, c6, -⟩ := C22_create_witness E H enc params hP hK α sM v _ hq s' h' u y hu' (by
    rw [List.map_append, List.map_singleton, regRun_snoc]
    simp only [regStep, Registry.add]
    split
    · assumption
    · simp) hs key k
  rw [hV'] at c2
  cases c2
  refine ⟨u, u', s', r, hu, by rw [hid, hadd], h', c1, hV', c6, ⟨?_, ?_, c5, c3⟩⟩
  · have : u'.publicKeys = u.publicKeys := by
      simp only [User.createWitness, bind, Except.bind, pure, Except.pure] at c1
      split at c1
      · cases c1
      · split at c1
        · rw [hV'] at c1; cases c1; rfl
        · cases c1; rfl
    rw [this]
    simp [User.new, hV', bind, Except.bind, pure, Except.pure] at hu'
    rw [← hu']
    exact (keys_run h').1
  · rw [c4, getEpoch, hI.length, hdel]; rfl

/-- one round of `enrol` with a bad id panics -/
theorem enrol_bad (E : Pairing F G1 G2 GT) (H : Oracle F) (enc : Enc G1 G2 GT) (params : AccParams G1 G2)
    (α sM v : F) (ids : List F) (s : Server F G1 G2)
    (h : (Server.new params α sM v).run (ids.map Op.add) = .ok s) (hids : -α ∉ ids) (y key k : F)
    (hy : y = -α ∨ y = -sM) :
    ∃ e, (do
      let u ← User.new s y
      let (s, _) ← s.add u.getId
      let u ← u.createWitness H enc params s key k
      pure (s, u) : Rust (Server F G1 G2 × User F G1 G2)) = .error e := by
  obtain ⟨-, -, h3, V, hV⟩ := C20_no_panic params α sM v _ s h y
  have hR := refines_run _ (refines_new params α sM v) h
  have hu : User.new s y = .ok ⟨y, none, V, s.getPublicKeys, s.getEpoch⟩ := by
    simp [User.new, hV, bind, Except.bind, pure, Except.pure]
  by_cases hα : y = -α
  · have hm : y ∉ (regRun (ids.map Op.add)).members := by
      rw [C15_member_spec]
      rintro ⟨pre, post, he, -⟩
      have : Op.add y ∈ ids.map Op.add := by rw [he]; simp
      obtain ⟨z, hz, hz'⟩ := List.mem_map.1 this
      cases hz'
      exact hids (hα ▸ hz)
    obtain ⟨e, he⟩ := h3.2 ⟨hα, hm⟩
    exact ⟨e, by simp [hu, User.getId, he, bind, Except.bind]⟩
  · have hs := hy.resolve_left hα
    obtain ⟨⟨s', r⟩, hadd⟩ : ∃ r, s.add y = .ok r := by
      cases hx : s.add y with
      | error e => exact absurd (h3.1 ⟨e, hx⟩).1 hα
      | ok r => exact ⟨r, rfl⟩
    have h' := run_snoc (op := .add y) h hadd
    have hR' := refines_run _ (refines_new params α sM v) h'
    have hmem : y ∈ s'.ids := by
      rw [hR'.members]
      show y ∈ (regRun _).members
      rw [regRun_snoc]
      simp only [regStep, Registry.add]
      split
      · assumption
      · simp
    have hw := ((C21_witness H enc params s' y (enrolChallenge H enc (key • params.k1) (k • params.k1))
      (k - enrolChallenge H enc (key • params.k1) (k • params.k1) * key) (key • params.k1)).2.2 hmem (by
        congr 1
        rw [sub_smul, mul_smul]
        abel)).2 (by rw [(keys_run h').2.2, hs]; ring)
    refine ⟨.unwrapNone, ?_⟩
    simp only [hu, User.getId, hadd, bind, Except.bind]
    simp only [User.createWitness, bind, Except.bind]
    have hw' : s'.witness H enc params y
        (H (((Transcript.new "user_signature_proof").append "user_pub_key" (enc.g1 (key • params.k1))).append
          "commitment" (enc.g1 (k • params.k1))) "challenge")
        (k - H (((Transcript.new "user_signature_proof").append "user_pub_key" (enc.g1 (key • params.k1))).append
          "commitment" (enc.g1 (k • params.k1))) "challenge" * key) (key • params.k1) = .error .unwrapNone := hw
    rw [hw']

theorem enrol_ok (E : Pairing F G1 G2 GT) (H : Oracle F) (enc : Enc G1 G2 GT) (params : AccParams G1 G2)
    (hP : params.p2 ≠ 0) (hK : params.k2 ≠ 0) (α sM v : F) (news : List (Suite.NewUser F))
    (hg : ∀ r ∈ news, r.id ≠ -α ∧ r.id ≠ -sM) :
    ∃ s us, Suite.enrol E H enc params (Server.new params α sM v) news = .ok (s, us, true) ∧
      (Server.new params α sM v).run ((news.map (·.id)).map Op.add) = .ok s ∧
      us.map (·.id) = news.map (·.id) ∧ ∀ u ∈ us, Enrolled E params α sM v u := by
  induction news using List.reverseRecOn with
  | nil => exact ⟨_, [], rfl, rfl, rfl, by simp⟩
  | append_singleton l r ih =>
    obtain ⟨s, us, h1, h2, h3, h4⟩ := ih (fun r hr => hg r (by simp [hr]))
    obtain ⟨u, u', s', x, e1, e2, e3, e4, e5, e6, e7⟩ := enrol_step E H enc params hP hK α sM v (l.map (·.id)) s h2 r.id r.key
      r.nonce (hg r (by simp)).1 (hg r (by simp)).2
    refine ⟨s', us ++ [u'], ?_, by simpa using e3, by simp [h3, e6], ?_⟩
    · unfold Suite.enrol at h1 ⊢
      rw [List.foldlM_append, h1]
      simp [e1, e2, e4, e5, bind, Except.bind, pure, Except.pure, e7.valid]
    · intro w hw
      rcases List.mem_append.1 hw with hw | hw
      · exact h4 w hw
      · rw [List.mem_singleton] at hw
        exact hw ▸ e7

theorem enrol_err (E : Pairing F G1 G2 GT) (H : Oracle F) (enc : Enc G1 G2 GT) (params : AccParams G1 G2)
    (hP : params.p2 ≠ 0) (hK : params.k2 ≠ 0) (α sM v : F) (news : List (Suite.NewUser F))
    (hb : ∃ r ∈ news, r.id = -α ∨ r.id = -sM) :
    ∃ e, Suite.enrol E H enc params (Server.new params α sM v) news = .error e := by
  induction news using List.reverseRecOn with
  | nil => simp at hb
  | append_singleton l r ih =>
    by_cases hl : ∃ r ∈ l, r.id = -α ∨ r.id = -sM
    · obtain ⟨e, he⟩ := ih hl
      refine ⟨e, ?_⟩
      unfold Suite.enrol at he ⊢
      rw [List.foldlM_append, he]
      rfl
    · push Not at hl
      have hr : r.id = -α ∨ r.id = -sM := by
        obtain ⟨r', h1, h2⟩ := hb
        rcases List.mem_append.1 h1 with h1 | h1
        · exact absurd h2 (by have := hl r' h1; tauto)
        · rw [List.mem_singleton] at h1; exact h1 ▸ h2
      obtain ⟨s, us, h1, h2, h3, h4⟩ := enrol_ok E H enc params hP hK α sM v l hl
      obtain ⟨e, he⟩ := enrol_bad E H enc params α sM v _ s h2 (by
        intro hm
        obtain ⟨z, hz, hz'⟩ := List.mem_map.1 hm
        exact (hl z hz).1 hz') r.id r.key r.nonce hr
      refine ⟨e, ?_⟩
      unfold Suite.enrol at h1 ⊢
      rw [List.foldlM_append, h1]
      simp only [bind, Except.bind, pure, Except.pure, List.foldlM_cons] at he ⊢
      cases hu : User.new s r.id with
      | error e' => rw [hu] at he; simpa using he
      | ok u =>
        simp only [hu] at he ⊢
        cases ha : s.add u.getId with
        | error e' => rw [ha] at he; simpa using he
        | ok p =>
          simp only [ha] at he ⊢
          cases hc : u.createWitness H enc params p.1 r.key r.nonce with
          | error e' => rw [hc] at he; simpa using he
          | ok u' => rw [hc] at he; simp at he

/-- **C95** (`test_witness_issue`), for any number of users, also with repeated ids: it passes exactly if no id is the
negative of one of the two secret keys, and panics otherwise. -/
theorem C95_witness_issue (E : Pairing F G1 G2 GT) (H : Oracle F) (enc : Enc G1 G2 GT) (params : AccParams G1 G2)
    (hP : params.p2 ≠ 0) (hK : params.k2 ≠ 0) (α sM v : F) (news : List (Suite.NewUser F)) :
    ((∀ r ∈ news, r.id ≠ -α ∧ r.id ≠ -sM) → Suite.witnessIssue E H enc params α sM v news = .ok true) ∧
    ((∃ r ∈ news, r.id = -α ∨ r.id = -sM) → ∃ e, Suite.witnessIssue E H enc params α sM v news = .error e) := by
  constructor
  · intro h
    obtain ⟨s, us, h1, -⟩ := enrol_ok E H enc params hP hK α sM v news h
    simp [Suite.witnessIssue, h1, bind, Except.bind, pure, Except.pure]
  · intro h
    obtain ⟨e, he⟩ := enrol_err E H enc params hP hK α sM v news h
    exact ⟨e, by simp [Suite.witnessIssue, he, bind, Except.bind]⟩

theorem enrolled_check (E : Pairing F G1 G2 GT) (params : AccParams G1 G2) (hP : params.p2 ≠ 0) (hK : params.k2 ≠ 0)
    (α sM v : F) (u : User F G1 G2) (hu : Enrolled E params α sM v u) (D : List F) :
    u.checkWitness E params (accAfter α (v • params.p1) D) = .ok () ↔
      (D.map (fun d => d + α)).prod = 1 ∨ v • params.p1 = 0 := by
  have hv := hu.valid
  have hp : (D.map (fun d => d + α)).prod = prodPlus α D := by simp [prodPlus]
  rw [hp]
  cases hw : u.witness with
  | none => simp [User.checkWitness, hw] at hv
  | some w =>
    simp only [User.checkWitness, hw, hu.keys] at hv ⊢
    rw [credVerify_iff E params hP hK] at hv ⊢
    unfold IsWitness at hv ⊢
    rw [hv.1]
    constructor
    · intro h
      have h := h.1
      unfold accAfter at h
      rw [← sub_eq_zero] at h
      have h : ((1 : F) - (prodPlus α D)⁻¹) • (v • params.p1) = 0 := by rw [sub_smul, one_smul, h]
      rcases smul_eq_zero.1 h with h | h
      · left
        have := (sub_eq_zero.1 h).symm
        rwa [inv_eq_one] at this
      · exact Or.inr h
    · rintro (h | h)
      · exact ⟨by rw [accAfter, h, inv_one, one_smul], hv.2⟩
      · exact ⟨by rw [accAfter, h, smul_zero], hv.2⟩

theorem delete_known (params : AccParams G1 G2) (α sM v : F) (ops : List (Op F)) (s : Server F G1 G2)
    (h : (Server.new params α sM v).run ops = .ok s) (y : F) :
    ∃ s' r, s.delete y = .ok (s', r) ∧ (Server.new params α sM v).run (ops ++ [.delete y]) = .ok s' ∧
      s'.deletions = if y ∈ (regRun ops).members then s.deletions ++ [y] else s.deletions := by
  obtain ⟨⟨⟨s', r⟩, hd⟩, -⟩ := C20_no_panic params α sM v ops s h y
  have h' := run_snoc (op := .delete y) h hd
  refine ⟨s', r, hd, h', ?_⟩
  rw [(C15_refines params α sM v _ s' h').1, (C15_refines params α sM v _ s h).1, regRun_snoc]
  simp only [regStep, Registry.delete]
  split <;> rfl

/-- a member stays a member as long as it is not deleted -/
theorem member_deletes (ops : List (Op F)) (y : F) (l : List F) (hy : y ∈ (regRun ops).members) (hl : y ∉ l) :
    y ∈ (regRun (ops ++ l.map Op.delete)).members := by
  rw [C15_member_spec] at hy ⊢
  obtain ⟨pre, post, rfl, h1, h2⟩ := hy
  refine ⟨pre, post ++ l.map Op.delete, by simp, ?_, ?_⟩
  · simp [h1, hl]
  · simp [h2]

theorem revoke_ok (E : Pairing F G1 G2 GT) (params : AccParams G1 G2) (hP : params.p2 ≠ 0) (hK : params.k2 ≠ 0)
    (α sM v : F) (ops : List (Op F)) (hq : ∀ op ∈ ops, op.isQuick = false) (s : Server F G1 G2)
    (h : (Server.new params α sM v).run ops = .ok s) (hD : s.deletions = []) (us : List (User F G1 G2))
    (hu : ∀ u ∈ us, Enrolled E params α sM v u) (hm : ∀ u ∈ us, u.id ∈ (regRun ops).members)
    (hnd : (us.map (·.id)).Nodup) :
    ∃ s' b, Suite.revoke E params s us = .ok (s', b) ∧
      us.foldlM (fun (s : Server F G1 G2) u => do let (s, _) ← s.delete u.getId; pure s) s = .ok s' ∧
      (Server.new params α sM v).run (ops ++ (us.map (·.id)).map Op.delete) = .ok s' ∧
      s'.deletions = us.map (·.id) ∧
      (b = true ↔ ∀ j, 1 ≤ j → j ≤ us.length →
        ((((us.map (·.id)).take j).map (fun d => d + α)).prod ≠ 1 ∧ v • params.p1 ≠ 0)) := by
  induction us using List.reverseRecOn with
  | nil => exact ⟨s, true, rfl, rfl, by simpa using h, by simpa using hD, by simp; intro j h1 h2; omega⟩
  | append_singleton l u ih =>
    obtain ⟨s1, b1, e1, e1', e2, e3, e4⟩ := ih (fun u hu' => hu u (by simp [hu'])) (fun u hu' => hm u (by simp [hu']))
      (by rw [List.map_append] at hnd; exact hnd.of_append_left)
    have hul : u.id ∉ l.map (·.id) := by
      rw [List.map_append, List.nodup_append] at hnd
      intro hx
      exact hnd.2.2 _ hx u.id (by simp) rfl
    obtain ⟨s2, r, d1, d2, d3⟩ := delete_known params α sM v _ s1 e2 u.id
    rw [if_pos (member_deletes ops u.id _ (hm u (by simp)) hul), e3] at d3
    have hq2 : ∀ op ∈ ops ++ (l.map (·.id)).map Op.delete ++ [Op.delete u.id], op.isQuick = false := by
      intro op ho
      simp only [List.mem_append, List.mem_map, List.mem_singleton] at ho
      rcases ho with (ho | ⟨y, -, rfl⟩) | rfl
      · exact hq op ho
      · rfl
      · rfl
    have hI := invW_run params α sM v _ hq2 s2 d2
    have hV : s2.getAccumulator = .ok (accAfter α (v • params.p1) (l.map (·.id) ++ [u.id])) := by
      rw [getAccumulator, hI.last, d3]; rfl
    have hck := enrolled_check E params hP hK α sM v u (hu u (by simp)) (l.map (·.id) ++ [u.id])
    refine ⟨s2, b1 && decide (u.checkWitness E params (accAfter α (v • params.p1) (l.map (·.id) ++ [u.id])) ≠ .ok ()),
      ?_, ?_, by simpa using d2, by simpa using d3, ?_⟩
    · unfold Suite.revoke at e1 ⊢
      rw [List.foldlM_append, e1]
      simp [User.getId, d1, hV, bind, Except.bind, pure, Except.pure]
    · rw [List.foldlM_append, e1']
      simp [User.getId, d1, bind, Except.bind, pure, Except.pure]
    · have hck' := not_congr hck |>.trans not_or
      rw [Bool.and_eq_true, e4, decide_eq_true_eq]
      refine (and_congr_right fun _ => hck').trans ?_
      constructor
      · rintro ⟨a, b⟩ j h1 h2
        rcases Nat.lt_or_ge l.length j with hj | hj
        · have : j = l.length + 1 := by simp at h2; omega
          subst this
          simpa using b
        · rw [List.map_append, List.take_append_of_le_length (by simpa using hj)]
          exact a j h1 hj
      · intro a
        refine ⟨fun j h1 h2 => ?_, ?_⟩
        · have := a j h1 (by simp; omega)
          rwa [List.map_append, List.take_append_of_le_length (by simpa using h2)] at this
        · have := a (l.length + 1) (by omega) (by simp)
          simpa using this

theorem deleteAndAdd_ok (params : AccParams G1 G2) (α sM v : F) (ops : List (Op F))
    (hq : ∀ op ∈ ops, op.isQuick = false) (s : Server F G1 G2)
    (h : (Server.new params α sM v).run ops = .ok s) (us : List (User F G1 G2)) (others : List F)
    (ho : -α ∉ others) :
    ∃ ops' s', Suite.deleteAndAdd s us others = .ok s' ∧ (∀ op ∈ ops', op.isQuick = false) ∧
      (Server.new params α sM v).run ops' = .ok s' ∧ s.deletions <+: s'.deletions ∧
      ∀ d ∈ s'.deletions, d ∈ s.deletions ∨ d ∈ us.map (·.id) := by
  induction us generalizing ops s others with
  | nil => exact ⟨ops, s, by simp [Suite.deleteAndAdd]; rfl, hq, h, List.prefix_refl _, fun d hd => .inl hd⟩
  | cons u us ih =>
    cases others with
    | nil => exact ⟨ops, s, by simp [Suite.deleteAndAdd]; rfl, hq, h, List.prefix_refl _, fun d hd => .inl hd⟩
    | cons y ys =>
      obtain ⟨s1, r1, d1, d2, d3⟩ := delete_known params α sM v _ s h u.id
      obtain ⟨-, -, h3, V, hV⟩ := C20_no_panic params α sM v _ s1 d2 y
      obtain ⟨⟨s2, r2⟩, hadd⟩ : ∃ r, s1.add y = .ok r := by
        cases hx : s1.add y with
        | error e => exact absurd (h3.1 ⟨e, hx⟩).1 (by intro h0; exact ho (by simp [h0]))
        | ok r => exact ⟨r, rfl⟩
      have h2 := run_snoc (op := .add y) d2 hadd
      obtain ⟨k1, k2, -⟩ := C16_add_keeps s1 s2 y r2 hadd
      obtain ⟨ops', s', a1, a2, a3, a4, a5⟩ := ih _ (by
        intro op hop
        simp only [List.mem_append, List.mem_singleton] at hop
        rcases hop with (hop | rfl) | rfl
        · exact hq op hop
        · rfl
        · rfl) s2 h2 ys (fun h0 => ho (by simp [h0]))
      rw [k2] at a4 a5
      refine ⟨ops', s', ?_, a2, a3, ?_, ?_⟩
      · unfold Suite.deleteAndAdd at a1 ⊢
        rw [List.zip_cons_cons, List.foldlM_cons]
        simp only [User.getId, d1, User.new, hV, bind, Except.bind, pure, Except.pure, hadd] at a1 ⊢
        exact a1
      · refine List.IsPrefix.trans ?_ a4
        rw [d3]
        split
        · exact List.prefix_append _ _
        · exact List.prefix_refl _
      · intro d hd
        rcases a5 d hd with hd | hd
        · rw [d3] at hd
          split at hd
          · rcases List.mem_append.1 hd with hd | hd
            · exact .inl hd
            · right; simp at hd; simp [hd]
          · exact .inl hd
        · right; simp at hd ⊢; exact .inr hd

theorem adds_members (ids : List F) (y : F) (hy : y ∈ ids) : y ∈ (regRun (ids.map Op.add)).members := by
  rw [C15_member_spec]
  obtain ⟨a, b, rfl⟩ := List.append_of_mem hy
  exact ⟨a.map Op.add, b.map Op.add, by simp, by simp, by simp⟩

/-- The common part of the update tests: users `y₀ :: ys` are enrolled, `ys` are deleted. -/
theorem suite_setup (E : Pairing F G1 G2 GT) (H : Oracle F) (enc : Enc G1 G2 GT) (params : AccParams G1 G2)
    (hP : params.p2 ≠ 0) (hK : params.k2 ≠ 0) (α sM v : F) (r₀ : Suite.NewUser F) (rs : List (Suite.NewUser F))
    (hg : ∀ r ∈ r₀ :: rs, r.id ≠ -α ∧ r.id ≠ -sM) (hnd : ((r₀ :: rs).map (·.id)).Nodup) :
    ∃ s₀ u us s ops b, Suite.enrol E H enc params (Server.new params α sM v) (r₀ :: rs) = .ok (s₀, u :: us, true) ∧
      Suite.revoke E params s₀ us = .ok (s, b) ∧
      us.foldlM (fun (s : Server F G1 G2) u => do let (s, _) ← s.delete u.getId; pure s) s₀ = .ok s ∧
      u.id = r₀.id ∧ us.map (·.id) = rs.map (·.id) ∧
      (∀ w ∈ u :: us, Enrolled E params α sM v w) ∧ (∀ op ∈ ops, op.isQuick = false) ∧
      (Server.new params α sM v).run ops = .ok s ∧ s.deletions = rs.map (·.id) ∧
      (b = true ↔ ∀ j, 1 ≤ j → j ≤ rs.length →
        ((((rs.map (·.id)).take j).map (fun d => d + α)).prod ≠ 1 ∧ v • params.p1 ≠ 0)) := by
  obtain ⟨s₀, us', h1, h2, h3, h4⟩ := enrol_ok E H enc params hP hK α sM v (r₀ :: rs) hg
  obtain ⟨u, us, rfl⟩ : ∃ u us, us' = u :: us := by
    cases us' with
    | nil => simp at h3
    | cons u us => exact ⟨u, us, rfl⟩
  simp only [List.map_cons, List.cons.injEq] at h3
  have hq : ∀ op ∈ ((r₀ :: rs).map (·.id)).map Op.add, op.isQuick = false := by
    intro op ho
    obtain ⟨y, -, rfl⟩ := List.mem_map.1 ho
    rfl
  have hD : s₀.deletions = [] := by rw [(C15_refines params α sM v _ s₀ h2).1, regRun_adds_log]
  obtain ⟨s, b, e1, e2, e3, e4, e5⟩ := revoke_ok E params hP hK α sM v _ hq s₀ h2 hD us
    (fun w hw => h4 w (by simp [hw])) (fun w hw => adds_members _ _ (by
      rw [List.map_cons, ← h3.2]
      exact List.mem_cons_of_mem _ (List.mem_map_of_mem hw))) (by
      rw [h3.2]
      exact (List.nodup_cons.1 hnd).2)
  have hl : us.length = rs.length := by simpa using congrArg List.length h3.2
  rw [h3.2] at e4 e5
  rw [hl] at e5
  refine ⟨s₀, u, us, s, _, b, h1, e1, e2, h3.1, h3.2, h4, ?_, e3, e4, e5⟩
  intro op ho
  simp only [List.mem_append, List.mem_map] at ho
  rcases ho with ⟨y, -, rfl⟩ | ⟨y, -, rfl⟩ <;> rfl

/-- **C95** (`test_witness_update`, `test_witness_update_add`), for any number of users (different ids, none the
negative of a secret key), later additions, servers `n ≥ t ≥ 2` and all random values. With at least one deleted user
the tests pass exactly if the accumulator is not the identity and no product of `y + α` over the first users deleted
is 1 (then a deleted user still passes `check_witness`, and the test fails); with no deleted user they panic. -/
theorem C95_witness_update (E : Pairing F G1 G2 GT) (H : Oracle F) (enc : Enc G1 G2 GT) (params : AccParams G1 G2)
    (hP : params.p2 ≠ 0) (hK : params.k2 ≠ 0) (α sM v : F) (r₀ : Suite.NewUser F) (rs : List (Suite.NewUser F))
    (hg : ∀ r ∈ r₀ :: rs, r.id ≠ -α ∧ r.id ≠ -sM) (hnd : ((r₀ :: rs).map (·.id)).Nodup)
    (others : List F) (ho : -α ∉ others) (n t : Nat) (ht : 2 ≤ t) (hn : t ≤ n)
    (hc : ∀ i : Nat, 0 < i → i ≤ n → (i : F) ≠ 0) (seed : Nat → Nat) (hseed : ∀ d, 1 ≤ d → 1 ≤ seed d)
    (hseed0 : seed 0 = 0) (rand : Nat → Nat → F) :
    (rs ≠ [] → (Suite.witnessUpdate E H enc params seed α sM v (r₀ :: rs) others n t rand = .ok true ↔
      ∀ j, 1 ≤ j → j ≤ rs.length →
        ((((rs.map (·.id)).take j).map (fun d => d + α)).prod ≠ 1 ∧ v • params.p1 ≠ 0)) ∧
      (Suite.witnessUpdate E H enc params seed α sM v (r₀ :: rs) others n t rand ≠ .ok true →
        Suite.witnessUpdate E H enc params seed α sM v (r₀ :: rs) others n t rand = .ok false)) ∧
    (rs = [] → Suite.witnessUpdate E H enc params seed α sM v (r₀ :: rs) others n t rand = .error .overflow) := by
  obtain ⟨s₀, u, us, s, ops, b, h1, h2, -, h4, h5, h6, h7, h8, h9, h10⟩ :=
    suite_setup E H enc params hP hK α sM v r₀ rs hg hnd
  obtain ⟨ops', s', d1, d2, d3, d4, d5⟩ := deleteAndAdd_ok params α sM v ops h7 s h8 us others ho
  have hwit : u.witness ≠ none := by
    intro h0
    have := (h6 u (by simp)).valid
    simp [User.checkWitness, h0] at this
  have hrun : Suite.witnessUpdate E H enc params seed α sM v (r₀ :: rs) others n t rand
      = if b then (do
        let (u0, res) ← u.update seed (List.replicate n s') t rand
        if !res.isOk then return false
        let V ← s'.getAccumulator
        pure (decide (u0.checkWitness E params V = .ok ()))) else .ok false := by
    unfold Suite.witnessUpdate
    simp only [h1, bind, Except.bind, pure, Except.pure, idx, List.drop_succ_cons, List.drop_zero, h2, d1]
    cases b <;> simp
  have hlen := accs_length_run params α sM v ops' s' d3
  constructor
  · intro hrs
    have hne : s'.deletions ≠ [] := by
      obtain ⟨x, hx⟩ := d4
      rw [← hx, h9]
      simp [hrs]
    obtain ⟨u', V, hV, hup, hck, -⟩ := C25_update E params hP hK α sM v ops' [] d2 (by simp) s' (by simpa using d3)
      (List.replicate n s') (by
        intro x hx
        rw [(List.mem_replicate.1 hx).2]
        exact ⟨rfl, rfl⟩) t ht (by simpa using hn) (by simpa using hc) seed hseed u
      (by rw [(h6 u (by simp)).keys, getPublicKeys, (keys_run d3).1]) (by rw [(h6 u (by simp)).epoch]) (by
        rw [(h6 u (by simp)).epoch, getEpoch, hlen]
        have := List.length_pos_iff.2 hne
        omega) (v • params.p1) (by
        rw [(h6 u (by simp)).epoch]
        have hI := invW_run params α sM v _ d2 s' d3
        have := hI.get 0 (by omega)
        simpa [accAfter] using this) (h6 u (by simp)).valid (by
        rw [(h6 u (by simp)).epoch, h4]
        intro hx
        have hx := List.mem_of_mem_drop hx
        have := (List.nodup_cons.1 hnd).1
        rcases d5 _ hx with hx | hx
        · exact this (h9 ▸ hx)
        · exact this (h5 ▸ hx)) rand
    have hrun' : Suite.witnessUpdate E H enc params seed α sM v (r₀ :: rs) others n t rand = .ok b := by
      rw [hrun]
      cases b with
      | false => rfl
      | true => simp [hup, hV, hck, bind, Except.bind, pure, Except.pure, Except.isOk, Except.toBool]
    rw [hrun', Except.ok.injEq]
    refine ⟨h10, ?_⟩
    cases b <;> simp
  · rintro rfl
    have hb : b = true := h10.2 (by simp; omega)
    have hus : us = [] := by simpa using h5
    subst hus
    have hs' : s' = s := by
      simp [Suite.deleteAndAdd, pure, Except.pure] at d1
      exact d1.symm
    rw [hrun, hb, hs']
    obtain ⟨m, rfl⟩ : ∃ m, n = m + 1 := ⟨n - 1, by omega⟩
    have hp := C28_no_new_epoch_panics seed hseed0 u hwit s (List.replicate m s) t ht (by simpa using hn) (by
      rw [(h6 u (by simp)).epoch, getEpoch, ← hs', hlen, hs', h9]
      rfl) rand
    rw [List.replicate_succ]
    simp [hp, bind, Except.bind]

/-- The caller who does the steps of `User::update` by hand gets what `User::update` gives. -/
theorem split_tail (E : Pairing F G1 G2 GT) (params : AccParams G1 G2) (seed : Nat → Nat) (u : User F G1 G2)
    (w : Witness F G1) (hw : u.witness = some w) (s : Server F G1 G2) (V : G1) (hV : s.getAccumulator = .ok V)
    (n t : Nat) (hn : 0 < n) (rand : Nat → Nat → F) :
    (do
      let s0 ← idx (List.replicate n s) 0
      match ← u.prepareForUpdate seed s0.getEpoch n t rand with
      | .error _ => pure false
      | .ok upd =>
        let dvs ← (List.range n).mapM (fun i => do
          let s ← idx (List.replicate n s) i
          let ys ← idx upd.yShares i
          s.update upd.epochDiff ys)
        let w ← unwrap u.witness
        match ← User.postUpdate w.witness t upd.yShares upd.yValues dvs with
        | .error _ => pure false
        | .ok c =>
          let V ← s.getAccumulator
          let u0 : User F G1 G2 := { u with witness := u.witness.map (fun w => { w with witness := c }) }
          pure (decide (u0.checkWitness E params V = .ok ())) : Rust Bool)
      = (do
        let (u0, res) ← u.update seed (List.replicate n s) t rand
        if !res.isOk then return false
        let V ← s.getAccumulator
        pure (decide (u0.checkWitness E params V = .ok ()))) := by
  have hidx : idx (List.replicate n s) 0 = .ok s := by
    obtain ⟨m, rfl⟩ : ∃ m, n = m + 1 := ⟨n - 1, by omega⟩
    rfl
  unfold User.update
  simp only [hw, hidx, bind, Except.bind, pure, Except.pure, unwrap, List.length_replicate, hV, Option.map_some]
  cases u.prepareForUpdate seed s.getEpoch n t rand with
  | error e => rfl
  | ok r =>
    cases r with
    | error e => rfl
    | ok upd =>
      simp only
      generalize (List.mapM (m := Except Abort) _ (List.range n)) = m
      cases m with
      | error e => rfl
      | ok dvs =>
        simp only
        cases User.postUpdate w.witness t upd.yShares upd.yValues dvs with
        | error e => rfl
        | ok r =>
          cases r with
          | error e => rfl
          | ok c =>
            simp [User.checkWitness, Except.isOk, Except.toBool]
            exact decide_eq_decide.2 Iff.rfl

/-- **C95** `test_split_witness_update` and `test_witness_split_update_add` give the same result as `test_witness_update`
and `test_witness_update_add` on the same random choices. -/
theorem C95_split_update (E : Pairing F G1 G2 GT) (H : Oracle F) (enc : Enc G1 G2 GT) (params : AccParams G1 G2)
    (hP : params.p2 ≠ 0) (hK : params.k2 ≠ 0) (α sM v : F) (r₀ : Suite.NewUser F) (rs : List (Suite.NewUser F))
    (hg : ∀ r ∈ r₀ :: rs, r.id ≠ -α ∧ r.id ≠ -sM) (hnd : ((r₀ :: rs).map (·.id)).Nodup)
    (others : List F) (ho : -α ∉ others) (n t : Nat) (hn : 0 < n) (seed : Nat → Nat) (rand : Nat → Nat → F) :
    Suite.splitUpdate E H enc params seed α sM v (r₀ :: rs) others n t rand
      = Suite.witnessUpdate E H enc params seed α sM v (r₀ :: rs) others n t rand := by
  obtain ⟨s₀, u, us, s, ops, b, h1, h2, -, h4, h5, h6, h7, h8, h9, h10⟩ :=
    suite_setup E H enc params hP hK α sM v r₀ rs hg hnd
  obtain ⟨ops', s', d1, d2, d3, d4, d5⟩ := deleteAndAdd_ok params α sM v ops h7 s h8 us others ho
  obtain ⟨w, hw⟩ : ∃ w, u.witness = some w := by
    have := (h6 u (by simp)).valid
    cases hx : u.witness with
    | none => simp [User.checkWitness, hx] at this
    | some w => exact ⟨w, rfl⟩
  obtain ⟨-, -, -, V, hV⟩ := C20_no_panic params α sM v _ s' d3 u.id
  have ht := split_tail E params seed u w hw s' V hV n t hn rand
  unfold Suite.splitUpdate Suite.witnessUpdate
  simp only [h1, bind, Except.bind, pure, Except.pure, idx, List.drop_succ_cons, List.drop_zero, h2, d1] at ht ⊢
  cases b
  · simp
  · exact ht

/-- A presentation by an enrolled user: the proof is made, and it is accepted for the accumulator of its enrolment. -/
theorem enrolled_proof (E : Pairing F G1 G2 GT) (H : Oracle F) (enc : Enc G1 G2 GT) (params : AccParams G1 G2)
    (α sM v : F) (u : User F G1 G2) (hu : Enrolled E params α sM v u) (eph : Bytes) (rand : ProofRand F) :
    ∃ p, u.makeMembershipProof E H enc params ⟨α • params.p2, sM • params.k2⟩ eph rand = some p ∧
      checkProof E H enc p params ⟨α • params.p2, sM • params.k2⟩ (v • params.p1) eph = true := by
  have h := (C42_user E H enc u params eph rand).1
  rw [hu.acc, hu.keys] at h
  exact h hu.valid

/-- **C95** (`basic_membership_proof`), for any number of users: every presentation is accepted, if no id is the negative
of a secret key; else the test panics. -/
theorem C95_present_all (E : Pairing F G1 G2 GT) (H : Oracle F) (enc : Enc G1 G2 GT) (params : AccParams G1 G2)
    (hP : params.p2 ≠ 0) (hK : params.k2 ≠ 0) (α sM v : F) (news : List (Suite.NewUser F)) (eph : Nat → Bytes)
    (rand : Nat → ProofRand F) :
    ((∀ r ∈ news, r.id ≠ -α ∧ r.id ≠ -sM) → Suite.presentAll E H enc params α sM v news eph rand = .ok true) ∧
    ((∃ r ∈ news, r.id = -α ∨ r.id = -sM) →
      ∃ e, Suite.presentAll E H enc params α sM v news eph rand = .error e) := by
  constructor
  · intro h
    obtain ⟨s, us, h1, h2, -, h4⟩ := enrol_ok E H enc params hP hK α sM v news h
    have hq : ∀ op ∈ (news.map (·.id)).map Op.add, op.isQuick = false := by
      intro op ho
      obtain ⟨y, -, rfl⟩ := List.mem_map.1 ho
      rfl
    have hI := invW_run params α sM v _ hq s h2
    have hdel : s.deletions = [] := by rw [(C15_refines params α sM v _ s h2).1, regRun_adds_log]
    have hV : s.getAccumulator = .ok (v • params.p1) := by
      rw [getAccumulator, hI.last, hdel]
      simp [unwrap, accAfter]
    have hpk : s.getPublicKeys = ⟨α • params.p2, sM • params.k2⟩ := (keys_run h2).1
    have hone : ∀ u ∈ us, ∀ i, Suite.present E H enc params s u (eph i) (rand i) = .ok true := by
      intro u hu i
      obtain ⟨p, e1, e2⟩ := enrolled_proof E H enc params α sM v u (h4 u hu) (eph i) (rand i)
      simp [Suite.present, hpk, e1, hV, e2, unwrap, bind, Except.bind, pure, Except.pure]
    have hloop : ∀ (l : List (User F G1 G2 × Nat)), (∀ p ∈ l, p.1 ∈ us) →
        l.foldlM (fun ok (p : User F G1 G2 × Nat) => do
          let b ← Suite.present E H enc params s p.1 (eph p.2) (rand p.2)
          pure (ok && b)) true = (.ok true : Rust Bool) := by
      intro l hl
      induction l with
      | nil => rfl
      | cons p l ih =>
        rw [List.foldlM_cons]
        simp only [hone p.1 (hl p (by simp)), bind, Except.bind, pure, Except.pure, Bool.and_true] at ih ⊢
        exact ih (fun q hq => hl q (by simp [hq]))
    unfold Suite.presentAll
    simp only [h1, bind, Except.bind]
    exact hloop us.zipIdx (fun p hp => List.fst_mem_of_mem_zipIdx hp)
  · intro h
    obtain ⟨e, he⟩ := enrol_err E H enc params hP hK α sM v news h
    exact ⟨e, by simp [Suite.presentAll, he, bind, Except.bind]⟩

theorem stale_binding (E : Pairing F G1 G2 GT) (H : Oracle F) (enc : Enc G1 G2 GT) (params : AccParams G1 G2)
    (hi1 : Function.Injective enc.g1) (hi2 : Function.Injective enc.g2) (hi3 : Function.Injective enc.gt)
    (p : CredProof F G1) (pk : PublicKeys G2) (V V' : G1) (eph : Bytes) (h : checkProof E H enc p params pk V eph = true)
    (h' : checkProof E H enc p params pk V' eph = true) (hd : V ≠ V') :
    checkTranscript E enc p params pk V eph ≠ checkTranscript E enc p params pk V' eph ∧
      H (checkTranscript E enc p params pk V eph) "challenge" = H (checkTranscript E enc p params pk V' eph) "challenge" :=
  C45_binding E H enc hi1 hi2 hi3 p (ProofContext.mk params pk V eph) (ProofContext.mk params pk V' eph) h h' (Or.inl hd)

/-- **C95** (`basic_membership_proof_failure`), for any number of users with distinct ids: the test never panics; it
passes, unless the deletions left the accumulator as it was (their keys multiply to one, or it is the identity) or one
of the proofs is accepted for both accumulators by a collision of the challenge hash. In the first case it fails. -/
theorem C95_present_stale (E : Pairing F G1 G2 GT) (H : Oracle F) (enc : Enc G1 G2 GT) (params : AccParams G1 G2)
    (hi1 : Function.Injective enc.g1) (hi2 : Function.Injective enc.g2) (hi3 : Function.Injective enc.gt)
    (hP : params.p2 ≠ 0) (hK : params.k2 ≠ 0) (α sM v : F) (r₀ : Suite.NewUser F) (rs : List (Suite.NewUser F))
    (hg : ∀ r ∈ r₀ :: rs, r.id ≠ -α ∧ r.id ≠ -sM) (hnd : ((r₀ :: rs).map (·.id)).Nodup) (eph : Nat → Bytes)
    (rand : Nat → ProofRand F) :
    ((((rs.map (·.id)).map (fun d => d + α)).prod = 1 ∨ v • params.p1 = 0) →
      Suite.presentStale E H enc params α sM v (r₀ :: rs) eph rand = .ok false) ∧
    ((((rs.map (·.id)).map (fun d => d + α)).prod ≠ 1 ∧ v • params.p1 ≠ 0) →
      Suite.presentStale E H enc params α sM v (r₀ :: rs) eph rand = .ok true ∨
      Suite.presentStale E H enc params α sM v (r₀ :: rs) eph rand = .ok false ∧
        ∃ p i, i < rs.length + 1 ∧
          let pk : PublicKeys G2 := ⟨α • params.p2, sM • params.k2⟩
          let V := v • params.p1
          let V' := (((rs.map (·.id)).map (fun d => d + α)).prod)⁻¹ • V
          checkProof E H enc p params pk V (eph i) = true ∧ checkProof E H enc p params pk V' (eph i) = true ∧
          checkTranscript E enc p params pk V (eph i) ≠ checkTranscript E enc p params pk V' (eph i) ∧
          H (checkTranscript E enc p params pk V (eph i)) "challenge"
            = H (checkTranscript E enc p params pk V' (eph i)) "challenge") := by
  obtain ⟨s₀, u, us, s, ops, b, h1, -, h3, h4, h5, h6, h7, h8, h9, -⟩ :=
    suite_setup E H enc params hP hK α sM v r₀ rs hg hnd
  have hpp : ((rs.map (·.id)).map (fun d => d + α)).prod = prodPlus α (rs.map (·.id)) := by simp [prodPlus]
  have hI := invW_run params α sM v _ h7 s h8
  have hV : s.getAccumulator = .ok (accAfter α (v • params.p1) (rs.map (·.id))) := by
    rw [getAccumulator, hI.last, h9]; rfl
  have hpk : s.getPublicKeys = ⟨α • params.p2, sM • params.k2⟩ := (keys_run h8).1
  have hlen : (u :: us).length = rs.length + 1 := by simpa using congrArg List.length h5
  -- one presentation
  have hone : ∀ w ∈ u :: us, ∀ i, ∃ p, checkProof E H enc p params ⟨α • params.p2, sM • params.k2⟩ (v • params.p1) (eph i) = true ∧
      Suite.present E H enc params s w (eph i) (rand i) = .ok (checkProof E H enc p params ⟨α • params.p2, sM • params.k2⟩
        (accAfter α (v • params.p1) (rs.map (·.id))) (eph i)) := by
    intro w hw i
    obtain ⟨p, e1, e2⟩ := enrolled_proof E H enc params α sM v w (h6 w hw) (eph i) (rand i)
    exact ⟨p, e2, by simp [Suite.present, hpk, e1, hV, unwrap, bind, Except.bind, pure, Except.pure]⟩
  have hrun : Suite.presentStale E H enc params α sM v (r₀ :: rs) eph rand
      = (u :: us).zipIdx.foldlM (fun ok (p : User F G1 G2 × Nat) => do
          let b ← Suite.present E H enc params s p.1 (eph p.2) (rand p.2)
          pure (ok && !b)) true := by
    unfold Suite.presentStale
    have h3' := h3
    simp only [bind, Except.bind, pure, Except.pure] at h3'
    simp only [h1, bind, Except.bind, pure, Except.pure, List.drop_succ_cons, List.drop_zero, h3']
  have hloop : ∀ (l : List (User F G1 G2 × Nat)) (b : Bool), (∀ p ∈ l, p.1 ∈ u :: us) →
      ∃ c, l.foldlM (fun ok (p : User F G1 G2 × Nat) => do
          let b ← Suite.present E H enc params s p.1 (eph p.2) (rand p.2)
          pure (ok && !b)) b = (.ok c : Rust Bool) ∧
        (c = true ↔ b = true ∧ ∀ p ∈ l, Suite.present E H enc params s p.1 (eph p.2) (rand p.2) = .ok false) := by
    intro l
    induction l with
    | nil => intro b _; exact ⟨b, rfl, by simp⟩
    | cons p l ih =>
      intro b hl
      obtain ⟨q, -, e⟩ := hone p.1 (hl p (by simp)) p.2
      obtain ⟨c, c1, c2⟩ := ih (b && !checkProof E H enc q params ⟨α • params.p2, sM • params.k2⟩
        (accAfter α (v • params.p1) (rs.map (·.id))) (eph p.2)) (fun r hr => hl r (by simp [hr]))
      refine ⟨c, ?_, ?_⟩
      · rw [List.foldlM_cons, e]
        simpa [bind, Except.bind, pure, Except.pure] using c1
      · rw [c2, List.forall_mem_cons, e]
        simp only [Bool.and_eq_true, Bool.not_eq_true', Except.ok.injEq, and_assoc]
  obtain ⟨c, c1, c2⟩ := hloop (u :: us).zipIdx true (fun p hp => List.fst_mem_of_mem_zipIdx hp)
  rw [hrun, c1, hpp]
  constructor
  · intro hx
    have hsame : accAfter α (v • params.p1) (rs.map (·.id)) = v • params.p1 := by
      unfold accAfter
      rcases hx with hx | hx
      · rw [hx, inv_one, one_smul]
      · rw [hx, smul_zero]
    cases c with
    | false => rfl
    | true =>
      have := (c2.1 rfl).2 (u, 0) (by simp)
      obtain ⟨p, e1, e2⟩ := hone u (by simp) 0
      rw [hsame, e1] at e2
      rw [e2] at this
      cases this
  · rintro ⟨hx1, hx2⟩
    cases c with
    | true => exact .inl rfl
    | false =>
      refine .inr ⟨rfl, ?_⟩
      have hex : ∃ q ∈ (u :: us).zipIdx, Suite.present E H enc params s q.1 (eph q.2) (rand q.2) ≠ .ok false := by
        by_contra hno
        push Not at hno
        exact absurd (c2.2 ⟨rfl, hno⟩) (by simp)
      obtain ⟨q, hq, hne⟩ := hex
      obtain ⟨p, e1, e2⟩ := hone q.1 (List.fst_mem_of_mem_zipIdx hq) q.2
      have e3 : checkProof E H enc p params ⟨α • params.p2, sM • params.k2⟩
          (accAfter α (v • params.p1) (rs.map (·.id))) (eph q.2) = true := by
        rw [e2] at hne
        cases hc : checkProof E H enc p params ⟨α • params.p2, sM • params.k2⟩
          (accAfter α (v • params.p1) (rs.map (·.id))) (eph q.2) with
        | true => rfl
        | false => rw [hc] at hne; exact absurd rfl hne
      have hdiff : v • params.p1 ≠ accAfter α (v • params.p1) (rs.map (·.id)) := by
        intro he
        unfold accAfter at he
        rw [← sub_eq_zero] at he
        have he : ((1 : F) - (prodPlus α (rs.map (·.id)))⁻¹) • (v • params.p1) = 0 := by rw [sub_smul, one_smul, he]
        rcases smul_eq_zero.1 he with he | he
        · have := (sub_eq_zero.1 he).symm
          rw [inv_eq_one] at this
          exact hx1 this
        · exact hx2 he
      have hb := stale_binding E H enc params hi1 hi2 hi3 p _ _ _ _ e1 e3 hdiff
      refine ⟨p, q.2, ?_, e1, e3, hb⟩
      have := List.snd_lt_of_mem_zipIdx hq
      simp only [hlen] at this
      omega

/-- An injective encoding of `ℚ`, for the example below. -/
noncomputable def exSuiteEnc : Enc ℚ ℚ ℚ :=
  ⟨fun q => List.replicate (Encodable.encode q) 0, fun q => List.replicate (Encodable.encode q) 0,
    fun q => List.replicate (Encodable.encode q) 0⟩

theorem exSuiteEnc_injective : Function.Injective (fun q : ℚ => (List.replicate (Encodable.encode q) 0 : Bytes)) := by
  intro a b h
  have := congrArg List.length h
  simpa using this

/-- Three users with ids `1, 2, 3` and the keys `4, 9`, the last two revoked, two others added: all system tests pass,
with three servers and threshold two; with an id `-9` they panic; with the single revoked id `-3` (`-3 + 4 = 1`), the
revoked user's witness still verifies and the update tests fail; the stale presentation is accepted. -/
example (H : Oracle ℚ) (key nonce : ℚ) (rand : Nat → Nat → ℚ) (eph : Nat → Bytes) (pr : Nat → ProofRand ℚ) :
    let new (y : ℚ) : Suite.NewUser ℚ := ⟨y, key, nonce⟩
    let E := Pairing.field ℚ
    Suite.witnessIssue E H exSuiteEnc exParams 4 9 6 [new 1, new 2, new 3] = .ok true ∧
    (∃ e, Suite.witnessIssue E H exSuiteEnc exParams 4 9 6 [new 1, new (-9)] = .error e) ∧
    Suite.witnessUpdate E H exSuiteEnc exParams id 4 9 6 [new 1, new 2, new 3] [7, 8] 3 2 rand = .ok true ∧
    Suite.splitUpdate E H exSuiteEnc exParams id 4 9 6 [new 1, new 2, new 3] [7, 8] 3 2 rand = .ok true ∧
    Suite.witnessUpdate E H exSuiteEnc exParams id 4 9 6 [new 1, new (-3)] [] 3 2 rand ≠ .ok true ∧
    Suite.presentAll E H exSuiteEnc exParams 4 9 6 [new 1, new 2, new 3] eph pr = .ok true ∧
    Suite.presentStale E H exSuiteEnc exParams 4 9 6 [new 1, new (-3)] eph pr = .ok false := by
  intro new E
  have hP : exParams.p2 ≠ 0 := by simp [exParams]
  have hK : exParams.k2 ≠ 0 := by simp [exParams]
  have hc : ∀ i : Nat, 0 < i → i ≤ 3 → (i : ℚ) ≠ 0 := fun i h _ => by exact_mod_cast h.ne'
  have hs : ∀ d, 1 ≤ d → 1 ≤ id d := fun d h => h
  have hs0 : id 0 = 0 := rfl
  have hu : Suite.witnessUpdate E H exSuiteEnc exParams id 4 9 6 [new 1, new 2, new 3] [7, 8] 3 2 rand = .ok true := by
    refine ((C95_witness_update E H exSuiteEnc exParams hP hK 4 9 6 (new 1) [new 2, new 3] ?_ ?_ [7, 8] ?_ 3 2 le_rfl
      (by omega) hc id hs hs0 rand).1 (by simp)).1.2 ?_
    · simp [new]; norm_num
    · simp [new]
    · norm_num
    · intro j h1 h2
      have h2 : j ≤ 2 := by simpa using h2
      interval_cases j <;> simp [new, exParams] <;> norm_num
  refine ⟨(C95_witness_issue E H _ _ hP hK 4 9 6 _).1 ?_, (C95_witness_issue E H _ _ hP hK 4 9 6 _).2 ?_, hu, ?_, ?_,
    (C95_present_all E H _ _ hP hK 4 9 6 _ eph pr).1 ?_,
    (C95_present_stale E H exSuiteEnc _ exSuiteEnc_injective exSuiteEnc_injective exSuiteEnc_injective hP hK 4 9 6 (new 1)
      [new (-3)] ?_ ?_ eph pr).1 ?_⟩
  · simp [new]; norm_num
  · exact ⟨new (-9), by simp, .inr rfl⟩
  · rw [C95_split_update E H exSuiteEnc exParams hP hK 4 9 6 (new 1) [new 2, new 3] (by simp [new]; norm_num)
      (by simp [new]) [7, 8] (by norm_num) 3 2 (by omega) id rand, hu]
  · intro h
    have := ((C95_witness_update E H exSuiteEnc exParams hP hK 4 9 6 (new 1) [new (-3)] (by simp [new]; norm_num)
      (by simp [new]; norm_num) [] (by simp) 3 2 le_rfl (by omega) hc id hs hs0 rand).1 (by simp)).1.1 h 1 le_rfl
      (by simp)
    exact this.1 (by simp [new]; norm_num)
  · simp [new]; norm_num
  · simp [new]; norm_num
  · simp [new]; norm_num
  · left; simp [new]; norm_num

end
end Allo
