import Verif.Props.Update

/-!
# C120: servers that mix `delete` and `quick_delete` in any way

`Server::delete` (src/servers.rs:77-95) takes the new accumulator from the stored witness of the deleted user and
brings the other stored witnesses up to date; `Server::quick_delete` (src/servers.rs:99-116) computes the new
accumulator with the secret key and leaves the stored witnesses as they are. C16, C17, C25 and others are about
histories in which no `delete` follows a `quick_delete`. Here every history is allowed.
-/

set_option linter.unusedSectionVars false
set_option linter.unusedVariables false
namespace Spec
open Allo Allo.Server

/-- What a server that mixes the calls holds, as multiples of its first accumulator `V₀`: the current accumulator
is `cur · V₀`, and the stored witness of a member `m` is a valid witness for the point `b · V₀`, where
`ref m = some b` (`none`: not a member). The member is *fresh* if `ref m = some cur`. -/
structure Mix (F : Type) where
  cur : F
  ref : F → Option F

variable {F : Type} [Field F] [DecidableEq F]

/-- a new server -/
def Mix.start : Mix F := ⟨1, fun _ => none⟩

/-- one call -/
def Mix.step (α : F) (m : Mix F) : Op F → Mix F
  | .add y => if m.ref y = none then ⟨m.cur, fun z => if z = y then some m.cur else m.ref z⟩ else m
  | .quickDelete y =>
    if m.ref y = none then m else ⟨m.cur / (y + α), fun z => if z = y then none else m.ref z⟩
  | .delete y =>
    match m.ref y with
    | none => m
    | some a => ⟨a / (y + α), fun z => if z = y then none
        else (m.ref z).map (fun b => a / (y + α) + (b - a) / (y - z))⟩

/-- a history of calls -/
def Mix.run (α : F) (m : Mix F) (ops : List (Op F)) : Mix F := ops.foldl (Mix.step α) m

/-- every `delete` hits a fresh member (or nobody) -/
def SafeFrom (α : F) : Mix F → List (Op F) → Prop
  | _, [] => True
  | m, op :: ops => (∀ y, op = .delete y → m.ref y = none ∨ m.ref y = some m.cur) ∧ SafeFrom α (m.step α op) ops

/-- A criterion that needs no secrets: every `delete` hits a member added since the last `quick_delete` (or
nobody). First argument: the members; second: those added since the last `quick_delete`. -/
def Careful : List F → List F → List (Op F) → Prop
  | _, _, [] => True
  | ms, fr, .add y :: ops => if y ∈ ms then Careful ms fr ops else Careful (y :: ms) (y :: fr) ops
  | ms, fr, .quickDelete y :: ops => if y ∈ ms then Careful (ms.filter (· ≠ y)) [] ops else Careful ms fr ops
  | ms, fr, .delete y :: ops => (y ∈ ms → y ∈ fr) ∧ Careful (ms.filter (· ≠ y)) (fr.filter (· ≠ y)) ops

end Spec

namespace Allo
open Spec Finset Server

section
variable {F G1 G2 GT : Type} [Field F] [DecidableEq F] [AddCommGroup G1] [Module F G1]
  [DecidableEq G1] [AddCommGroup G2] [Module F G2] [AddCommGroup GT] [Module F GT] [DecidableEq GT]

/-- the server's state is the one described by `m` -/
structure InvM (α : F) (V₀ : G1) (m : Mix F) (s : Server F G1 G2) : Prop where
  key : s.witnessSecretKey = α
  last : s.accumulators.getLast? = some (m.cur • V₀)
  len : s.accumulators.length = s.deletions.length + 1
  wits : ∀ p ∈ s.allWitnesses, ∃ b, m.ref p.1 = some b ∧ (p.1 + α) • p.2 = b • V₀
  ids : ∀ z, m.ref z = none ↔ z ∉ s.ids
  idsne : ∀ z ∈ s.ids, z + α ≠ 0

theorem invM_new (params : AccParams G1 G2) (α sM v : F) :
    InvM α (v • params.p1) Mix.start (Server.new params α sM v) := by
  refine ⟨rfl, ?_, rfl, ?_, ?_, ?_⟩
  · simp [Server.new, Mix.start]
  · intro p hp; simp [Server.new] at hp
  · intro z; simp [Server.new, Mix.start, Server.ids]
  · intro z hz; simp [Server.new, Server.ids] at hz

theorem invM_step {α : F} {V₀ : G1} {m : Mix F} {s s' : Server F G1 G2} {op : Op F} {r : Option G1}
    (hI : InvM α V₀ m s) (h : s.step op = .ok (s', r)) : InvM α V₀ (m.step α op) s' := by
  rcases step_cases h with ⟨rfl, -, hc⟩ | ⟨y, V, rfl, hy, hV, h0, -, rfl⟩ |
    ⟨y, C, rfl, hC, -, rfl⟩ | ⟨y, V, rfl, hy, hV, h0, -, rfl⟩
  · have : m.step α op = m := by
      rcases hc with ⟨y, rfl, hy⟩ | ⟨y, rfl | rfl, hy⟩
      · rw [Mix.step, if_neg]
        rw [hI.ids]; simpa using hy
      · rw [Mix.step, (hI.ids y).2 hy]
      · rw [Mix.step, if_pos ((hI.ids y).2 hy)]
    rw [this]; exact hI
  · rw [hI.key] at h0 ⊢
    rw [hI.last] at hV
    injection hV with hV
    subst hV
    rw [Mix.step, if_pos ((hI.ids y).2 hy)]
    refine ⟨rfl, hI.last, hI.len, ?_, ?_, ?_⟩
    · intro p hp
      simp only [mapInsert, List.mem_cons] at hp
      rcases hp with rfl | hp
      · refine ⟨m.cur, by simp, ?_⟩
        rw [smul_smul, mul_inv_cancel₀ h0, one_smul]
      · obtain ⟨hp, hne⟩ := mem_mapErase.1 hp
        obtain ⟨b, h1, h2⟩ := hI.wits p hp
        exact ⟨b, by simp [hne, h1], h2⟩
    · intro z
      by_cases hz : z = y
      · subst hz; simp [Server.ids, mapInsert]
      · simp only [hz, if_false]
        rw [hI.ids z, Server.ids, Server.ids]
        simp only [mapInsert, List.map_cons, List.mem_cons, hz, false_or]
        rw [ids_erase]
        simp [hz, Server.ids]
    · intro z hz
      simp only [Server.ids, mapInsert, List.map_cons, List.mem_cons] at hz
      rcases hz with rfl | hz
      · exact h0
      · exact hI.idsne z (ids_erase.1 hz).1
  · have hyid : y ∈ s.ids := by
      rw [Server.ids]; exact List.mem_map.2 ⟨_, mapGet_mem hC, rfl⟩
    obtain ⟨a, ha, hCa⟩ := hI.wits _ (mapGet_mem hC)
    have h0 := hI.idsne y hyid
    simp only at ha hCa
    have hCe : C = (a / (y + α)) • V₀ := by
      rw [div_eq_inv_mul, mul_smul, ← hCa, smul_smul, inv_mul_cancel₀ h0, one_smul]
    have hst : m.step α (.delete y) = ⟨a / (y + α), fun z => if z = y then none
        else (m.ref z).map (fun b => a / (y + α) + (b - a) / (y - z))⟩ := by
      rw [Mix.step, ha]
    rw [hst]
    refine ⟨hI.key, by simp [hCe], by simp [hI.len], ?_, ?_, ?_⟩
    · intro p hp
      obtain ⟨q, hq, rfl⟩ := List.mem_map.1 hp
      obtain ⟨hq, hne⟩ := mem_mapErase.1 hq
      obtain ⟨b, h1, h2⟩ := hI.wits q hq
      have hd : y - q.1 ≠ 0 := sub_ne_zero.2 (Ne.symm hne)
      refine ⟨_, by simp only [hne, if_false, h1, Option.map_some]; rfl, ?_⟩
      simp only
      have h3 : (q.1 + α) • (y - q.1)⁻¹ • (q.2 - C)
          = (y - q.1)⁻¹ • ((q.1 + α) • q.2 - (y + α) • C) + C := by
        have : C = ((y - q.1)⁻¹ * (y - q.1)) • C := by rw [inv_mul_cancel₀ hd, one_smul]
        conv_rhs => rw [this]
        match_scalars <;> field_simp <;> ring
      rw [h3, h2, hCa, hCe, ← sub_smul, smul_smul, ← add_smul]
      congr 1
      rw [div_eq_inv_mul (b - a)]
      ring
    · intro z
      simp only [Server.ids]
      rw [ids_erase_map]
      by_cases hz : z = y
      · subst hz; simp
      · simp only [hz, if_false, Option.map_eq_none_iff, not_false_eq_true, and_true, ne_eq]
        exact hI.ids z
    · intro z hz
      simp only [Server.ids] at hz
      exact hI.idsne z ((ids_erase_map _).1 hz).1
  · rw [hI.key] at h0 ⊢
    rw [hI.last] at hV
    injection hV with hV
    subst hV
    have hne : ¬ m.ref y = none := by rw [hI.ids]; simpa using hy
    rw [Mix.step, if_neg hne]
    refine ⟨rfl, ?_, by simp [hI.len], ?_, ?_, ?_⟩
    · simp [div_eq_inv_mul, mul_smul]
    · intro p hp
      obtain ⟨hp, hne⟩ := mem_mapErase.1 hp
      obtain ⟨b, h1, h2⟩ := hI.wits p hp
      exact ⟨b, by simp [hne, h1], h2⟩
    · intro z
      simp only [Server.ids]
      rw [ids_erase]
      by_cases hz : z = y
      · subst hz; simp
      · simp only [hz, if_false, not_false_eq_true, and_true, ne_eq]
        exact hI.ids z
    · intro z hz
      simp only [Server.ids] at hz
      exact hI.idsne z (ids_erase.1 hz).1

theorem invM_run {α : F} {V₀ : G1} (ops : List (Op F)) {m : Mix F} {s s' : Server F G1 G2}
    (hI : InvM α V₀ m s) (h : s.run ops = .ok s') : InvM α V₀ (m.run α ops) s' := by
  induction ops generalizing m s with
  | nil => simp only [run_nil, Except.ok.injEq] at h; exact h ▸ hI
  | cons op ops ih =>
    obtain ⟨s1, r, h1, h2⟩ := run_cons_ok h
    exact ih (invM_step hI h1) h2

/-! ## the state of the server after any history -/

/-- C120, any history: the current accumulator is `cur · V₀`; the members are those with a `ref`; and the stored witness
of a member `z` is `b/(z+α) · V₀` with `b = ref z`. -/
theorem C120_state (params : AccParams G1 G2) (α sM v : F) (ops : List (Op F)) (s : Server F G1 G2)
    (h : (Server.new params α sM v).run ops = .ok s) :
    s.getAccumulator = .ok ((Mix.start.run α ops).cur • v • params.p1) ∧
    (∀ z, z ∈ s.ids ↔ (Mix.start.run α ops).ref z ≠ none) ∧
    ∀ z C, mapGet s.allWitnesses z = some C →
      ∃ b, (Mix.start.run α ops).ref z = some b ∧ z + α ≠ 0 ∧ C = (b / (z + α)) • v • params.p1 := by
  have hI := invM_run ops (invM_new params α sM v) h
  refine ⟨by rw [getAccumulator, hI.last]; rfl, fun z => by rw [Ne, hI.ids]; simp, ?_⟩
  intro z C hC
  obtain ⟨b, h1, h2⟩ := hI.wits _ (mapGet_mem hC)
  have h0 : z + α ≠ 0 := hI.idsne z (by rw [Server.ids]; exact List.mem_map.2 ⟨_, mapGet_mem hC, rfl⟩)
  refine ⟨b, h1, h0, ?_⟩
  simp only at h2
  rw [div_eq_inv_mul, mul_smul, ← h2, smul_smul, inv_mul_cancel₀ h0, one_smul]

/-- C120, issuing after any history: `create_witness` of a member gives a credential that passes `check_witness` against
the current accumulator exactly if the member is fresh (or the first accumulator is the identity). -/
theorem C120_issue (E : Pairing F G1 G2 GT) (H : Oracle F) (enc : Enc G1 G2 GT)
    (params : AccParams G1 G2) (hP : params.p2 ≠ 0) (hK : params.k2 ≠ 0) (α sM v : F)
    (ops : List (Op F)) (srv : Server F G1 G2)
    (h : (Server.new params α sM v).run ops = .ok srv) (u : User F G1 G2) (y : F)
    (hu : User.new srv y = .ok u) (hy : y ∈ srv.ids) (hs : y ≠ -sM) (key k : F) :
    ∃ u' V, u.createWitness H enc params srv key k = .ok u' ∧ srv.getAccumulator = .ok V ∧
      (u'.checkWitness E params V = .ok () ↔
        (Mix.start.run α ops).ref y = some (Mix.start.run α ops).cur ∨ v • params.p1 = 0) := by
  have hI := invM_run ops (invM_new params α sM v) h
  have hk := keys_run h
  generalize Mix.start.run α ops = m at hI ⊢
  have hacc : srv.getAccumulator = .ok (m.cur • v • params.p1) := by rw [getAccumulator, hI.last]; rfl
  have hu' : u = ⟨y, none, m.cur • v • params.p1, srv.publicKeys, srv.getEpoch⟩ := by
    rw [User.new, hacc] at hu
    simp only [bind, Except.bind, pure, Except.pure, Except.ok.injEq] at hu
    exact hu.symm
  have hs' : y + srv.signSecretKey ≠ 0 := by
    rw [hk.2.2]; exact fun h0 => hs (eq_neg_of_add_eq_zero_left h0)
  generalize hc : enrolChallenge H enc (key • params.k1) (k • params.k1) = c
  have hcom : (k - c * key) • params.k1 + c • key • params.k1 = k • params.k1 := by module
  obtain ⟨hw, -⟩ := (C21_witness H enc params srv y c (k - c * key) (key • params.k1)).2.2 hy
    (by rw [hcom]; exact hc)
  obtain ⟨C, R, hw1, hw2, hw3⟩ := hw hs'
  have hcall : u.createWitness H enc params srv key k = .ok { u with
      witness := some { secretKey := key, witness := C, signature := R }
      epoch := srv.getEpoch
      accumulator := m.cur • v • params.p1 } := by
    unfold User.createWitness
    have hH : H (((Transcript.new "user_signature_proof").append "user_pub_key"
      (enc.g1 (key • params.k1))).append "commitment" (enc.g1 (k • params.k1))) "challenge" = c := hc
    simp only [hH]
    rw [show u.id = y by rw [hu'], hw1]
    simp only [bind, Except.bind, hacc, pure, Except.pure]
  refine ⟨_, _, hcall, hacc, ?_⟩
  rw [(C23_check_witness E params hP hK α sM _ (by rw [hu']; exact hk.1) _).1]
  obtain ⟨b, hb1, hb2⟩ := hI.wits _ (mapGet_mem hw2)
  simp only at hb1 hb2
  have key' : (y + α) • C = m.cur • v • params.p1 ↔ m.ref y = some m.cur ∨ v • params.p1 = 0 := by
    rw [hb2, hb1, Option.some.injEq, ← sub_eq_zero, ← sub_smul, smul_eq_zero, sub_eq_zero]
  rw [← key']
  constructor
  · rintro ⟨x, e, h1, -⟩
    injection e with e
    subst e
    simpa only [hu', IsWitness] using h1
  · intro h1
    refine ⟨_, rfl, by simpa only [hu', IsWitness] using h1, ?_⟩
    simp only [hu']
    rw [← hk.2.2]; exact hw3

/-! ## updates after any history -/

/-- following a log in which the accumulators need not fit the deleted ids -/
theorem followLog_defect (α y : F) (log : List (F × G1)) (V C : G1) (hy : y ∉ log.map (·.1)) :
    (y + α) • followLog y log C
      = (log.map (·.2)).getLastD V + (prodMinus y (log.map (·.1)))⁻¹ • ((y + α) • C - V
        + ∑ i ∈ range log.length, prodMinus y ((log.map (·.1)).take i) •
          ((V :: log.map (·.2)).getD i 0 - ((log.map (·.1)).getD i 0 + α) • (log.map (·.2)).getD i 0)) := by
  induction log generalizing V C with
  | nil => simp [followLog]
  | cons p r ih =>
    simp only [List.map_cons, List.mem_cons, not_or] at hy
    have hne : p.1 - y ≠ 0 := sub_ne_zero.2 (Ne.symm hy.1)
    rw [followLog_cons, ih p.2 _ hy.2]
    simp only [List.map_cons, List.length_cons, List.getLastD_cons]
    rw [Finset.sum_range_succ']
    simp only [List.take_succ_cons, List.getD_cons_succ, List.getD_cons_zero, List.take_zero, prodMinus_cons]
    rw [show prodMinus y ([] : List F) = 1 from rfl, one_smul]
    simp_rw [mul_smul]
    rw [← Finset.smul_sum]
    congr 1
    rw [mul_inv, mul_comm (p.1 - y)⁻¹, mul_smul]
    congr 1
    generalize (∑ i ∈ range r.length, _ : G1) = S
    have hS : S = ((p.1 - y)⁻¹ * (p.1 - y)) • S := by rw [inv_mul_cancel₀ hne, one_smul]
    have hp : p.2 = ((p.1 - y)⁻¹ * (p.1 - y)) • p.2 := by rw [inv_mul_cancel₀ hne, one_smul]
    conv_lhs => rw [hS]
    have : (y + α) • (p.1 - y)⁻¹ • (C - p.2) - p.2
        = (p.1 - y)⁻¹ • ((y + α) • C - (p.1 + α) • p.2) := by
      conv_lhs => rw [sub_eq_add_neg, hp]
      match_scalars <;> field_simp <;> ring
    rw [this]
    module

/-- C120, updates after any history: a user with a valid credential for its recorded epoch, not deleted since. `update`
returns `Ok`, and the new witness passes `check_witness` exactly if the mismatches `V_i - (d_i + α) V_{i+1}` between
successive published accumulators and deleted ids, weighted with the products of `d_j - id` before them, cancel. -/
theorem C120_update (E : Pairing F G1 G2 GT) (params : AccParams G1 G2) (hP : params.p2 ≠ 0)
    (hK : params.k2 ≠ 0) (α sM v : F) (ops : List (Op F)) (srv : Server F G1 G2)
    (h : (Server.new params α sM v).run ops = .ok srv) (servers : List (Server F G1 G2))
    (hs : ∀ s' ∈ servers, s'.accumulators = srv.accumulators ∧ s'.deletions = srv.deletions)
    (t : Nat) (ht : 2 ≤ t)
    (hn : t ≤ servers.length) (hc : ∀ i, 0 < i → i ≤ servers.length → (i : F) ≠ 0)
    (seed : Nat → Nat) (hseed : ∀ d, 1 ≤ d → 1 ≤ seed d) (u : User F G1 G2)
    (hu : u.publicKeys = srv.getPublicKeys) (he1 : 1 ≤ u.epoch) (he2 : u.epoch < srv.getEpoch)
    (Ve : G1) (hVe : srv.accumulators[u.epoch - 1]? = some Ve)
    (hw : u.checkWitness E params Ve = .ok ())
    (hid : u.id ∉ srv.deletions.drop (u.epoch - 1)) (rand : Nat → Nat → F) :
    ∃ u' V, srv.getAccumulator = .ok V ∧ u.update seed servers t rand = .ok (u', .ok ()) ∧
      (u'.checkWitness E params V = .ok () ↔
        ∑ i ∈ range (srv.getEpoch - u.epoch),
          (((srv.deletions.drop (u.epoch - 1)).take i).map (fun d => d - u.id)).prod •
            (srv.accumulators.getD (u.epoch - 1 + i) 0
              - (srv.deletions.getD (u.epoch - 1 + i) 0 + α) • srv.accumulators.getD (u.epoch + i) 0) = 0) := by
  have hlen := accs_length_run params α sM v ops srv h
  have hk := (keys_run h).1
  rw [getEpoch] at he2 ⊢
  rw [getPublicKeys, hk] at hu
  obtain ⟨w, hw1, hw2, hw3⟩ := (C23_check_witness E params hP hK α sM u hu Ve).1.1 hw
  obtain ⟨V, hV⟩ : ∃ V, srv.accumulators.getLast? = some V := by
    cases e : srv.accumulators.getLast? with
    | none => rw [List.getLast?_eq_none_iff] at e; rw [e] at hlen; simp at hlen
    | some V => exact ⟨V, rfl⟩
  have hcore := update_core seed hseed u w hw1 srv hlen V hV servers hs t ht hn hc he1 he2 rand
  rw [if_neg hid] at hcore
  refine ⟨_, V, by rw [getAccumulator, hV]; rfl, hcore, ?_⟩
  rw [(C23_check_witness E params hP hK α sM _ (by exact hu) _).1]
  have hfst : (srv.published (srv.accumulators.length - u.epoch)).map (·.1)
      = srv.deletions.drop (u.epoch - 1) := by
    rw [published_fst srv hlen]
    congr 1; omega
  have hsnd : (srv.published (srv.accumulators.length - u.epoch)).map (·.2)
      = srv.accumulators.drop u.epoch := by
    rw [published_snd srv hlen]
    congr 1; omega
  have hl : (srv.published (srv.accumulators.length - u.epoch)).length = srv.accumulators.length - u.epoch := by
    have := congrArg List.length hsnd
    simpa using this
  have haff := followLog_defect α u.id (srv.published (srv.accumulators.length - u.epoch)) Ve w.witness
    (by rw [hfst]; exact hid)
  rw [hfst, hsnd, hl, show (u.id + α) • w.witness = Ve from hw2, sub_self, zero_add] at haff
  have hne : (prodMinus u.id (srv.deletions.drop (u.epoch - 1)))⁻¹ ≠ 0 :=
    inv_ne_zero (fun e => hid (prodMinus_eq_zero.1 e))
  have hlastD : (srv.accumulators.drop u.epoch).getLastD Ve = V := by
    have : (srv.accumulators.drop u.epoch).getLast? = some V := by
      rw [List.getLast?_drop, if_neg (by omega), hV]
    rw [List.getLastD_eq_getLast?, this]; rfl
  have hcons : Ve :: srv.accumulators.drop u.epoch = srv.accumulators.drop (u.epoch - 1) := by
    obtain ⟨hlt, hget⟩ := List.getElem?_eq_some_iff.1 hVe
    rw [List.drop_eq_getElem_cons hlt, hget]
    congr 2; omega
  rw [hlastD, hcons] at haff
  have hsum : (∑ i ∈ range (srv.accumulators.length - u.epoch),
      prodMinus u.id ((srv.deletions.drop (u.epoch - 1)).take i) •
        ((srv.accumulators.drop (u.epoch - 1)).getD i 0
          - ((srv.deletions.drop (u.epoch - 1)).getD i 0 + α) • (srv.accumulators.drop u.epoch).getD i 0))
      = ∑ i ∈ range (srv.accumulators.length - u.epoch),
          (((srv.deletions.drop (u.epoch - 1)).take i).map (fun d => d - u.id)).prod •
            (srv.accumulators.getD (u.epoch - 1 + i) 0
              - (srv.deletions.getD (u.epoch - 1 + i) 0 + α) • srv.accumulators.getD (u.epoch + i) 0) := by
    apply Finset.sum_congr rfl
    intro i _
    simp only [List.getD_eq_getElem?_getD, List.getElem?_drop]
    rfl
  rw [hsum] at haff
  constructor
  · rintro ⟨w', e, h1, h2⟩
    injection e with e
    subst e
    unfold IsWitness at h1
    simp only at h1
    rw [haff] at h1
    have := add_eq_left.1 h1
    rw [smul_eq_zero] at this
    exact this.resolve_left hne
  · intro e
    refine ⟨_, rfl, ?_, hw3⟩
    unfold IsWitness
    simp only
    rw [haff, e, smul_zero, add_zero]

/-! ## safe histories -/

theorem invA_safe_step {α : F} {V₀ : G1} {m : Mix F} {s s' : Server F G1 G2} {op : Op F} {r : Option G1}
    (hM : InvM α V₀ m s) (hI : InvA α V₀ s)
    (hsafe : ∀ y, op = .delete y → m.ref y = none ∨ m.ref y = some m.cur) (h : s.step op = .ok (s', r)) :
    InvA α V₀ s' := by
  by_cases hd : op.isDelete = false
  · exact invA_step hd hI h
  rcases step_cases h with ⟨rfl, -, hc⟩ | ⟨y, V, rfl, -⟩ | ⟨y, C, rfl, hC, -, rfl⟩ | ⟨y, V, rfl, -⟩
  · exact hI
  · exact absurd rfl hd
  · have hyid : y ∈ s.ids := by
      rw [Server.ids]; exact List.mem_map.2 ⟨_, mapGet_mem hC, rfl⟩
    have h0 := hI.idsne y hyid
    obtain ⟨a, ha, hCa⟩ := hM.wits _ (mapGet_mem hC)
    simp only at ha hCa
    have hacur : a = m.cur := by
      rcases hsafe y rfl with e | e
      · rw [ha] at e; cases e
      · rw [ha] at e; exact Option.some.inj e
    have hlast := hI.last
    rw [hM.last] at hlast
    have hCe : C = (y + α)⁻¹ • accAfter α V₀ s.deletions := by
      rw [← Option.some.inj hlast, ← hacur, ← hCa, smul_smul, inv_mul_cancel₀ h0, one_smul]
    -- a `quick_delete` of the same id gives the same accumulators and log
    have hq : s.step (.quickDelete y) = .ok ({ s with
        accumulators := s.accumulators ++ [C]
        allWitnesses := mapErase s.allWitnesses y
        deletions := s.deletions ++ [y] }, some C) := by
      have := quickDelete_member hyid hI.last (by rwa [hI.key])
      rw [hI.key, ← hCe] at this
      rw [Server.step, this, hI.key]
    have hA := invA_step rfl hI hq
    refine ⟨hA.key, hA.accs, hA.noneg, ?_⟩
    intro z hz
    simp only [Server.ids] at hz
    exact hI.idsne z ((ids_erase_map _).1 hz).1
  · exact absurd rfl hd

theorem invA_new' (params : AccParams G1 G2) (α sM v : F) :
    InvA α (v • params.p1) (Server.new params α sM v) := (invW_new params α sM v).toInvA

theorem invA_safe_run {α : F} {V₀ : G1} (ops : List (Op F)) {m : Mix F} {s s' : Server F G1 G2}
    (hM : InvM α V₀ m s) (hI : InvA α V₀ s) (hsafe : SafeFrom α m ops) (h : s.run ops = .ok s') :
    InvA α V₀ s' := by
  induction ops generalizing m s with
  | nil => simp only [run_nil, Except.ok.injEq] at h; exact h ▸ hI
  | cons op ops ih =>
    obtain ⟨s1, r, h1, h2⟩ := run_cons_ok h
    exact ih (invM_step hM h1) (invA_safe_step hM hI hsafe.1 h1) hsafe.2 h2

/-- C120, safe histories: if every `delete` hits a fresh member (or nobody), the calls being mixed in any other way,
then the `i`-th accumulator is the first one divided by the first `i` deleted elements, as in C16. -/
theorem C120_safe_history (params : AccParams G1 G2) (α sM v : F) (ops : List (Op F))
    (hsafe : SafeFrom α Mix.start ops)
    (s : Server F G1 G2) (h : (Server.new params α sM v).run ops = .ok s) :
    s.accumulators.length = s.deletions.length + 1 ∧
    ∀ i ≤ s.deletions.length, s.accumulators[i]? =
      some (((s.deletions.take i).map (fun d => d + α)).prod⁻¹ • (v • params.p1)) := by
  have hI := invA_safe_run ops (invM_new params α sM v) (invA_new' params α sM v) hsafe h
  exact ⟨hI.length, fun i hi => hI.get i hi⟩

/-- the mismatches of a chain of accumulators are 0 -/
theorem defect_zero {α : F} {V₀ : G1} {s : Server F G1 G2} (hI : InvA α V₀ s) (i : Nat)
    (hi : i < s.deletions.length) :
    s.accumulators.getD i 0 - (s.deletions.getD i 0 + α) • s.accumulators.getD (i + 1) 0 = 0 := by
  rw [List.getD_eq_getElem?_getD, List.getD_eq_getElem?_getD (i := i + 1), hI.get i (by omega), hI.get (i + 1) hi,
    List.getD_eq_getElem?_getD, List.getElem?_eq_getElem hi]
  simp only [Option.getD_some]
  rw [List.take_succ_eq_append_getElem hi, accAfter_snoc, smul_smul, mul_inv_cancel₀, one_smul, sub_self]
  intro e
  exact hI.noneg (by rw [← eq_neg_of_add_eq_zero_left e]; exact List.getElem_mem hi)

/-- C120, updates after safe histories: as C25, for every history in which each `delete` hits a fresh member. -/
theorem C120_safe_update (E : Pairing F G1 G2 GT) (params : AccParams G1 G2) (hP : params.p2 ≠ 0)
    (hK : params.k2 ≠ 0) (α sM v : F) (ops : List (Op F)) (hsafe : SafeFrom α Mix.start ops)
    (srv : Server F G1 G2)
    (h : (Server.new params α sM v).run ops = .ok srv) (servers : List (Server F G1 G2))
    (hs : ∀ s' ∈ servers, s'.accumulators = srv.accumulators ∧ s'.deletions = srv.deletions)
    (t : Nat) (ht : 2 ≤ t)
    (hn : t ≤ servers.length) (hc : ∀ i, 0 < i → i ≤ servers.length → (i : F) ≠ 0)
    (seed : Nat → Nat) (hseed : ∀ d, 1 ≤ d → 1 ≤ seed d) (u : User F G1 G2)
    (hu : u.publicKeys = srv.getPublicKeys) (he1 : 1 ≤ u.epoch) (he2 : u.epoch < srv.getEpoch)
    (Ve : G1) (hVe : srv.accumulators[u.epoch - 1]? = some Ve)
    (hw : u.checkWitness E params Ve = .ok ())
    (hid : u.id ∉ srv.deletions.drop (u.epoch - 1)) (rand : Nat → Nat → F) :
    ∃ u' V, srv.getAccumulator = .ok V ∧ u.update seed servers t rand = .ok (u', .ok ()) ∧
      u'.checkWitness E params V = .ok () := by
  have hI := invA_safe_run ops (invM_new params α sM v) (invA_new' params α sM v) hsafe h
  obtain ⟨u', V, a1, a2, a3⟩ := C120_update E params hP hK α sM v ops srv h servers hs t ht hn hc seed hseed u hu
    he1 he2 Ve hVe hw hid rand
  refine ⟨u', V, a1, a2, a3.2 ?_⟩
  apply Finset.sum_eq_zero
  intro i hi
  have hlen := hI.length
  rw [Finset.mem_range, getEpoch] at hi
  have := defect_zero hI (u.epoch - 1 + i) (by omega)
  rw [show u.epoch - 1 + i + 1 = u.epoch + i by omega] at this
  rw [this, smul_zero]

/-- C120, one unsafe `delete` breaks every update: after a safe history the server deletes a member `y` that is not
fresh. Then every user with a valid credential for any earlier epoch that was not deleted since and updates up to this
deletion gets `Ok` and a witness that fails `check_witness`. -/
theorem C120_unsafe_update (E : Pairing F G1 G2 GT) (params : AccParams G1 G2) (hP : params.p2 ≠ 0)
    (hK : params.k2 ≠ 0) (α sM v : F) (hv : v • params.p1 ≠ 0) (ops : List (Op F))
    (hsafe : SafeFrom α Mix.start ops) (y a : F)
    (hy : (Mix.start.run α ops).ref y = some a) (ha : a ≠ (Mix.start.run α ops).cur) (srv : Server F G1 G2)
    (h : (Server.new params α sM v).run (ops ++ [.delete y]) = .ok srv) (servers : List (Server F G1 G2))
    (hs : ∀ s' ∈ servers, s'.accumulators = srv.accumulators ∧ s'.deletions = srv.deletions)
    (t : Nat) (ht : 2 ≤ t)
    (hn : t ≤ servers.length) (hc : ∀ i, 0 < i → i ≤ servers.length → (i : F) ≠ 0)
    (seed : Nat → Nat) (hseed : ∀ d, 1 ≤ d → 1 ≤ seed d) (u : User F G1 G2)
    (hu : u.publicKeys = srv.getPublicKeys) (he1 : 1 ≤ u.epoch) (he2 : u.epoch < srv.getEpoch)
    (Ve : G1) (hVe : srv.accumulators[u.epoch - 1]? = some Ve)
    (hw : u.checkWitness E params Ve = .ok ())
    (hid : u.id ∉ srv.deletions.drop (u.epoch - 1)) (rand : Nat → Nat → F) :
    ∃ u' V, srv.getAccumulator = .ok V ∧ u.update seed servers t rand = .ok (u', .ok ()) ∧
      u'.checkWitness E params V ≠ .ok () := by
  obtain ⟨u', V, a1, a2, a3⟩ := C120_update E params hP hK α sM v _ srv h servers hs t ht hn hc seed hseed u hu
    he1 he2 Ve hVe hw hid rand
  refine ⟨u', V, a1, a2, ?_⟩
  rw [Ne, a3]
  obtain ⟨s, q1, q2⟩ := run_append.1 h
  have hI := invA_safe_run ops (invM_new params α sM v) (invA_new' params α sM v) hsafe q1
  have hM := invM_run ops (invM_new params α sM v) q1
  have hlen := hI.length
  obtain ⟨s1, r, q3, q4⟩ := run_cons_ok q2
  simp only [run_nil, Except.ok.injEq] at q4
  subst q4
  have hyid : y ∈ s.ids := by
    by_contra hcon
    rw [(hM.ids y).2 hcon] at hy
    cases hy
  obtain ⟨C, hC⟩ := mapGet_some_of_mem hyid
  rw [Server.step, delete_member hC] at q3
  have q3 := congrArg Prod.fst (Except.ok.inj q3)
  simp only at q3
  obtain ⟨b, hb, hCb⟩ := hM.wits _ (mapGet_mem hC)
  simp only at hb hCb
  rw [hy] at hb
  obtain rfl := Option.some.inj hb
  have hdel : s1.deletions = s.deletions ++ [y] := by rw [← q3]
  have haccs : s1.accumulators = s.accumulators ++ [C] := by rw [← q3]
  have hep : s1.getEpoch - u.epoch = (s.accumulators.length - u.epoch) + 1 := by
    rw [getEpoch, haccs] at he2 ⊢
    rw [List.length_append, List.length_singleton] at he2 ⊢
    omega
  have hle : u.epoch ≤ s.accumulators.length := by
    rw [getEpoch, haccs, List.length_append, List.length_singleton] at he2
    omega
  rw [hep, Finset.sum_range_succ, Finset.sum_eq_zero, zero_add]
  · rw [show u.epoch - 1 + (s.accumulators.length - u.epoch) = s.deletions.length by omega,
      show u.epoch + (s.accumulators.length - u.epoch) = s.accumulators.length by omega, hdel, haccs]
    rw [smul_eq_zero, not_or]
    constructor
    · intro e
      apply hid
      have : u.id ∈ (s.deletions ++ [y]).drop (u.epoch - 1) :=
        List.mem_of_mem_take (prodMinus_eq_zero.1 e)
      rwa [hdel]
    · have hl := hM.last
      rw [List.getLast?_eq_getElem?, show s.accumulators.length - 1 = s.deletions.length by omega] at hl
      rw [List.getD_eq_getElem?_getD, List.getElem?_append_left (by omega), hl,
        List.getD_eq_getElem?_getD, List.getElem?_append_right (le_refl _),
        List.getD_eq_getElem?_getD, List.getElem?_append_right (le_refl _)]
      simp only [Nat.sub_self, List.getElem?_cons_zero, Option.getD_some]
      rw [hCb, ← sub_smul, smul_eq_zero, not_or]
      exact ⟨fun e => ha (sub_eq_zero.1 e).symm, hv⟩
  · intro i hi
    rw [Finset.mem_range] at hi
    have := defect_zero hI (u.epoch - 1 + i) (by omega)
    rw [show u.epoch - 1 + i + 1 = u.epoch + i by omega] at this
    rw [hdel, haccs]
    rw [List.getD_eq_getElem?_getD, List.getElem?_append_left (by omega), ← List.getD_eq_getElem?_getD,
      List.getD_eq_getElem?_getD (l := s.deletions ++ [y]), List.getElem?_append_left (by omega),
      ← List.getD_eq_getElem?_getD, List.getD_eq_getElem?_getD (l := s.accumulators ++ [C]),
      List.getElem?_append_left (by omega), ← List.getD_eq_getElem?_getD, this, smul_zero]

/-! ## who is fresh -/

theorem careful_safe {α : F} (ops : List (Op F)) (m : Mix F) (ms fr : List F) (hms : ∀ z, m.ref z ≠ none ↔ z ∈ ms)
    (hfr : ∀ z ∈ fr, z ∈ ms → m.ref z = some m.cur) (h : Careful ms fr ops) : SafeFrom α m ops := by
  induction ops generalizing m ms fr with
  | nil => trivial
  | cons op ops ih =>
    cases op with
    | add y =>
      constructor
      · intro z e; cases e
      rw [Careful] at h
      by_cases hy : y ∈ ms
      · rw [if_pos hy] at h
        rw [Mix.step, if_neg ((hms y).2 hy)]
        exact ih m ms fr hms hfr h
      · rw [if_neg hy] at h
        have hn : m.ref y = none := by by_contra hc; exact hy ((hms y).1 hc)
        rw [Mix.step, if_pos hn]
        refine ih _ (y :: ms) (y :: fr) ?_ ?_ h
        · intro z
          by_cases hz : z = y
          · subst hz; simp
          · simp [hz, ← hms]
        · intro z h1 h2
          by_cases hz : z = y
          · subst hz; simp
          · simp only [List.mem_cons, hz, false_or] at h1 h2
            simp [hz, hfr z h1 h2]
    | quickDelete y =>
      constructor
      · intro z e; cases e
      rw [Careful] at h
      by_cases hy : y ∈ ms
      · rw [if_pos hy] at h
        rw [Mix.step, if_neg ((hms y).2 hy)]
        refine ih _ _ [] ?_ (by simp) h
        intro z
        by_cases hz : z = y
        · subst hz; simp
        · simp [hz, ← hms]
      · rw [if_neg hy] at h
        have hn : m.ref y = none := by by_contra hc; exact hy ((hms y).1 hc)
        rw [Mix.step, if_pos hn]
        exact ih m ms fr hms hfr h
    | delete y =>
      rw [Careful] at h
      obtain ⟨h1, h2⟩ := h
      by_cases hy : y ∈ ms
      · have hcur := hfr y (h1 hy) hy
        refine ⟨fun z e => ?_, ?_⟩
        · injection e with e; subst e; exact Or.inr hcur
        · rw [Mix.step, hcur]
          simp only
          refine ih _ _ _ ?_ ?_ h2
          · intro z
            by_cases hz : z = y
            · subst hz; simp
            · simp [hz, ← hms]
          · intro z k1 k2
            simp only [List.mem_filter, decide_eq_true_eq] at k1 k2
            simp only [k1.2, if_false, hfr z k1.1 k2.1, Option.map_some]
            simp
      · have hn : m.ref y = none := by by_contra hc; exact hy ((hms y).1 hc)
        refine ⟨fun z e => ?_, ?_⟩
        · injection e with e; subst e; exact Or.inl hn
        · rw [Mix.step, hn]
          simp only
          refine ih m _ _ ?_ ?_ h2
          · intro z
            rw [hms z, List.mem_filter]
            by_cases hz : z = y
            · subst hz; simp [hy]
            · simp [hz]
          · intro z k1 k2
            simp only [List.mem_filter, decide_eq_true_eq] at k1 k2
            exact hfr z k1.1 k2.1

/-- C120, a rule that is enough and needs no secrets: if every `delete` hits a member added since the last
`quick_delete` (or nobody), the history is safe, for every accumulator secret. -/
theorem C120_careful (α : F) (ops : List (Op F)) (h : Careful [] [] ops) : SafeFrom α Mix.start ops :=
  careful_safe ops Mix.start [] [] (by simp [Mix.start]) (by simp) h

/-- a list of calls without `delete` is careful -/
theorem careful_no_delete (ops : List (Op F)) (h : ∀ op ∈ ops, op.isDelete = false) (ms fr : List F) :
    Careful ms fr ops := by
  induction ops generalizing ms fr with
  | nil => trivial
  | cons op ops ih =>
    have ih := fun ms fr => ih (fun o ho => h o (by simp [ho])) ms fr
    cases op with
    | add y => rw [Careful]; split <;> exact ih _ _
    | quickDelete y => rw [Careful]; split <;> exact ih _ _
    | delete y => exact absurd (h (.delete y) (by simp)) (by simp [Op.isDelete])

/-- C120: the histories of C16 and C25 (`quick_delete` only after all `delete`s) follow that rule. -/
theorem C120_careful_covers (ops₁ ops₂ : List (Op F)) (h₁ : ∀ op ∈ ops₁, op.isQuick = false)
    (h₂ : ∀ op ∈ ops₂, op.isDelete = false) : Careful [] [] (ops₁ ++ ops₂) := by
  have key : ∀ (ms fr : List F), (∀ z ∈ ms, z ∈ fr) → Careful ms fr (ops₁ ++ ops₂) := by
    intro ms fr hsub
    induction ops₁ generalizing ms fr with
    | nil => exact careful_no_delete _ h₂ _ _
    | cons op ops ih =>
      have ih := fun ms fr hs => ih (fun o ho => h₁ o (by simp [ho])) ms fr hs
      cases op with
      | add y =>
        rw [List.cons_append, Careful]
        split
        · exact ih _ _ hsub
        · refine ih _ _ ?_
          intro z hz
          simp only [List.mem_cons] at hz ⊢
          exact hz.imp id (hsub z)
      | quickDelete y => exact absurd (h₁ (.quickDelete y) (by simp)) (by simp [Op.isQuick])
      | delete y =>
        rw [List.cons_append, Careful]
        refine ⟨hsub y, ih _ _ ?_⟩
        intro z hz
        simp only [List.mem_filter, decide_eq_true_eq] at hz ⊢
        exact ⟨hsub z hz.1, hz.2⟩
  exact key [] [] (by simp)

/-- C120: when members stop being fresh. A `quick_delete` of the member `q` makes every fresh member stale, unless
`q + α = 1` (or the accumulator is already 0); a `delete` of a fresh member keeps the fresh ones fresh and the stale ones
stale; a `delete` of a stale member makes exactly those fresh whose witnesses are valid for the same point as its own.
Adding makes only the new member fresh. -/
theorem C120_fresh (α : F) (m : Mix F) (z : F) :
    (∀ q, m.ref q ≠ none → z ≠ q → q + α ≠ 0 → m.ref z = some m.cur →
      ((m.step α (.quickDelete q)).ref z = some (m.step α (.quickDelete q)).cur ↔ q + α = 1 ∨ m.cur = 0)) ∧
    (∀ y a b, m.ref y = some a → z ≠ y → m.ref z = some b →
      ((m.step α (.delete y)).ref z = some (m.step α (.delete y)).cur ↔ b = a)) ∧
    (∀ y, m.ref y = none → ((m.step α (.add y)).ref z = some (m.step α (.add y)).cur ↔
      z = y ∨ m.ref z = some m.cur)) := by
  refine ⟨?_, ?_, ?_⟩
  · intro q hq hz h0 hf
    rw [Mix.step, if_neg hq]
    simp only [hz, if_false, hf, Option.some.injEq]
    rw [eq_div_iff h0]
    constructor
    · intro e
      by_cases hc : m.cur = 0
      · exact Or.inr hc
      · left
        exact mul_left_cancel₀ hc (by rw [e, mul_one])
    · rintro (e | e)
      · rw [e, mul_one]
      · rw [e, zero_mul]
  · intro y a b hy hz hb
    rw [Mix.step, hy]
    simp only [hz, if_false, hb, Option.map_some, Option.some.injEq]
    have hd : y - z ≠ 0 := sub_ne_zero.2 (Ne.symm hz)
    rw [add_eq_left, div_eq_zero_iff, sub_eq_zero]
    simp [hd]
  · intro y hy
    rw [Mix.step, if_pos hy]
    by_cases hz : z = y
    · simp [hz]
    · simp [hz]

/-! ### concrete histories -/

/-- a careful history in which `delete`s follow `quick_delete`s -/
def exCareful : List (Op ℚ) :=
  [.add 1, .add 2, .add 3, .quickDelete 1, .add 5, .delete 5, .add 8, .quickDelete 2, .delete 2, .add 9, .delete 9]

example : Careful [] [] exCareful ∧ ¬ (∀ op ∈ exCareful, op.isQuick = false) ∧
    ∃ s, (Server.new exParams 4 9 6).run exCareful = .ok s ∧ s.deletions = [1, 5, 2, 9] := by
  refine ⟨?_, by decide, ?_⟩
  · norm_num [exCareful, Careful]
  · have h : (match (Server.new exParams 4 9 6).run exCareful with
        | .ok s => decide (s.deletions = [1, 5, 2, 9])
        | .error _ => false) = true := by decide +kernel
    split at h
    · next s hs => exact ⟨s, hs, of_decide_eq_true h⟩
    · simp at h

/-- not careful: 2 was added before the `quick_delete` of 1 -/
def exUnsafe : List (Op ℚ) := [.add 1, .add 2, .add 3, .quickDelete 1]

theorem exUnsafe_run : ∃ srv, (Server.new exParams 4 9 6).run (exUnsafe ++ [.delete 2]) = .ok srv ∧
    srv.accumulators.length = 3 ∧ srv.accumulators[0]? = some 6 ∧ srv.deletions = [1, 2] := by
  have h : (match (Server.new exParams (4 : ℚ) 9 6).run (exUnsafe ++ [Op.delete (2 : ℚ)]) with
      | .ok s => decide (s.accumulators.length = 3 ∧ s.accumulators[0]? = some 6 ∧ s.deletions = [1, 2])
      | .error _ => false) = true := by decide +kernel
  split at h
  · next s hs => exact ⟨s, hs, of_decide_eq_true h⟩
  · simp at h

/-- user 3, valid at epoch 1, updates with three honest servers after it: `Ok`, and the witness is wrong -/
example (rand : Nat → Nat → ℚ) (seed : Nat → Nat) (hseed : ∀ d, 1 ≤ d → 1 ≤ seed d) :
    ∃ srv u' V, (Server.new exParams 4 9 6).run (exUnsafe ++ [.delete 2]) = .ok srv ∧
      srv.getAccumulator = .ok V ∧ exUser.update seed [srv, srv, srv] 2 rand = .ok (u', .ok ()) ∧
      u'.checkWitness (Pairing.field ℚ) exParams V ≠ .ok () := by
  obtain ⟨srv, h1, h2, h3, h4⟩ := exUnsafe_run
  have hkeys := (keys_run h1).1
  obtain ⟨u', V, a1, a2, a3⟩ := C120_unsafe_update (Pairing.field ℚ) exParams (by norm_num [exParams])
    (by norm_num [exParams]) 4 9 6 (by norm_num [exParams]) exUnsafe
    (C120_careful 4 _ (by norm_num [exUnsafe, Careful])) 2 1
    (by decide +kernel) (by decide +kernel)
    srv h1 [srv, srv, srv] (by simp) 2 (by norm_num) (by simp)
    (fun i h0 _ => by exact_mod_cast (Nat.pos_iff_ne_zero.1 h0)) seed hseed exUser
    (by rw [Server.getPublicKeys, hkeys]; norm_num [exUser, exParams]) (by norm_num [exUser])
    (by simp [Server.getEpoch, h2, exUser]) 6 (by simpa [exUser] using h3) exUser_ok
    (by simp [h4, exUser]) rand
  exact ⟨srv, u', V, h1, a1, a2, a3⟩

/-- and after the `quick_delete` of 1 member 2, that has not enrolled yet, is issued a credential that fails -/
example (H : Oracle ℚ) (enc : Enc ℚ ℚ ℚ) (key k : ℚ) :
    ∃ srv u u' V, (Server.new exParams 4 9 6).run exUnsafe = .ok srv ∧ User.new srv 2 = .ok u ∧
      u.createWitness H enc exParams srv key k = .ok u' ∧ srv.getAccumulator = .ok V ∧
      u'.checkWitness (Pairing.field ℚ) exParams V ≠ .ok () := by
  obtain ⟨full, h1, -⟩ := exUnsafe_run
  obtain ⟨srv, h2, -⟩ := run_append.1 h1
  have hst := C120_state exParams 4 9 6 exUnsafe srv h2
  have hm : (2 : ℚ) ∈ srv.ids := (hst.2.1 2).2 (by decide +kernel)
  obtain ⟨u, hu⟩ : ∃ u, User.new srv 2 = .ok u := by
    rw [User.new, hst.1]; exact ⟨_, rfl⟩
  obtain ⟨u', V, a1, a2, a3⟩ := C120_issue (Pairing.field ℚ) H enc exParams (by norm_num [exParams])
    (by norm_num [exParams]) 4 9 6 exUnsafe srv h2 u 2 hu hm (by norm_num) key k
  refine ⟨srv, u, u', V, h2, hu, a1, a2, ?_⟩
  rw [Ne, a3, not_or]
  exact ⟨by decide +kernel, by norm_num [exParams]⟩

end
end Allo
