import Verif.Props.Update
import Verif.Props.Enrol
import Verif.Props.Mixed

/-!
# C57: whole-system histories

A world is one logical server (all replicas publish the same log), and any number of users. The steps are
the calls of the API, in any order and any number: `Server::add`/`delete`/`quick_delete` (mixed such that each `delete`
hits a member added since the last `quick_delete`, or nobody: `Careful`, see C120), `User::new`,
`User::create_witness`, `User::update` (against any list of synchronised servers, with any threshold)
and `update` followed by the client setting the public field `epoch` itself.
-/

set_option linter.unusedSectionVars false
set_option linter.unusedVariables false
set_option linter.unusedSimpArgs false
namespace Allo
open Spec

/-- The server, the users by index, which users have updated since they last enrolled, and the calls to the server so far
(the last two are only recorded; they appear in the conditions of the steps). -/
structure World (F G1 G2 : Type) where
  srv : Server F G1 G2
  users : Nat → Option (User F G1 G2)
  updated : Nat → Bool
  calls : List (Server.Op F)

section
variable {F G1 G2 GT : Type} [Field F] [DecidableEq F] [AddCommGroup G1] [Module F G1]
  [DecidableEq G1] [AddCommGroup G2] [Module F G2] [AddCommGroup GT] [Module F GT] [DecidableEq GT]

/-- `f` with the value at `i` replaced. -/
def setAt {T : Type} (f : Nat → T) (i : Nat) (t : T) : Nat → T := fun j => if j = i then t else f j

/-- One API call that returned (did not panic). -/
inductive World.Step (E : Pairing F G1 G2 GT) (H : Oracle F) (enc : Enc G1 G2 GT) (params : AccParams G1 G2) (seed : Nat → Nat) :
    World F G1 G2 → World F G1 G2 → Prop
  /-- `add`, `quick_delete`, or `delete` of a member added since the last `quick_delete` (or of nobody), on the server (and
  its replicas) -/
  | server (w op s' r) (hop : Careful [] [] (w.calls ++ [op])) (h : w.srv.step op = .ok (s', r)) :
      Step E H enc params seed w { w with srv := s', calls := w.calls ++ [op] }
  /-- `User::new` -/
  | join (w i y u) (h : User.new w.srv y = .ok u) :
      Step E H enc params seed w { w with users := setAt w.users i (some u), updated := setAt w.updated i false }
  /-- `create_witness`; it counts as an enrolment when the server knows the id. If there were `quick_delete` calls, the
  credential is kept only if `check_witness` accepts it for the published accumulator -/
  | enrol (w i u u' key k) (hu : w.users i = some u)
      (h : u.createWitness H enc params w.srv key k = .ok u')
      (hfresh : (∀ op ∈ w.calls, op.isQuick = false) ∨
        ∀ V, w.srv.getAccumulator = .ok V → u'.checkWitness E params V = .ok ()) :
      Step E H enc params seed w ⟨w.srv, setAt w.users i (some u'),
        setAt w.updated i (if u.id ∈ w.srv.ids then false else w.updated i), w.calls⟩
  /-- `update`, not called again after it has succeeded -/
  | update (w i u u' r servers t rand) (hu : w.users i = some u) (hf : w.updated i = false)
      (hs : ∀ s' ∈ servers, s'.accumulators = w.srv.accumulators ∧ s'.deletions = w.srv.deletions)
      (hc : ∀ i : Nat, 0 < i → i ≤ servers.length → (i : F) ≠ 0)
      (h : u.update seed servers t rand = .ok (u', r)) :
      Step E H enc params seed w ⟨w.srv, setAt w.users i (some u'),
        setAt w.updated i (decide (r.isOk = true)), w.calls⟩
  /-- `update`, after which the client sets `user.epoch` to the servers' epoch if it succeeded -/
  | updateSet (w i u u' r servers t rand) (hu : w.users i = some u) (hf : w.updated i = false)
      (hs : ∀ s' ∈ servers, s'.accumulators = w.srv.accumulators ∧ s'.deletions = w.srv.deletions)
      (hc : ∀ i : Nat, 0 < i → i ≤ servers.length → (i : F) ≠ 0)
      (h : u.update seed servers t rand = .ok (u', r)) :
      Step E H enc params seed w ⟨w.srv, setAt w.users i
        (some (if r.isOk = true then { u' with epoch := w.srv.getEpoch } else u')), w.updated, w.calls⟩

/-- Histories: any number of steps from a new server with no users. -/
inductive World.Reach (E : Pairing F G1 G2 GT) (H : Oracle F) (enc : Enc G1 G2 GT) (params : AccParams G1 G2) (seed : Nat → Nat)
    (α sM v : F) : World F G1 G2 → Prop
  | init : Reach E H enc params seed α sM v ⟨Server.new params α sM v, fun _ => none, fun _ => false, []⟩
  | step (w w') (h : Reach E H enc params seed α sM v w) (hs : World.Step E H enc params seed w w') :
      Reach E H enc params seed α sM v w'

/-- What `update` can do when it returns, whatever the threshold. -/
theorem update_outcomes (seed : Nat → Nat) (hseed : ∀ d, 1 ≤ d → 1 ≤ seed d) (hseed0 : seed 0 = 0)
    (u : User F G1 G2) (s : Server F G1 G2)
    (hlen : s.accumulators.length = s.deletions.length + 1) (V : G1)
    (hV : s.accumulators.getLast? = some V) (servers : List (Server F G1 G2))
    (hs : Synced servers s) (t : Nat) (hc : ∀ i : Nat, 0 < i → i ≤ servers.length → (i : F) ≠ 0)
    (he1 : 1 ≤ u.epoch) (he2 : u.epoch ≤ s.accumulators.length) (rand : Nat → Nat → F)
    (u' : User F G1 G2) (r : Except String Unit) (h : u.update seed servers t rand = .ok (u', r)) :
    (u' = u ∧ r.isOk = false) ∨
    (∃ w, u.witness = some w ∧ 2 ≤ t ∧ t ≤ servers.length ∧ u.epoch < s.accumulators.length ∧
      u.id ∉ s.deletions.drop (u.epoch - 1) ∧ r = .ok () ∧
      u' = { u with witness := (some { w with witness :=
            (followLog u.id (s.published (s.accumulators.length - u.epoch)) w.witness) }), accumulator := V }) := by
  cases hw : u.witness with
  | none =>
    left
    unfold User.update at h
    rw [hw] at h
    simp only [pure, Except.pure, Except.ok.injEq, Prod.mk.injEq] at h
    exact ⟨h.1.symm, by rw [← h.2]; rfl⟩
  | some w =>
    obtain ⟨s0, rest, rfl⟩ : ∃ s0 rest, servers = s0 :: rest := by
      cases servers with
      | nil => unfold User.update at h; rw [hw] at h; simp [idx, bind, Except.bind] at h
      | cons a b => exact ⟨a, b, rfl⟩
    have hep : s0.getEpoch = s.accumulators.length := by rw [Server.getEpoch, (hs s0 (by simp)).1]
    by_cases ht : 2 ≤ t ∧ t ≤ (s0 :: rest).length
    · obtain ⟨ht, hn⟩ := ht
      have hlt : u.epoch < s.accumulators.length := by
        rcases Nat.lt_or_ge u.epoch s.accumulators.length with hlt | hge
        · exact hlt
        · have ha := C28_no_new_epoch_panics seed hseed0 u (by rw [hw]; simp) s0 rest t ht hn
            (by omega) rand
          rw [ha] at h; simp at h
      rw [update_core seed hseed u w hw s hlen V hV _ hs t ht hn hc he1 hlt rand] at h
      split at h
      · left
        simp only [Except.ok.injEq, Prod.mk.injEq] at h
        exact ⟨h.1.symm, by rw [← h.2]; rfl⟩
      · next hid =>
        right
        simp only [Except.ok.injEq, Prod.mk.injEq] at h
        exact ⟨w, rfl, ht, hn, hlt, hid, h.2.symm, h.1.symm⟩
    · left
      unfold User.update at h
      rw [hw] at h
      simp only [idx, List.getElem?_cons_zero, bind, Except.bind] at h
      unfold User.prepareForUpdate at h
      by_cases h1 : (s0 :: rest).length < t
      · rw [if_pos h1] at h
        simp only [pure, Except.pure, Except.ok.injEq, Prod.mk.injEq] at h
        exact ⟨h.1.symm, by rw [← h.2]; rfl⟩
      · rw [if_neg h1, if_pos (by omega)] at h
        simp only [bind, Except.bind, pure, Except.pure, Except.ok.injEq, Prod.mk.injEq] at h
        exact ⟨h.1.symm, by rw [← h.2]; rfl⟩

/-- Following the log keeps the witness valid (or makes it so exactly when it was). -/
theorem followLog_valid {α : F} {V₀ : G1} {s : Server F G1 G2} (hI : Server.InvA α V₀ s) (e : Nat) (he1 : 1 ≤ e)
    (he2 : e ≤ s.accumulators.length) (y : F) (C Ve : G1) (hVe : s.accumulators[e - 1]? = some Ve)
    (hw : IsWitness α Ve y C) (hid : y ∉ s.deletions.drop (e - 1)) :
    IsWitness α (accAfter α V₀ s.deletions) y (followLog y (s.published (s.accumulators.length - e)) C) := by
  have hlen := hI.length
  have hi : e - 1 ≤ s.deletions.length := by omega
  rw [hI.get _ hi] at hVe
  have hVe := Option.some.inj hVe
  have hch := chain_published hI (e - 1) hi
  rw [hVe, show s.deletions.length - (e - 1) = s.accumulators.length - e by omega] at hch
  have hfst : (s.published (s.accumulators.length - e)).map (·.1) = s.deletions.drop (e - 1) := by
    rw [published_fst s hlen]; congr 1; omega
  have haff := followLog_affine α y _ _ _ C hch (by rw [hfst]; exact hid)
  unfold IsWitness at hw ⊢
  rw [hw, sub_self, smul_zero, add_zero] at haff
  exact haff

/-- The invariant of all histories. -/
structure World.Inv (E : Pairing F G1 G2 GT) (params : AccParams G1 G2) (α sM v : F) (w : World F G1 G2) :
    Prop where
  server : Careful [] [] w.calls ∧ (Server.new params α sM v).run w.calls = .ok w.srv
  keys : w.srv.publicKeys = ⟨α • params.p2, sM • params.k2⟩ ∧ w.srv.signSecretKey = sM
  user : ∀ i u, w.users i = some u →
    u.publicKeys = w.srv.publicKeys ∧ 1 ≤ u.epoch ∧ u.epoch ≤ w.srv.accumulators.length ∧
    u.accumulator ∈ w.srv.accumulators ∧
    (w.updated i = false → w.srv.accumulators[u.epoch - 1]? = some u.accumulator) ∧
    (u.witness ≠ none → u.checkWitness E params u.accumulator = .ok ())

theorem World.Inv.invA {E : Pairing F G1 G2 GT} {params : AccParams G1 G2} {α sM v : F} {w : World F G1 G2}
    (hI : World.Inv E params α sM v w) : Server.InvA α (v • params.p1) w.srv :=
  invA_safe_run w.calls (invM_new params α sM v) (invA_new' params α sM v) (C120_careful α _ hI.server.1) hI.server.2

theorem setAt_cases {T : Type} {f : Nat → T} {i j : Nat} {t a : T} (h : setAt f i t j = a) :
    (j = i ∧ t = a) ∨ (j ≠ i ∧ f j = a) := by
  unfold setAt at h
  by_cases hj : j = i
  · left; exact ⟨hj, by simpa [hj] using h⟩
  · right; exact ⟨hj, by simpa [hj] using h⟩

theorem setAt_ne {T : Type} {f : Nat → T} {i j : Nat} {t : T} (h : j ≠ i) : setAt f i t j = f j := by
  simp [setAt, h]

theorem setAt_self {T : Type} {f : Nat → T} {i : Nat} {t : T} : setAt f i t i = t := by
  simp [setAt]

theorem World.inv_step (E : Pairing F G1 G2 GT) (H : Oracle F) (enc : Enc G1 G2 GT)
    (params : AccParams G1 G2) (hP : params.p2 ≠ 0) (hK : params.k2 ≠ 0) (seed : Nat → Nat)
    (hseed : ∀ d, 1 ≤ d → 1 ≤ seed d) (hseed0 : seed 0 = 0) (α sM v : F) (w w' : World F G1 G2)
    (hI : World.Inv E params α sM v w) (hst : World.Step E H enc params seed w w') :
    World.Inv E params α sM v w' := by
  have hlast := hI.invA.last
  have hlen := hI.invA.length
  have hget := hI.invA.get w.srv.deletions.length le_rfl
  rw [List.take_length] at hget
  have hacc : w.srv.getAccumulator = .ok (accAfter α (v • params.p1) w.srv.deletions) := by
    rw [Server.getAccumulator, hlast]; rfl
  have hmem : accAfter α (v • params.p1) w.srv.deletions ∈ w.srv.accumulators :=
    List.mem_of_getLast? hlast
  -- an update that succeeded
  have hupd : ∀ i u u' r servers t rand, w.users i = some u → w.updated i = false →
      (∀ s' ∈ servers, s'.accumulators = w.srv.accumulators ∧ s'.deletions = w.srv.deletions) →
      (∀ i : Nat, 0 < i → i ≤ servers.length → (i : F) ≠ 0) →
      u.update seed servers t rand = .ok (u', r) →
      (u' = u ∧ r.isOk = false) ∨ (r = .ok () ∧ u'.epoch = u.epoch ∧
        u'.publicKeys = u.publicKeys ∧
        u'.accumulator = accAfter α (v • params.p1) w.srv.deletions ∧
        u'.checkWitness E params (accAfter α (v • params.p1) w.srv.deletions) = .ok ()) := by
    intro i u u' r servers t rand hu hf hs hc h
    obtain ⟨a1, a2, a3, a4, a5, a6⟩ := hI.user i u hu
    rcases update_outcomes seed hseed hseed0 u w.srv hlen _ hlast servers hs t hc a2 a3 rand u' r h with
      h | ⟨wit, hw, -, -, -, hid, hr, rfl⟩
    · exact .inl h
    · right
      refine ⟨hr, rfl, rfl, rfl, ?_⟩
      have hk : u.publicKeys = ⟨α • params.p2, sM • params.k2⟩ := a1.trans hI.keys.1
      have hv := a6 (by rw [hw]; simp)
      rw [(C23_check_witness E params hP hK α sM u hk _).1] at hv
      obtain ⟨wit', hw', hv1, hv2⟩ := hv
      rw [hw] at hw'
      obtain rfl := Option.some.inj hw'
      rw [(C23_check_witness E params hP hK α sM _ (by exact hk) _).1]
      exact ⟨_, rfl, followLog_valid hI.invA u.epoch a2 a3 u.id _ _ (a5 hf) hv1 hid, hv2⟩
  cases hst with
  | server op s' r hop h =>
    have hrun1 : w.srv.run [op] = .ok s' := by
      simp [Server.run, h, bind, Except.bind, pure, Except.pure]
    have hext := run_extends [op] w.srv s' hrun1
    have hkey : s'.signSecretKey = w.srv.signSecretKey := by
      rcases Server.step_cases h with ⟨rfl, -, -⟩ | ⟨y, V, rfl, hy, hV, h0, -, rfl⟩ |
        ⟨y, C, rfl, hC, -, rfl⟩ | ⟨y, V, rfl, hy, hV, h0, -, rfl⟩ <;> rfl
    refine ⟨⟨hop, Server.run_append.2 ⟨_, hI.server.2, hrun1⟩⟩, ⟨hext.2.2.trans hI.keys.1, hkey.trans hI.keys.2⟩, ?_⟩
    intro i u hu
    obtain ⟨a1, a2, a3, a4, a5, a6⟩ := hI.user i u hu
    obtain ⟨suf, hsuf⟩ := hext.1
    refine ⟨a1.trans hext.2.2.symm, a2, le_trans a3 hext.1.length_le, hext.1.subset a4, ?_, a6⟩
    intro hf
    show s'.accumulators[u.epoch - 1]? = _
    rw [← hsuf, List.getElem?_append_left (by omega)]
    exact a5 hf
  | join i y u h =>
    refine ⟨hI.server, hI.keys, ?_⟩
    intro j u' hu'
    rcases setAt_cases hu' with ⟨rfl, hq⟩ | ⟨hj, hq⟩
    · obtain rfl := Option.some.inj hq
      rw [User.new, hacc] at h
      simp only [bind, Except.bind, pure, Except.pure, Except.ok.injEq] at h
      subst h
      refine ⟨rfl, ?_, le_rfl, hmem, ?_, fun h => absurd rfl h⟩
      · show 1 ≤ w.srv.accumulators.length
        omega
      · intro _
        show w.srv.accumulators[w.srv.accumulators.length - 1]? = _
        rw [hlen]; exact hget
    · have := hI.user j u' hq
      simp only [setAt_ne hj]
      exact this
  | enrol i u u' key k hu h hfresh =>
    refine ⟨hI.server, hI.keys, ?_⟩
    intro j x hx
    rcases setAt_cases hx with ⟨rfl, hq⟩ | ⟨hj, hq⟩
    · obtain rfl := Option.some.inj hq
      obtain ⟨a1, a2, a3, a4, a5, a6⟩ := hI.user j u hu
      by_cases hy : u.id ∈ w.srv.ids
      · by_cases hs : u.id + w.srv.signSecretKey = 0
        · exfalso
          unfold User.createWitness at h
          generalize hch : H (((Transcript.new "user_signature_proof").append "user_pub_key"
            (enc.g1 (key • params.k1))).append "commitment" (enc.g1 (k • params.k1))) "challenge" = c at h
          have hcom : (k - c * key) • params.k1 + c • key • params.k1 = k • params.k1 := by module
          have := ((C21_witness H enc params w.srv u.id c (k - c * key) (key • params.k1)).2.2 hy
            (by rw [hcom]; exact hch)).2 hs
          simp only [hch, this, bind, Except.bind] at h
          cases h
        · obtain ⟨C, R, h1, h2, h3⟩ := C55_complete H enc params w.srv _ hacc u hy hs key k
          rw [h3] at h
          have h := Except.ok.inj h
          subst h
          refine ⟨a1, ?_, le_rfl, hmem, ?_, ?_⟩
          · show 1 ≤ w.srv.accumulators.length
            omega
          · intro _
            show w.srv.accumulators[w.srv.accumulators.length - 1]? = _
            rw [hlen]; exact hget
          · intro _
            rcases hfresh with hnq | hchk
            · rw [(C23_check_witness E params hP hK α sM _ (by exact a1.trans hI.keys.1) _).1]
              refine ⟨_, rfl, (invW_run params α sM v w.calls hnq w.srv hI.server.2).wits _ (mapGet_mem h1), ?_⟩
              rw [← hI.keys.2]; exact h2
            · exact hchk _ hacc
      · rw [C22_nonmember H enc params w.srv u hy key k] at h
        obtain rfl := Except.ok.inj h
        refine ⟨a1, a2, a3, a4, ?_, a6⟩
        intro hf
        simp only [setAt_self, if_neg hy] at hf
        exact a5 hf
    · have := hI.user j x hq
      simp only [setAt_ne hj]
      exact this
  | update i u u' r servers t rand hu hf hs hc h =>
    refine ⟨hI.server, hI.keys, ?_⟩
    intro j x hx
    rcases setAt_cases hx with ⟨rfl, hq⟩ | ⟨hj, hq⟩
    · obtain rfl := Option.some.inj hq
      obtain ⟨a1, a2, a3, a4, a5, a6⟩ := hI.user j u hu
      rcases hupd j u u' r servers t rand hu hf hs hc h with ⟨rfl, hr⟩ | ⟨rfl, b1, b2, b3, b4⟩
      · exact ⟨a1, a2, a3, a4, fun _ => a5 hf, a6⟩
      · rw [b3, b1, b2]
        refine ⟨a1, a2, a3, hmem, ?_, fun _ => b4⟩
        intro hcon
        simp [setAt_self, Except.isOk, Except.toBool] at hcon
    · have := hI.user j x hq
      simp only [setAt_ne hj]
      exact this
  | updateSet i u u' r servers t rand hu hf hs hc h =>
    refine ⟨hI.server, hI.keys, ?_⟩
    intro j x hx
    rcases setAt_cases hx with ⟨rfl, hq⟩ | ⟨hj, hq⟩
    · have hx := Option.some.inj hq
      obtain ⟨a1, a2, a3, a4, a5, a6⟩ := hI.user j u hu
      rcases hupd j u u' r servers t rand hu hf hs hc h with ⟨rfl, hr⟩ | ⟨rfl, b1, b2, b3, b4⟩
      · rw [hr] at hx
        simp only [Bool.false_eq_true, if_false] at hx
        subst hx
        exact ⟨a1, a2, a3, a4, fun _ => a5 hf, a6⟩
      · simp only [Except.isOk, Except.toBool, if_true] at hx
        subst hx
        simp only [b3]
        refine ⟨b2.trans a1, ?_, le_rfl, hmem, ?_, fun _ => b4⟩
        · show 1 ≤ w.srv.accumulators.length
          omega
        · intro _
          show w.srv.accumulators[w.srv.accumulators.length - 1]? = _
          rw [hlen]; exact hget
    · exact hI.user j x hq

theorem World.inv_reach (E : Pairing F G1 G2 GT) (H : Oracle F) (enc : Enc G1 G2 GT)
    (params : AccParams G1 G2) (hP : params.p2 ≠ 0) (hK : params.k2 ≠ 0) (seed : Nat → Nat)
    (hseed : ∀ d, 1 ≤ d → 1 ≤ seed d) (hseed0 : seed 0 = 0) (α sM v : F) (w : World F G1 G2)
    (h : World.Reach E H enc params seed α sM v w) : World.Inv E params α sM v w := by
  induction h with
  | init => exact ⟨⟨trivial, rfl⟩, ⟨rfl, rfl⟩, fun i u h => by simp at h⟩
  | step w w' _ hs ih => exact World.inv_step E H enc params hP hK seed hseed hseed0 α sM v w w' ih hs

/-- **C57** (safety). After any history, every user that has a witness has a *valid* one: it passes
`check_witness` for the accumulator the user recorded, and that accumulator is one the server published. -/
theorem C57_recorded_valid (E : Pairing F G1 G2 GT) (H : Oracle F) (enc : Enc G1 G2 GT)
    (params : AccParams G1 G2) (hP : params.p2 ≠ 0) (hK : params.k2 ≠ 0) (seed : Nat → Nat)
    (hseed : ∀ d, 1 ≤ d → 1 ≤ seed d) (hseed0 : seed 0 = 0) (α sM v : F) (w : World F G1 G2)
    (h : World.Reach E H enc params seed α sM v w) (i : Nat) (u : User F G1 G2)
    (hu : w.users i = some u) (hw : u.witness ≠ none) :
    u.checkWitness E params u.accumulator = .ok () ∧ u.accumulator ∈ w.srv.accumulators := by
  have hI := (World.inv_reach E H enc params hP hK seed hseed hseed0 α sM v w h).user i u hu
  exact ⟨hI.2.2.2.2.2 hw, hI.2.2.2.1⟩

/-- **C57** (proofs). After any history, every user with a witness can make a membership proof, and a
verifier using the accumulator the user recorded accepts it. -/
theorem C57_proof_accepted (E : Pairing F G1 G2 GT) (H : Oracle F) (enc : Enc G1 G2 GT)
    (params : AccParams G1 G2) (hP : params.p2 ≠ 0) (hK : params.k2 ≠ 0) (seed : Nat → Nat)
    (hseed : ∀ d, 1 ≤ d → 1 ≤ seed d) (hseed0 : seed 0 = 0) (α sM v : F) (w : World F G1 G2)
    (h : World.Reach E H enc params seed α sM v w) (i : Nat) (u : User F G1 G2)
    (hu : w.users i = some u) (hw : u.witness ≠ none) (eph : Bytes) (rand : ProofRand F) :
    ∃ p, u.makeMembershipProof E H enc params u.publicKeys eph rand = some p ∧
      checkProof E H enc p params u.publicKeys u.accumulator eph = true :=
  (C42_user E H enc u params eph rand).1
    (C57_recorded_valid E H enc params hP hK seed hseed hseed0 α sM v w h i u hu hw).1

/-- **C57** (liveness of the first update). After any history, a user that has a witness, has not updated
since it enrolled and was not deleted since then, and is behind the servers, updates successfully with
any `t ≥ 2` out of `n ≥ t` synchronised servers, to a witness valid for the current accumulator; a user
that was deleted gets the error "user has been deleted" and is not changed. -/
theorem C57_update_succeeds (E : Pairing F G1 G2 GT) (H : Oracle F) (enc : Enc G1 G2 GT)
    (params : AccParams G1 G2) (hP : params.p2 ≠ 0) (hK : params.k2 ≠ 0) (seed : Nat → Nat)
    (hseed : ∀ d, 1 ≤ d → 1 ≤ seed d) (hseed0 : seed 0 = 0) (α sM v : F) (w : World F G1 G2)
    (h : World.Reach E H enc params seed α sM v w) (i : Nat) (u : User F G1 G2)
    (hu : w.users i = some u) (hw : u.witness ≠ none) (hf : w.updated i = false)
    (hlt : u.epoch < w.srv.getEpoch) (servers : List (Server F G1 G2))
    (hs : ∀ s' ∈ servers, s'.accumulators = w.srv.accumulators ∧ s'.deletions = w.srv.deletions)
    (t : Nat) (ht : 2 ≤ t) (hn : t ≤ servers.length)
    (hc : ∀ i : Nat, 0 < i → i ≤ servers.length → (i : F) ≠ 0) (rand : Nat → Nat → F) :
    ∃ V, w.srv.getAccumulator = .ok V ∧
      (u.id ∉ w.srv.deletions.drop (u.epoch - 1) → ∃ u', u.update seed servers t rand = .ok (u', .ok ()) ∧
        u'.checkWitness E params V = .ok () ∧ u'.accumulator = V) ∧
      (u.id ∈ w.srv.deletions.drop (u.epoch - 1) →
        u.update seed servers t rand = .ok (u, .error "user has been deleted")) := by
  have hI := World.inv_reach E H enc params hP hK seed hseed hseed0 α sM v w h
  obtain ⟨a1, a2, a3, a4, a5, a6⟩ := hI.user i u hu
  obtain ⟨wit, hwit⟩ := Option.ne_none_iff_exists'.1 hw
  have hlast := hI.invA.last
  have hcore := update_core seed hseed u wit hwit w.srv hI.invA.length _ hlast servers hs t ht hn
    hc a2 hlt rand
  refine ⟨_, by rw [Server.getAccumulator, hlast]; rfl, ?_, ?_⟩
  · intro hid
    rw [if_neg hid] at hcore
    refine ⟨_, hcore, ?_, rfl⟩
    have hk : u.publicKeys = ⟨α • params.p2, sM • params.k2⟩ := a1.trans hI.keys.1
    have hv := a6 hw
    rw [(C23_check_witness E params hP hK α sM u hk _).1] at hv
    obtain ⟨wit', hw', hv1, hv2⟩ := hv
    rw [hwit] at hw'
    obtain rfl := Option.some.inj hw'
    rw [(C23_check_witness E params hP hK α sM _ (by exact hk) _).1]
    exact ⟨_, rfl, followLog_valid hI.invA u.epoch a2 a3 u.id _ _ (a5 hf) hv1 hid, hv2⟩
  · intro hid
    rw [hcore, if_pos hid]


/-- a history that is careful was careful before -/
theorem careful_append (a b : List (Server.Op F)) :
    ∀ ms fr : List F, Careful ms fr (a ++ b) → Careful ms fr a := by
  induction a with
  | nil => intro _ _ _; trivial
  | cons op a ih =>
    intro ms fr h
    cases op with
    | add y =>
      rw [List.cons_append, Careful] at h
      rw [Careful]
      split <;> rename_i hy <;> simp only [hy, if_true, if_false] at h <;> exact ih _ _ h
    | quickDelete y =>
      rw [List.cons_append, Careful] at h
      rw [Careful]
      split <;> rename_i hy <;> simp only [hy, if_true, if_false] at h <;> exact ih _ _ h
    | delete y =>
      rw [List.cons_append, Careful] at h
      rw [Careful]
      exact ⟨h.1, ih _ _ h.2⟩

/-- Any non-panicking server history is a history of the world. -/
theorem World.reach_run {E : Pairing F G1 G2 GT} {H : Oracle F} {enc : Enc G1 G2 GT} {params : AccParams G1 G2} {seed : Nat → Nat}
    {α sM v : F} (ops : List (Server.Op F)) {w : World F G1 G2} (hq : Careful [] [] (w.calls ++ ops))
    {s' : Server F G1 G2} (h : World.Reach E H enc params seed α sM v w) (hr : w.srv.run ops = .ok s') :
    World.Reach E H enc params seed α sM v ⟨s', w.users, w.updated, w.calls ++ ops⟩ := by
  induction ops generalizing w with
  | nil =>
    simp only [Server.run, List.foldlM_nil, pure, Except.pure, Except.ok.injEq] at hr
    subst hr; rw [List.append_nil]; exact h
  | cons op ops ih =>
    simp only [Server.run, List.foldlM_cons, bind, Except.bind] at hr
    cases hst : w.srv.step op with
    | error e => rw [hst] at hr; simp at hr
    | ok p =>
      obtain ⟨s1, r⟩ := p
      rw [hst] at hr
      have hpre : Careful [] [] (w.calls ++ [op]) := careful_append _ ops [] [] (by simpa using hq)
      have := ih (w := ⟨s1, w.users, w.updated, w.calls ++ [op]⟩) (by simpa using hq)
        (h.step _ _ (.server w op s1 r hpre hst)) hr
      simpa using this

end

/-- C57 is not vacuous: a reachable world (over `ℚ`) in which user number 0 has a witness, is two epochs behind,
was not deleted, and has not updated: all hypotheses of `C57_update_succeeds` hold for it. -/
theorem exWorld : ∃ (w : World ℚ ℚ ℚ) (u : User ℚ ℚ ℚ),
    World.Reach (Pairing.field ℚ) (fun _ _ => 1) (⟨fun _ => [], fun _ => [], fun _ => []⟩ : Enc ℚ ℚ ℚ) exParams Nat.sqrt 4 9 6 w ∧
    w.users 0 = some u ∧ u.witness ≠ none ∧ w.updated 0 = false ∧ u.epoch + 2 = w.srv.getEpoch ∧
    u.id ∉ w.srv.deletions.drop (u.epoch - 1) := by
  have h : (match (Server.new exParams (4 : ℚ) 9 6 : Server ℚ ℚ ℚ).run [.add 1, .add 2, .add 3] with
      | .ok s => decide ((1 : ℚ) ∈ s.ids) && decide (s.signSecretKey = 9) && decide (s.getAccumulator = .ok 6) &&
        decide (s.getEpoch = 1) &&
        (match s.run [.delete 2, .quickDelete 3] with
        | .ok s' => decide (s'.deletions = [2, 3]) && decide (s'.getEpoch = 3)
        | .error _ => false)
      | .error _ => false) = true := by decide +kernel
  split at h
  · next s hs =>
    simp only [Bool.and_eq_true, decide_eq_true_eq] at h
    obtain ⟨⟨⟨⟨h1, h2⟩, h3⟩, h4⟩, h⟩ := h
    split at h
    · next s' hs' =>
      simp only [Bool.and_eq_true, decide_eq_true_eq] at h
      obtain ⟨C, R, -, -, hcw⟩ := C55_complete (fun _ _ => 1) (⟨fun _ => [], fun _ => [], fun _ => []⟩ : Enc ℚ ℚ ℚ)
        exParams s 6 h3 ⟨1, none, 6, s.getPublicKeys, s.getEpoch⟩ h1 (by rw [h2]; norm_num) 10 20
      have r1 := World.reach_run _ (by norm_num [Careful]) (World.Reach.init (E := Pairing.field ℚ) (H := fun _ _ => 1)
        (enc := (⟨fun _ => [], fun _ => [], fun _ => []⟩ : Enc ℚ ℚ ℚ)) (seed := Nat.sqrt)) hs
      have hnew : User.new s 1 = .ok ⟨1, none, 6, s.getPublicKeys, s.getEpoch⟩ := by
        rw [User.new, h3]; rfl
      have r2 := r1.step _ _ (.join _ 0 1 _ hnew)
      have r3 := r2.step _ _ (.enrol _ 0 _ _ 10 20 rfl hcw (Or.inl (by simp [Server.Op.isQuick])))
      have r4 := World.reach_run _ (by norm_num [Careful]) r3 hs'
      refine ⟨_, _, r4, rfl, by simp, ?_, ?_, ?_⟩
      · exact if_pos h1
      · show s.getEpoch + 2 = s'.getEpoch
        rw [h4, h.2]
      · show (1 : ℚ) ∉ s'.deletions.drop (s.getEpoch - 1)
        rw [h.1, h4]; norm_num
    · simp at h
  · simp at h

end Allo
