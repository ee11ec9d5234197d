import Mathlib.Tactic.IntervalCases
import Verif.Props.SelectiveFailure
import Verif.Props.NonMalleable

/-!
# C89: anonymity in one game with enrolment, revocations, updates with lying servers, and presentations

An adversary runs the servers and the verifiers. It decides, move by move and depending on everything it has seen,
what the servers do, who enrols, who updates with which servers (some of which it controls: it sees the shares sent
to them and chooses their answers later), and who presents. In every update or presentation it names two persons:
in the left world the first acts, in the right world the second. C89: it cannot tell the worlds apart at all.
-/

set_option linter.unusedSectionVars false
set_option linter.unusedVariables false
set_option linter.unusedSimpArgs false
namespace Allo
open Spec Finset User Rom

/-- What is fixed in the game: pairing, hash function (any function; the adversary may compute it), encodings,
parameters, `seed` (see `prepareForUpdate`), the servers' secrets (the adversary may know them) and the ids of the
persons. -/
structure AnonGame (F G1 G2 GT J : Type) [Field F] [AddCommGroup G1] [Module F G1] [AddCommGroup G2] [Module F G2]
    [AddCommGroup GT] [Module F GT] where
  E : Pairing F G1 G2 GT
  H : Oracle F
  enc : Enc G1 G2 GT
  params : AccParams G1 G2
  seed : Nat → Nat
  α : F
  sM : F
  v : F
  ids : J → F

/-- An update that has been started: the servers' state at that time, number of servers, threshold, the servers the
adversary controls, and what they have been sent. -/
structure Pending (F G1 G2 : Type) where
  srv : Server F G1 G2
  n : Nat
  t : Nat
  liars : Finset Nat
  diff : Nat
  view : Nat → Option (List F)

/-- What the adversary knows about a person's client. -/
structure Pub (F G1 G2 : Type) where
  epoch : Nat
  acc : G1
  pending : Option (Pending F G1 G2)

/-- The state of the game. `pub b j` is what is known about person `j` in the world `b` (`true`: right), tracked for
both worlds from what the adversary has seen; `user` and `upd` are the clients of the world the game is played in. -/
structure AnonState (F G1 G2 J : Type) where
  hist : List (Server.Op F)
  srv : Server F G1 G2
  pub : Bool → J → Option (Pub F G1 G2)
  user : J → Option (User F G1 G2)
  upd : J → Option (UserUpdate F)

/-- The adversary's moves. In `start`, `finish` and `present`: the first person acts in the left world, the second in
the right one. -/
inductive AnonMove (F G1 J : Type)
  /-- a call of `add`, `delete` or `quick_delete` on all (honest) servers -/
  | serverOp (o : Server.Op F)
  /-- `User::new` and `create_witness` -/
  | enrol (j : J)
  /-- `prepare_for_update` towards `n` servers -/
  | start (j j' : J) (n t : Nat) (liars : Finset Nat)
  /-- the liars answer `A`, the other servers honestly; `post_update` -/
  | finish (j j' : J) (A : Nat → List F × List G1)
  /-- `make_membership_proof` -/
  | present (j j' : J) (eph : Bytes)

/-- What the adversary is told. -/
inductive AnonResp (F G1 G2 : Type)
  | refused
  | server (s : Server F G1 G2)
  /-- the new client, with all its secrets, and the nonce it used -/
  | enrolled (u : User F G1 G2) (k : F)
  /-- what the liars receive -/
  | shares (diff : Nat) (view : Nat → Option (List F))
  /-- how `post_update` ended: a panic, an error, or success -/
  | outcome (r : Rust (Except String Unit))
  | proof (p : Option (CredProof F G1))

/-- The adversary: stops with a result, or makes a move and continues with what it is told. -/
inductive AnonProg (F G1 G2 J α : Type)
  | done (a : α)
  | move (m : AnonMove F G1 J) (k : AnonResp F G1 G2 → AnonProg F G1 G2 J α)

/-- At most `n` moves. -/
def AnonProg.Bound {F G1 G2 J α : Type} : Nat → AnonProg F G1 G2 J α → Prop
  | _, .done _ => True
  | 0, .move _ _ => False
  | n + 1, .move _ k => ∀ r, (k r).Bound n

/-- The random choices for one move: coefficients of the sharing polynomials, the randomness of a presentation, and
the secret key and nonce of an enrolment. -/
abbrev AnonRand (F : Type) (M : Nat) := (Fin M → Fin M → F) × ProofRand F × F × F

/-- the polynomial coefficients drawn, as the model of `prepare_for_update` takes them -/
def sharingRand {F : Type} [Field F] {M : Nat} (r : Fin M → Fin M → F) (j k : Nat) : F :=
  if h : j < M ∧ k < M then r ⟨j, h.1⟩ ⟨k, h.2⟩ else 0

section
variable {F G1 G2 GT J : Type} [Field F] [DecidableEq F] [AddCommGroup G1] [Module F G1]
  [DecidableEq G1] [AddCommGroup G2] [Module F G2] [AddCommGroup GT] [Module F GT] [DecidableEq GT]

/-- the person that acts in world `b` -/
def acting (b : Bool) (j j' : J) : J := if b then j' else j

open Classical in
/-- One move in world `b` with the random choices `ω`. -/
noncomputable def AnonState.move {M : Nat} (g : AnonGame F G1 G2 GT J) (b : Bool) (ω : AnonRand F M)
    (st : AnonState F G1 G2 J) : AnonMove F G1 J → AnonState F G1 G2 J × AnonResp F G1 G2
  | .serverOp o =>
    -- `delete` after `quick_delete` would work with stale data (C19)
    if o.isDelete = true ∧ ∃ o' ∈ st.hist, o'.isQuick = true then (st, .refused)
    else match st.srv.step o with
      | .ok (s, _) => ({ st with hist := st.hist ++ [o], srv := s }, .server s)
      | .error _ => (st, .refused)
  | .enrol j =>
    -- only members, and not after a `quick_delete` (C19)
    if g.ids j ∈ st.srv.ids ∧ ∀ o ∈ st.hist, o.isQuick = false then
      match (do
        let u ← User.new st.srv (g.ids j)
        u.createWitness g.H g.enc g.params st.srv ω.2.2.1 ω.2.2.2) with
      | .ok u => ({ st with
          pub := fun b x => if x = j then some ⟨u.epoch, u.accumulator, none⟩ else st.pub b x
          user := fun x => if x = j then some u else st.user x
          upd := fun x => if x = j then none else st.upd x }, .enrolled u ω.2.2.2)
      | .error _ => (st, .refused)
    else (st, .refused)
  | .start j j' n t liars =>
    match st.pub false j, st.user (acting b j j') with
    | some P, some u =>
      -- nothing known tells the two persons apart; neither has been deleted
      if st.pub true j' = some P ∧ g.ids j ∉ st.srv.deletions.drop (P.epoch - 1) ∧
        g.ids j' ∉ st.srv.deletions.drop (P.epoch - 1) ∧ P.epoch < st.srv.getEpoch ∧
        -- more servers than the threshold, distinct points, fewer than `t` liars, one in the first `t + 1`
        2 ≤ t ∧ t < n ∧ (∀ i, 0 < i → i ≤ n → (i : F) ≠ 0) ∧ (∀ i ∈ liars, i < n) ∧ liars.card < t ∧
        (liars.filter (· ≤ t)).card ≤ 1 ∧
        -- there are enough random coefficients
        t ≤ M ∧ (∀ k, chunkSize (st.srv.getEpoch - P.epoch) (g.seed (st.srv.getEpoch - P.epoch)) = .ok k → k ≤ M) then
        match u.prepareForUpdate g.seed st.srv.getEpoch n t (sharingRand ω.1) with
        | .ok (.ok x) =>
          let P' : Pub F G1 G2 := { P with pending := some ⟨st.srv, n, t, liars, x.epochDiff, jointView liars x⟩ }
          ({ st with
            pub := fun b y => if y = acting b j j' then some P' else st.pub b y
            upd := fun y => if y = acting b j j' then some x else st.upd y },
            .shares x.epochDiff (jointView liars x))
        | _ => (st, .refused)
      else (st, .refused)
    | _, _ => (st, .refused)
  | .finish j j' A =>
    match st.pub false j, st.user (acting b j j'), st.upd (acting b j j') with
    | some P, some u, some x =>
      match P.pending, u.witness with
      | some q, some w =>
        if st.pub true j' = some P then
          match (List.range q.n).mapM (fun i => do
            let ys ← idx x.yShares i
            q.srv.update x.epochDiff ys) with
          | .ok honest =>
            -- the liars send the right number of values
            if ∀ i ∈ q.liars, ∀ a ∈ honest, (A i).1.length = a.1.length ∧ (A i).2.length = a.2.length then
              match postUpdate w.witness q.t x.yShares x.yValues (attackAnswers q.liars (fun _ => A) x honest),
                  q.srv.getAccumulator with
              | .ok (.ok W), .ok V =>
                let P' : Pub F G1 G2 := ⟨q.srv.getEpoch, V, none⟩
                ({ st with
                  pub := fun b y => if y = acting b j j' then some P' else st.pub b y
                  user := fun y => if y = acting b j j' then
                    some { u with witness := some { w with witness := W }, accumulator := V,
                                  epoch := q.srv.getEpoch } else st.user y
                  upd := fun y => if y = acting b j j' then none else st.upd y }, .outcome (.ok (.ok ())))
              | .ok (.error e), _ => (st, .outcome (.ok (.error e)))
              | .error a, _ => (st, .outcome (.error a))
              | _, .error a => (st, .outcome (.error a))
            else (st, .refused)
          | .error a => (st, .outcome (.error a))
        else (st, .refused)
      | _, _ => (st, .refused)
    | _, _, _ => (st, .refused)
  | .present j j' eph =>
    match st.pub false j, st.user (acting b j j') with
    | some P, some u =>
      if st.pub true j' = some P then
        (st, .proof (u.makeMembershipProof g.E g.H g.enc g.params st.srv.getPublicKeys eph ω.2.1))
      else (st, .refused)
    | _, _ => (st, .refused)

/-- The adversary's result in world `b`, with the random choices `ws 0`, `ws 1`, … for its moves. -/
noncomputable def AnonProg.run {α : Type} {M : Nat} (g : AnonGame F G1 G2 GT J) (b : Bool) :
    (ws : Nat → AnonRand F M) → AnonState F G1 G2 J → AnonProg F G1 G2 J α → α
  | _, _, .done a => a
  | ws, st, .move m k =>
    AnonProg.run g b (fun i => ws (i + 1)) (st.move g b (ws 0) m).1 (k (st.move g b (ws 0) m).2)

/-- At the start: a new server, nobody enrolled. -/
def AnonGame.init (g : AnonGame F G1 G2 GT J) : AnonState F G1 G2 J :=
  ⟨[], Server.new g.params g.α g.sM g.v, fun _ _ => none, fun _ => none, fun _ => none⟩

/-! ### The invariant -/

/-- Reachable server states. -/
def AnonGame.Reach (g : AnonGame F G1 G2 GT J) (hist : List (Server.Op F)) (srv : Server F G1 G2) : Prop :=
  ∃ ops₁ ops₂, hist = ops₁ ++ ops₂ ∧ (∀ op ∈ ops₁, op.isQuick = false) ∧ (∀ op ∈ ops₂, op.isDelete = false) ∧
    (Server.new g.params g.α g.sM g.v).run hist = .ok srv

/-- An update that was started properly. -/
structure AnonGame.Started (g : AnonGame F G1 G2 GT J) (srv : Server F G1 G2) (u : User F G1 G2)
    (upd : Option (UserUpdate F)) (q : Pending F G1 G2) : Prop where
  reach : ∃ hist, g.Reach hist q.srv
  later : ∃ ops, q.srv.run ops = .ok srv
  epoch_lt : u.epoch < q.srv.getEpoch
  present : u.id ∉ q.srv.deletions.drop (u.epoch - 1)
  t_ge : 2 ≤ q.t
  t_lt : q.t < q.n
  points : ∀ i, 0 < i → i ≤ q.n → (i : F) ≠ 0
  liars_lt : ∀ i ∈ q.liars, i < q.n
  few : q.liars.card < q.t
  one : (q.liars.filter (· ≤ q.t)).card ≤ 1
  sent : ∃ x rand, upd = some x ∧ u.prepareForUpdate g.seed q.srv.getEpoch q.n q.t rand = .ok (.ok x) ∧
    q.diff = x.epochDiff ∧ q.view = jointView q.liars x

/-- What is known about a client is true, and its credential is valid for the accumulator of its epoch. -/
structure AnonGame.Holds (g : AnonGame F G1 G2 GT J) (srv : Server F G1 G2) (id : F) (P : Pub F G1 G2)
    (u : User F G1 G2) (upd : Option (UserUpdate F)) : Prop where
  id_eq : u.id = id
  epoch_eq : u.epoch = P.epoch
  acc_eq : u.accumulator = P.acc
  keys : u.publicKeys = ⟨g.α • g.params.p2, g.sM • g.params.k2⟩
  epoch_ge : 1 ≤ u.epoch
  acc : srv.accumulators[u.epoch - 1]? = some P.acc
  valid : ∃ w, u.witness = some w ∧ credVerify g.E P.acc ⟨g.α • g.params.p2, g.sM • g.params.k2⟩ g.params id w = .ok ()
  pending : ∀ q, P.pending = some q → g.Started srv u upd q

structure AnonGame.Good (g : AnonGame F G1 G2 GT J) (b : Bool) (st : AnonState F G1 G2 J) : Prop where
  reach : g.Reach st.hist st.srv
  known : ∀ j P, st.pub b j = some P → ∃ u, st.user j = some u ∧ g.Holds st.srv (g.ids j) P u (st.upd j)

/-- The two worlds at the same point of the game. -/
structure AnonGame.Related (g : AnonGame F G1 G2 GT J) (st st' : AnonState F G1 G2 J) : Prop where
  hist : st'.hist = st.hist
  srv : st'.srv = st.srv
  pub : st'.pub = st.pub
  left : g.Good false st
  right : g.Good true st'


theorem AnonGame.Reach.step {g : AnonGame F G1 G2 GT J} {hist : List (Server.Op F)} {srv s : Server F G1 G2}
    (h : g.Reach hist srv) {o : Server.Op F} {r : Option G1} (hs : srv.step o = .ok (s, r))
    (ho : ¬(o.isDelete = true ∧ ∃ o' ∈ hist, o'.isQuick = true)) : g.Reach (hist ++ [o]) s := by
  obtain ⟨a, b, e, ha, hb, hr⟩ := h
  have hrun : (Server.new g.params g.α g.sM g.v).run (hist ++ [o]) = .ok s :=
    Server.run_append.2 ⟨srv, hr, Server.run_cons_of hs (Server.run_nil _)⟩
  by_cases hd : o.isDelete = true
  · refine ⟨hist ++ [o], [], by simp, ?_, by simp, hrun⟩
    intro o' ho'
    rcases List.mem_append.1 ho' with h' | h'
    · by_contra hq
      exact ho ⟨hd, o', h', by simpa using hq⟩
    · obtain rfl := List.mem_singleton.1 h'
      cases o' <;> simp_all [Server.Op.isDelete, Server.Op.isQuick]
  · refine ⟨a, b ++ [o], by rw [e, List.append_assoc], ha, ?_, hrun⟩
    intro o' ho'
    rcases List.mem_append.1 ho' with h' | h'
    · exact hb o' h'
    · obtain rfl := List.mem_singleton.1 h'
      simpa using hd

theorem AnonGame.Holds.later {g : AnonGame F G1 G2 GT J} {srv s : Server F G1 G2} {id : F} {P : Pub F G1 G2}
    {u : User F G1 G2} {upd : Option (UserUpdate F)} (h : g.Holds srv id P u upd) {ops : List (Server.Op F)}
    (hs : srv.run ops = .ok s) : g.Holds s id P u upd := by
  refine ⟨h.id_eq, h.epoch_eq, h.acc_eq, h.keys, h.epoch_ge, ?_, h.valid, fun q hq => ?_⟩
  · obtain ⟨⟨c, hc⟩, -⟩ := run_extends ops srv s hs
    have := h.acc
    rw [← hc, List.getElem?_append_left]
    · exact this
    · exact (List.getElem?_eq_some_iff.1 this).1
  · have hp := h.pending q hq
    obtain ⟨ops', h'⟩ := hp.later
    exact ⟨hp.reach, ⟨ops' ++ ops, Server.run_append.2 ⟨srv, h', hs⟩⟩, hp.epoch_lt, hp.present, hp.t_ge, hp.t_lt,
      hp.points, hp.liars_lt, hp.few, hp.one, hp.sent⟩

/-- The sharing depends only on the coefficients that are used. -/
theorem prepare_congr (seed : Nat → Nat) (hseed : ∀ d, 1 ≤ d → 1 ≤ seed d) (u : User F G1 G2)
    (newEpoch n t : Nat) (ht : 2 ≤ t) (hn : t ≤ n) (he : u.epoch < newEpoch) (rand rand' : Nat → Nat → F)
    (h : ∀ k, chunkSize (newEpoch - u.epoch) (seed (newEpoch - u.epoch)) = .ok k →
      ∀ j < k - 1, ∀ i, 1 ≤ i → i < t → rand j i = rand' j i) :
    u.prepareForUpdate seed newEpoch n t rand = u.prepareForUpdate seed newEpoch n t rand' := by
  obtain ⟨k, x, hk, -, hp, h1, h2, -, -, h3, -⟩ := prepareForUpdate_ok seed hseed u newEpoch n t ht hn he rand
  obtain ⟨k', x', hk', -, hp', h1', h2', -, -, h3', -⟩ := prepareForUpdate_ok seed hseed u newEpoch n t ht hn he rand'
  rw [hk] at hk'
  injection hk' with hk'
  subst hk'
  rw [hp, hp']
  obtain ⟨a, b, c⟩ := x
  obtain ⟨a', b', c'⟩ := x'
  simp only at h1 h2 h3 h1' h2' h3'
  subst h1 h2 h3 h1' h2' h3'
  congr 3
  apply List.map_congr_left
  intro i _
  exact shVec_congr t (k - 1) u.id rand rand' _ (fun j hj => h k hk j hj)

/-- Sharing by two persons with the same epoch: a bijection of the random choices makes what the liars see equal. -/
theorem start_perm (seed : Nat → Nat) (hseed : ∀ d, 1 ≤ d → 1 ≤ seed d) (u u' : User F G1 G2)
    (newEpoch n t : Nat) (ht : 2 ≤ t) (hn : t ≤ n) (hc : ∀ i, 0 < i → i ≤ n → (i : F) ≠ 0)
    (he : u.epoch < newEpoch) (hee : u'.epoch = u.epoch) (I : Finset Nat) (hI : ∀ i ∈ I, i < n)
    (hcard : I.card < t) (M : Nat) (hM : t ≤ M)
    (hM' : ∀ k, chunkSize (newEpoch - u.epoch) (seed (newEpoch - u.epoch)) = .ok k → k ≤ M) :
    ∃ τ : Equiv.Perm (Fin M → Fin M → F), ∀ r : Fin M → Fin M → F, ∃ x x',
      u.prepareForUpdate seed newEpoch n t (sharingRand r) = .ok (.ok x) ∧
      u'.prepareForUpdate seed newEpoch n t (sharingRand (τ r)) = .ok (.ok x') ∧
      x'.epochDiff = x.epochDiff ∧ jointView I x' = jointView I x := by
  obtain ⟨δ, -, hδ⟩ := C37_secrecy seed hseed u u' newEpoch n t ht hn hc he hee I hI hcard
  refine ⟨Equiv.addRight (fun j k => δ j k), fun r => ?_⟩
  obtain ⟨x, x', h1, h2, h3, -, h5⟩ := hδ (sharingRand r)
  refine ⟨x, x', h1, ?_, h3, ?_⟩
  · rw [← h2]
    refine prepare_congr seed hseed u' newEpoch n t ht hn (by omega) _ _ ?_
    intro k hk j hj i hi hit
    rw [hee] at hk
    have := hM' k hk
    simp only [sharingRand]
    rw [dif_pos ⟨by omega, by omega⟩, dif_pos ⟨by omega, by omega⟩]
    rfl
  · funext i
    unfold jointView
    split
    · next hi => exact h5 i hi
    · rfl

/-- Presentations of two persons with valid credentials: a bijection of the random choices makes them equal. -/
theorem present_perm (E : Pairing F G1 G2 GT) (H : Oracle F) (enc : Enc G1 G2 GT)
    (params : AccParams G1 G2) (hz : params.z1 ≠ 0) (pk : PublicKeys G2) (V : G1) (eph : Bytes)
    (y y' : F) (w w' : Witness F G1) (h : credVerify E V pk params y w = .ok ())
    (h' : credVerify E V pk params y' w' = .ok ()) :
    ∃ ψ : Equiv.Perm (ProofRand F), ∀ r,
      makeProof E H enc w' y' V params pk eph (ψ r) = makeProof E H enc w y V params pk eph r := by
  obtain ⟨φ, hφ⟩ := C44_sessions (ι := Unit) E H enc params hz pk (fun _ => V) (fun _ => eph) (fun _ => y)
    (fun _ => y') (fun _ => w) (fun _ => w') (fun _ => h) (fun _ => h')
  let e : (Unit → ProofRand F) ≃ ProofRand F := ⟨fun f => f (), fun r _ => r, fun _ => rfl, fun _ => rfl⟩
  exact ⟨e.permCongr φ, fun r => hφ (fun _ => r) ()⟩

/-- The used answers are all honest exactly if the used liars answer as honest servers would. -/
theorem attack_honest_iff (srv : Server F G1 G2) (n t : Nat) (hn : t < n) (L : Finset Nat)
    (A : Nat → List F × List G1) (x : UserUpdate F) (hx : List (List F × List G1)) (h : HonestAnswers srv n x hx) :
    (attackAnswers L (fun _ => A) x hx).take (t + 1) = hx.take (t + 1) ↔
      ∀ i ∈ L, i ≤ t → srv.update x.epochDiff ((jointView L x i).getD []) = .ok (A i) := by
  obtain ⟨hxl, hxa⟩ := h
  constructor
  · intro e i hi hit
    obtain ⟨ys, a, e1, e2, e3⟩ := hxa i (by omega)
    have := congrArg (fun l => l[i]?) e
    simp only [List.getElem?_take, show i < t + 1 by omega, if_true, attackAnswers, List.getElem?_mapIdx,
      e2, Option.map_some, hi] at this
    have hj : jointView L x i = some ys := by simp [jointView, hi, e1]
    rw [hj, Option.getD_some, e3, Option.some.inj this]
  · intro hall
    apply List.ext_getElem?
    intro i
    simp only [List.getElem?_take]
    by_cases hit : i < t + 1
    · simp only [hit, if_true, attackAnswers, List.getElem?_mapIdx]
      obtain ⟨ys, a, e1, e2, e3⟩ := hxa i (by omega)
      rw [e2]
      by_cases hi : i ∈ L
      · have := hall i hi (by omega)
        have hj : jointView L x i = some ys := by simp [jointView, hi, e1]
        rw [hj, Option.getD_some, e3] at this
        simp only [Option.map_some, hi, if_true]
        injection this with this
        rw [this]
      · simp [hi]
    · simp [hit]

/-- The number of values in an answer to a client `d` epochs behind. -/
def answerLength (d k : Nat) : Nat := nChunks k d

/-- The end of an update in the game: decided by what the liars have seen and answered. -/
theorem finish_spec (g : AnonGame F G1 G2 GT J) (hP : g.params.p2 ≠ 0) (hK : g.params.k2 ≠ 0)
    (hseed : ∀ d, 1 ≤ d → 1 ≤ g.seed d) {srv : Server F G1 G2} {id : F} {P : Pub F G1 G2} {u : User F G1 G2}
    {x : UserUpdate F} (h : g.Holds srv id P u (some x)) {q : Pending F G1 G2} (hq : P.pending = some q)
    {w : Witness F G1} (hw : u.witness = some w) (k : Nat)
    (hk : chunkSize (q.srv.getEpoch - P.epoch) (g.seed (q.srv.getEpoch - P.epoch)) = .ok (k + 1)) :
    ∃ honest V, (List.range q.n).mapM (fun i => do
          let ys ← idx x.yShares i
          q.srv.update x.epochDiff ys) = .ok honest ∧ q.srv.getAccumulator = .ok V ∧
      (∃ a, a ∈ honest) ∧
      (∀ a ∈ honest, a.1.length = answerLength (q.srv.getEpoch - P.epoch) k ∧
        a.2.length = answerLength (q.srv.getEpoch - P.epoch) k) ∧
      ∀ A : Nat → List F × List G1,
        (∀ i ∈ q.liars, (A i).1.length = answerLength (q.srv.getEpoch - P.epoch) k ∧
          (A i).2.length = answerLength (q.srv.getEpoch - P.epoch) k) →
        ((∀ i ∈ q.liars, i ≤ q.t → q.srv.update q.diff ((q.view i).getD []) = .ok (A i)) →
          ∃ W, postUpdate w.witness q.t x.yShares x.yValues (attackAnswers q.liars (fun _ => A) x honest) = .ok (.ok W) ∧
            credVerify g.E V ⟨g.α • g.params.p2, g.sM • g.params.k2⟩ g.params id { w with witness := W } = .ok ()) ∧
        ((¬∀ i ∈ q.liars, i ≤ q.t → q.srv.update q.diff ((q.view i).getD []) = .ok (A i)) →
          postUpdate w.witness q.t x.yShares x.yValues (attackAnswers q.liars (fun _ => A) x honest)
            = .ok (.error "malicious server")) := by
  have hp := h.pending q hq
  obtain ⟨hist, ops₁, ops₂, rfl, hq1, hq2, hrun⟩ := hp.reach
  obtain ⟨x', rand, e1, hprep, hdiff, hview⟩ := hp.sent
  cases e1
  have hI := invA_run g.params g.α g.sM g.v ops₁ ops₂ hq1 hq2 q.srv hrun
  have hlen := hI.length
  rw [← h.epoch_eq] at hk ⊢
  obtain ⟨hk2, hed, hyl, -, hyv, hc1, hh⟩ := honest_closed_k g.seed hseed u q.srv hlen q.n q.t hp.t_ge hp.t_lt.le
    h.epoch_ge hp.epoch_lt rand x hprep k hk
  set honest := answers q.n (nChunks k (q.srv.getEpoch - u.epoch)) (fun _ => true)
    (fun i j => dAns (shVec q.t k u.id rand (xOf F i)) (chunkAt k (q.srv.published (q.srv.getEpoch - u.epoch)) j))
    (fun i j => vAnsP (shVec q.t k u.id rand (xOf F i)) (chunkAt k (q.srv.published (q.srv.getEpoch - u.epoch)) j))
    with hhon
  have hH : HonestAnswers q.srv q.n x honest := (hh honest).2 rfl
  have hl : ∀ a ∈ honest, a.1.length = nChunks k (q.srv.getEpoch - u.epoch) ∧
      a.2.length = nChunks k (q.srv.getEpoch - u.epoch) := by
    intro a ha
    obtain ⟨i, -, rfl⟩ := List.mem_map.1 ha
    simp
  have hne : ∃ a, a ∈ honest := ⟨_, List.mem_map.2 ⟨0, List.mem_range.2 (by have := hp.t_lt; omega), rfl⟩⟩
  obtain ⟨w', hw', hcred⟩ := h.valid
  rw [hw] at hw'
  cases hw'
  rw [credVerify_iff g.E g.params hP hK] at hcred
  refine ⟨honest, accAfter g.α (g.v • g.params.p1) q.srv.deletions, ?_, ?_, hne, hl, fun A hA => ?_⟩
  · have : ∀ i ∈ List.range q.n, (do
          let ys ← idx x.yShares i
          q.srv.update x.epochDiff ys) = .ok (honest.getD i ([], [])) := by
      intro i hi
      obtain ⟨ys, a, a1, a2, a3⟩ := hH.2 i (List.mem_range.1 hi)
      simp only [idx, a1, bind, Except.bind, a3, List.getD_eq_getElem?_getD, a2, Option.getD_some]
    rw [mapM_ok _ _ _ this]
    congr 1
    apply List.ext_getElem
    · simp [hH.1]
    · intro i h1 h2
      simp [List.getD_eq_getElem?_getD, List.getElem?_eq_getElem h2]
  · rw [Server.getAccumulator, hI.last]; rfl
  · have hd : DiffersOn q.liars honest (attackAnswers q.liars (fun _ => A) x honest) := by
      refine ⟨by simp [attackAnswers], fun i hi hiL => ?_, ?_⟩
      · simp only [attackAnswers, List.getElem?_mapIdx, if_neg hiL]
        simp
      · intro p hp' a ha
        obtain ⟨j, hj, rfl⟩ := List.mem_mapIdx.1 hp'
        rw [(hl a ha).1, (hl a ha).2]
        split
        · next hjL => exact hA j hjL
        · exact hl _ (List.getElem_mem hj)
    obtain ⟨i1, i2⟩ := C74_accepted_iff g.params g.α g.sM g.v _ q.srv hrun g.seed hseed u q.n q.t hp.t_ge hp.t_lt
      hp.points h.epoch_ge hp.epoch_lt hp.present rand x hprep w.witness honest _ hH q.liars hd hp.one
    rw [attack_honest_iff q.srv q.n q.t hp.t_lt q.liars A x honest hH, ← hdiff, ← hview] at i1
    have i2' := i2
    rw [Ne, attack_honest_iff q.srv q.n q.t hp.t_lt q.liars A x honest hH, ← hdiff, ← hview] at i2'
    refine ⟨fun hgood => ?_, fun hbad => i2'.2 hbad⟩
    obtain ⟨W, hW⟩ := i1.2 hgood
    have hVe : q.srv.accumulators[u.epoch - 1]? = some P.acc := by
      obtain ⟨ops, hops⟩ := hp.later
      obtain ⟨⟨c, hc⟩, -⟩ := run_extends ops q.srv srv hops
      have := h.acc
      rw [← hc, List.getElem?_append_left] at this
      · exact this
      · have := hp.epoch_lt
        rw [Server.getEpoch] at this
        omega
    obtain ⟨V, hV, hwit, -⟩ := C38_accepted_is_valid g.params g.α g.sM g.v ops₁ ops₂ hq1 hq2 q.srv hrun g.seed hseed u
      q.n q.t hp.t_ge hp.t_lt hp.points h.epoch_ge hp.epoch_lt rand x hprep w.witness P.acc hVe
      (by rw [h.id_eq]; exact hcred.1) honest _ hH q.liars hd hp.one W hW
    refine ⟨W, hW, ?_⟩
    rw [credVerify_iff g.E g.params hP hK]
    rw [Server.getAccumulator, hI.last] at hV
    have hV : accAfter g.α (g.v • g.params.p1) q.srv.deletions = V := by simpa [unwrap] using hV
    rw [hV]
    exact ⟨by rw [← h.id_eq]; exact hwit, hcred.2⟩


/-! ### One move -/

theorem enrol_holds (g : AnonGame F G1 G2 GT J) (hP : g.params.p2 ≠ 0) (hK : g.params.k2 ≠ 0)
    {hist : List (Server.Op F)} {srv : Server F G1 G2} (hr : g.Reach hist srv) {y : F} (hy : y ∈ srv.ids)
    (hq : ∀ o ∈ hist, o.isQuick = false) {key k : F} {u : User F G1 G2}
    (hs : (do
        let u ← User.new srv y
        u.createWitness g.H g.enc g.params srv key k : Rust (User F G1 G2)) = .ok u) :
    g.Holds srv y ⟨u.epoch, u.accumulator, none⟩ u none := by
  obtain ⟨-, -, -, -, -, hrun⟩ := hr
  have hI := invW_run g.params g.α g.sM g.v hist hq srv hrun
  have hacc : srv.getAccumulator = .ok (accAfter g.α (g.v • g.params.p1) srv.deletions) := by
    rw [Server.getAccumulator, hI.last]; rfl
  have hnew : User.new srv y = .ok ⟨y, none, accAfter g.α (g.v • g.params.p1) srv.deletions, srv.publicKeys,
      srv.getEpoch⟩ := by
    rw [User.new, hacc]; rfl
  rw [hnew] at hs
  simp only [bind, Except.bind] at hs
  have hk := keys_run hrun
  have hy0 : y ≠ -g.sM := by
    intro h0
    generalize hc : enrolChallenge g.H g.enc (key • g.params.k1) (k • g.params.k1) = c
    have hcom : (k - c * key) • g.params.k1 + c • key • g.params.k1 = k • g.params.k1 := by module
    have hw := ((C21_witness g.H g.enc g.params srv y c (k - c * key) (key • g.params.k1)).2.2 hy
      (by rw [hcom]; exact hc)).2 (by rw [hk.2.2, h0]; ring)
    have hH : g.H (((Transcript.new "user_signature_proof").append "user_pub_key"
      (g.enc.g1 (key • g.params.k1))).append "commitment" (g.enc.g1 (k • g.params.k1))) "challenge" = c := hc
    unfold User.createWitness at hs
    simp only [hH, hw, bind, Except.bind] at hs
    cases hs
  obtain ⟨u', V, h1, h2, h3, h4, h5, h6, w, h7, -⟩ := C22_create_witness g.E g.H g.enc g.params hP hK g.α g.sM g.v hist hq
    srv hrun _ y hnew (((refines_run hist (refines_new g.params g.α g.sM g.v) hrun).members y).1 hy) hy0 key k
  rw [hs] at h1
  cases h1
  have hpk : u.publicKeys = srv.publicKeys := by
    unfold User.createWitness at hs
    simp only [bind, Except.bind] at hs
    split at hs
    · cases hs
    · split at hs
      · rw [hacc] at hs
        cases hs; rfl
      · cases hs; rfl
  rw [hacc] at h2
  injection h2 with h2
  have hlen := hI.length
  refine ⟨h6, rfl, rfl, by rw [hpk, hk.1], by rw [h4, Server.getEpoch]; omega, ?_, ⟨w, h7, ?_⟩, fun q hq => by cases hq⟩
  · simp only
    rw [h4, h5, Server.getEpoch, hlen, Nat.add_sub_cancel, hI.get _ le_rfl, List.take_length, h2]
  · unfold User.checkWitness at h3
    rw [h7, hpk, hk.1, h6] at h3
    simp only
    rw [h5]; exact h3

theorem acting_false (j j' : J) : acting false j j' = j := rfl
theorem acting_true (j j' : J) : acting true j j' = j' := rfl

open Classical in
theorem step_related (g : AnonGame F G1 G2 GT J) (hP : g.params.p2 ≠ 0) (hK : g.params.k2 ≠ 0) (hz : g.params.z1 ≠ 0)
    (hseed : ∀ d, 1 ≤ d → 1 ≤ g.seed d) {M : Nat} {st st' : AnonState F G1 G2 J} (h : g.Related st st')
    (m : AnonMove F G1 J) :
    ∃ τ : Equiv.Perm (AnonRand F M), ∀ ω, (st'.move g true (τ ω) m).2 = (st.move g false ω m).2 ∧
      g.Related (st.move g false ω m).1 (st'.move g true (τ ω) m).1 := by
  obtain ⟨hist, srv, pub, user, upd⟩ := st
  obtain ⟨hist', srv', pub', user', upd'⟩ := st'
  obtain ⟨e1, e2, e3, hL, hR⟩ := h
  simp only at e1 e2 e3
  subst e1 e2 e3
  have stay : g.Related ⟨hist', srv', pub', user, upd⟩ ⟨hist', srv', pub', user', upd'⟩ := ⟨rfl, rfl, rfl, hL, hR⟩
  have hreach : g.Reach hist' srv' := hL.reach
  cases m with
  | serverOp o =>
    refine ⟨Equiv.refl _, fun ω => ?_⟩
    simp only [AnonState.move, Equiv.refl_apply]
    split
    · exact ⟨rfl, stay⟩
    · next ho =>
      cases hs : srv'.step o with
      | error a => exact ⟨rfl, stay⟩
      | ok y =>
        obtain ⟨s, r⟩ := y
        have hrun : srv'.run [o] = .ok s := Server.run_cons_of hs (Server.run_nil _)
        exact ⟨rfl, rfl, rfl, rfl,
          ⟨hreach.step hs ho, fun j P hj => (hL.known j P hj).imp (fun u hu => ⟨hu.1, hu.2.later hrun⟩)⟩,
          ⟨hreach.step hs ho, fun j P hj => (hR.known j P hj).imp (fun u hu => ⟨hu.1, hu.2.later hrun⟩)⟩⟩
  | enrol j =>
    refine ⟨Equiv.refl _, fun ω => ?_⟩
    simp only [AnonState.move, Equiv.refl_apply]
    split
    · next hc =>
      cases hs : (do
        let u ← User.new srv' (g.ids j)
        u.createWitness g.H g.enc g.params srv' ω.2.2.1 ω.2.2.2 : Rust (User F G1 G2)) with
      | error a => exact ⟨rfl, stay⟩
      | ok u =>
        refine ⟨rfl, rfl, rfl, rfl, ?_, ?_⟩
        all_goals have hu := enrol_holds g hP hK hreach hc.1 hc.2 hs
        · refine ⟨hreach, fun i P hi => ?_⟩
          simp only at hi ⊢
          by_cases hij : i = j
          · subst hij
            simp only [if_true] at hi ⊢
            cases hi
            exact ⟨u, rfl, hu⟩
          · simp only [hij, if_false] at hi ⊢
            exact hL.known i P hi
        · refine ⟨hreach, fun i P hi => ?_⟩
          simp only at hi ⊢
          by_cases hij : i = j
          · subst hij
            simp only [if_true] at hi ⊢
            cases hi
            exact ⟨u, rfl, hu⟩
          · simp only [hij, if_false] at hi ⊢
            exact hR.known i P hi
    · exact ⟨rfl, stay⟩
  | start j j' n t liars =>
    cases hp : pub' false j with
    | none =>
      refine ⟨Equiv.refl _, fun ω => ?_⟩
      simp only [AnonState.move, hp]
      exact ⟨trivial, stay⟩
    | some P =>
    obtain ⟨u, hu, hH⟩ := hL.known j P hp
    simp only at hu hH
    by_cases hc : pub' true j' = some P ∧ g.ids j ∉ srv'.deletions.drop (P.epoch - 1) ∧
        g.ids j' ∉ srv'.deletions.drop (P.epoch - 1) ∧ P.epoch < srv'.getEpoch ∧
        2 ≤ t ∧ t < n ∧ (∀ i, 0 < i → i ≤ n → (i : F) ≠ 0) ∧ (∀ i ∈ liars, i < n) ∧ liars.card < t ∧
        (liars.filter (· ≤ t)).card ≤ 1 ∧
        t ≤ M ∧ (∀ k, chunkSize (srv'.getEpoch - P.epoch) (g.seed (srv'.getEpoch - P.epoch)) = .ok k → k ≤ M)
    · obtain ⟨c1, c2, c3, c4, c5, c6, c7, c8, c9, c10, c11, c12⟩ := _root_.id hc
      obtain ⟨u', hu', hH'⟩ := hR.known j' P c1
      simp only at hu' hH'
      obtain ⟨τ, hτ⟩ := start_perm g.seed hseed u u' srv'.getEpoch n t c5 c6.le c7 (by rw [hH.epoch_eq]; exact c4)
        (by rw [hH.epoch_eq, hH'.epoch_eq]) liars c8 c9 M c11 (by rw [hH.epoch_eq]; exact c12)
      refine ⟨Equiv.prodCongr τ (Equiv.refl _), fun ω => ?_⟩
      obtain ⟨x, x', x1, x2, x3, x4⟩ := hτ ω.1
      simp only [AnonState.move, hp, acting_false, acting_true, hu, hu', if_pos hc, x1, Equiv.prodCongr_apply,
        Prod.map_fst, x2, x3, x4]
      refine ⟨trivial, rfl, rfl, rfl, ?_, ?_⟩
      · refine ⟨hreach, fun i Q hi => ?_⟩
        simp only [acting_false] at hi ⊢
        by_cases hij : i = j
        · subst hij
          simp only [if_true] at hi ⊢
          cases hi
          refine ⟨u, hu, hH.id_eq, hH.epoch_eq, hH.acc_eq, hH.keys, hH.epoch_ge, hH.acc, hH.valid, fun q hq => ?_⟩
          cases hq
          exact ⟨⟨_, hreach⟩, ⟨[], rfl⟩, by rw [hH.epoch_eq]; exact c4, by rw [hH.epoch_eq, hH.id_eq]; exact c2, c5, c6, c7,
            c8, c9, c10, ⟨x, _, rfl, x1, rfl, rfl⟩⟩
        · simp only [hij, if_false] at hi ⊢
          exact hL.known i Q hi
      · refine ⟨hreach, fun i Q hi => ?_⟩
        simp only [acting_true] at hi ⊢
        by_cases hij : i = j'
        · subst hij
          simp only [if_true] at hi ⊢
          cases hi
          refine ⟨u', hu', hH'.id_eq, hH'.epoch_eq, hH'.acc_eq, hH'.keys, hH'.epoch_ge, hH'.acc, hH'.valid,
            fun q hq => ?_⟩
          cases hq
          exact ⟨⟨_, hreach⟩, ⟨[], rfl⟩, by rw [hH'.epoch_eq]; exact c4, by rw [hH'.epoch_eq, hH'.id_eq]; exact c3, c5,
            c6, c7, c8, c9, c10, ⟨x', _, rfl, x2, x3.symm, x4.symm⟩⟩
        · simp only [hij, if_false] at hi ⊢
          exact hR.known i Q hi
    · refine ⟨Equiv.refl _, fun ω => ?_⟩
      simp only [AnonState.move, hp, acting_false, acting_true, hu, if_neg hc]
      cases user' j' with
      | none => exact ⟨rfl, stay⟩
      | some a => simp only [if_neg hc]; exact ⟨trivial, stay⟩
  | finish j j' A =>
    refine ⟨Equiv.refl _, fun ω => ?_⟩
    cases hp : pub' false j with
    | none =>
      simp only [AnonState.move, hp]
      exact ⟨trivial, stay⟩
    | some P =>
    obtain ⟨u, hu, hH⟩ := hL.known j P hp
    simp only at hu hH
    obtain ⟨w, hw, hv⟩ := hH.valid
    by_cases hc : pub' true j' = some P
    swap
    · have aux : ∀ (b : Bool) (user : J → Option (User F G1 G2)) (upd : J → Option (UserUpdate F)),
          (⟨hist', srv', pub', user, upd⟩ : AnonState F G1 G2 J).move g b ω (.finish j j' A)
            = (⟨hist', srv', pub', user, upd⟩, .refused) := by
        intro b user upd
        simp only [AnonState.move, hp, if_neg hc]
        cases user (acting b j j') with
        | none => rfl
        | some a =>
        cases upd (acting b j j') with
        | none => rfl
        | some x =>
        cases hpe : P.pending with
        | none => simp only [hpe]
        | some q =>
        cases ha : a.witness with
        | none => simp only [hpe, ha]
        | some w => simp only [hpe, ha, if_neg hc]
      rw [Equiv.refl_apply, aux, aux]
      exact ⟨rfl, stay⟩
    obtain ⟨u', hu', hH'⟩ := hR.known j' P hc
    simp only at hu' hH'
    obtain ⟨w', hw', hv'⟩ := hH'.valid
    cases hq : P.pending with
    | none =>
      have aux : ∀ (b : Bool) (user : J → Option (User F G1 G2)) (upd : J → Option (UserUpdate F)),
          (⟨hist', srv', pub', user, upd⟩ : AnonState F G1 G2 J).move g b ω (.finish j j' A)
            = (⟨hist', srv', pub', user, upd⟩, .refused) := by
        intro b user upd
        simp only [AnonState.move, hp, hq]
        cases user (acting b j j') with
        | none => rfl
        | some a =>
        cases upd (acting b j j') with
        | none => rfl
        | some x => simp only [hq]
      rw [Equiv.refl_apply, aux, aux]
      exact ⟨rfl, stay⟩
    | some q =>
    have hS := hH.pending q hq
    have hS' := hH'.pending q hq
    obtain ⟨x, rand, hx, -⟩ := hS.sent
    obtain ⟨x', rand', hx', -⟩ := hS'.sent
    rw [hx] at hH
    rw [hx'] at hH'
    have hlt := hS.epoch_lt
    rw [hH.epoch_eq] at hlt
    obtain ⟨k', hk', -, hk3, -⟩ := C32_chunk_size (q.srv.getEpoch - P.epoch) (g.seed (q.srv.getEpoch - P.epoch))
      (by omega) (hseed _ (by omega))
    obtain ⟨k, rfl⟩ : ∃ k, k' = k + 1 := ⟨k' - 1, by omega⟩
    obtain ⟨honest, V, m1, m2, m3, m4, m5⟩ := finish_spec g hP hK hseed hH hq hw k hk'
    obtain ⟨honest', V', m1', m2', m3', m4', m5'⟩ := finish_spec g hP hK hseed hH' hq hw' k hk'
    rw [m2] at m2'
    injection m2' with m2'
    subst m2'
    set c := answerLength (q.srv.getEpoch - P.epoch) k with hcdef
    have hlens : ∀ honest : List (List F × List G1), (∃ a, a ∈ honest) → (∀ a ∈ honest, a.1.length = c ∧ a.2.length = c) →
        ((∀ i ∈ q.liars, ∀ a ∈ honest, (A i).1.length = a.1.length ∧ (A i).2.length = a.2.length) ↔
          ∀ i ∈ q.liars, (A i).1.length = c ∧ (A i).2.length = c) := by
      rintro honest ⟨a, ha⟩ hall
      constructor
      · intro h i hi
        have := h i hi a ha
        rwa [(hall a ha).1, (hall a ha).2] at this
      · intro h i hi a ha
        rw [(hall a ha).1, (hall a ha).2]
        exact h i hi
    by_cases hA : ∀ i ∈ q.liars, (A i).1.length = c ∧ (A i).2.length = c
    swap
    · simp only [AnonState.move, hp, acting_false, acting_true, hu, hu', hx, hx', hq, hw, hw', if_pos hc, m1, m1',
        if_neg (fun h => hA ((hlens honest m3 m4).1 h)), if_neg (fun h => hA ((hlens honest' m3' m4').1 h))]
      exact ⟨trivial, stay⟩
    by_cases hgood : ∀ i ∈ q.liars, i ≤ q.t → q.srv.update q.diff ((q.view i).getD []) = .ok (A i)
    · obtain ⟨W, n1, n2⟩ := (m5 A hA).1 hgood
      obtain ⟨W', n1', n2'⟩ := (m5' A hA).1 hgood
      simp only [AnonState.move, hp, acting_false, acting_true, hu, hu', hx, hx', hq, hw, hw', if_pos hc, m1, m1',
        if_pos ((hlens honest m3 m4).2 hA), if_pos ((hlens honest' m3' m4').2 hA), n1, n1', m2]
      have hepoch : 1 ≤ q.srv.getEpoch := by omega
      have hacc : srv'.accumulators[q.srv.getEpoch - 1]? = some V := by
        obtain ⟨ops, hops⟩ := hS.later
        obtain ⟨⟨d, hd⟩, -⟩ := run_extends ops q.srv srv' hops
        rw [← hd, List.getElem?_append_left (by rw [Server.getEpoch] at *; omega)]
        rw [Server.getAccumulator] at m2
        rw [Server.getEpoch, ← List.getLast?_eq_getElem?]
        cases hl : q.srv.accumulators.getLast? with
        | none => rw [hl] at m2; cases m2
        | some V'' => rw [hl] at m2; cases m2; rfl
      refine ⟨trivial, rfl, rfl, rfl, ?_, ?_⟩
      · refine ⟨hreach, fun i Q hi => ?_⟩
        simp only [acting_false] at hi ⊢
        by_cases hij : i = j
        · subst hij
          simp only [if_true] at hi ⊢
          cases hi
          exact ⟨_, rfl, hH.id_eq, rfl, rfl, hH.keys, hepoch, hacc, ⟨_, rfl, n2⟩, fun q' hq' => by cases hq'⟩
        · simp only [hij, if_false] at hi ⊢
          exact hL.known i Q hi
      · refine ⟨hreach, fun i Q hi => ?_⟩
        simp only [acting_true] at hi ⊢
        by_cases hij : i = j'
        · subst hij
          simp only [if_true] at hi ⊢
          cases hi
          exact ⟨_, rfl, hH'.id_eq, rfl, rfl, hH'.keys, hepoch, hacc, ⟨_, rfl, n2'⟩, fun q' hq' => by cases hq'⟩
        · simp only [hij, if_false] at hi ⊢
          exact hR.known i Q hi
    · have n1 := (m5 A hA).2 hgood
      have n1' := (m5' A hA).2 hgood
      simp only [AnonState.move, hp, acting_false, acting_true, hu, hu', hx, hx', hq, hw, hw', if_pos hc, m1, m1',
        if_pos ((hlens honest m3 m4).2 hA), if_pos ((hlens honest' m3' m4').2 hA), n1, n1', m2]
      exact ⟨trivial, stay⟩
  | present j j' eph =>
    cases hp : pub' false j with
    | none =>
      refine ⟨Equiv.refl _, fun ω => ?_⟩
      simp only [AnonState.move, hp]
      exact ⟨trivial, stay⟩
    | some P =>
    obtain ⟨u, hu, hH⟩ := hL.known j P hp
    simp only at hu hH
    by_cases hc : pub' true j' = some P
    · obtain ⟨u', hu', hH'⟩ := hR.known j' P hc
      simp only at hu' hH'
      obtain ⟨w, hw, hv⟩ := hH.valid
      obtain ⟨w', hw', hv'⟩ := hH'.valid
      obtain ⟨ops₁, ops₂, -, -, -, hrun⟩ := hreach
      obtain ⟨ψ, hψ⟩ := present_perm g.E g.H g.enc g.params hz _ P.acc eph _ _ w w' hv hv'
      refine ⟨Equiv.prodCongr (Equiv.refl _) (Equiv.prodCongr ψ (Equiv.refl _)), fun ω => ?_⟩
      simp only [AnonState.move, hp, acting_false, acting_true, hu, hu', if_pos hc, Equiv.prodCongr_apply,
        Prod.map_snd, Prod.map_fst]
      refine ⟨?_, stay⟩
      unfold User.makeMembershipProof
      rw [hw, hw']
      simp only
      rw [hH.id_eq, hH'.id_eq, hH.acc_eq, hH'.acc_eq, Server.getPublicKeys, (keys_run hrun).1, hψ]
    · refine ⟨Equiv.refl _, fun ω => ?_⟩
      simp only [AnonState.move, hp, acting_false, acting_true, hu, if_neg hc]
      cases user' j' with
      | none => exact ⟨rfl, stay⟩
      | some a => simp only [if_neg hc]; exact ⟨trivial, stay⟩


theorem init_related (g : AnonGame F G1 G2 GT J) : g.Related g.init g.init := by
  refine ⟨rfl, rfl, rfl, ⟨⟨[], [], rfl, by simp, by simp, rfl⟩, ?_⟩, ⟨⟨[], [], rfl, by simp, by simp, rfl⟩, ?_⟩⟩ <;>
  · intro j P h
    cases h

section
variable [Fintype F]

instance {M : Nat} : Inhabited (AnonRand F M) := ⟨(fun _ _ => 0, default, 0, 0)⟩

theorem run_related {α : Type} (g : AnonGame F G1 G2 GT J) (hP : g.params.p2 ≠ 0) (hK : g.params.k2 ≠ 0)
    (hz : g.params.z1 ≠ 0) (hseed : ∀ d, 1 ≤ d → 1 ≤ g.seed d) {M : Nat} (f : α → ℚ) :
    ∀ (prog : AnonProg F G1 G2 J α) (N : Nat), prog.Bound N → ∀ st st', g.Related st st' →
      avg (fun ws : Fin N → AnonRand F M => f (prog.run g false (pad ws) st))
        = avg (fun ws : Fin N → AnonRand F M => f (prog.run g true (pad ws) st')) := by
  intro prog
  induction prog with
  | done a =>
    intro N _ st st' _
    simp only [AnonProg.run]
  | move m k ih =>
    intro N hN st st' h
    cases N with
    | zero => exact absurd hN (fun h => h)
    | succ N =>
    rw [avg_cons, avg_cons]
    simp only [AnonProg.run, pad_zero, pad_succ]
    obtain ⟨τ, hτ⟩ := step_related (M := M) g hP hK hz hseed h m
    rw [← avg_bij τ τ.bijective (fun w => avg (fun v : Fin N → AnonRand F M =>
      f (AnonProg.run g true (pad v) (st'.move g true w m).1 (k (st'.move g true w m).2))))]
    refine avg_congr (fun w => ?_)
    rw [(hτ w).1]
    exact ih _ N (hN _) _ _ (hτ w).2

/-- **C89** (anonymity). Whatever the adversary does, in at most `N` moves: the probability (over the random choices of
all clients) of any event about its result, hence about all it has seen, is the same in both worlds. Nothing is assumed
about the hash function or about the adversary's computing power, and it may know all secrets of the servers and the
secrets every client has when it enrols. `M` bounds the number of random coefficients available for a sharing. -/
theorem C89_anonymous {α : Type} (g : AnonGame F G1 G2 GT J) (hP : g.params.p2 ≠ 0) (hK : g.params.k2 ≠ 0)
    (hz : g.params.z1 ≠ 0) (hseed : ∀ d, 1 ≤ d → 1 ≤ g.seed d) (adv : AnonProg F G1 G2 J α) (N M : Nat)
    (hN : adv.Bound N) (ev : α → Prop) :
    prob (fun ws : Fin N → AnonRand F M => ev (adv.run g false (pad ws) g.init))
      = prob (fun ws : Fin N → AnonRand F M => ev (adv.run g true (pad ws) g.init)) := by
  classical
  rw [prob_eq_avg, prob_eq_avg]
  exact run_related g hP hK hz hseed (fun a => if ev a then 1 else 0) adv N hN _ _ (init_related g)

end

/-! ### The game can be played -/

/-- The state after some moves with given random choices. -/
noncomputable def AnonGame.after {M : Nat} (g : AnonGame F G1 G2 GT J) (b : Bool)
    (ms : List (AnonMove F G1 J × AnonRand F M)) : AnonState F G1 G2 J :=
  ms.foldl (fun st m => (st.move g b m.2 m.1).1) g.init

theorem after_good (g : AnonGame F G1 G2 GT J) (hP : g.params.p2 ≠ 0) (hK : g.params.k2 ≠ 0)
    (hz : g.params.z1 ≠ 0) (hseed : ∀ d, 1 ≤ d → 1 ≤ g.seed d) {M : Nat} (b : Bool)
    (ms : List (AnonMove F G1 J × AnonRand F M)) : g.Good b (g.after b ms) := by
  have key : ∀ (ms : List (AnonMove F G1 J × AnonRand F M)) (st st' : AnonState F G1 G2 J), g.Related st st' →
      g.Good false (ms.foldl (fun st m => (st.move g false m.2 m.1).1) st) ∧
      g.Good true (ms.foldl (fun st m => (st.move g true m.2 m.1).1) st') := by
    intro ms
    induction ms with
    | nil => exact fun st st' h => ⟨h.left, h.right⟩
    | cons m ms ih =>
      intro st st' h
      obtain ⟨τ, hτ⟩ := step_related (M := M) g hP hK hz hseed h m.1
      simp only [List.foldl_cons]
      have h2 := (hτ (τ.symm m.2)).2
      rw [Equiv.apply_symm_apply] at h2
      exact ⟨(ih _ _ (hτ m.2).2).1, (ih _ _ h2).2⟩
  cases b
  · exact (key ms _ _ (init_related g)).1
  · exact (key ms _ _ (init_related g)).2

open Classical in
/-- **C89** (the game is played). Whatever has happened so far, in either world: take two persons that are not told apart
by what is known, were not deleted and are behind. An update can be started; if the liars then answer honestly, it
succeeds, and both are then known to be up to date; and then (as always) whoever presents, the proof is accepted. If one
of the first `t + 1` servers answers something else, of the right length, the update fails with "malicious server". -/
theorem C89_live {M : Nat} (g : AnonGame F G1 G2 GT J) (hP : g.params.p2 ≠ 0) (hK : g.params.k2 ≠ 0)
    (hz : g.params.z1 ≠ 0) (hseed : ∀ d, 1 ≤ d → 1 ≤ g.seed d) (b : Bool)
    (ms : List (AnonMove F G1 J × AnonRand F M)) (j j' : J) (P : Pub F G1 G2)
    (hj : (g.after b ms).pub false j = some P) (hj' : (g.after b ms).pub true j' = some P) :
    (∀ (n t : Nat) (liars : Finset Nat), g.ids j ∉ (g.after b ms).srv.deletions.drop (P.epoch - 1) →
      g.ids j' ∉ (g.after b ms).srv.deletions.drop (P.epoch - 1) → P.epoch < (g.after b ms).srv.getEpoch →
      2 ≤ t → t < n → (∀ i, 0 < i → i ≤ n → (i : F) ≠ 0) → (∀ i ∈ liars, i < n) → liars.card < t →
      (liars.filter (· ≤ t)).card ≤ 1 → t ≤ M →
      (∀ k, chunkSize ((g.after b ms).srv.getEpoch - P.epoch) (g.seed ((g.after b ms).srv.getEpoch - P.epoch)) = .ok k →
        k ≤ M) →
      ∀ ω : AnonRand F M, ∃ d view,
        ((g.after b ms).move g b ω (.start j j' n t liars)).2 = .shares d view ∧
        let P' : Pub F G1 G2 := ⟨P.epoch, P.acc, some ⟨(g.after b ms).srv, n, t, liars, d, view⟩⟩
        ((g.after b ms).move g b ω (.start j j' n t liars)).1.pub false j = some P' ∧
        ((g.after b ms).move g b ω (.start j j' n t liars)).1.pub true j' = some P') ∧
    (∀ q, P.pending = some q → ∀ A : Nat → List F × List G1,
      ((∀ i ∈ q.liars, q.srv.update q.diff ((q.view i).getD []) = .ok (A i)) → ∀ ω : AnonRand F M,
        ((g.after b ms).move g b ω (.finish j j' A)).2 = .outcome (.ok (.ok ())) ∧
        ∃ V, q.srv.getAccumulator = .ok V ∧
          ((g.after b ms).move g b ω (.finish j j' A)).1.pub false j = some ⟨q.srv.getEpoch, V, none⟩ ∧
          ((g.after b ms).move g b ω (.finish j j' A)).1.pub true j' = some ⟨q.srv.getEpoch, V, none⟩) ∧
      ((∃ i ∈ q.liars, i ≤ q.t ∧ q.srv.update q.diff ((q.view i).getD []) ≠ .ok (A i)) →
        (∀ i ∈ q.liars, ∃ a, q.srv.update q.diff ((q.view i).getD []) = .ok a ∧ (A i).1.length = a.1.length ∧
          (A i).2.length = a.2.length) →
        ∀ ω : AnonRand F M,
          (g.after b ms).move g b ω (.finish j j' A) = (g.after b ms, .outcome (.ok (.error "malicious server"))))) ∧
    (∀ eph, ∀ ω : AnonRand F M, ∃ p, ((g.after b ms).move g b ω (.present j j' eph)).2 = .proof (some p) ∧
      checkProof g.E g.H g.enc p g.params (g.after b ms).srv.getPublicKeys P.acc eph = true) := by
  have hG := after_good g hP hK hz hseed b ms
  generalize g.after b ms = st at *
  have hact : st.pub b (acting b j j') = some P := by cases b <;> assumption
  obtain ⟨u, hu, hH⟩ := hG.known _ _ hact
  have hid : g.ids (acting b j j') = g.ids j ∨ g.ids (acting b j j') = g.ids j' := by
    cases b
    · exact Or.inl rfl
    · exact Or.inr rfl
  refine ⟨?_, ?_, ?_⟩
  · intro n t liars c2 c3 c4 c5 c6 c7 c8 c9 c10 c11 c12 ω
    obtain ⟨-, x, -, -, hx, -⟩ := prepareForUpdate_ok g.seed hseed u st.srv.getEpoch n t c5 c6.le (by rw [hH.epoch_eq]; exact c4)
      (sharingRand ω.1)
    refine ⟨x.epochDiff, jointView liars x, ?_⟩
    have hc := And.intro hj' <| And.intro c2 <| And.intro c3 <| And.intro c4 <| And.intro c5 <| And.intro c6 <|
      And.intro c7 <| And.intro c8 <| And.intro c9 <| And.intro c10 <| And.intro c11 c12
    simp only [AnonState.move, hj, hu, if_pos hc, hx]
    simp [acting]
  · intro q hq A
    obtain ⟨w, hw, hv⟩ := hH.valid
    have hS := hH.pending q hq
    obtain ⟨x, rand, hx, hprep, hdiff, hview⟩ := hS.sent
    have hlt := hS.epoch_lt
    rw [hH.epoch_eq] at hlt
    obtain ⟨k', hk', -, hk3, -⟩ := C32_chunk_size (q.srv.getEpoch - P.epoch) (g.seed (q.srv.getEpoch - P.epoch))
      (by omega) (hseed _ (by omega))
    obtain ⟨k, rfl⟩ : ∃ k, k' = k + 1 := ⟨k' - 1, by omega⟩
    rw [hx] at hH
    obtain ⟨honest, V, m1, m2, m3, m4, m5⟩ := finish_spec g hP hK hseed hH hq hw k hk'
    set c := answerLength (q.srv.getEpoch - P.epoch) k with hcdef
    have hlen : (∀ i ∈ q.liars, (A i).1.length = c ∧ (A i).2.length = c) →
        ∀ i ∈ q.liars, ∀ a ∈ honest, (A i).1.length = a.1.length ∧ (A i).2.length = a.2.length := by
      intro h i hi a ha
      rw [(m4 a ha).1, (m4 a ha).2]
      exact h i hi
    -- answers of honest servers have the right length
    have hright : ∀ i ∈ q.liars, ∀ a, q.srv.update q.diff ((q.view i).getD []) = .ok a →
        a.1.length = c ∧ a.2.length = c := by
      intro i hi a ha
      have hin := hS.liars_lt i hi
      have hyl : x.yShares.length = q.n := by
        obtain ⟨_, x', -, -, hp', -, -, h3, -⟩ := prepareForUpdate_ok g.seed hseed u q.srv.getEpoch q.n q.t hS.t_ge hS.t_lt.le
          hS.epoch_lt rand
        rw [hprep] at hp'
        cases hp'
        exact h3
      have hys : x.yShares[i]? = some x.yShares[i] := List.getElem?_eq_getElem (by omega)
      have hvi : (q.view i).getD [] = x.yShares[i] := by
        rw [hview, jointView, if_pos hi, hys]; rfl
      have hmem : a ∈ honest := by
        have e : (do
          let ys ← idx x.yShares i
          q.srv.update x.epochDiff ys) = .ok a := by
          simp only [idx, hys, bind, Except.bind]
          rw [← hdiff, ← hvi]; exact ha
        have aux : ∀ (l : List Nat) (f : Nat → Rust (List F × List G1)) (r : List (List F × List G1)),
            l.mapM f = .ok r → i ∈ l → f i = .ok a → a ∈ r := by
          intro l f
          induction l with
          | nil => intro r _ h; cases h
          | cons y l ih =>
            intro r hr hm hf
            rw [List.mapM_cons] at hr
            cases hy : f y with
            | error e => rw [hy] at hr; cases hr
            | ok z =>
            cases hl : l.mapM f with
            | error e => rw [hy, hl] at hr; cases hr
            | ok rs =>
            rw [hy, hl] at hr
            have : z :: rs = r := by simpa [bind, Except.bind, pure, Except.pure] using hr
            subst this
            rcases List.mem_cons.1 hm with rfl | hm
            · rw [hy] at hf; cases hf; simp
            · exact List.mem_cons_of_mem _ (ih rs hl hm hf)
        exact aux _ _ _ m1 (List.mem_range.2 hin) e
      exact m4 a hmem
    refine ⟨fun hA ω => ?_, fun hbad hA ω => ?_⟩
    · have hA' : ∀ i ∈ q.liars, (A i).1.length = c ∧ (A i).2.length = c := fun i hi => hright i hi _ (hA i hi)
      obtain ⟨W, n1, n2⟩ := (m5 A hA').1 (fun i hi _ => hA i hi)
      simp only [AnonState.move, hj, hu, hx, hq, hw, if_pos hj', m1, if_pos (hlen hA'), n1, m2]
      simp [acting]
    · have hA' : ∀ i ∈ q.liars, (A i).1.length = c ∧ (A i).2.length = c := by
        intro i hi
        obtain ⟨a, a1, a2, a3⟩ := hA i hi
        rw [a2, a3]
        exact hright i hi a a1
      have n1 := (m5 A hA').2 (by
        intro h
        obtain ⟨i, hi, hit, hne⟩ := hbad
        exact hne (h i hi hit))
      simp only [AnonState.move, hj, hu, hx, hq, hw, if_pos hj', m1, if_pos (hlen hA'), n1, m2]
  · intro eph ω
    obtain ⟨w, hw, hv⟩ := hH.valid
    obtain ⟨ops₁, ops₂, -, -, -, hrun⟩ := hG.reach
    have hpk : st.srv.getPublicKeys = ⟨g.α • g.params.p2, g.sM • g.params.k2⟩ := (keys_run hrun).1
    obtain ⟨p, hp⟩ := (C42_complete g.E g.H g.enc w (g.ids (acting b j j')) P.acc g.params st.srv.getPublicKeys eph
      ω.2.1).1.2 (by rw [hpk]; exact hv)
    refine ⟨p, ?_, (C42_complete g.E g.H g.enc w (g.ids (acting b j j')) P.acc g.params st.srv.getPublicKeys eph
      ω.2.1).2 p hp⟩
    simp only [AnonState.move, hj, hu, if_pos hj']
    unfold User.makeMembershipProof
    rw [hw]
    simp only
    rw [hH.id_eq, hH.acc_eq, hp]


open Classical in
/-- **C89** (enrolment in the game). As long as `quick_delete` has not been used, a member can enrol, and in both worlds is
then known to be up to date. -/
theorem C89_enrol {M : Nat} (g : AnonGame F G1 G2 GT J) (hP : g.params.p2 ≠ 0) (hK : g.params.k2 ≠ 0)
    (hz : g.params.z1 ≠ 0) (hseed : ∀ d, 1 ≤ d → 1 ≤ g.seed d) (b : Bool)
    (ms : List (AnonMove F G1 J × AnonRand F M)) (j : J) (hm : g.ids j ∈ (g.after b ms).srv.ids)
    (hq : ∀ o ∈ (g.after b ms).hist, o.isQuick = false) (hs : g.ids j ≠ -g.sM) (ω : AnonRand F M) :
    ∃ u V, ((g.after b ms).move g b ω (.enrol j)).2 = .enrolled u ω.2.2.2 ∧ (g.after b ms).srv.getAccumulator = .ok V ∧
      (∀ x, ((g.after b ms).move g b ω (.enrol j)).1.pub x j = some ⟨(g.after b ms).srv.getEpoch, V, none⟩) ∧
      (∀ x i, i ≠ j → ((g.after b ms).move g b ω (.enrol j)).1.pub x i = (g.after b ms).pub x i) ∧
      ((g.after b ms).move g b ω (.enrol j)).1.srv = (g.after b ms).srv ∧
      ((g.after b ms).move g b ω (.enrol j)).1.hist = (g.after b ms).hist := by
  have hG := after_good g hP hK hz hseed b ms
  generalize g.after b ms = st at *
  obtain ⟨-, -, -, -, -, hrun⟩ := hG.reach
  have hI := invW_run g.params g.α g.sM g.v st.hist hq st.srv hrun
  have hacc : st.srv.getAccumulator = .ok (accAfter g.α (g.v • g.params.p1) st.srv.deletions) := by
    rw [Server.getAccumulator, hI.last]; rfl
  have hnew : User.new st.srv (g.ids j) = .ok ⟨g.ids j, none, accAfter g.α (g.v • g.params.p1) st.srv.deletions,
      st.srv.publicKeys, st.srv.getEpoch⟩ := by
    rw [User.new, hacc]; rfl
  obtain ⟨u, V, h1, h2, h3, h4, h5, h6, -⟩ := C22_create_witness g.E g.H g.enc g.params hP hK g.α g.sM g.v st.hist hq
    st.srv hrun _ (g.ids j) hnew (((refines_run st.hist (refines_new g.params g.α g.sM g.v) hrun).members _).1 hm) hs
    ω.2.2.1 ω.2.2.2
  refine ⟨u, V, ?_⟩
  have hdo : (do
        let u ← User.new st.srv (g.ids j)
        u.createWitness g.H g.enc g.params st.srv ω.2.2.1 ω.2.2.2 : Rust (User F G1 G2)) = .ok u := by
    rw [hnew]; exact h1
  simp only [AnonState.move, if_pos (And.intro hm hq), hdo, h4, h5]
  refine ⟨trivial, h2, fun x => by simp, fun x i hi => by simp [hi], trivial, trivial⟩

end

/-! ### A concrete game -/

section
variable (H : Oracle (ZMod 7)) (enc : Enc (ZMod 7) (ZMod 7) (ZMod 7))

/-- two persons with ids 1 and 2 -/
def exAnon : AnonGame (ZMod 7) (ZMod 7) (ZMod 7) (ZMod 7) Bool :=
  ⟨Pairing.field (ZMod 7), H, enc, ⟨1, 1, 1, 2, 1, 5, 6, 4⟩, fun _ => 1, 1, 2, 1, fun j => if j then 2 else 1⟩

/-- ids 1, 2, 3 are added, both persons enrol, 3 is deleted -/
def exAnonMoves (ω : AnonRand (ZMod 7) 8) : List (AnonMove (ZMod 7) (ZMod 7) Bool × AnonRand (ZMod 7) 8) :=
  [(.serverOp (.add 1), ω), (.serverOp (.add 2), ω), (.serverOp (.add 3), ω), (.enrol false, ω), (.enrol true, ω),
    (.serverOp (.delete 3), ω)]

/-- `C89_live` applies after these moves: the persons are not told apart, an update (4 servers, threshold 2, server 0
lies) can be started. -/
example (b : Bool) (ω : AnonRand (ZMod 7) 8) : ∃ d view,
    (((exAnon H enc).after b (exAnonMoves ω)).move (exAnon H enc) b ω (.start false true 4 2 {0})).2 = .shares d view := by
  have hP : (exAnon H enc).params.p2 ≠ 0 := by simp only [exAnon]; decide
  have hK : (exAnon H enc).params.k2 ≠ 0 := by simp only [exAnon]; decide
  have hz : (exAnon H enc).params.z1 ≠ 0 := by simp only [exAnon]; decide
  have hseed : ∀ d, 1 ≤ d → 1 ≤ (exAnon H enc).seed d := fun _ _ => le_refl _
  let s3 : Server (ZMod 7) (ZMod 7) (ZMod 7) := ⟨[1], 1, ⟨1, 2⟩, 2, [3, 2, 1], [(3, 2), (2, 5), (1, 4)], []⟩
  -- the first three moves
  have h3 : (exAnon H enc).after b [(.serverOp (.add 1), ω), (.serverOp (.add 2), ω), (.serverOp (.add 3), ω)]
      = ⟨[.add 1, .add 2, .add 3], s3, fun _ _ => none, fun _ => none, fun _ => none⟩ := by
    have e1 : (Server.new (⟨1, 1, 1, 2, 1, 5, 6, 4⟩ : AccParams (ZMod 7) (ZMod 7)) (1 : ZMod 7) 2 1).step (.add 1)
        = .ok (⟨[1], 1, ⟨1, 2⟩, 2, [1], [(1, 4)], []⟩, some 4) := by with_unfolding_all rfl
    have e2 : (⟨[1], 1, ⟨1, 2⟩, 2, [1], [(1, 4)], []⟩ : Server (ZMod 7) (ZMod 7) (ZMod 7)).step (.add 2)
        = .ok (⟨[1], 1, ⟨1, 2⟩, 2, [2, 1], [(2, 5), (1, 4)], []⟩, some 5) := by with_unfolding_all rfl
    have e3 : (⟨[1], 1, ⟨1, 2⟩, 2, [2, 1], [(2, 5), (1, 4)], []⟩ : Server (ZMod 7) (ZMod 7) (ZMod 7)).step (.add 3)
        = .ok (s3, some 2) := by with_unfolding_all rfl
    simp [AnonGame.after, AnonGame.init, AnonState.move, Server.Op.isDelete, exAnon, e1, e2, e3]
  -- the persons enrol
  obtain ⟨u, V, -, hV, k1, k2, k3, k4⟩ := C89_enrol (exAnon H enc) hP hK hz hseed b
    [(.serverOp (.add 1), ω), (.serverOp (.add 2), ω), (.serverOp (.add 3), ω)] false
    (by rw [h3]; simp [exAnon, s3, Server.ids]) (by rw [h3]; simp [Server.Op.isQuick])
    (by simp only [exAnon]; decide) ω
  obtain ⟨u', V', -, hV', k1', k2', k3', k4'⟩ := C89_enrol (exAnon H enc) hP hK hz hseed b
    [(.serverOp (.add 1), ω), (.serverOp (.add 2), ω), (.serverOp (.add 3), ω), (.enrol false, ω)] true
    (by
      have : (exAnon H enc).after b [(.serverOp (.add 1), ω), (.serverOp (.add 2), ω), (.serverOp (.add 3), ω),
        (.enrol false, ω)] = (((exAnon H enc).after b [(.serverOp (.add 1), ω), (.serverOp (.add 2), ω),
        (.serverOp (.add 3), ω)]).move (exAnon H enc) b ω (.enrol false)).1 := rfl
      rw [this, k3, h3]; simp [exAnon, s3, Server.ids])
    (by
      have : (exAnon H enc).after b [(.serverOp (.add 1), ω), (.serverOp (.add 2), ω), (.serverOp (.add 3), ω),
        (.enrol false, ω)] = (((exAnon H enc).after b [(.serverOp (.add 1), ω), (.serverOp (.add 2), ω),
        (.serverOp (.add 3), ω)]).move (exAnon H enc) b ω (.enrol false)).1 := rfl
      rw [this, k4, h3]; simp [Server.Op.isQuick])
    (by simp only [exAnon]; decide) ω
  have hst4 : (exAnon H enc).after b [(.serverOp (.add 1), ω), (.serverOp (.add 2), ω), (.serverOp (.add 3), ω),
        (.enrol false, ω)] = (((exAnon H enc).after b [(.serverOp (.add 1), ω), (.serverOp (.add 2), ω),
        (.serverOp (.add 3), ω)]).move (exAnon H enc) b ω (.enrol false)).1 := rfl
  have hst5 : (exAnon H enc).after b [(.serverOp (.add 1), ω), (.serverOp (.add 2), ω), (.serverOp (.add 3), ω),
        (.enrol false, ω), (.enrol true, ω)] = (((exAnon H enc).after b [(.serverOp (.add 1), ω), (.serverOp (.add 2), ω),
        (.serverOp (.add 3), ω), (.enrol false, ω)]).move (exAnon H enc) b ω (.enrol true)).1 := rfl
  have hs4 : ((exAnon H enc).after b [(.serverOp (.add 1), ω), (.serverOp (.add 2), ω), (.serverOp (.add 3), ω),
        (.enrol false, ω)]).srv = s3 := by rw [hst4, k3, h3]
  have hh4 : ((exAnon H enc).after b [(.serverOp (.add 1), ω), (.serverOp (.add 2), ω), (.serverOp (.add 3), ω),
        (.enrol false, ω)]).hist = [.add 1, .add 2, .add 3] := by rw [hst4, k4, h3]
  have hs3 : ((exAnon H enc).after b [(.serverOp (.add 1), ω), (.serverOp (.add 2), ω),
        (.serverOp (.add 3), ω)]).srv = s3 := by rw [h3]
  rw [hs4] at hV' k1' k3'
  rw [hh4] at k4'
  rw [hs3] at hV k1
  have e4 : s3.getAccumulator = .ok 1 := rfl
  rw [e4] at hV hV'
  cases hV
  cases hV'
  rw [← hst4] at k1
  rw [← hst5] at k1' k2' k3' k4'
  have p1 : ((exAnon H enc).after b [(.serverOp (.add 1), ω), (.serverOp (.add 2), ω), (.serverOp (.add 3), ω),
        (.enrol false, ω), (.enrol true, ω)]).pub false false = some ⟨1, 1, none⟩ := by
    rw [k2' false false (by simp), k1 false]; rfl
  have p2 : ((exAnon H enc).after b [(.serverOp (.add 1), ω), (.serverOp (.add 2), ω), (.serverOp (.add 3), ω),
        (.enrol false, ω), (.enrol true, ω)]).pub true true = some ⟨1, 1, none⟩ := k1' true
  -- 3 is deleted
  have e5 : s3.step (.delete 3) = .ok (⟨[1, 2], 1, ⟨1, 2⟩, 2, [3, 2, 1], [(2, 3), (1, 1)], [3]⟩, some 2) := by
    with_unfolding_all rfl
  have hst6 : (exAnon H enc).after b (exAnonMoves ω)
      = (((exAnon H enc).after b [(.serverOp (.add 1), ω), (.serverOp (.add 2), ω), (.serverOp (.add 3), ω),
        (.enrol false, ω), (.enrol true, ω)]).move (exAnon H enc) b ω (.serverOp (.delete 3))).1 := rfl
  have hmv : ((exAnon H enc).after b (exAnonMoves ω)).srv
        = ⟨[1, 2], 1, ⟨1, 2⟩, 2, [3, 2, 1], [(2, 3), (1, 1)], [3]⟩ ∧
      ((exAnon H enc).after b (exAnonMoves ω)).pub = ((exAnon H enc).after b [(.serverOp (.add 1), ω),
        (.serverOp (.add 2), ω), (.serverOp (.add 3), ω), (.enrol false, ω), (.enrol true, ω)]).pub := by
    rw [hst6]
    simp only [AnonState.move, k3', k4', e5]
    simp [Server.Op.isDelete, Server.Op.isQuick]
  obtain ⟨d, view, h, -⟩ := (C89_live (exAnon H enc) hP hK hz hseed b (exAnonMoves ω) false true ⟨1, 1, none⟩
    (by rw [hmv.2]; exact p1) (by rw [hmv.2]; exact p2)).1 4 2 {0}
    (by rw [hmv.1]; simp only [exAnon]; decide) (by rw [hmv.1]; simp only [exAnon]; decide)
    (by rw [hmv.1]; decide) (le_refl _) (by norm_num) (by intro i h0 h4; interval_cases i <;> decide)
    (by decide) (by decide) (by decide) (by norm_num) (by
      rw [hmv.1]
      intro k hk
      obtain ⟨k', hk', -, -, hle, -⟩ := C32_chunk_size (2 - 1) ((exAnon H enc).seed (2 - 1)) (by norm_num)
        (hseed _ (by norm_num))
      have hkk : chunkSize (2 - 1) ((exAnon H enc).seed (2 - 1)) = .ok k := hk
      rw [hk'] at hkk
      cases hkk
      refine le_trans hle ?_
      simp [exAnon]) ω
  exact ⟨d, view, h⟩

end
end Allo
