import Verif.Props.AdaptiveSign
import Verif.Lemmas.Fresh

/-!
# C88: presentations need the credential of a corrupted current member, whatever else happens

C79, C84 and C85 in one game. The adversary steers a running server (`add`, `delete`), sees everything the server stores
except its two secret keys, gets signatures for the ids of corrupted users (a list `l`), and gets presentations from
honest users (a list `hs` of ids and secret keys), always for the current accumulator, in an order and for ephemeral
challenges of its choice. In the end it presents a proof that is not a replay.
-/

set_option linter.unusedSectionVars false
set_option linter.unusedVariables false
namespace Allo
open Spec Server Rom

section game
variable {F G1 G2 GT α : Type} [Field F] [DecidableEq F] [AddCommGroup G1] [Module F G1]
  [AddCommGroup G2] [Module F G2] [AddCommGroup GT] [Module F GT] [DecidableEq GT]

/-- All fields of a server (src/servers.rs:12-27) except `witness_secret_key` and `sign_secret_key`. -/
structure FullView (F G1 G2 : Type) where
  accumulators : List G1
  publicKeys : PublicKeys G2
  allUsers : List F
  allWitnesses : List (F × G1)
  deletions : List F

/-- What the adversary sees of a server. -/
def Server.fullView (s : Server F G1 G2) : FullView F G1 G2 :=
  ⟨s.accumulators, s.publicKeys, s.allUsers, s.allWitnesses, s.deletions⟩

/-- An adversary: it stops, asks the hash, makes a state-changing call, enrols `y` with the proof of key `(c, z)` and the
secret key `x`, or asks the honest user number `i` for a proof. -/
inductive FullProg (F G1 G2 α : Type) where
  | done (a : α)
  | hash (q : Query) (k : F → FullProg F G1 G2 α)
  | call (op : Op F) (k : Option G1 → FullView F G1 G2 → FullProg F G1 G2 α)
  | enrol (y c z x : F) (k : Option (G1 × G1) → FullProg F G1 G2 α)
  | prove (i : Nat) (eph : Bytes) (k : Option (CredProof F G1) → FullProg F G1 G2 α)

/-- At most `m` hash queries and enrolments and at most `n` proofs, whatever happens. -/
def FullProg.Bound : Nat → Nat → FullProg F G1 G2 α → Prop
  | _, _, .done _ => True
  | 0, _, .hash _ _ => False
  | m + 1, n, .hash _ k => ∀ r, Bound m n (k r)
  | m, n, .call _ k => ∀ r v, Bound m n (k r v)
  | 0, _, .enrol _ _ _ _ _ => False
  | m + 1, n, .enrol _ _ _ _ k => ∀ r, Bound m n (k r)
  | _, 0, .prove _ _ _ => False
  | m, n + 1, .prove _ _ k => ∀ p, Bound m n (k p)

/-- A user whose credential passes `Witness::verify`. -/
def ValidHolder (E : Pairing F G1 G2 GT) (params : AccParams G1 G2) : Type :=
  {h : Holder F G1 G2 // credVerify E h.accumulator h.keys params h.id h.witness = .ok ()}

def holderOf {E : Pairing F G1 G2 GT} {params : AccParams G1 G2} (h : ValidHolder E params) : Holder F G1 G2 := h.1

/-- `make_membership_proof` returns `None` unless the credential passes `Witness::verify`
(src/witness.rs:96-97). -/
def asValid (E : Pairing F G1 G2 GT) (params : AccParams G1 G2) (h : Holder F G1 G2) : Option (ValidHolder E params) :=
  match hv : credVerify E h.accumulator h.keys params h.id h.witness with
  | .ok () => some ⟨h, hv⟩
  | .error _ => none

/-- The credential of the honest user `y` with secret key `x`: what `Server::witness` answers to a request with an accepted
proof of key (it does not depend on the proof), for the current accumulator. -/
def honestHolder (E : Pairing F G1 G2 GT) (enc : Enc G1 G2 GT) (params : AccParams G1 G2) (s : Server F G1 G2) (y x : F) :
    Option (ValidHolder E params) :=
  match s.witness (fun _ _ => 0) enc params y 0 0 (x • params.k1), s.getAccumulator with
  | .ok (some (C, R)), .ok V => asValid E params ⟨y, ⟨x, C, R⟩, V, s.getPublicKeys⟩
  | _, _ => none

/-- The game. Calls that are not `allowed` (C84) and enrolments of ids that are not in `l` are refused. -/
def FullProg.play (E : Pairing F G1 G2 GT) (enc : Enc G1 G2 GT) (params : AccParams G1 G2) (l : List F)
    (hs : List (F × F)) : FullProg F G1 G2 α → Game F G1 G2 →
      ProverProg Query F (ValidHolder E params × Bytes) (CredProof F G1) (Rust (α × Game F G1 G2))
  | .done a, g => .done (.ok (a, g))
  | .hash q k, g => .hash q (fun r => (k r).play E enc params l hs g)
  | .call op k, g =>
    if allowed g.server.ids g.left op then
      match g.server.step op with
      | .error e => .done (.error e)
      | .ok (s', r) =>
        (k r s'.fullView).play E enc params l hs ⟨s', leftAfter g.server.ids g.left op, g.calls ++ [op]⟩
    else (k none g.server.fullView).play E enc params l hs g
  | .enrol y c z x k, g =>
    if y ∈ l then
      .hash (issueQuery enc params c z (x • params.k1)) (fun r =>
        match g.server.witness (fun _ _ => r) enc params y c z (x • params.k1) with
        | .error e => .done (.error e)
        | .ok o => (k o).play E enc params l hs g)
    else (k none).play E enc params l hs g
  | .prove i eph k, g =>
    match hs[i]? with
    | none => (k none).play E enc params l hs g
    | some (y, x) =>
      match honestHolder E enc params g.server y x with
      | none => (k none).play E enc params l hs g
      | some h => .prove (h, eph) (fun p => (k (some p)).play E enc params l hs g)

/-- The game from the start: the adversary sees the parameters and the fresh server. -/
def runFull (E : Pairing F G1 G2 GT) (enc : Enc G1 G2 GT) (params : AccParams G1 G2) (alpha sM v : F) (U l : List F)
    (hs : List (F × F)) (adv : AccParams G1 G2 → FullView F G1 G2 → FullProg F G1 G2 α) :
    ProverProg Query F (ValidHolder E params × Bytes) (CredProof F G1) (Rust (α × Game F G1 G2)) :=
  (adv params (Server.new params alpha sM v).fullView).play E enc params l hs ⟨Server.new params alpha sM v, U, []⟩

/-! ### The simulator: it has neither the secret keys nor the honest users' credentials -/

/-- What the adversary sees of the simulator of C84. -/
def Sim.fullView (pts : List G1) (m : Sim F G2) : FullView F G1 G2 :=
  ⟨m.accs.map (comb pts), m.keys, m.users, m.wits.map (fun p => (p.1, comb pts p.2)), m.dels⟩

/-- The answer to an enrolment. -/
def fullEnrol (pts spts : List G1) (a b : F) (l : List F) (m : Sim F G2) (y c x r : F) : Option (G1 × G1) :=
  if r = c then
    (mapGet m.wits y).map (fun cs => (comb pts cs, (x * a + b) • comb spts (coeffs (l.erase y))))
  else none

/-- The adversary against the simulator. A proof is asked for with the current accumulator and the keys only. -/
def FullProg.simulate (enc : Enc G1 G2 GT) (params : AccParams G1 G2) (pts spts : List G1) (a b : F) (l : List F)
    (hs : List F) : FullProg F G1 G2 α → Sim F G2 →
      ProverProg Query F ((G1 × PublicKeys G2) × Bytes) (CredProof F G1) (α × Sim F G2)
  | .done o, m => .done (o, m)
  | .hash q k, m => .hash q (fun r => (k r).simulate enc params pts spts a b l hs m)
  | .call op k, m =>
    if allowed m.ids m.left op then
      (k ((m.step op).2.map (comb pts)) ((m.step op).1.fullView pts)).simulate enc params pts spts a b l hs (m.step op).1
    else (k none (m.fullView pts)).simulate enc params pts spts a b l hs m
  | .enrol y c z x k, m =>
    if y ∈ l then
      .hash (issueQuery enc params c z (x • params.k1)) (fun r =>
        (k (fullEnrol pts spts a b l m y c x r)).simulate enc params pts spts a b l hs m)
    else (k none).simulate enc params pts spts a b l hs m
  | .prove i eph k, m =>
    match hs[i]? with
    | none => (k none).simulate enc params pts spts a b l hs m
    | some y =>
      if y ∈ m.ids then
        .prove ((comb pts (m.accs.getLast?.getD []), m.keys), eph)
          (fun p => (k (some p)).simulate enc params pts spts a b l hs m)
      else (k none).simulate enc params pts spts a b l hs m

/-- The simulation from the start, given the points `pts` (powers of `α`), `spts` (powers of `s`) and the public keys. -/
def runFullSim (enc : Enc G1 G2 GT) (params : AccParams G1 G2) (pts spts : List G1) (keys : PublicKeys G2) (U l : List F)
    (hs : List F) (a b : F) (adv : AccParams G1 G2 → FullView F G1 G2 → FullProg F G1 G2 α) :
    ProverProg Query F ((G1 × PublicKeys G2) × Bytes) (CredProof F G1) (α × Sim F G2) :=
  let P := simParams params spts a b l
  let m : Sim F G2 := startSim keys 0 U
  (adv P (m.fullView pts)).simulate enc P pts spts a b l hs m

/-! ### Lemmas -/

theorem asValid_some (E : Pairing F G1 G2 GT) (params : AccParams G1 G2) (h : Holder F G1 G2)
    (hv : credVerify E h.accumulator h.keys params h.id h.witness = .ok ()) : asValid E params h = some ⟨h, hv⟩ := by
  unfold asValid
  split
  · rfl
  · next e he => rw [hv] at he; cases he

theorem Sim.step_keys (m : Sim F G2) (op : Op F) : (m.step op).1.keys = m.keys := by
  cases op with
  | add y => simp only [Sim.step]; split <;> rfl
  | delete y => simp only [Sim.step]; split <;> rfl
  | quickDelete y => rfl

/-- The relation between the game and the simulator: that of C84, up to the signing key. -/
def Related (params : AccParams G1 G2) (alpha sM : F) (B : G1) (n : Nat) (U : List F) (g : Game F G1 G2) (m : Sim F G2) :
    Prop :=
  m.keys = ⟨alpha • params.p2, sM • params.k2⟩ ∧
    ∃ s0, g.server = s0.withSign sM ∧ Simulates alpha B n U ⟨s0, g.left, g.calls⟩ m

theorem Related.fullView {params : AccParams G1 G2} {alpha sM : F} {B : G1} {n : Nat} {U : List F} {g : Game F G1 G2}
    {m : Sim F G2} (h : Related params alpha sM B n U g m) : g.server.fullView = m.fullView (powers alpha B n) := by
  obtain ⟨-, s0, e, hs⟩ := h
  rw [e]
  simp only [Server.fullView, Server.withSign, Sim.fullView]
  rw [← hs.accs, ← hs.keys, ← hs.users, ← hs.wits, ← hs.dels]

theorem Related.ids {params : AccParams G1 G2} {alpha sM : F} {B : G1} {n : Nat} {U : List F} {g : Game F G1 G2}
    {m : Sim F G2} (h : Related params alpha sM B n U g m) : g.server.ids = m.ids := by
  obtain ⟨-, s0, e, hs⟩ := h
  rw [e, ← hs.ids]; rfl

theorem Related.left {params : AccParams G1 G2} {alpha sM : F} {B : G1} {n : Nat} {U : List F} {g : Game F G1 G2}
    {m : Sim F G2} (h : Related params alpha sM B n U g m) : g.left = m.left := by
  obtain ⟨-, s0, e, hs⟩ := h
  exact hs.left

theorem Related.step {params : AccParams G1 G2} {alpha sM : F} {B : G1} {n : Nat} {U : List F} {g : Game F G1 G2}
    {m : Sim F G2} (h : Related params alpha sM B n U g m) (op : Op F) (hop : allowed m.ids m.left op = true) :
    ∃ s', g.server.step op = .ok (s', (m.step op).2.map (comb (powers alpha B n))) ∧
      Related params alpha sM B n U ⟨s', leftAfter g.server.ids g.left op, g.calls ++ [op]⟩ (m.step op).1 := by
  obtain ⟨hk, s0, e, hs⟩ := h
  obtain ⟨s', h1, h2⟩ := hs.step op hop
  refine ⟨s'.withSign sM, ?_, by rw [Sim.step_keys]; exact hk, s', rfl, ?_⟩
  · rw [e, step_withSign]
    simp only at h1
    rw [h1]; rfl
  · rw [e]; exact h2

/-- An enrolment is answered in the same way. -/
theorem Related.enrol (enc : Enc G1 G2 GT) {params : AccParams G1 G2} {alpha sM : F} {B : G1} {n : Nat} {U : List F}
    {g : Game F G1 G2} {m : Sim F G2} (h : Related params alpha sM B n U g m) (Bs : G1) (a b : F) (l : List F)
    (hl : ∀ y ∈ l, y + sM ≠ 0) (y c z x r : F) (hy : y ∈ l) :
    g.server.witness (fun _ _ => r) enc (simParams params (powers sM Bs l.length) a b l) y c z
        (x • (simParams params (powers sM Bs l.length) a b l).k1)
      = .ok (fullEnrol (powers alpha B n) (powers sM Bs l.length) a b l m y c x r) := by
  obtain ⟨hk, s0, e, hs⟩ := h
  rw [e, simEnrol_eq enc params Bs sM a b l hl s0 y c z x r hy]
  unfold simEnrol fullEnrol
  have := hs.wits
  simp only at this
  rw [this, mapGet_map]
  cases mapGet m.wits y <;> simp

/-- An honest user can prove its membership exactly if it is a member, for the current accumulator. -/
theorem Related.honest (E : Pairing F G1 G2 GT) (enc : Enc G1 G2 GT) {params : AccParams G1 G2} (hP : params.p2 ≠ 0)
    (hK : params.k2 ≠ 0) {alpha sM : F} {B : G1} {n : Nat} {U : List F}
    {g : Game F G1 G2} {m : Sim F G2} (h : Related params alpha sM B n U g m) (y x : F) (hy : y + sM ≠ 0) :
    (y ∉ m.ids → honestHolder E enc params g.server y x = none) ∧
    (y ∈ m.ids → ∃ hh, honestHolder E enc params g.server y x = some hh ∧
      hh.1.accumulator = comb (powers alpha B n) (m.accs.getLast?.getD []) ∧ hh.1.keys = m.keys) := by
  have : DecidableEq G1 := Classical.decEq _
  have hids := h.ids
  obtain ⟨hk, s0, e, hs⟩ := h
  obtain ⟨h1, -, h3⟩ := C21_witness (fun _ _ => 0) enc params g.server y 0 0 (x • params.k1)
  rw [hids] at h1 h3
  have hsk : g.server.signSecretKey = sM := by rw [e]; rfl
  constructor
  · intro hn
    unfold honestHolder
    rw [h1 hn]
  · intro hm
    obtain ⟨C, R, e1, e2, e3⟩ := (h3 hm rfl).1 (by rw [hsk]; exact hy)
    have hV : g.server.getAccumulator = .ok (prodPlus alpha m.rest • B) := by
      have := hs.last
      simp only at this
      rw [getAccumulator, e]
      simp only [Server.withSign]
      rw [this]; rfl
    have hr : y ∈ m.rest := hs.perm.mem_iff.2 (List.mem_append.2 (.inl hm))
    have hacc : prodPlus alpha m.rest • B = comb (powers alpha B n) (m.accs.getLast?.getD []) := by
      have h1 := hs.last
      have h2 := hs.accs
      simp only at h1 h2
      rw [h2, List.getLast?_map] at h1
      cases hl : m.accs.getLast? with
      | none => rw [hl] at h1; simp at h1
      | some c => rw [hl] at h1; simp only [Option.map_some, Option.some.injEq] at h1; rw [← h1]; rfl
    have hpk : g.server.getPublicKeys = m.keys := by rw [getPublicKeys, e, ← hs.keys]; rfl
    have hC : C = comb (powers alpha B n) (coeffs (m.rest.erase y)) := by
      have h2 := hs.wits
      simp only at h2
      rw [e] at e2
      simp only [Server.withSign] at e2
      rw [h2, mapGet_map] at e2
      cases hc : mapGet m.wits y with
      | none => rw [hc] at e2; simp at e2
      | some c =>
        rw [hc] at e2
        simp only [Option.map_some, Option.some.injEq] at e2
        rw [← e2, show c = _ from hs.cs _ (mapGet_mem hc)]
    have hv : credVerify E (prodPlus alpha m.rest • B) g.server.getPublicKeys params y ⟨x, C, R⟩ = .ok () := by
      rw [hpk, hk, credVerify_iff E params hP hK]
      refine ⟨?_, by rw [← hsk]; exact e3⟩
      unfold IsWitness
      rw [hC, comb_powers _ _ _ _ (by
        rw [coeffs_length]
        have := List.length_erase_le (a := y) (l := m.rest)
        have := hs.len
        omega), coeffs_val, smul_smul, ← prodPlus_erase alpha _ y hr]
    refine ⟨⟨⟨y, ⟨x, C, R⟩, prodPlus alpha m.rest • B, g.server.getPublicKeys⟩, hv⟩, ?_, hacc, hpk⟩
    unfold honestHolder
    rw [e1, hV]
    exact asValid_some E params _ hv

/-- What is public in the context of a proof. -/
def publicCtx {E : Pairing F G1 G2 GT} {params : AccParams G1 G2} (c : ValidHolder E params × Bytes) :
    (G1 × PublicKeys G2) × Bytes := ((c.1.1.accumulator, c.1.1.keys), c.2)

/-- A hash query of a simulated program. -/
theorem eval_simulate_hash {Q R C P β : Type} [DecidableEq Q] (query : C → P → Q) (challenge : P → R) (O : Q → R)
    (T : List (Q × R)) (ps : Nat → P) (L : List (C × P)) (q : Q) (k : R → ProverProg Q R C P β) :
    ((ProverProg.hash q k).simulate query challenge T ps L).eval O
      = ((k ((T.lookup q).getD (O q))).simulate query challenge T ps L).eval O := by
  rw [ProverProg.simulate]
  cases T.lookup q <;> rfl

/-- With simulated proofs, the adversary in the game and against the simulator does the same. -/
theorem full_play (E : Pairing F G1 G2 GT) (enc : Enc G1 G2 GT) (params : AccParams G1 G2) (hP : params.p2 ≠ 0)
    (hK : params.k2 ≠ 0) (alpha sM : F) (B Bs : G1) (n : Nat) (U l : List F) (hs : List (F × F)) (a b : F)
    (hl : ∀ y ∈ l, y + sM ≠ 0) (hh : ∀ p ∈ hs, p.1 + sM ≠ 0) (O : Query → F) :
    let spts := powers sM Bs l.length
    let P := simParams params spts a b l
    ∀ (adv : FullProg F G1 G2 α) (g : Game F G1 G2) (m : Sim F G2), Related params alpha sM B n U g m →
      ∀ (T : List (Query × F)) (ps : Nat → CredProof F G1) (L : List ((ValidHolder E P × Bytes) × CredProof F G1)),
      ∃ x g' m', (((adv.play E enc P l hs g).simulate
          (fun c p => (shown (publicOf holderOf) c p).query E enc P) (·.challenge) T ps L).eval O).1
            = .ok (x, g') ∧
        (((adv.simulate enc P (powers alpha B n) spts a b l (hs.map (·.1)) m).simulate
          (fun c p => (shown id c p).query E enc P) (·.challenge) T ps
            (L.map (fun z => (publicCtx z.1, z.2)))).eval O).1 = (x, m') ∧
        Related params alpha sM B n U g' m'
  | .done x, g, m, h, T, ps, L => ⟨x, g, m, rfl, rfl, h⟩
  | .hash q k, g, m, h, T, ps, L => by
    rw [FullProg.play, FullProg.simulate]
    rw [eval_simulate_hash, eval_simulate_hash]
    exact full_play E enc params hP hK alpha sM B Bs n U l hs a b hl hh O _ g m h T ps L
  | .call op k, g, m, h, T, ps, L => by
    rw [FullProg.play, FullProg.simulate]
    by_cases hop : allowed m.ids m.left op = true
    · obtain ⟨s', e, h'⟩ := h.step op hop
      have hv := h'.fullView
      simp only at hv
      rw [h.ids, h.left] at h' ⊢
      simp only [hop, if_true]
      simp only [e]
      rw [hv]
      exact full_play E enc params hP hK alpha sM B Bs n U l hs a b hl hh O _ _ _ h' T ps L
    · rw [h.ids, h.left, if_neg hop, if_neg hop, h.fullView]
      exact full_play E enc params hP hK alpha sM B Bs n U l hs a b hl hh O _ _ _ h T ps L
  | .enrol y c z x k, g, m, h, T, ps, L => by
    rw [FullProg.play, FullProg.simulate]
    by_cases hy : y ∈ l
    · rw [if_pos hy, if_pos hy]
      simp only [h.enrol enc Bs a b l hl y c z x _ hy]
      rw [eval_simulate_hash, eval_simulate_hash]
      exact full_play E enc params hP hK alpha sM B Bs n U l hs a b hl hh O _ g m h T ps L
    · rw [if_neg hy, if_neg hy]
      exact full_play E enc params hP hK alpha sM B Bs n U l hs a b hl hh O _ g m h T ps L
  | .prove i eph k, g, m, h, T, ps, L => by
    rw [FullProg.play, FullProg.simulate]
    simp only [List.getElem?_map]
    cases hi : hs[i]? with
    | none => exact full_play E enc params hP hK alpha sM B Bs n U l hs a b hl hh O _ g m h T ps L
    | some yx =>
      obtain ⟨y, x⟩ := yx
      have hy : y + sM ≠ 0 := hh (y, x) (List.mem_of_getElem? hi)
      have hr : Related (simParams params (powers sM Bs l.length) a b l) alpha sM B n U g m := h
      obtain ⟨n1, n2⟩ := Related.honest (params := simParams params (powers sM Bs l.length) a b l) E enc hP hK hr y x hy
      by_cases hm : y ∈ m.ids
      · obtain ⟨hd, e1, e2, e3⟩ := n2 hm
        simp only [e1, hm, if_true, Option.map_some]
        unfold ProverProg.simulate
        have key := full_play E enc params hP hK alpha sM B Bs n U l hs a b hl hh O (k (some (ps 0))) g m h
          (((shown (publicOf holderOf) (hd, eph)
            (ps 0)).query E enc (simParams params (powers sM Bs l.length) a b l), (ps 0).challenge) :: T)
          (fun i => ps (i + 1)) (L ++ [((hd, eph), ps 0)])
        rw [List.map_append, List.map_singleton, publicCtx] at key
        simp only at key
        rw [e2, e3] at key
        have e4 : (shown (publicOf holderOf) (hd, eph)
            (ps 0)) = shown id ((comb (powers alpha B n) (m.accs.getLast?.getD []), m.keys), eph) (ps 0) := by
          simp only [shown, publicOf, holderOf, e2, e3, id]
        rw [e4] at key ⊢
        exact key
      · simp only [n1 hm, hm, if_false, Option.map_some]
        exact full_play E enc params hP hK alpha sM B Bs n U l hs a b hl hh O _ g m h T ps L

/-- The start. -/
theorem related_start (params : AccParams G1 G2) (a s b : F) (U : List F) (hU : ∀ y ∈ U, y + a ≠ 0) :
    Related params a s (b • params.p1) U.length U ⟨Server.new params a s (b * prodPlus a U), U, []⟩
      (startSim ⟨a • params.p2, s • params.k2⟩ 0 U) := by
  have h := simulates_start params a s b U hU
  exact ⟨rfl, { Server.new params a s (b * prodPlus a U) with signSecretKey := 0 }, rfl,
    h.accs, h.last, h.sk, h.keys, rfl, h.users, h.dels, h.wits, h.cs, h.nodup, h.perm, h.left, h.len, h.ne, h.uni⟩

theorem bound_mono {Q R C P β : Type} (n : Nat) : ∀ (p : ProverProg Q R C P β) (m : Nat), p.Bound m n → p.Bound (m + 1) n := by
  intro p
  induction p generalizing n with
  | done a => intro m _; simp [ProverProg.Bound]
  | hash q k ih =>
    intro m h
    cases m with
    | zero => exact absurd h id
    | succ m => exact fun r => ih r n m (h r)
  | prove c k ih =>
    intro m h
    cases n with
    | zero => cases m <;> exact absurd h id
    | succ n => 
      have h : ∀ q, (k q).Bound m n := by cases m <;> exact h
      exact fun q => ih q n m (h q)

theorem bound_mono_right {Q R C P β : Type} : ∀ (p : ProverProg Q R C P β) (m n : Nat), p.Bound m n → p.Bound m (n + 1) := by
  intro p
  induction p with
  | done a => intro m n _; simp [ProverProg.Bound]
  | hash q k ih =>
    intro m n h
    cases m with
    | zero => exact absurd h id
    | succ m => exact fun r => ih r m n (h r)
  | prove c k ih =>
    intro m n h
    cases n with
    | zero => cases m <;> exact absurd h id
    | succ n =>
      have h : ∀ q, (k q).Bound m n := by cases m <;> exact h
      have : ∀ q, (k q).Bound m (n + 1) := fun q => ih q m n (h q)
      cases m <;> exact this

theorem full_bound_play (E : Pairing F G1 G2 GT) (enc : Enc G1 G2 GT) (params : AccParams G1 G2) (l : List F)
    (hs : List (F × F)) (p : FullProg F G1 G2 α) :
    ∀ (m n : Nat) (g : Game F G1 G2), p.Bound m n → (p.play E enc params l hs g).Bound m n := by
  induction p with
  | done a => intro m n g _; simp [FullProg.play, ProverProg.Bound]
  | hash q k ih =>
    intro m n g h
    cases m with
    | zero => exact absurd h (by cases n <;> exact id)
    | succ m => exact fun r => ih r m n g (by cases n <;> exact h r)
  | call op k ih =>
    intro m n g h
    have h : ∀ r v, (k r v).Bound m n := by cases m <;> cases n <;> exact h
    rw [FullProg.play]
    split
    · split
      · simp [ProverProg.Bound]
      · exact ih _ _ m n _ (h _ _)
    · exact ih _ _ m n _ (h _ _)
  | enrol y c z x k ih =>
    intro m n g h
    cases m with
    | zero => exact absurd h (by cases n <;> exact id)
    | succ m =>
      have h : ∀ r, (k r).Bound m n := by cases n <;> exact h
      rw [FullProg.play]
      split
      · intro r
        beta_reduce
        split
        · simp [ProverProg.Bound]
        · exact ih _ m n g (h _)
      · exact bound_mono n _ _ (ih _ m n g (h _))
  | prove i eph k ih =>
    intro m n g h
    cases n with
    | zero => exact absurd h (by cases m <;> exact id)
    | succ n =>
      have h : ∀ r, (k r).Bound m n := by cases m <;> exact h
      rw [FullProg.play]
      split
      · exact bound_mono_right _ _ _ (ih _ m n g (h _))
      · split
        · exact bound_mono_right _ _ _ (ih _ m n g (h _))
        · have : ∀ p, ((k (some p)).play E enc params l hs g).Bound m n := fun p => ih _ m n g (h _)
          cases m <;> exact this

theorem full_bound_sim (enc : Enc G1 G2 GT) (params : AccParams G1 G2) (pts spts : List G1) (a b : F) (l : List F)
    (hs : List F) (p : FullProg F G1 G2 α) :
    ∀ (m n : Nat) (t : Sim F G2), p.Bound m n → (p.simulate enc params pts spts a b l hs t).Bound m n := by
  induction p with
  | done a => intro m n g _; simp [FullProg.simulate, ProverProg.Bound]
  | hash q k ih =>
    intro m n g h
    cases m with
    | zero => exact absurd h (by cases n <;> exact id)
    | succ m => exact fun r => ih r m n g (by cases n <;> exact h r)
  | call op k ih =>
    intro m n g h
    have h : ∀ r v, (k r v).Bound m n := by cases m <;> cases n <;> exact h
    rw [FullProg.simulate]
    split
    · exact ih _ _ m n _ (h _ _)
    · exact ih _ _ m n _ (h _ _)
  | enrol y c z x k ih =>
    intro m n g h
    cases m with
    | zero => exact absurd h (by cases n <;> exact id)
    | succ m =>
      have h : ∀ r, (k r).Bound m n := by cases n <;> exact h
      rw [FullProg.simulate]
      split
      · intro r
        exact ih _ m n g (h _)
      · exact bound_mono n _ _ (ih _ m n g (h _))
  | prove i eph k ih =>
    intro m n g h
    cases n with
    | zero => exact absurd h (by cases m <;> exact id)
    | succ n =>
      have h : ∀ r, (k r).Bound m n := by cases m <;> exact h
      rw [FullProg.simulate]
      split
      · exact bound_mono_right _ _ _ (ih _ m n g (h _))
      · split
        · have : ∀ p, ((k (some p)).simulate enc params pts spts a b l hs g).Bound m n := fun p => ih _ m n g (h _)
          cases m <;> exact this
        · exact bound_mono_right _ _ _ (ih _ m n g (h _))

/-- The simulation without honest users: their proofs are the values `ps`. -/
def fullAlone (E : Pairing F G1 G2 GT) (enc : Enc G1 G2 GT) (params : AccParams G1 G2) (pts spts : List G1)
    (keys : PublicKeys G2) (U l ids : List F) (a b : F) {n : Nat}
    (adv : AccParams G1 G2 → FullView F G1 G2 → FullProg F G1 G2 (Presentation F G1 G2)) (ps : Fin n → CredProof F G1) :
    OracleProg Query F (Presentation F G1 G2 × Sim F G2) :=
  ((runFullSim enc params pts spts keys U l ids a b adv).simulate
    (fun c p => (shown id c p).query E enc (simParams params spts a b l)) (·.challenge) [] (pad ps) []).map (·.1)

theorem fullAlone_bound (E : Pairing F G1 G2 GT) (enc : Enc G1 G2 GT) (params : AccParams G1 G2) (pts spts : List G1)
    (keys : PublicKeys G2) (U l ids : List F) (a b : F) {n : Nat} (m : Nat)
    (adv : AccParams G1 G2 → FullView F G1 G2 → FullProg F G1 G2 (Presentation F G1 G2))
    (hb : ∀ P v, (adv P v).Bound m n) (ps : Fin n → CredProof F G1) :
    (fullAlone E enc params pts spts keys U l ids a b adv ps).QueryBound m := by
  refine OracleProg.queryBound_map _ _ _ ?_
  exact ProverProg.simulate_queryBound
    (credProver E enc (simParams params spts a b l) (fun i : G1 × PublicKeys G2 => ⟨0, ⟨0, 0, 0⟩, i.1, i.2⟩))
    _ m n (full_bound_sim _ _ _ _ _ _ _ _ _ m n _ (hb _ _)) _ _ _

/-- The query of the adversary's presentation, if it makes one. -/
def fullQuery (E : Pairing F G1 G2 GT) (enc : Enc G1 G2 GT) (P : AccParams G1 G2) :
    Rust (Presentation F G1 G2 × Game F G1 G2) → Query
  | .ok o => o.1.query E enc P
  | .error _ => (⟨"", []⟩, "")

end game

section prob
variable {F G1 G2 GT : Type} [Field F] [DecidableEq F] [Fintype F] [AddCommGroup G1] [Module F G1]
  [AddCommGroup G2] [Module F G2] [AddCommGroup GT] [Module F GT] [DecidableEq GT]
variable {Ω : Type} [Fintype Ω] [Nonempty Ω]

theorem prob_equiv {X Y : Type} [Fintype X] [Fintype Y] (e : X ≃ Y) (p : Y → Prop) : prob (fun x => p (e x)) = prob p := by
  unfold prob
  rw [Nat.card_congr e, Nat.card_congr (e.subtypeEquiv (p := fun x => p (e x)) (q := p) (fun _ => Iff.rfl))]

theorem queriesIn_mono {Q R C P W β : Type} {pv : Prover Q R C P W} {S T : Finset Q} (h : S ⊆ T) :
    ∀ p : ProverProg Q R C P β, p.QueriesIn pv (· ∈ S) → p.QueriesIn pv (· ∈ T) := by
  intro p
  induction p with
  | done a => intro _; trivial
  | hash q k ih => rintro ⟨h1, h2⟩; exact ⟨h h1, fun r => ih r (h2 r)⟩
  | prove c k ih => rintro ⟨h1, h2⟩; exact ⟨fun w => h (h1 w), fun r => ih r (h2 r)⟩

/-- The random choices: those of the adversary, `α`, `v`, `s` and the exponents of `K₁` and `K₀`. -/
structure Secrets (Ω F : Type) where
  ω : Ω
  α : F
  v : F
  s : F
  κ₁ : F
  κ₀ : F

def Secrets.equiv : Secrets Ω F ≃ Ω × F × F × F × F × F where
  toFun x := (x.ω, x.α, x.v, x.s, x.κ₁, x.κ₀)
  invFun x := ⟨x.1, x.2.1, x.2.2.1, x.2.2.2.1, x.2.2.2.2.1, x.2.2.2.2.2⟩
  left_inv _ := rfl
  right_inv _ := rfl

instance : Fintype (Secrets Ω F) := Fintype.ofEquiv _ Secrets.equiv.symm

instance : Nonempty (Secrets Ω F) := ⟨⟨Classical.arbitrary Ω, 0, 0, 0, 0, 0⟩⟩

/-- The secrets for which the game and the simulation agree. -/
def Secrets.Good (U l : List F) (x : Secrets Ω F) : Prop := x.v ≠ 0 ∧ prodPlus x.α U ≠ 0 ∧ prodPlus x.s l ≠ 0

/-- The secrets of the game that belong to those of the simulation. -/
def Secrets.game (U l : List F) (x : Secrets Ω F) : Secrets Ω F :=
  ⟨x.ω, x.α, x.v * prodPlus x.α U, x.s, x.κ₁ * prodPlus x.s l, x.κ₀ * prodPlus x.s l⟩

theorem prob_coord {Y : Type} [Fintype Y] [Nonempty Y] (q : F → Prop) :
    prob (fun x : Secrets Ω F × Y => q x.1.α) = prob q ∧ prob (fun x : Secrets Ω F × Y => q x.1.v) = prob q ∧
      prob (fun x : Secrets Ω F × Y => q x.1.s) = prob q := by
  refine ⟨?_, ?_, ?_⟩
  · rw [prob_fst (Y := Y) (fun x : Secrets Ω F => q x.α)]
    refine (prob_equiv Secrets.equiv (fun x : Ω × F × F × F × F × F => q x.2.1)).trans ?_
    rw [prob_snd (X := Ω) (fun x : F × F × F × F × F => q x.1), prob_fst (Y := F × F × F × F) q]
  · rw [prob_fst (Y := Y) (fun x : Secrets Ω F => q x.v)]
    refine (prob_equiv Secrets.equiv (fun x : Ω × F × F × F × F × F => q x.2.2.1)).trans ?_
    rw [prob_snd (X := Ω) (fun x : F × F × F × F × F => q x.2.1), prob_snd (X := F) (fun x : F × F × F × F => q x.1),
      prob_fst (Y := F × F × F) q]
  · rw [prob_fst (Y := Y) (fun x : Secrets Ω F => q x.s)]
    refine (prob_equiv Secrets.equiv (fun x : Ω × F × F × F × F × F => q x.2.2.2.1)).trans ?_
    rw [prob_snd (X := Ω) (fun x : F × F × F × F × F => q x.2.2.1),
      prob_snd (X := F) (fun x : F × F × F × F => q x.2.1), prob_snd (X := F) (fun x : F × F × F => q x.1),
      prob_fst (Y := F × F) q]

/-- the change of variables; `l'` contains `l` -/
theorem prob_full {Y : Type} [Fintype Y] [Nonempty Y] (U l h : List F) {P P' : Secrets Ω F × Y → Prop}
    (hPP : ∀ x y, x.Good U (l ++ h) → P (x.game U l, y) → P' (x, y)) :
    prob P - ((U.length : ℚ) + 1 + l.length + h.length) / Nat.card F ≤ prob P' := by
  have h1 := prob_change (P := P) (P' := P')
    (Bad := fun x => (x.1.v = 0 ∨ prodPlus x.1.α U = 0) ∨ prodPlus x.1.s (l ++ h) = 0)
    (fun x => (⟨x.1.ω, x.1.α, x.1.v / prodPlus x.1.α U, x.1.s, x.1.κ₁ / prodPlus x.1.s l, x.1.κ₀ / prodPlus x.1.s l⟩, x.2))
    ?_ ?_
  · obtain ⟨-, ev, -⟩ := prob_coord (Ω := Ω) (Y := Y) (fun v : F => v = 0)
    obtain ⟨ea, -, -⟩ := prob_coord (Ω := Ω) (Y := Y) (fun a : F => prodPlus a U = 0)
    obtain ⟨-, -, es⟩ := prob_coord (Ω := Ω) (Y := Y) (fun s : F => prodPlus s (l ++ h) = 0)
    have k1 := prob_le_add (X := Secrets Ω F × Y)
      (A := fun x => (x.1.v = 0 ∨ prodPlus x.1.α U = 0) ∨ prodPlus x.1.s (l ++ h) = 0)
      (B := fun x => x.1.v = 0 ∨ prodPlus x.1.α U = 0) (C := fun x => prodPlus x.1.s (l ++ h) = 0) (fun x h => h)
    have k2 := prob_le_add (X := Secrets Ω F × Y) (A := fun x => x.1.v = 0 ∨ prodPlus x.1.α U = 0)
      (B := fun x => x.1.v = 0) (C := fun x => prodPlus x.1.α U = 0) (fun x h => h)
    have z1 := prob_zero_le U
    have z2 := prob_zero_le (l ++ h)
    rw [prob_eq_zero] at ev
    rw [List.length_append] at z2
    push_cast at z2
    have e : ((U.length : ℚ) + 1 + l.length + h.length) / Nat.card F
        = 1 / Nat.card F + U.length / Nat.card F + (l.length + h.length) / Nat.card F := by ring
    rw [e]
    linarith
  · rintro ⟨⟨ω, a, v, s, k, j⟩, y⟩ ⟨⟨ω', a', v', s', k', j'⟩, y'⟩ hb hb' e
    simp only [not_or, prodPlus_append, mul_eq_zero, Prod.mk.injEq, Secrets.mk.injEq] at hb hb' e ⊢
    obtain ⟨⟨rfl, rfl, e1, rfl, e2, e3⟩, rfl⟩ := e
    refine ⟨⟨rfl, rfl, ?_, rfl, ?_, ?_⟩, rfl⟩
    · field_simp [hb.1.2] at e1; exact e1
    · field_simp [hb.2.1] at e2; exact e2
    · field_simp [hb.2.1] at e3; exact e3
  · rintro ⟨⟨ω, a, v, s, k, j⟩, y⟩ hP hb
    simp only [not_or, prodPlus_append, mul_eq_zero] at hb
    refine hPP _ y ⟨div_ne_zero hb.1.1 hb.1.2, hb.1.2, ?_⟩ ?_
    · rw [prodPlus_append]; exact mul_ne_zero hb.2.1 hb.2.2
    · simp only [Secrets.game]
      rw [div_mul_cancel₀ _ hb.1.2, div_mul_cancel₀ _ hb.2.1, div_mul_cancel₀ _ hb.2.1]
      exact hP

/-- The parameters of the game: `K₁ = κ₁B` and `K₀ = κ₀B`. -/
def Secrets.params (params : AccParams G1 G2) (B : G1) (x : Secrets Ω F) : AccParams G1 G2 :=
  params.withK (x.κ₁ • B) (x.κ₀ • B)

/-- The adversary wins: its presentation is accepted, for the server's current accumulator and keys, and its transcript is
none of those of the proofs it got. -/
def FullWins (E : Pairing F G1 G2 GT) (enc : Enc G1 G2 GT) (params : AccParams G1 G2) (B : G1) (U l : List F)
    (hs : List (F × F)) (adv : Ω → AccParams G1 G2 → FullView F G1 G2 → FullProg F G1 G2 (Presentation F G1 G2))
    (x : Secrets Ω F) (O : Query → F) (rand : Nat → ProofRand F) : Prop :=
  let P := x.params params B
  let out := (runFull E enc P x.α x.s x.v U l hs (adv x.ω)).real (credProver E enc P holderOf) O rand []
  ∃ p g, out.1 = .ok (p, g) ∧ p.accepted E (asHash O) enc P ∧
    g.server.getAccumulator = .ok p.accumulator ∧ p.keys = g.server.getPublicKeys ∧
    ∀ z ∈ out.2, (shown (publicOf holderOf) z.1 z.2).query E enc P ≠ p.query E enc P

theorem prob_false_of {X : Type} [Fintype X] {p : X → Prop} (h : ∀ x, ¬ p x) : prob p = 0 := by
  unfold prob
  have : IsEmpty {x // p x} := ⟨fun x => h x.1 x.2⟩
  simp

/-- **C88** (main statement). The secrets `α`, `v`, `s` and the points `K₁ = κ₁B`, `K₀ = κ₀B` are random. Whatever ids
`U` can be added, whatever users are corrupted (ids `l`) and whoever the honest users are (`hs`, ids and secret keys): let an
adversary, which makes at most `m` hash queries and enrolments and gets at most `n` proofs, win with probability `a`. For
`a' = a - (|U|+1+|l|+|hs|)/|F| - n(m+1+n)/|F|^5`, if not negative, with probability at least `a' (a'/(m+1) - 1/|F|)` the
extractor, which is given only the powers of `α` and of `s` (times a point), the public keys and the honest ids, and neither
the secret keys nor any credential of an honest user, computes by running the adversary twice

* a credential, accepted for the adversary's accumulator, of a corrupted user that is a member or can still be added, or
* the discrete logarithm of `K₀` to the base `K₁`, or
* a non-trivial linear relation between `X`, `Y` and `Z`, or
* a solution of the SDH problem for `α` or for `s`.

All of this holds for every sufficiently large finite set `S` of queries on which the hash is random. -/
theorem C88_unforgeable [Fintype G1] (E : Pairing F G1 G2 GT) (enc : Enc G1 G2 GT) (h1 : Function.Injective enc.g1)
    (h2 : Function.Injective enc.g2) (h3 : Function.Injective enc.gt) (params : AccParams G1 G2) (hP1 : params.p1 ≠ 0)
    (hP : params.p2 ≠ 0) (hK : params.k2 ≠ 0) (hz : params.z1 ≠ 0) (B : G1) (hB : B ≠ 0) (U l : List F)
    (hs : List (F × F)) (adv : Ω → AccParams G1 G2 → FullView F G1 G2 → FullProg F G1 G2 (Presentation F G1 G2))
    (m n : Nat) (hb : ∀ ω P v, (adv ω P v).Bound m n) :
    ∃ S₀ : Finset Query, ∀ S, S₀ ⊆ S →
    let a := prob (fun x : Secrets Ω F × (S → F) × (Fin n → ProofRand F) =>
      FullWins E enc params B U l hs adv x.1 (oracle S 0 x.2.1) (pad x.2.2))
    let a' := a - ((U.length : ℚ) + 1 + l.length + hs.length) / Nat.card F - n * (m + 1 + n) * (1 / (Nat.card F : ℚ) ^ 5)
    0 ≤ a' →
    a' * (a' / (m + 1) - 1 / Nat.card F) ≤
      prob (fun x : (Secrets Ω F × (Fin n → CredProof F G1)) × (S → F) × (S → F) =>
        let pts := powers x.1.1.α (x.1.1.v • params.p1) U.length
        let spts := powers x.1.1.s B l.length
        let keys : PublicKeys G2 := ⟨x.1.1.α • params.p2, x.1.1.s • params.k2⟩
        let P := simParams params spts x.1.1.κ₁ x.1.1.κ₀ l
        let prog := fullAlone E enc params pts spts keys U l (hs.map (·.1)) x.1.1.κ₁ x.1.1.κ₀ (adv x.1.1.ω) x.1.2
        let out := prog.eval (oracle S 0 x.2.1)
        let out' := rerun S prog (fun o => o.1.query E enc P) x.2.1 x.2.2
        let y := extractId out.1.proof out'.1.proof
        let w := extractWitness P out.1.proof out'.1.proof
        let rel := extractRelation out.1.proof out'.1.proof
        (y ∈ l ∧ (y ∈ out.2.ids ∨ y ∈ out.2.left) ∧ credVerify E out.1.accumulator keys P y w = .ok ()) ∨
        P.k0 = (-w.secretKey) • P.k1 ∨
        (rel ≠ (0, 0, 0) ∧ rel.1 • P.x1 + rel.2.1 • P.y1 + rel.2.2 • P.z1 = 0) ∨
        SolvesSdh x.1.1.α (x.1.1.v • params.p1) y (sdhCandidate pts out.2 y w.witness) ∨
        SolvesSdh x.1.1.s B y (signCandidate spts x.1.1.κ₁ x.1.1.κ₀ l y w)) := by
  -- the programs
  let pr : Secrets Ω F → AccParams G1 G2 := fun x => simParams params (powers x.s B l.length) x.κ₁ x.κ₀ l
  let pg : Secrets Ω F → AccParams G1 G2 := fun x => x.params params B
  let game : (x : Secrets Ω F) → ProverProg Query F (ValidHolder E (pg x) × Bytes) (CredProof F G1)
      (Rust (Presentation F G1 G2 × Game F G1 G2)) := fun x => runFull E enc (pg x) x.α x.s x.v U l hs (adv x.ω)
  let prog : Secrets Ω F × (Fin n → CredProof F G1) → OracleProg Query F (Presentation F G1 G2 × Sim F G2) := fun x =>
    fullAlone E enc params (powers x.1.α (x.1.v • params.p1) U.length) (powers x.1.s B l.length)
      ⟨x.1.α • params.p2, x.1.s • params.k2⟩ U l (hs.map (·.1)) x.1.κ₁ x.1.κ₀ (adv x.1.ω) x.2
  have hprog : ∀ x, (prog x).QueryBound m := fun x => fullAlone_bound _ _ _ _ _ _ _ _ _ _ _ m _ (hb _) _
  -- the queries
  choose T hT using fun x : Secrets Ω F =>
    ProverProg.exists_querySet (credProver E enc (pg x) holderOf) ((game x).andHash (fullQuery E enc (pg x)))
  have hT' := fun x : Secrets Ω F => C70_query_set (Ω := Fin n → CredProof F G1) (F := F) (fun ps => prog (x, ps)) m
    (fun ps => hprog _) (fun o => o.1.query E enc (pr x))
  choose T' _ hT' using hT'
  refine ⟨Finset.univ.biUnion T ∪ Finset.univ.biUnion T', ?_⟩
  intro S hS a a' ha'
  have hS1 : ∀ x, ((game x).andHash (fullQuery E enc (pg x))).QueriesIn (credProver E enc (pg x) holderOf) (· ∈ S) :=
    fun x => queriesIn_mono (fun q hq => hS (Finset.mem_union_left _
      (Finset.mem_biUnion.2 ⟨x, Finset.mem_univ x, hq⟩))) _ (hT x)
  have hS2 : ∀ x (H : S → F), ((prog x).eval (oracle S 0 H)).1.query E enc (pr x.1) ∈ S :=
    fun x H => hS (Finset.mem_union_right _ (Finset.mem_biUnion.2 ⟨x.1, Finset.mem_univ _, hT' x.1 x.2 _⟩))
  let ok : Secrets Ω F × (Fin n → CredProof F G1) → Presentation F G1 G2 × Sim F G2 → F → Prop := fun x o c =>
    c = o.1.proof.challenge ∧ x.1.v ≠ 0 ∧ o.1.keys = ⟨x.1.α • params.p2, x.1.s • params.k2⟩ ∧
      ∃ g, Related params x.1.α x.1.s (x.1.v • params.p1) U.length U g o.2 ∧
        g.server.getAccumulator = .ok o.1.accumulator
  have fk := forking (0 : F) S prog m hprog (fun x o => o.1.query E enc (pr x.1)) hS2 ok
  -- from the game to the simulation
  have hle : a' ≤ prob (fun x : (Secrets Ω F × (Fin n → CredProof F G1)) × (S → F) =>
      ok x.1 ((prog x.1).eval (oracle S 0 x.2))
        (oracle S 0 x.2 (((prog x.1).eval (oracle S 0 x.2)).1.query E enc (pr x.1.1)))) := by
    have s1 : a - ((U.length : ℚ) + 1 + l.length + hs.length) / Nat.card F
        ≤ prob (fun x : Secrets Ω F × (S → F) × (Fin n → ProofRand F) => x.1.Good U (l ++ hs.map (·.1)) ∧
          FullWins E enc params B U l hs adv (x.1.game U l) (oracle S 0 x.2.1) (pad x.2.2)) := by
      have := prob_full (Ω := Ω) (Y := (S → F) × (Fin n → ProofRand F)) U l (hs.map (·.1))
        (P := fun x => FullWins E enc params B U l hs adv x.1 (oracle S 0 x.2.1) (pad x.2.2))
        (P' := fun x => x.1.Good U (l ++ hs.map (·.1)) ∧
          FullWins E enc params B U l hs adv (x.1.game U l) (oracle S 0 x.2.1) (pad x.2.2))
        (fun x y hg hw => ⟨hg, hw⟩)
      rw [List.length_map] at this
      exact this
    have s2 := prob_avg_le (X := Secrets Ω F) (Y := (S → F) × (Fin n → ProofRand F))
      (Z := (S → F) × (Fin n → CredProof F G1))
      (fun x y => x.Good U (l ++ hs.map (·.1)) ∧
        FullWins E enc params B U l hs adv (x.game U l) (oracle S 0 y.1) (pad y.2))
      (fun x y => ok (x, y.2) ((prog (x, y.2)).eval (oracle S 0 y.1))
        (oracle S 0 y.1 (((prog (x, y.2)).eval (oracle S 0 y.1)).1.query E enc (pr x))))
      (n * (m + 1 + n) * (1 / (Nat.card F : ℚ) ^ 5)) ?_
    · have s3 := prob_equiv (X := Secrets Ω F × (S → F) × (Fin n → CredProof F G1))
        (Y := (Secrets Ω F × (Fin n → CredProof F G1)) × (S → F))
        ⟨fun x => ((x.1, x.2.2), x.2.1), fun x => (x.1.1, x.2, x.1.2), fun _ => rfl, fun _ => rfl⟩
        (fun x => ok x.1 ((prog x.1).eval (oracle S 0 x.2))
          (oracle S 0 x.2 (((prog x.1).eval (oracle S 0 x.2)).1.query E enc (pr x.1.1))))
      rw [← s3]
      have s2' := le_trans s1 s2
      simp only [a']
      simp only [Equiv.coe_fn_mk]
      linarith
    · intro x
      by_cases hg : x.Good U (l ++ hs.map (·.1))
      swap
      · rw [prob_false_of (fun y hy => hg hy.1)]
        have : (0 : ℚ) ≤ prob (fun y : (S → F) × (Fin n → CredProof F G1) =>
          ok (x, y.2) ((prog (x, y.2)).eval (oracle S 0 y.1))
            (oracle S 0 y.1 (((prog (x, y.2)).eval (oracle S 0 y.1)).1.query E enc (pr x)))) := by
          unfold prob; positivity
        positivity
      have hU := not_neg_mem hg.2.1
      have hl' := not_neg_mem hg.2.2
      have hl : ∀ y ∈ l, y + x.s ≠ 0 := fun y hy => hl' y (List.mem_append_left _ hy)
      have hh : ∀ p ∈ hs, p.1 + x.s ≠ 0 := fun p hp => hl' p.1 (List.mem_append_right _ (List.mem_map_of_mem hp))
      have sf := sim_fresh (0 : F) S (credProver E enc (pg (x.game U l)) holderOf) (1 / (Nat.card F : ℚ) ^ 5)
        (by positivity) (credProver_simulatable E enc h1 h2 h3 (pg (x.game U l)) hz holderOf (fun h => h.2))
        (game (x.game U l)) m n (full_bound_play _ _ _ _ _ _ m n _ (hb _ _ _)) (fullQuery E enc (pg (x.game U l)))
        (hS1 (x.game U l))
        (fun o c => ∃ p g, o = .ok (p, g) ∧ c = p.proof.challenge ∧
          g.server.getAccumulator = .ok p.accumulator ∧ p.keys = g.server.getPublicKeys)
      refine le_trans (prob_mono ?_) (le_trans sf (add_le_add_left (prob_mono ?_) _))
      · rintro ⟨H, ws⟩ ⟨-, p, g, e1, e2, e3, e4, e5⟩
        refine ⟨⟨p, g, e1, ?_, e3, e4⟩, ?_⟩
        · have e1' : ((game (x.game U l)).real (credProver E enc (pg (x.game U l)) holderOf) (oracle S 0 H) (pad ws) []).1
            = .ok (p, g) := e1
          rw [e1']
          simp only [Presentation.accepted, checkProof, decide_eq_true_eq] at e2
          exact e2
        · intro z hz
          have e1' : ((game (x.game U l)).real (credProver E enc (pg (x.game U l)) holderOf) (oracle S 0 H) (pad ws) []).1
            = .ok (p, g) := e1
          simp only
          rw [e1']
          exact e5 z hz
      · rintro ⟨H, ps⟩ ⟨p, g, e1, e2, e3, e4⟩
        have epg : pg (x.game U l) = pr x := (simParams_eq params B x.s x.κ₁ x.κ₀ l).symm
        have hst := related_start (pr x) x.α x.s x.v U hU
        obtain ⟨p', g', m', f1, f2, f3⟩ := full_play E enc params hP hK x.α x.s (x.v • params.p1) B U.length U l hs x.κ₁
          x.κ₀ hl hh (oracle S 0 H) (adv x.ω (pr x) (Server.new (pr x) x.α x.s (x.v * prodPlus x.α U)).fullView)
          ⟨Server.new (pr x) x.α x.s (x.v * prodPlus x.α U), U, []⟩
          (startSim ⟨x.α • params.p2, x.s • params.k2⟩ 0 U) hst [] (pad ps) []
        have e1' : ((((runFull E enc (pr x) x.α x.s (x.v * prodPlus x.α U) U l hs (adv x.ω)).simulate
            (fun c p => (shown (publicOf holderOf) c p).query E enc (pr x)) (·.challenge) [] (pad ps) []).eval
              (oracle S 0 H)).1 : Rust (Presentation F G1 G2 × Game F G1 G2)) = .ok (p, g) := by
          rw [← epg]; exact e1
        have e2' : oracle S 0 H (p.query E enc (pr x)) = p.proof.challenge := by
          rw [← epg, ← e2]
          have e1'' : (((game (x.game U l)).simulate (credProver E enc (pg (x.game U l)) holderOf).query
            (credProver E enc (pg (x.game U l)) holderOf).challenge [] (pad ps) []).eval (oracle S 0 H)).1 = .ok (p, g) := e1
          rw [e1'']
          rfl
        have f1' := e1'.symm.trans f1
        simp only [Except.ok.injEq, Prod.mk.injEq] at f1'
        obtain ⟨rfl, rfl⟩ := f1'
        have ev : (prog (x, ps)).eval (oracle S 0 H) = (p, m') := by
          simp only [prog, fullAlone]
          rw [OracleProg.eval_map, ← f2, hst.fullView]
          rfl
        simp only [ev]
        refine ⟨e2', hg.1, ?_, g, f3, e3⟩
        obtain ⟨hk, s0, q1, q2⟩ := f3
        have := q2.keys
        simp only at this
        rw [e4, getPublicKeys, q1, Server.withSign]
        simp only
        rw [this, hk]
  have hmono : ∀ p : ℚ, a' ≤ p → a' * (a' / (m + 1) - 1 / Nat.card F) ≤ max 0 (p * (p / (m + 1) - 1 / Nat.card F)) := by
    intro p hle
    by_cases hneg : a' / (m + 1) - 1 / (Nat.card F : ℚ) ≤ 0
    · exact le_max_of_le_left (mul_nonpos_of_nonneg_of_nonpos ha' hneg)
    · refine le_max_of_le_right (mul_le_mul hle ?_ (le_of_not_ge hneg) (le_trans ha' hle))
      have : a' / (m + 1) ≤ p / (m + 1) := by gcongr
      linarith
  refine le_trans (hmono _ hle) (max_le (by unfold prob; positivity) (le_trans fk (prob_mono ?_)))
  rintro ⟨⟨x, ps⟩, H, G⟩ ⟨⟨c1, hv, k1, g, hsim, hV⟩, ⟨c2, -, k2, -⟩, e3, e4⟩
  obtain ⟨-, -, -, hc⟩ := query_inj E enc h1 h2 h3 (pr x) _ _ e3
  have hne : ((prog (x, ps)).eval (oracle S 0 H)).1.proof.challenge
      ≠ (rerun S (prog (x, ps)) (fun o => o.1.query E enc (pr x)) H G).1.proof.challenge := by
    intro hcc
    apply e4
    rw [e3] at c2
    rw [c2, c1]
    exact hcc.symm
  rcases C43_special_sound E (pr x) _ _ _ _ hc hne with hw | hw
  swap
  · exact .inr (.inr (.inl hw))
  rw [k1] at hw
  have fin : ∀ y w, credVerify E ((prog (x, ps)).eval (oracle S 0 H)).1.accumulator
        ⟨x.α • params.p2, x.s • params.k2⟩ (pr x) y w = .ok () →
      (y ∈ l ∧ (y ∈ ((prog (x, ps)).eval (oracle S 0 H)).2.ids ∨ y ∈ ((prog (x, ps)).eval (oracle S 0 H)).2.left) ∧
        credVerify E ((prog (x, ps)).eval (oracle S 0 H)).1.accumulator ⟨x.α • params.p2, x.s • params.k2⟩ (pr x) y w
          = .ok ()) ∨
      (pr x).k0 = (-w.secretKey) • (pr x).k1 ∨
      SolvesSdh x.α (x.v • params.p1) y (sdhCandidate (powers x.α (x.v • params.p1) U.length)
        ((prog (x, ps)).eval (oracle S 0 H)).2 y w.witness) ∨
      SolvesSdh x.s B y (signCandidate (powers x.s B l.length) x.κ₁ x.κ₀ l y w) := by
    intro y w hw
    obtain ⟨hk, s0, q1, q2⟩ := hsim
    have hkeys : s0.publicKeys = ⟨x.α • params.p2, x.s • params.k2⟩ := by
      have := q2.keys
      simp only at this
      rw [this, hk]
    by_cases hm : y ∈ ((prog (x, ps)).eval (oracle S 0 H)).2.rest
    swap
    · refine .inr (.inr (.inl ⟨smul_ne_zero hv hP1, ?_⟩))
      refine q2.solve E (pr x) hP hK (sM := x.s) hkeys
        ((prog (x, ps)).eval (oracle S 0 H)).1.accumulator ?_ y hm w ?_
      · rw [q1] at hV; exact hV
      · rw [getPublicKeys, hkeys]; exact hw
    by_cases hl : y ∈ l
    · refine .inl ⟨hl, ?_, hw⟩
      rw [q2.perm.mem_iff, List.mem_append] at hm
      exact hm
    by_cases h0 : w.secretKey * x.κ₁ + x.κ₀ = 0
    · refine .inr (.inl ?_)
      have e : x.κ₀ = -w.secretKey * x.κ₁ := by linear_combination h0
      change x.κ₀ • _ = (-w.secretKey) • (x.κ₁ • _)
      rw [smul_smul, ← e]
    · exact .inr (.inr (.inr ⟨hB, sign_solve E params hP hK B _ x.α x.s x.κ₁ x.κ₀ l _ hl _ hw h0⟩))
  rcases fin _ _ hw with h | h | h | h
  · exact .inl h
  · exact .inr (.inl h)
  · exact .inr (.inr (.inr (.inl h)))
  · exact .inr (.inr (.inr (.inr h)))

end prob

/-! ### A concrete case -/

/-- An adversary over the field with 7 elements: it adds 1 and 2, gets a proof from the honest user 1, enrols the corrupted
id 2 with secret key 3, and proves the membership of 2. -/
def exFull (P : AccParams (ZMod 7) (ZMod 7)) (_ : FullView (ZMod 7) (ZMod 7) (ZMod 7)) :
    FullProg (ZMod 7) (ZMod 7) (ZMod 7) (Presentation (ZMod 7) (ZMod 7) (ZMod 7)) :=
  .call (.add 1) fun _ _ => .call (.add 2) fun _ v => .prove 0 [1] fun _ =>
    .hash (issueQuery enc7 P (0 : ZMod 7) 2 (3 * P.k1)) fun c => .enrol 2 c (2 - c * 3) 3 fun o =>
      let w : Witness (ZMod 7) (ZMod 7) := ⟨3, (o.getD 0).1, (o.getD 0).2⟩
      let V := v.accumulators.getLast?.getD 0
      let mpc := Committing.new (Pairing.field (ZMod 7)) w P v.publicKeys ⟨1, 2, 3, 4, 5, 6, 0, 1, 2, 3, 4⟩
      .hash ((mpc.getBytesForChallenge enc7 (credTranscript enc7 P v.publicKeys V)).append "Ephemeral challenge" [2],
        "challenge") fun c => .done ⟨mpc.genProof w 2 c, v.publicKeys, V, [2]⟩

def exFullSecrets : Secrets Unit (ZMod 7) := ⟨(), 3, 5, 4, 2, 5⟩

def exFullParams : AccParams (ZMod 7) (ZMod 7) := exFullSecrets.params ⟨1, 1, 1, 2, 1, 5, 6, 4⟩ 1

/-- It makes at most 3 hash queries and enrolments and gets one proof. -/
theorem exFull_bound : ∀ P v, (exFull P v).Bound 3 1 := fun _ _ _ _ _ _ _ _ _ _ => trivial

/-- For these secrets (`α = 3`, `v = 5`, `s = 4`, `κ₁ = 2`, `κ₀ = 5`) it wins, after it got one proof of the honest user. -/
theorem exFull_wins :
    FullWins (Pairing.field (ZMod 7)) enc7 ⟨1, 1, 1, 2, 1, 5, 6, 4⟩ 1 [1, 2] [2] [(1, 6)] (fun _ : Unit => exFull)
      exFullSecrets (fun q => q.1.msgs.length) (fun _ => ⟨1, 2, 3, 4, 5, 6, 0, 1, 2, 3, 4⟩) ∧
    ((runFull (Pairing.field (ZMod 7)) enc7 exFullParams 3 4 5 [1, 2] [2]
      [(1, 6)] exFull).real (credProver (Pairing.field (ZMod 7)) enc7 exFullParams holderOf) (fun q => (q.1.msgs.length : ZMod 7))
      (fun _ => ⟨1, 2, 3, 4, 5, 6, 0, 1, 2, 3, 4⟩) []).2.length = 1 := by
  let E := Pairing.field (ZMod 7)
  let P := exFullParams
  let O : Query → ZMod 7 := fun q => q.1.msgs.length
  let out := (runFull E enc7 P 3 4 5 [1, 2] [2] [(1, 6)] exFull).real (credProver E enc7 P holderOf) O
    (fun _ => ⟨1, 2, 3, 4, 5, 6, 0, 1, 2, 3, 4⟩) []
  have h : (match out.1 with
    | .ok (p, g) => (match g.server.getAccumulator with
      | .ok V => checkProof E (asHash O) enc7 p.proof P p.keys p.accumulator p.ephemeral && decide (V = p.accumulator) &&
        decide (p.keys.witnessKey = g.server.getPublicKeys.witnessKey ∧ p.keys.signKey = g.server.getPublicKeys.signKey) &&
        out.2.all (fun z => decide ((shown (publicOf holderOf) z.1 z.2).query E enc7 P ≠ p.query E enc7 P))
      | .error _ => false)
    | .error _ => false) = true := by decide +kernel
  refine ⟨?_, by decide +kernel⟩
  split at h
  · next p g hg =>
    split at h
    · next V hV =>
      simp only [Bool.and_eq_true, List.all_eq_true, decide_eq_true_eq] at h
      obtain ⟨⟨⟨h1, h2⟩, h3⟩, h4⟩ := h
      exact ⟨p, g, hg, h1, by rw [hV, h2], by
        generalize p.keys = K at h3
        obtain ⟨K1, K2⟩ := K
        obtain ⟨rfl, rfl⟩ := h3
        rfl, h4⟩
    · simp at h
  · simp at h

end Allo
