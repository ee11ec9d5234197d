import Verif.Props.Revocation
import Verif.Props.NonMalleable

/-!
# C84: revocation against adversaries that choose the history as it unfolds

In C59 and C70 the history of the server is fixed before the adversary starts. Here the adversary plays against a
running server: it decides after every call what to call next, and it sees, after every call, the whole state of
the server except the accumulator secret `α` (so all users and the signing key are corrupted). The only restriction
is that the ids that can be added come from a list `U` which is fixed in advance, each as often as it is in `U`
(ids are chosen at random or by hashing in this crate, not by the adversary).
-/

set_option linter.unusedSectionVars false
set_option linter.unusedVariables false
namespace Allo
open Spec Server Rom

section game
variable {F G1 G2 GT Q α : Type} [Field F] [DecidableEq F] [AddCommGroup G1] [Module F G1]
  [AddCommGroup G2] [Module F G2] [AddCommGroup GT] [Module F GT]

/-- All fields of a server (src/servers.rs:12-27) except `witness_secret_key`. -/
structure View (F G1 G2 : Type) where
  accumulators : List G1
  publicKeys : PublicKeys G2
  signSecretKey : F
  allUsers : List F
  allWitnesses : List (F × G1)
  deletions : List F

/-- What the adversary sees of a server. -/
def Server.view (s : Server F G1 G2) : View F G1 G2 :=
  ⟨s.accumulators, s.publicKeys, s.signSecretKey, s.allUsers, s.allWitnesses, s.deletions⟩

/-- An adversary that plays against a server: it stops, asks the hash, or calls the server and goes on depending on
what the call returns and on what it sees of the server afterwards. -/
inductive ServerProg (F G1 G2 Q α : Type) where
  | done (a : α)
  | hash (q : Q) (k : F → ServerProg F G1 G2 Q α)
  | call (op : Op F) (k : Option G1 → View F G1 G2 → ServerProg F G1 G2 Q α)

/-- At most `n` hash queries, whatever happens. -/
def ServerProg.HashBound : Nat → ServerProg F G1 G2 Q α → Prop
  | _, .done _ => True
  | 0, .hash _ _ => False
  | n + 1, .hash _ k => ∀ r, HashBound n (k r)
  | n, .call _ k => ∀ r v, HashBound n (k r v)

/-- State of the game: the server, the ids that can still be added, the calls made so far. -/
structure Game (F G1 G2 : Type) where
  server : Server F G1 G2
  left : List F
  calls : List (Op F)

/-- The calls that are allowed: `delete`; `add` of a member (which has no effect) or of an id in `left`. -/
def allowed (ids left : List F) : Op F → Bool
  | .add y => decide (y ∈ ids ∨ y ∈ left)
  | .delete _ => true
  | .quickDelete _ => false

/-- The ids that can be added after a call. -/
def leftAfter (ids left : List F) : Op F → List F
  | .add y => if y ∈ ids then left else left.erase y
  | _ => left

/-- The game: calls that are not allowed are refused. -/
def ServerProg.play : ServerProg F G1 G2 Q α → Game F G1 G2 → OracleProg Q F (Rust (α × Game F G1 G2))
  | .done a, g => .done (.ok (a, g))
  | .hash q k, g => .ask q (fun r => (k r).play g)
  | .call op k, g =>
    if allowed g.server.ids g.left op then
      match g.server.step op with
      | .error e => .done (.error e)
      | .ok (s', r) => (k r s'.view).play ⟨s', leftAfter g.server.ids g.left op, g.calls ++ [op]⟩
    else (k none g.server.view).play g

/-- The game from the start: the adversary sees the fresh server. -/
def startGame (params : AccParams G1 G2) (alpha sM v : F) (U : List F) : Game F G1 G2 :=
  ⟨Server.new params alpha sM v, U, []⟩

def runGame (params : AccParams G1 G2) (alpha sM v : F) (U : List F)
    (adv : View F G1 G2 → ServerProg F G1 G2 Q α) : OracleProg Q F (Rust (α × Game F G1 G2)) :=
  (adv (startGame params alpha sM v U).server.view).play (startGame params alpha sM v U)

/-! ### The simulator: it is given points, not the secret -/

/-- `c₀ P₀ + c₁ P₁ + …` for given points `P`. -/
def comb (pts : List G1) (c : List F) : G1 := (List.zipWith (· • ·) c pts).sum

/-- The points `B, αB, …, α^n B` of the `n`-SDH problem. -/
def powers (alpha : F) (B : G1) (n : Nat) : List G1 := (List.range (n + 1)).map (fun i => (alpha ^ i) • B)

/-- The coefficients of `∏ (x + X)`. -/
def coeffs : List F → List F
  | [] => [1]
  | x :: l => polyAdd (polyScale (coeffs l) x) (0 :: coeffs l)

/-- The quotient of `∏ (x + X)` by `y + X`. -/
def quotient (y : F) : List F → List F
  | [] => []
  | x :: l => polyAdd (polyAdd (polyScale (quotient y l) x) (0 :: quotient y l)) [prodMinus y l]

/-- State of the simulator: like a server, with coefficient lists instead of points and no secret; `rest` are the
ids of `U` that have not been deleted. -/
structure Sim (F G2 : Type) where
  accs : List (List F)
  keys : PublicKeys G2
  signKey : F
  users : List F
  wits : List (F × List F)
  dels : List F
  rest : List F
  left : List F

def Sim.ids (m : Sim F G2) : List F := m.wits.map (·.1)

/-- What the adversary sees. -/
def Sim.view (pts : List G1) (m : Sim F G2) : View F G1 G2 :=
  ⟨m.accs.map (comb pts), m.keys, m.signKey, m.users, m.wits.map (fun p => (p.1, comb pts p.2)), m.dels⟩

/-- Answering an allowed call. -/
def Sim.step (m : Sim F G2) : Op F → Sim F G2 × Option (List F)
  | .add y =>
    if y ∈ m.ids then (m, none)
    else ({ m with users := setInsert m.users y, wits := mapInsert m.wits y (coeffs (m.rest.erase y)),
                   left := m.left.erase y }, some (coeffs (m.rest.erase y)))
  | .delete y =>
    match mapGet m.wits y with
    | none => (m, none)
    | some c => ({ m with
        accs := m.accs ++ [c]
        wits := (mapErase m.wits y).map (fun p => (p.1, coeffs ((m.rest.erase y).erase p.1)))
        dels := m.dels ++ [y]
        rest := m.rest.erase y }, some c)
  | .quickDelete _ => (m, none)

/-- The adversary against the simulator. -/
def ServerProg.simulate (pts : List G1) : ServerProg F G1 G2 Q α → Sim F G2 → OracleProg Q F (α × Sim F G2)
  | .done a, m => .done (a, m)
  | .hash q k, m => .ask q (fun r => (k r).simulate pts m)
  | .call op k, m =>
    if allowed m.ids m.left op then
      (k ((m.step op).2.map (comb pts)) ((m.step op).1.view pts)).simulate pts (m.step op).1
    else (k none (m.view pts)).simulate pts m

def startSim (keys : PublicKeys G2) (sM : F) (U : List F) : Sim F G2 :=
  ⟨[coeffs U], keys, sM, [], [], [], U, U⟩

/-- The whole simulation: given the points `pts`, the key `αP₂`, the signing key and `U`. -/
def runSim (params : AccParams G1 G2) (pts : List G1) (key : G2) (sM : F) (U : List F)
    (adv : View F G1 G2 → ServerProg F G1 G2 Q α) : OracleProg Q F (α × Sim F G2) :=
  let m := startSim ⟨key, sM • params.k2⟩ sM U
  (adv (m.view pts)).simulate pts m

/-- The candidate for `(y+α)⁻¹ B`, computed from a witness `C` for `y` against the current accumulator. -/
def sdhCandidate (pts : List G1) (m : Sim F G2) (y : F) (C : G1) : G1 :=
  (prodMinus y m.rest)⁻¹ • (C - comb pts (quotient y m.rest))

/-! ### Lemmas -/

theorem coeffs_length : ∀ l : List F, (coeffs l).length = l.length + 1
  | [] => rfl
  | x :: l => by simp [coeffs, polyAdd_length, polyScale, coeffs_length l]

theorem coeffs_val (a : F) : ∀ l : List F, polyVal a (coeffs l) = prodPlus a l
  | [] => by simp [coeffs, polyVal]
  | x :: l => by
    rw [coeffs, polyAdd_val, polyScale_val, prodPlus_cons, polyVal, coeffs_val a l]; simp; ring

theorem quotient_length (y : F) : ∀ l : List F, (quotient y l).length ≤ l.length
  | [] => le_refl _
  | x :: l => by
    have := quotient_length y l
    rw [quotient, polyAdd_length, polyAdd_length]; simp [polyScale]; omega

theorem quotient_val (a y : F) : ∀ l : List F, prodPlus a l = (y + a) * polyVal a (quotient y l) + prodMinus y l
  | [] => by simp [quotient, polyVal]
  | x :: l => by
    rw [quotient, polyAdd_val, polyAdd_val, polyScale_val, prodPlus_cons, quotient_val a y l]
    simp [polyVal]; ring

theorem comb_powers (a : F) (B : G1) (n : Nat) (c : List F) (h : c.length ≤ n + 1) :
    comb (powers a B n) c = polyVal a c • B := by
  have aux : ∀ (c : List F) (k m : Nat), c.length ≤ m →
      (List.zipWith (· • ·) c ((List.range' k m).map (fun i => (a ^ i) • B))).sum = (a ^ k * polyVal a c) • B := by
    intro c
    induction c with
    | nil => intro k m _; simp [polyVal]
    | cons x c ih =>
      intro k m hm
      obtain ⟨m, rfl⟩ : ∃ m', m = m' + 1 := ⟨m - 1, by simp at hm; omega⟩
      rw [List.range'_succ, List.map_cons, List.zipWith_cons_cons, List.sum_cons,
        ih (k + 1) m (by simpa using hm)]
      simp only [polyVal, smul_eq_mul]
      rw [smul_smul, ← add_smul]
      congr 1
      ring
  rw [comb, powers, List.range_eq_range', aux c 0 (n + 1) h]
  simp

/-- The relation between the server and the simulator. -/
structure Simulates (a : F) (B : G1) (n : Nat) (U : List F) (g : Game F G1 G2) (m : Sim F G2) : Prop where
  accs : g.server.accumulators = m.accs.map (comb (powers a B n))
  last : g.server.accumulators.getLast? = some (prodPlus a m.rest • B)
  sk : g.server.witnessSecretKey = a
  keys : g.server.publicKeys = m.keys
  sign : g.server.signSecretKey = m.signKey
  users : g.server.allUsers = m.users
  dels : g.server.deletions = m.dels
  wits : g.server.allWitnesses = m.wits.map (fun p => (p.1, comb (powers a B n) p.2))
  cs : ∀ p ∈ m.wits, p.2 = coeffs (m.rest.erase p.1)
  nodup : m.ids.Nodup
  perm : m.rest.Perm (m.ids ++ m.left)
  left : g.left = m.left
  len : m.rest.length ≤ n
  ne : ∀ y ∈ m.rest, y + a ≠ 0
  uni : U.Perm (m.dels ++ m.rest)

theorem Simulates.ids {a : F} {B : G1} {n : Nat} {U : List F} {g : Game F G1 G2} {m : Sim F G2} (h : Simulates a B n U g m) :
    g.server.ids = m.ids := by
  simp [Server.ids, Sim.ids, h.wits]

theorem Simulates.view {a : F} {B : G1} {n : Nat} {U : List F} {g : Game F G1 G2} {m : Sim F G2} (h : Simulates a B n U g m) :
    g.server.view = m.view (powers a B n) := by
  simp only [Server.view, Sim.view, h.accs, h.keys, h.sign, h.users, h.dels, h.wits]

theorem mapGet_map {K V W : Type} [DecidableEq K] (f : V → W) (l : List (K × V)) (k : K) :
    mapGet (l.map (fun p => (p.1, f p.2))) k = (mapGet l k).map f := by
  induction l with
  | nil => rfl
  | cons p l ih =>
    by_cases hp : p.1 = k
    · simp [mapGet, hp]
    · have h1 : ∀ (W : Type) (p : K × W) (l : List (K × W)), p.1 ≠ k → mapGet (p :: l) k = mapGet l k := by
        intro W p l hp; simp [mapGet, hp]
      rw [List.map_cons, h1 _ _ _ (by exact hp), h1 _ _ _ hp, ih]

theorem mapErase_map {K V W : Type} [DecidableEq K] (f : V → W) (l : List (K × V)) (k : K) :
    mapErase (l.map (fun p => (p.1, f p.2))) k = (mapErase l k).map (fun p => (p.1, f p.2)) := by
  simp [mapErase, List.filter_map, Function.comp_def]

theorem prodPlus_perm (a : F) {l l' : List F} (h : l.Perm l') : prodPlus a l = prodPlus a l' :=
  (h.map _).prod_eq

/-- One allowed call: the server answers, the simulator gives the same answer. -/
theorem Simulates.step {a : F} {B : G1} {n : Nat} {U : List F} {g : Game F G1 G2} {m : Sim F G2} (h : Simulates a B n U g m)
    (op : Op F) (hop : allowed m.ids m.left op = true) :
    ∃ s', g.server.step op = .ok (s', (m.step op).2.map (comb (powers a B n))) ∧
      Simulates a B n U ⟨s', leftAfter g.server.ids g.left op, g.calls ++ [op]⟩ (m.step op).1 := by
  have lc : ∀ l : List F, l.length ≤ n → comb (powers a B n) (coeffs l) = prodPlus a l • B := by
    intro l hl
    rw [comb_powers _ _ _ _ (by rw [coeffs_length]; omega), coeffs_val]
  cases op with
  | quickDelete y => simp [allowed] at hop
  | add y =>
    by_cases hy : y ∈ m.ids
    · refine ⟨g.server, ?_, ?_⟩
      · have : g.server.add y = .ok (g.server, none) := add_member (by rw [h.ids]; exact hy)
        simp [Server.step, this, Sim.step, hy]
      · simp only [Sim.step, hy, if_true, leftAfter, h.ids]
        exact ⟨h.accs, h.last, h.sk, h.keys, h.sign, h.users, h.dels, h.wits, h.cs, h.nodup, h.perm, h.left,
          h.len, h.ne, h.uni⟩
    · have hl : y ∈ m.left := by
        rcases of_decide_eq_true hop with e | e
        · exact absurd e hy
        · exact e
      have hr : y ∈ m.rest := h.perm.mem_iff.2 (List.mem_append.2 (.inr hl))
      have hw : comb (powers a B n) (coeffs (m.rest.erase y)) = (y + a)⁻¹ • (prodPlus a m.rest • B) := by
        rw [lc _ (le_trans (List.length_erase_le) h.len), prodPlus_erase a _ y hr, mul_smul,
          inv_smul_smul₀ (h.ne y hr)]
      have hadd := add_new (s := g.server) (by rw [h.ids]; exact hy) h.last (by rw [h.sk]; exact h.ne y hr)
      have herase : mapErase m.wits y = m.wits := by
        rw [mapErase, List.filter_eq_self]
        intro p hp
        have : p.1 ≠ y := fun e => hy (by rw [← e]; exact List.mem_map.2 ⟨p, hp, rfl⟩)
        simpa using this
      refine ⟨_, by simp only [Server.step]; rw [hadd]; simp [Sim.step, hy, hw, h.sk]; rfl, ?_⟩
      simp only [Sim.step, hy, if_false, leftAfter, h.ids]
      refine ⟨h.accs, h.last, rfl, h.keys, h.sign, ?_, h.dels, ?_, ?_, ?_, ?_, ?_, h.len, h.ne, h.uni⟩
      · simp [h.users]
      · simp only [h.wits, mapInsert, mapErase_map, List.map_cons, hw, h.sk]
      · intro p hp
        rcases mem_mapInsert.1 hp with rfl | ⟨hp, -⟩
        · rfl
        · exact h.cs p hp
      · simp only [Sim.ids, mapInsert, herase, List.map_cons, List.nodup_cons]
        exact ⟨hy, h.nodup⟩
      · simp only [Sim.ids, mapInsert, herase, List.map_cons]
        refine h.perm.trans ?_
        refine ((List.perm_cons_erase hl).append_left _).trans ?_
        exact List.perm_middle
      · simp [h.left]
  | delete y =>
    by_cases hy : y ∈ m.ids
    · obtain ⟨c, hc⟩ := mapGet_some_of_mem hy
      have hcc := h.cs _ (mapGet_mem hc)
      simp only at hcc
      have hr : y ∈ m.rest := h.perm.mem_iff.2 (List.mem_append.2 (.inl hy))
      have hget : mapGet g.server.allWitnesses y = some (comb (powers a B n) c) := by
        rw [h.wits, mapGet_map, hc]; rfl
      have hlen : (m.rest.erase y).length ≤ n := le_trans (List.length_erase_le) h.len
      refine ⟨_, by simp only [Server.step]; rw [delete_member hget]; simp [Sim.step, hc]; rfl, ?_⟩
      simp only [Sim.step, hc, leftAfter]
      have hids : ((mapErase m.wits y).map
          (fun p => (p.1, coeffs ((m.rest.erase y).erase p.1)))).map (·.1) = m.ids.filter (· ≠ y) := by
        rw [List.map_map, Sim.ids, ← mapErase_keys]; rfl
      refine ⟨?_, ?_, h.sk, h.keys, h.sign, h.users, ?_, ?_, ?_, ?_, ?_, h.left, hlen, ?_, ?_⟩
      · simp [h.accs]
      · simp [hcc, lc _ hlen]
      · simp [h.dels]
      · simp only [h.wits, mapErase_map, List.map_map]
        refine List.map_congr_left (fun p hp => ?_)
        obtain ⟨hp1, hp2⟩ := mem_mapErase.1 hp
        simp only [Function.comp, Prod.mk.injEq, true_and]
        have hpr : p.1 ∈ m.rest :=
          h.perm.mem_iff.2 (List.mem_append.2 (.inl (List.mem_map.2 ⟨p, hp1, rfl⟩)))
        have hpy : p.1 ∈ m.rest.erase y := (List.mem_erase_of_ne hp2).2 hpr
        have hyp : y ∈ m.rest.erase p.1 := (List.mem_erase_of_ne (Ne.symm hp2)).2 hr
        rw [h.cs p hp1, hcc, lc _ (le_trans (List.length_erase_le) h.len), lc _ hlen,
          lc _ (le_trans (List.length_erase_le) hlen), prodPlus_erase a _ p.1 hpy, prodPlus_erase a _ y hyp,
          List.erase_comm p.1 y, ← sub_smul, smul_smul]
        congr 1
        have : y - p.1 ≠ 0 := sub_ne_zero.2 (Ne.symm hp2)
        field_simp
        ring
      · intro p hp
        obtain ⟨p', hp', rfl⟩ := List.mem_map.1 hp
        rfl
      · simp only [Sim.ids]
        rw [hids]; exact h.nodup.filter _
      · simp only [Sim.ids]
        rw [hids]
        have e : m.ids.filter (· ≠ y) = m.ids.erase y := by
          rw [h.nodup.erase_eq_filter]
          refine List.filter_congr (fun x _ => ?_)
          simp [bne, beq_eq_decide]
        rw [e, ← List.erase_append_left _ hy]
        exact h.perm.erase y
      · intro z hz
        exact h.ne z (List.mem_of_mem_erase hz)
      · refine h.uni.trans (((List.perm_cons_erase hr).append_left _).trans ?_)
        simp
    · refine ⟨g.server, ?_, ?_⟩
      · have : g.server.delete y = .ok (g.server, none) := delete_nonmember (by rw [h.ids]; exact hy)
        simp [Server.step, this, Sim.step, mapGet_none.2 hy]
      · simp only [Sim.step, mapGet_none.2 hy, leftAfter]
        exact ⟨h.accs, h.last, h.sk, h.keys, h.sign, h.users, h.dels, h.wits, h.cs, h.nodup, h.perm, h.left,
          h.len, h.ne, h.uni⟩

theorem Simulates.play {a : F} {B : G1} {n : Nat} {U : List F} (O : Q → F) :
    ∀ (adv : ServerProg F G1 G2 Q α) (g : Game F G1 G2) (m : Sim F G2), Simulates a B n U g m →
      ∃ x g' m', (adv.play g).eval O = .ok (x, g') ∧ (adv.simulate (powers a B n) m).eval O = (x, m') ∧
        Simulates a B n U g' m'
  | .done x, g, m, h => ⟨x, g, m, rfl, rfl, h⟩
  | .hash q k, g, m, h => Simulates.play O (k (O q)) g m h
  | .call op k, g, m, h => by
    by_cases hop : allowed m.ids m.left op = true
    · obtain ⟨s', hs, h'⟩ := h.step op hop
      have e := h'.view
      simp only at e
      obtain ⟨x, g', m', h1, h2, h3⟩ := Simulates.play O
        (k ((m.step op).2.map (comb (powers a B n))) ((m.step op).1.view (powers a B n))) _ _ h'
      refine ⟨x, g', m', ?_, ?_, h3⟩
      · rw [ServerProg.play, h.ids, h.left, if_pos hop, hs]
        simp only
        rw [e]
        rw [h.ids, h.left] at h1
        exact h1
      · rw [ServerProg.simulate, if_pos hop]; exact h2
    · obtain ⟨x, g', m', h1, h2, h3⟩ := Simulates.play O (k none (m.view (powers a B n))) g m h
      refine ⟨x, g', m', ?_, ?_, h3⟩
      · rw [ServerProg.play, h.ids, h.left, if_neg hop, h.view]; exact h1
      · rw [ServerProg.simulate, if_neg hop]; exact h2

theorem simulates_start (params : AccParams G1 G2) (a sM b : F) (U : List F) (hU : ∀ y ∈ U, y + a ≠ 0) :
    Simulates a (b • params.p1) U.length U (startGame params a sM (b * prodPlus a U) U)
      (startSim ⟨a • params.p2, sM • params.k2⟩ sM U) := by
  have e : comb (powers a (b • params.p1) U.length) (coeffs U) = (b * prodPlus a U) • params.p1 := by
    rw [comb_powers _ _ _ _ (by rw [coeffs_length]), coeffs_val, smul_smul, mul_comm]
  refine ⟨?_, ?_, rfl, rfl, rfl, rfl, rfl, rfl, ?_, ?_, ?_, rfl, le_refl _, hU, ?_⟩
  · simp [startGame, startSim, Server.new, e]
  · simp [startGame, startSim, Server.new, smul_smul, mul_comm]
  · intro p hp; simp [startSim] at hp
  · simp [startSim, Sim.ids]
  · simp [startSim, Sim.ids]
  · simp [startSim]

/-- The calls of the game are a history of the server. -/
theorem play_calls (O : Q → F) (s0 : Server F G1 G2) :
    ∀ (adv : ServerProg F G1 G2 Q α) (g : Game F G1 G2), s0.run g.calls = .ok g.server →
      (∀ op ∈ g.calls, op.isQuick = false) →
      ∀ x g', (adv.play g).eval O = .ok (x, g') →
        s0.run g'.calls = .ok g'.server ∧ ∀ op ∈ g'.calls, op.isQuick = false
  | .done y, g, h, hq, x, g', e => by
    simp only [ServerProg.play, OracleProg.eval, Except.ok.injEq, Prod.mk.injEq] at e
    obtain ⟨rfl, rfl⟩ := e
    exact ⟨h, hq⟩
  | .hash q k, g, h, hq, x, g', e => play_calls O s0 (k (O q)) g h hq x g' e
  | .call op k, g, h, hq, x, g', e => by
    rw [ServerProg.play] at e
    split at e
    · next hop =>
      split at e
      · simp [OracleProg.eval] at e
      · next s' r hs =>
        refine play_calls O s0 (k r s'.view) _ ?_ ?_ x g' e
        · simp only [Server.run, List.foldlM_append] at h ⊢
          rw [h]
          simp [bind, Except.bind, pure, Except.pure, hs]
        · intro o ho
          rcases List.mem_append.1 ho with ho | ho
          · exact hq o ho
          · rw [List.mem_singleton] at ho
            subst ho
            cases o <;> simp_all [allowed, Op.isQuick]
    · exact play_calls O s0 (k none g.server.view) g h hq x g' e

/-! ## C84 -/

/-- **C84** (simulation). Let `α` be the negative of no id in `U`. Then, whatever the adversary does, no call in the
game panics, and the simulator, which is given the points `B, αB, …, α^q B` (`q` the length of `U`) and `αP₂` but not `α`,
produces the same output of the adversary, and at the end the same view; the calls of the game are a history of
`add` and `delete` calls of the server. -/
theorem C84_simulation (params : AccParams G1 G2) (a sM b : F) (U : List F) (hU : ∀ y ∈ U, y + a ≠ 0)
    (adv : View F G1 G2 → ServerProg F G1 G2 Q α) (O : Q → F) :
    ∃ x g m, (runGame params a sM (b * prodPlus a U) U adv).eval O = .ok (x, g) ∧
      (runSim params (powers a (b • params.p1) U.length) (a • params.p2) sM U adv).eval O = (x, m) ∧
      g.server.view = m.view (powers a (b • params.p1) U.length) ∧
      (Server.new params a sM (b * prodPlus a U)).run g.calls = .ok g.server ∧
      (∀ op ∈ g.calls, op.isQuick = false) ∧
      (∀ y, y ∈ (regRun g.calls).members ↔ y ∈ m.ids) ∧ g.left = m.left := by
  obtain ⟨x, g, m, h1, h2, h3⟩ := Simulates.play O (adv (startGame params a sM (b * prodPlus a U) U).server.view)
    _ _ (simulates_start params a sM b U hU)
  have hc := play_calls O (Server.new params a sM (b * prodPlus a U)) _ _ rfl (by simp [startGame]) _ _ h1
  refine ⟨x, g, m, h1, ?_, h3.view, hc.1, hc.2, fun y => ?_, h3.left⟩
  · rw [runSim, ← (simulates_start params a sM b U hU).view]; exact h2
  · have hR := refines_run _ (refines_new params a sM _) hc.1
    rw [← h3.ids]
    exact (hR.members y).symm

/-- The adversary has made a credential for `y` that is accepted for the current accumulator and keys, although `y`
is not a member and cannot become one. -/
def Forged [DecidableEq GT] (E : Pairing F G1 G2 GT) (params : AccParams G1 G2) (g : Game F G1 G2) (y : F)
    (w : Witness F G1) : Prop :=
  ∃ V, g.server.getAccumulator = .ok V ∧ credVerify E V g.server.getPublicKeys params y w = .ok () ∧
    y ∉ (regRun g.calls).members ∧ y ∉ g.left

/-- The reduction's output `C` for the id `y` solves the SDH problem with base `B` and secret `α`. -/
def SolvesSdh (a : F) (B : G1) (y : F) (C : G1) : Prop := B ≠ 0 ∧ (y + a) • C = B

theorem Simulates.solve [DecidableEq GT] {a sM : F} {B : G1} {n : Nat} {U : List F} {g : Game F G1 G2} {m : Sim F G2}
    (h : Simulates a B n U g m) (E : Pairing F G1 G2 GT) (params : AccParams G1 G2) (hP : params.p2 ≠ 0)
    (hK : params.k2 ≠ 0) (hk : g.server.publicKeys = ⟨a • params.p2, sM • params.k2⟩) (V : G1)
    (hV : g.server.getAccumulator = .ok V) (y : F) (hy : y ∉ m.rest) (w : Witness F G1)
    (hw : credVerify E V g.server.getPublicKeys params y w = .ok ()) :
    (y + a) • sdhCandidate (powers a B n) m y w.witness = B := by
  have : DecidableEq G1 := Classical.decEq _
  rw [getPublicKeys, hk, credVerify_iff E params hP hK] at hw
  have hw := hw.1
  unfold IsWitness at hw
  rw [getAccumulator, h.last] at hV
  simp only [unwrap, Except.ok.injEq] at hV
  have hr : prodMinus y m.rest ≠ 0 := prodMinus_ne_zero' hy
  rw [sdhCandidate, smul_comm, smul_sub, hw, ← hV,
    comb_powers _ _ _ _ (by have := quotient_length y m.rest; have := h.len; omega), smul_smul (y + a), ← sub_smul,
    quotient_val a y, smul_smul, add_sub_cancel_left, inv_mul_cancel₀ hr, one_smul]

/-- **C84** (every forgery is a solution). Whatever the adversary does in the game: if it ends with a forged
credential, then the reduction, from the same run against the simulator, computes `(y+α)⁻¹ B`. -/
theorem C84_forgery [DecidableEq GT] (E : Pairing F G1 G2 GT) (params : AccParams G1 G2) (hP : params.p2 ≠ 0)
    (hK : params.k2 ≠ 0) (a sM b : F) (U : List F) (hU : ∀ y ∈ U, y + a ≠ 0)
    (adv : View F G1 G2 → ServerProg F G1 G2 Q (F × Witness F G1)) (O : Q → F) (y : F) (w : Witness F G1)
    (g : Game F G1 G2) (h : (runGame params a sM (b * prodPlus a U) U adv).eval O = .ok ((y, w), g))
    (hf : Forged E params g y w) :
    let pts := powers a (b • params.p1) U.length
    ∃ m, (runSim params pts (a • params.p2) sM U adv).eval O = ((y, w), m) ∧
      (y + a) • sdhCandidate pts m y w.witness = b • params.p1 := by
  obtain ⟨x, g', m, h1, h2, h3⟩ := Simulates.play O (adv (startGame params a sM (b * prodPlus a U) U).server.view)
    _ _ (simulates_start params a sM b U hU)
  have hc := play_calls O (Server.new params a sM (b * prodPlus a U)) _ _ rfl (by simp [startGame]) _ _ h1
  unfold runGame at h
  rw [h] at h1
  simp only [Except.ok.injEq, Prod.mk.injEq] at h1
  obtain ⟨rfl, rfl⟩ := h1
  refine ⟨m, ?_, ?_⟩
  · rw [runSim, ← (simulates_start params a sM b U hU).view]; exact h2
  · obtain ⟨V, hV, hw, hm, hl⟩ := hf
    refine h3.solve E params hP hK (keys_run hc.1).1 V hV y ?_ w hw
    rw [h3.perm.mem_iff, List.mem_append, not_or, ← h3.ids, ← h3.left]
    have hR := refines_run _ (refines_new params a sM _) hc.1
    exact ⟨fun e => hm ((hR.members y).1 e), hl⟩

/-- **C84** (deleted users). If every id can be added only once, then a deleted user is not a member and cannot
become one: its credentials count as forged. -/
theorem C84_deleted (params : AccParams G1 G2) (a sM b : F) (U : List F) (hU : ∀ y ∈ U, y + a ≠ 0)
    (hn : U.Nodup) (adv : View F G1 G2 → ServerProg F G1 G2 Q α) (O : Q → F) (x : α) (g : Game F G1 G2)
    (h : (runGame params a sM (b * prodPlus a U) U adv).eval O = .ok (x, g)) (y : F)
    (hy : y ∈ (regRun g.calls).log) : y ∉ (regRun g.calls).members ∧ y ∉ g.left := by
  obtain ⟨x', g', m, h1, h2, h3⟩ := Simulates.play O (adv (startGame params a sM (b * prodPlus a U) U).server.view)
    _ _ (simulates_start params a sM b U hU)
  have hc := play_calls O (Server.new params a sM (b * prodPlus a U)) _ _ rfl (by simp [startGame]) _ _ h1
  unfold runGame at h
  rw [h] at h1
  simp only [Except.ok.injEq, Prod.mk.injEq] at h1
  obtain ⟨rfl, rfl⟩ := h1
  have hR := refines_run _ (refines_new params a sM _) hc.1
  have hd : y ∈ m.dels := by
    rw [← h3.dels, hR.log]; exact hy
  have hnd := h3.uni.nodup_iff.1 hn
  have hr : y ∉ m.rest := fun e => (List.nodup_append.1 hnd).2.2 y hd y e rfl
  rw [h3.perm.mem_iff, List.mem_append, not_or, ← h3.ids, ← h3.left] at hr
  exact ⟨fun e => hr.1 ((hR.members y).2 e), hr.2⟩

end game

/-! ### Probabilities -/

theorem prob_fst {X Y : Type} [Fintype X] [Fintype Y] [Nonempty Y] (p : X → Prop) :
    prob (fun x : X × Y => p x.1) = prob p := by
  classical
  rw [prob_eq_avg, prob_eq_avg, avg_prod]
  exact avg_congr (fun x => avg_const (X := Y) (if p x then 1 else 0))

theorem prob_snd {X Y : Type} [Fintype X] [Fintype Y] [Nonempty X] (p : Y → Prop) :
    prob (fun x : X × Y => p x.2) = prob p := by
  classical
  rw [prob_eq_avg, prob_eq_avg, avg_prod]
  exact avg_const (X := X) (avg (fun y => if p y then 1 else 0))

/-- Change of variables: `φ` is injective on the good points. -/
theorem prob_change {X : Type} [Fintype X] {P P' Bad : X → Prop} (φ : X → X)
    (hφ : ∀ x x', ¬ Bad x → ¬ Bad x' → φ x = φ x' → x = x') (h : ∀ x, P x → ¬ Bad x → P' (φ x)) :
    prob P ≤ prob P' + prob Bad := by
  have h1 : prob P ≤ prob (fun x => P x ∧ ¬ Bad x) + prob Bad :=
    prob_le_add (fun x hx => by by_cases hb : Bad x <;> simp [hx, hb])
  have h2 : prob (fun x => P x ∧ ¬ Bad x) ≤ prob P' := by
    unfold prob
    have : Nat.card {x // P x ∧ ¬ Bad x} ≤ Nat.card {x // P' x} :=
      Nat.card_le_card_of_injective (fun x => ⟨φ x.1, h x.1 x.2.1 x.2.2⟩)
        (fun x y e => Subtype.ext (hφ _ _ x.2.2 y.2.2 (Subtype.mk.inj e)))
    gcongr
  linarith

theorem simulate_bound {F G1 G2 Q α : Type} [Field F] [DecidableEq F] [AddCommGroup G1] [Module F G1] (pts : List G1)
    (p : ServerProg F G1 G2 Q α) : ∀ (n : Nat) (m : Sim F G2), p.HashBound n → (p.simulate pts m).QueryBound n := by
  induction p with
  | done a => intro n m _; cases n <;> trivial
  | hash q k ih =>
    intro n m h
    cases n with
    | zero => exact absurd h id
    | succ n => exact fun r => ih r n m (h r)
  | call op k ih =>
    intro n m h
    have h : ∀ r v, (k r v).HashBound n := by cases n <;> exact h
    rw [ServerProg.simulate]
    split
    · exact ih _ _ n _ (h _ _)
    · exact ih _ _ n _ (h _ _)

/-! ### ids that have not been added yet -/

section unborn
variable {F G1 G2 Q α : Type} [Field F] [DecidableEq F] [AddCommGroup G1] [Module F G1]

theorem play_prefix (O : Q → F) : ∀ (adv : ServerProg F G1 G2 Q α) (g : Game F G1 G2) x g',
    (adv.play g).eval O = .ok (x, g') → g.calls <+: g'.calls
  | .done y, g, x, g', e => by
    simp only [ServerProg.play, OracleProg.eval, Except.ok.injEq, Prod.mk.injEq] at e
    rw [e.2]
  | .hash q k, g, x, g', e => play_prefix O (k (O q)) g x g' e
  | .call op k, g, x, g', e => by
    rw [ServerProg.play] at e
    split at e
    · split at e
      · simp [OracleProg.eval] at e
      · next s' r hs => exact (List.prefix_append _ _).trans (play_prefix O (k r s'.view) _ x g' e)
    · exact play_prefix O (k none g.server.view) g x g' e

theorem filter_erase_comm (y z : F) (hz : z ≠ y) (l : List F) :
    (l.erase z).filter (· ≠ y) = (l.filter (· ≠ y)).erase z := by
  induction l with
  | nil => rfl
  | cons x l ih =>
    by_cases hx : x = z
    · subst hx
      rw [List.erase_cons_head, List.filter_cons_of_pos (by simpa using hz), List.erase_cons_head]
    · rw [List.erase_cons_tail (by simpa using hx)]
      by_cases hy : x = y
      · rw [List.filter_cons_of_neg (by simpa using hy), List.filter_cons_of_neg (by simpa using hy), ih]
      · rw [List.filter_cons_of_pos (by simpa using hy), List.filter_cons_of_pos (by simpa using hy),
          List.erase_cons_tail (by simpa using hx), ih]

/-- If `y` is never added it does not matter whether it could have been. -/
theorem play_without (O : Q → F) (y : F) : ∀ (adv : ServerProg F G1 G2 Q α) (g : Game F G1 G2) x g',
    (adv.play g).eval O = .ok (x, g') → Op.add y ∉ g'.calls →
    (adv.play ⟨g.server, g.left.filter (· ≠ y), g.calls⟩).eval O
      = .ok (x, ⟨g'.server, g'.left.filter (· ≠ y), g'.calls⟩)
  | .done z, g, x, g', e, hn => by
    simp only [ServerProg.play, OracleProg.eval, Except.ok.injEq, Prod.mk.injEq] at e ⊢
    obtain ⟨rfl, rfl⟩ := e
    exact ⟨rfl, rfl⟩
  | .hash q k, g, x, g', e, hn => play_without O y (k (O q)) g x g' e hn
  | .call op k, g, x, g', e, hn => by
    rw [ServerProg.play] at e ⊢
    have key : op ≠ .add y → allowed g.server.ids (g.left.filter (· ≠ y)) op = allowed g.server.ids g.left op ∧
        leftAfter g.server.ids (g.left.filter (· ≠ y)) op = (leftAfter g.server.ids g.left op).filter (· ≠ y) := by
      intro hop
      cases op with
      | add z =>
        have hz : z ≠ y := fun e => hop (by rw [e])
        constructor
        · simp [allowed, hz]
        · simp only [leftAfter]
          split
          · rfl
          · rw [filter_erase_comm y z hz]
      | delete z => exact ⟨rfl, rfl⟩
      | quickDelete z => exact ⟨rfl, rfl⟩
    split at e
    · next ha =>
      split at e
      · simp [OracleProg.eval] at e
      · next s' r hs =>
        have hop : op ≠ .add y := by
          rintro rfl
          exact hn ((play_prefix O (k r s'.view) _ x g' e).subset (by simp))
        have ih := play_without O y (k r s'.view) _ x g' e hn
        simp only [(key hop).1, ha, if_true, hs, (key hop).2]
        exact ih
    · next ha =>
      have hna : ¬ allowed g.server.ids (g.left.filter (· ≠ y)) op = true := by
        by_cases hop : op = .add y
        · subst hop
          simp only [allowed, decide_eq_true_eq, not_or] at ha ⊢
          exact ⟨ha.1, fun h => ha.2 (List.mem_filter.1 h).1⟩
        · rw [(key hop).1]; exact ha
      simp only
      rw [if_neg hna]
      exact play_without O y (k none g.server.view) g x g' e hn

theorem member_added (ops : List (Op F)) (y : F) (h : y ∈ (regRun ops).members) : Op.add y ∈ ops := by
  have : ∀ (ops : List (Op F)) (r : Registry F), y ∈ (ops.foldl regStep r).members →
      y ∈ r.members ∨ Op.add y ∈ ops := by
    intro ops
    induction ops with
    | nil => intro r h; exact .inl h
    | cons op ops ih =>
      intro r h
      rcases ih _ h with h | h
      · cases op with
        | add z =>
          simp only [regStep, Registry.add] at h
          split at h
          · exact .inl h
          · rcases List.mem_cons.1 h with rfl | h
            · exact .inr (by simp)
            · exact .inl h
        | delete z =>
          simp only [regStep, Registry.delete] at h
          split at h
          · exact .inl (List.mem_filter.1 h).1
          · exact .inl h
        | quickDelete z =>
          simp only [regStep, Registry.delete] at h
          split at h
          · exact .inl (List.mem_filter.1 h).1
          · exact .inl h
      · exact .inr (List.mem_cons_of_mem _ h)
  rcases this ops Registry.empty h with h | h
  · simp [Registry.empty] at h
  · exact h

end unborn

section prob
variable {F G1 G2 GT : Type} [Field F] [DecidableEq F] [Fintype F] [AddCommGroup G1] [Module F G1]
  [AddCommGroup G2] [Module F G2] [AddCommGroup GT] [Module F GT] [DecidableEq GT]
variable {Ω : Type} [Fintype Ω] [Nonempty Ω]

theorem prob_zero_le (U : List F) : prob (fun a : F => prodPlus a U = 0) ≤ (U.length : ℚ) / Nat.card F := by
  unfold prob
  have h : Nat.card {a : F // prodPlus a U = 0} ≤ U.length := by
    calc Nat.card {a : F // prodPlus a U = 0} ≤ Nat.card {y // y ∈ U.toFinset} :=
          Nat.card_le_card_of_injective
            (fun x => ⟨-x.1, List.mem_toFinset.2 (prodPlus_eq_zero.1 x.2)⟩)
            (fun x y e => Subtype.ext (neg_injective (Subtype.mk.inj e)))
      _ = U.toFinset.card := by rw [Nat.card_eq_fintype_card, Fintype.card_coe]
      _ ≤ U.length := List.toFinset_card_le U
  gcongr

theorem prob_eq_zero : prob (fun v : F => v = 0) = 1 / (Nat.card F : ℚ) := by
  unfold prob
  rw [Nat.card_eq_one_iff_unique.2 ⟨inferInstance, ⟨⟨0, rfl⟩⟩⟩]
  simp

/-- The secrets for which the game and the simulation differ are rare. -/
theorem prob_bad {Y : Type} [Fintype Y] [Nonempty Y] (U : List F) :
    prob (fun x : (Ω × F × F) × Y => x.1.2.2 = 0 ∨ prodPlus x.1.2.1 U = 0) ≤
      ((U.length : ℚ) + 1) / Nat.card F := by
  have h := prob_le_add (X := (Ω × F × F) × Y)
    (A := fun x => x.1.2.2 = 0 ∨ prodPlus x.1.2.1 U = 0) (B := fun x => x.1.2.2 = 0)
    (C := fun x => prodPlus x.1.2.1 U = 0) (fun x h => h)
  rw [prob_fst (Y := Y) (fun x : Ω × F × F => x.2.2 = 0), prob_snd (X := Ω) (fun x : F × F => x.2 = 0),
    prob_snd (X := F) (fun v : F => v = 0), prob_eq_zero,
    prob_fst (Y := Y) (fun x : Ω × F × F => prodPlus x.2.1 U = 0), prob_snd (X := Ω) (fun x : F × F => prodPlus x.1 U = 0),
    prob_fst (Y := F) (fun a : F => prodPlus a U = 0)] at h
  have := prob_zero_le U
  have e : ((U.length : ℚ) + 1) / Nat.card F = 1 / Nat.card F + U.length / Nat.card F := by ring
  rw [e]; linarith

/-- the change of variables `v = b ∏ (y + α)` -/
theorem prob_game {Y : Type} [Fintype Y] [Nonempty Y] (U : List F) {P P' : (Ω × F × F) × Y → Prop}
    (h : ∀ ω a b y, prodPlus a U ≠ 0 → b ≠ 0 → P ((ω, a, b * prodPlus a U), y) → P' ((ω, a, b), y)) :
    prob P - ((U.length : ℚ) + 1) / Nat.card F ≤ prob P' := by
  have h1 := prob_change (P := P) (P' := P') (Bad := fun x => x.1.2.2 = 0 ∨ prodPlus x.1.2.1 U = 0)
    (fun x => ((x.1.1, x.1.2.1, x.1.2.2 / prodPlus x.1.2.1 U), x.2)) ?_ ?_
  · have := prob_bad (Ω := Ω) (Y := Y) U
    linarith
  · rintro ⟨⟨ω, a, v⟩, y⟩ ⟨⟨ω', a', v'⟩, y'⟩ hb hb' e
    simp only [not_or, Prod.mk.injEq] at hb hb' e ⊢
    obtain ⟨⟨rfl, rfl, e⟩, rfl⟩ := e
    refine ⟨⟨rfl, rfl, ?_⟩, rfl⟩
    field_simp [hb.2] at e
    exact e
  · rintro ⟨⟨ω, a, v⟩, y⟩ hP hb
    simp only [not_or] at hb
    refine h ω a _ y hb.2 (div_ne_zero hb.1 hb.2) ?_
    rw [div_mul_cancel₀ _ hb.2]
    exact hP

theorem not_neg_mem {a : F} {U : List F} (h : prodPlus a U ≠ 0) : ∀ y ∈ U, y + a ≠ 0 := by
  intro y hy e
  exact h (prodPlus_eq_zero.2 (by rwa [← eq_neg_of_add_eq_zero_left e]))

/-- **C84** (credentials). The secrets `α` and `v` of the server are random (`sM` may be known to the adversary). Whatever
ids `U` can be added (`q` of them) and whatever the hash is: the probability that an adversary, which calls the server
as it likes and sees all of its state but `α`, ends with a forged credential, is at most the probability that the
reduction, which is given `B, αB, …, α^q B` for a random `B` and `αP₂` only, solves the SDH problem, plus `(q+1)/|F|`. -/
theorem C84_credential {Q : Type} (E : Pairing F G1 G2 GT) (params : AccParams G1 G2) (hP1 : params.p1 ≠ 0)
    (hP : params.p2 ≠ 0) (hK : params.k2 ≠ 0) (sM : F) (U : List F)
    (adv : Ω → View F G1 G2 → ServerProg F G1 G2 Q (F × Witness F G1)) (O : Q → F) :
    prob (fun x : Ω × F × F => ∃ y w g,
        (runGame params x.2.1 sM x.2.2 U (adv x.1)).eval O = .ok ((y, w), g) ∧ Forged E params g y w)
      ≤ prob (fun x : Ω × F × F =>
          let pts := powers x.2.1 (x.2.2 • params.p1) U.length
          let out := (runSim params pts (x.2.1 • params.p2) sM U (adv x.1)).eval O
          SolvesSdh x.2.1 (x.2.2 • params.p1) out.1.1 (sdhCandidate pts out.2 out.1.1 out.1.2.witness))
        + ((U.length : ℚ) + 1) / Nat.card F := by
  have h := prob_game (Ω := Ω) (Y := Unit) U
    (P := fun x => ∃ y w g,
        (runGame params x.1.2.1 sM x.1.2.2 U (adv x.1.1)).eval O = .ok ((y, w), g) ∧ Forged E params g y w)
    (P' := fun x =>
          let pts := powers x.1.2.1 (x.1.2.2 • params.p1) U.length
          let out := (runSim params pts (x.1.2.1 • params.p2) sM U (adv x.1.1)).eval O
          SolvesSdh x.1.2.1 (x.1.2.2 • params.p1) out.1.1 (sdhCandidate pts out.2 out.1.1 out.1.2.witness)) ?_
  · rw [prob_fst (Y := Unit) (fun x : Ω × F × F => ∃ y w g,
        (runGame params x.2.1 sM x.2.2 U (adv x.1)).eval O = .ok ((y, w), g) ∧ Forged E params g y w),
      prob_fst (Y := Unit) (fun x : Ω × F × F =>
          let pts := powers x.2.1 (x.2.2 • params.p1) U.length
          let out := (runSim params pts (x.2.1 • params.p2) sM U (adv x.1)).eval O
          SolvesSdh x.2.1 (x.2.2 • params.p1) out.1.1 (sdhCandidate pts out.2 out.1.1 out.1.2.witness))] at h
    linarith
  · rintro ω a b _ hU hb ⟨y, w, g, hg, hf⟩
    obtain ⟨m, hm, hs⟩ := C84_forgery E params hP hK a sM b U (not_neg_mem hU) (adv ω) O y w g hg hf
    simp only [hm]
    exact ⟨smul_ne_zero hb hP1, hs⟩

/-- **C84** (ids that have not been added). An accepted credential for an id `y₀` that was not added although it could have
been is not easier to make: in that case the simulator is run without `y₀` among the ids. -/
theorem C84_not_added {Q : Type} (E : Pairing F G1 G2 GT) (params : AccParams G1 G2) (hP1 : params.p1 ≠ 0)
    (hP : params.p2 ≠ 0) (hK : params.k2 ≠ 0) (sM : F) (U : List F) (y₀ : F)
    (adv : Ω → View F G1 G2 → ServerProg F G1 G2 Q (F × Witness F G1)) (O : Q → F) :
    let U' := U.filter (· ≠ y₀)
    prob (fun x : Ω × F × F => ∃ w g V,
        (runGame params x.2.1 sM x.2.2 U (adv x.1)).eval O = .ok ((y₀, w), g) ∧ Op.add y₀ ∉ g.calls ∧
        g.server.getAccumulator = .ok V ∧ credVerify E V g.server.getPublicKeys params y₀ w = .ok ())
      ≤ prob (fun x : Ω × F × F =>
          let pts := powers x.2.1 (x.2.2 • params.p1) U'.length
          let out := (runSim params pts (x.2.1 • params.p2) sM U' (adv x.1)).eval O
          SolvesSdh x.2.1 (x.2.2 • params.p1) out.1.1 (sdhCandidate pts out.2 out.1.1 out.1.2.witness))
        + ((U'.length : ℚ) + 1) / Nat.card F := by
  intro U'
  refine le_trans (prob_mono ?_) (C84_credential E params hP1 hP hK sM U' adv O)
  rintro ⟨ω, α, v⟩ ⟨w, g, V, hg, hn, hV, hw⟩
  refine ⟨y₀, w, ⟨g.server, g.left.filter (· ≠ y₀), g.calls⟩, ?_, V, hV, hw, ?_, ?_⟩
  · exact play_without O y₀ _ _ _ _ hg hn
  · exact fun h => hn (member_added _ _ h)
  · simp

/-- **C84** (the set of queries): a finite set of queries as used in `C84_presentation` exists. -/
theorem C84_query_set (E : Pairing F G1 G2 GT) (enc : Enc G1 G2 GT) (params : AccParams G1 G2) (sM : F) (U : List F)
    (adv : Ω → View F G1 G2 → ServerProg F G1 G2 Query (Presentation F G1 G2)) (n : Nat)
    (hn : ∀ ω v, (adv ω v).HashBound n) :
    ∃ S : Finset Query, ∀ ω (α b : F) (H : S → F), ((runSim params (powers α (b • params.p1) U.length) (α • params.p2) sM U
      (adv ω)).eval (oracle S 0 H)).1.query E enc params ∈ S := by
  obtain ⟨S, -, h⟩ := C70_query_set (Ω := Ω × F × F) (F := F) (fun x =>
    runSim params (powers x.2.1 (x.2.2 • params.p1) U.length) (x.2.1 • params.p2) sM U (adv x.1)) n
    (fun x => simulate_bound _ _ n _ (hn _ _)) (fun o => o.1.query E enc params)
  exact ⟨S, fun ω α b H => h (ω, α, b) _⟩

/-- **C84** (presentations). The same with membership proofs instead of credentials: if the adversary, which asks the
hash at most `n` times, ends with probability `a` with a presentation accepted for the current accumulator and the
server's keys, then for `a' = a - (q+1)/|F|`, if not negative, with probability at least `a' (a'/(n+1) - 1/|F|)` the
extractor, which runs the adversary twice against the simulator and is given only `B, αB, …, α^q B` and `αP₂`, computes

* a credential that passes `Witness::verify` for an id that is a member, or can still become one, or
* a non-trivial linear relation between `X`, `Y` and `Z`, or
* a solution of the SDH problem. -/
theorem C84_presentation (E : Pairing F G1 G2 GT) (enc : Enc G1 G2 GT) (h1 : Function.Injective enc.g1)
    (h2 : Function.Injective enc.g2) (h3 : Function.Injective enc.gt) (params : AccParams G1 G2) (hP1 : params.p1 ≠ 0)
    (hP : params.p2 ≠ 0) (hK : params.k2 ≠ 0) (sM : F) (U : List F)
    (adv : Ω → View F G1 G2 → ServerProg F G1 G2 Query (Presentation F G1 G2)) (n : Nat)
    (hn : ∀ ω v, (adv ω v).HashBound n) (S : Finset Query)
    (hS : ∀ ω (α b : F) (H : S → F), ((runSim params (powers α (b • params.p1) U.length) (α • params.p2) sM U
      (adv ω)).eval (oracle S 0 H)).1.query E enc params ∈ S) :
    let a := prob (fun x : (Ω × F × F) × (S → F) => ∃ p g,
      (runGame params x.1.2.1 sM x.1.2.2 U (adv x.1.1)).eval (oracle S 0 x.2) = .ok (p, g) ∧
      p.accepted E (asHash (oracle S 0 x.2)) enc params ∧
      g.server.getAccumulator = .ok p.accumulator ∧ p.keys = g.server.getPublicKeys)
    let a' := a - ((U.length : ℚ) + 1) / Nat.card F
    0 ≤ a' →
    a' * (a' / (n + 1) - 1 / Nat.card F) ≤ prob (fun x : (Ω × F × F) × (S → F) × (S → F) =>
      let pts := powers x.1.2.1 (x.1.2.2 • params.p1) U.length
      let key := x.1.2.1 • params.p2
      let prog := runSim params pts key sM U (adv x.1.1)
      let out := prog.eval (oracle S 0 x.2.1)
      let out' := rerun S prog (fun o => o.1.query E enc params) x.2.1 x.2.2
      let y := extractId out.1.proof out'.1.proof
      let w := extractWitness params out.1.proof out'.1.proof
      let rel := extractRelation out.1.proof out'.1.proof
      ((y ∈ out.2.ids ∨ y ∈ out.2.left) ∧
        credVerify E out.1.accumulator ⟨key, sM • params.k2⟩ params y w = .ok ()) ∨
      (rel ≠ (0, 0, 0) ∧ rel.1 • params.x1 + rel.2.1 • params.y1 + rel.2.2 • params.z1 = 0) ∨
      SolvesSdh x.1.2.1 (x.1.2.2 • params.p1) y (sdhCandidate pts out.2 y w.witness)) := by
  intro a a' ha'
  -- the programs of the simulation
  let prog : Ω × F × F → OracleProg Query F (Presentation F G1 G2 × Sim F G2) := fun x =>
    runSim params (powers x.2.1 (x.2.2 • params.p1) U.length) (x.2.1 • params.p2) sM U (adv x.1)
  have hb : ∀ x, (prog x).QueryBound n := fun x => simulate_bound _ _ n _ (hn _ _)
  let target : Presentation F G1 G2 × Sim F G2 → Query := fun o => o.1.query E enc params
  let ok : Ω × F × F → Presentation F G1 G2 × Sim F G2 → F → Prop := fun x o c =>
    c = o.1.proof.challenge ∧ x.2.2 ≠ 0 ∧ prodPlus x.2.1 U ≠ 0 ∧ o.1.keys = ⟨x.2.1 • params.p2, sM • params.k2⟩ ∧
      ∃ g, Simulates x.2.1 (x.2.2 • params.p1) U.length U g o.2 ∧
        g.server.publicKeys = ⟨x.2.1 • params.p2, sM • params.k2⟩ ∧ g.server.getAccumulator = .ok o.1.accumulator
  have fk := forking (0 : F) S prog n hb (fun _ => target) (fun x H => hS _ _ _ H) ok
  have hle : a' ≤ prob (fun x : (Ω × F × F) × (S → F) => ok x.1 ((prog x.1).eval (oracle S 0 x.2))
      (oracle S 0 x.2 (target ((prog x.1).eval (oracle S 0 x.2))))) := by
    refine prob_game (Ω := Ω) (Y := S → F) U ?_
    rintro ω α b H hU hb ⟨p, g, hg, hacc, hV, hk⟩
    obtain ⟨x, g', m, e1, e2, e3⟩ := Simulates.play (oracle S 0 H)
      (adv ω (startGame params α sM (b * prodPlus α U) U).server.view)
      _ _ (simulates_start params α sM b U (not_neg_mem hU))
    have hc := play_calls (oracle S 0 H) (Server.new params α sM (b * prodPlus α U)) _ _ rfl
      (by simp [startGame]) _ _ e1
    unfold runGame at hg
    simp only at hg
    rw [hg] at e1
    simp only [Except.ok.injEq, Prod.mk.injEq] at e1
    obtain ⟨rfl, rfl⟩ := e1
    have hkeys := (keys_run hc.1).1
    have e : (prog (ω, α, b)).eval (oracle S 0 H) = (p, m) := by
      simp only [prog, runSim]
      rw [← (simulates_start params α sM b U (not_neg_mem hU)).view]; exact e2
    simp only [e, ok]
    refine ⟨?_, hb, hU, ?_, g, e3, hkeys, hV⟩
    · simp only [Presentation.accepted, checkProof, decide_eq_true_eq] at hacc
      exact hacc
    · rw [hk, getPublicKeys, hkeys]
  have hmono : a' * (a' / (n + 1) - 1 / Nat.card F) ≤ max 0
      (prob (fun x : (Ω × F × F) × (S → F) => ok x.1 ((prog x.1).eval (oracle S 0 x.2))
      (oracle S 0 x.2 (target ((prog x.1).eval (oracle S 0 x.2))))) *
      (prob (fun x : (Ω × F × F) × (S → F) => ok x.1 ((prog x.1).eval (oracle S 0 x.2))
      (oracle S 0 x.2 (target ((prog x.1).eval (oracle S 0 x.2))))) / (n + 1) - 1 / Nat.card F)) := by
    generalize prob (fun x : (Ω × F × F) × (S → F) => ok x.1 ((prog x.1).eval (oracle S 0 x.2))
      (oracle S 0 x.2 (target ((prog x.1).eval (oracle S 0 x.2))))) = p at hle
    by_cases hneg : a' / (n + 1) - 1 / (Nat.card F : ℚ) ≤ 0
    · exact le_max_of_le_left (mul_nonpos_of_nonneg_of_nonpos ha' hneg)
    · refine le_max_of_le_right (mul_le_mul hle ?_ (le_of_not_ge hneg) (le_trans ha' hle))
      have : a' / (n + 1) ≤ p / (n + 1) := by gcongr
      linarith
  refine le_trans hmono (max_le (by unfold prob; positivity) (le_trans fk (prob_mono ?_)))
  rintro ⟨⟨ω, α, b⟩, H, G⟩ ⟨⟨c1, hb, hU, k1, g, hsim, hk, hV⟩, ⟨c2, -, -, k2, -⟩, e3, e4⟩
  obtain ⟨-, -, -, hc⟩ := query_inj E enc h1 h2 h3 params _ _ e3
  have hne : ((prog (ω, α, b)).eval (oracle S 0 H)).1.proof.challenge
      ≠ (rerun S (prog (ω, α, b)) target H G).1.proof.challenge := by
    intro hcc
    apply e4
    rw [e3] at c2
    rw [c2, c1]
    exact hcc.symm
  rcases C43_special_sound E params _ _ _ _ hc hne with hw | hw
  · rw [k1] at hw
    by_cases hm : extractId ((prog (ω, α, b)).eval (oracle S 0 H)).1.proof
        (rerun S (prog (ω, α, b)) target H G).1.proof ∈ ((prog (ω, α, b)).eval (oracle S 0 H)).2.rest
    · refine .inl ⟨?_, hw⟩
      rw [hsim.perm.mem_iff, List.mem_append] at hm
      exact hm
    · refine .inr (.inr ⟨smul_ne_zero hb hP1, ?_⟩)
      refine hsim.solve E params hP hK hk _ hV _ hm _ ?_
      rw [getPublicKeys, hk]
      exact hw
  · exact .inr (.inl hw)

end prob

/-! ### Examples -/

/-- An adversary that adds 1 and 2, deletes 1, and then makes a credential for 1 from the guess `α = 3`. -/
def exAdaptive : View (ZMod 7) (ZMod 7) (ZMod 7) → ServerProg (ZMod 7) (ZMod 7) (ZMod 7) Unit (ZMod 7 × Witness (ZMod 7) (ZMod 7)) :=
  fun _ => .call (.add 1) fun _ _ => .call (.add 2) fun _ _ => .call (.delete 1) fun _ v => .hash () fun c =>
    .done (1, ⟨c, (1 + 3)⁻¹ * (v.accumulators.getLast?.getD 0), (1 + v.signSecretKey)⁻¹ * (c * 2 + 3)⟩)

/-- With `α = 3` its forgery succeeds: the hypotheses of `C84_forgery` are met, for a deleted id. -/
theorem exAdaptive_forges : ∃ y w g,
    (runGame (⟨1, 1, 3, 2, 1, 5, 6, 4⟩ : AccParams (ZMod 7) (ZMod 7)) 3 4 5 [1, 2] exAdaptive).eval (fun _ => 6)
      = .ok ((y, w), g) ∧ Forged (Pairing.field (ZMod 7)) ⟨1, 1, 3, 2, 1, 5, 6, 4⟩ g y w ∧
    y ∈ (regRun g.calls).log := by
  have h : (match (runGame (⟨1, 1, 3, 2, 1, 5, 6, 4⟩ : AccParams (ZMod 7) (ZMod 7)) 3 4 5 [1, 2] exAdaptive).eval
      (fun _ => 6) with
    | .ok ((y, w), g) => (match g.server.getAccumulator with
      | .ok V => (match credVerify (Pairing.field (ZMod 7)) V g.server.getPublicKeys ⟨1, 1, 3, 2, 1, 5, 6, 4⟩ y w with
        | .ok _ => decide (y ∉ (regRun g.calls).members ∧ y ∉ g.left ∧ y ∈ (regRun g.calls).log)
        | .error _ => false)
      | .error _ => false)
    | .error _ => false) = true := by decide +kernel
  split at h
  · next y w g hg =>
    split at h
    · next V hV =>
      split at h
      · next u hc =>
        obtain ⟨h1, h2, h3⟩ := of_decide_eq_true h
        exact ⟨y, w, g, hg, ⟨V, hV, hc, h1, h2⟩, h3⟩
      · simp at h
    · simp at h
  · simp at h

section
variable {F G1 G2 GT : Type} [Field F] [DecidableEq F] [AddCommGroup G1] [Module F G1]
  [AddCommGroup G2] [Module F G2] [AddCommGroup GT] [Module F GT] [DecidableEq GT]

/-- An insider: it has `y` added, takes the witness, signs for itself with `sM`, and proves membership honestly. -/
def insider (E : Pairing F G1 G2 GT) (enc : Enc G1 G2 GT) (params : AccParams G1 G2) (y x : F) (eph : Bytes)
    (rand : ProofRand F) : View F G1 G2 → ServerProg F G1 G2 Query (Presentation F G1 G2) := fun _ =>
  .call (.add y) fun r v =>
    let w : Witness F G1 := ⟨x, r.getD 0, (y + v.signSecretKey)⁻¹ • (x • params.k1 + params.k0)⟩
    let V := v.accumulators.getLast?.getD 0
    let mpc := Committing.new E w params v.publicKeys rand
    .hash (((mpc.getBytesForChallenge enc (credTranscript enc params v.publicKeys V)).append "Ephemeral challenge" eph),
      "challenge") fun c => .done ⟨mpc.genProof w y c, v.publicKeys, V, eph⟩

/-- **C84** is not empty: the insider asks one query and its presentation is accepted, for the current accumulator and
keys, for all secrets with `α ≠ -y` and `sM ≠ -y` and every hash. -/
theorem C84_insider [Fintype F] (E : Pairing F G1 G2 GT) (enc : Enc G1 G2 GT) (params : AccParams G1 G2) (hP : params.p2 ≠ 0)
    (hK : params.k2 ≠ 0) (y x : F) (eph : Bytes) (rand : ProofRand F) :
    (∀ v, (insider E enc params y x eph rand v).HashBound 1) ∧
    ∀ (a sM v : F) (O : Query → F), y + a ≠ 0 → y + sM ≠ 0 → ∃ p g,
      (runGame params a sM v [y] (insider E enc params y x eph rand)).eval O = .ok (p, g) ∧
      p.accepted E (asHash O) enc params ∧ g.server.getAccumulator = .ok p.accumulator ∧
      p.keys = g.server.getPublicKeys ∧ y ∈ (regRun g.calls).members := by
  have : DecidableEq G1 := Classical.decEq _
  refine ⟨fun _ _ _ _ => trivial, ?_⟩
  intro a sM v O ha hs
  let w : Witness F G1 := ⟨x, (y + a)⁻¹ • (v • params.p1), (y + sM)⁻¹ • (x • params.k1 + params.k0)⟩
  have hadd := add_new (s := Server.new params a sM v) (y := y) (V := v • params.p1)
    (by simp [Server.ids, Server.new]) (by simp [Server.new]) (by exact ha)
  have hw : credVerify E (v • params.p1) ⟨a • params.p2, sM • params.k2⟩ params y w = .ok () := by
    rw [credVerify_iff E params hP hK]
    refine ⟨?_, ?_⟩
    · exact smul_inv_smul₀ ha _
    · exact smul_inv_smul₀ hs _
  have hp := honestProver_eval E enc params ⟨a • params.p2, sM • params.k2⟩ (v • params.p1) eph y w rand hw O
  have hal : allowed (Server.new params a sM v).ids [y] (.add y) = true := by simp [allowed]
  have hrun : (runGame params a sM v [y] (insider E enc params y x eph rand)).eval O = .ok
      ((honestProver E enc params ⟨a • params.p2, sM • params.k2⟩ (v • params.p1) eph y w rand).eval O,
        ⟨{ (Server.new params a sM v) with
          allUsers := setInsert [] y
          allWitnesses := mapInsert [] y ((y + a)⁻¹ • (v • params.p1)) }, leftAfter [] [y] (.add y), [.add y]⟩) := by
    simp only [runGame, insider, startGame, ServerProg.play, hal, if_true, Server.step, hadd]
    rfl
  refine ⟨_, _, hrun, ?_, rfl, rfl, ?_⟩
  · exact (C42_complete E (asHash O) enc w y (v • params.p1) params ⟨a • params.p2, sM • params.k2⟩ eph rand).2 _ hp.symm
  · simp [regRun, regStep, Registry.add, Registry.empty]

end
end Allo
