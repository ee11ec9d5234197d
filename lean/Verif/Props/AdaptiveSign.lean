import Verif.Props.Adaptive

/-!
# C85: credentials cannot be made for ids that were not enrolled, against adversaries that steer the issuer

The counterpart of C84 for the signing key. The adversary calls `add`, `delete`, `quick_delete` and `witness` as it likes,
deciding after every call, and sees everything the server stores except the signing key `s` (so it knows the accumulator
secret). With an enrolment it submits the secret key `x` of the public key `x K₁` (by C72 whoever passes the proof of key
knows it). The ids that can be enrolled come from a list `l` which is fixed in advance. The points `K₀` and `K₁` are
random multiples of a generator.
-/

set_option linter.unusedSectionVars false
set_option linter.unusedVariables false
namespace Allo
open Spec Server Rom

section game
variable {F G1 G2 GT α : Type} [Field F] [DecidableEq F] [AddCommGroup G1] [Module F G1]
  [AddCommGroup G2] [Module F G2] [AddCommGroup GT] [Module F GT]

/-- All fields of a server (src/servers.rs:12-27) except `sign_secret_key`. -/
structure SignView (F G1 G2 : Type) where
  accumulators : List G1
  witnessSecretKey : F
  publicKeys : PublicKeys G2
  allUsers : List F
  allWitnesses : List (F × G1)
  deletions : List F

/-- What the adversary sees of a server. -/
def Server.signView (s : Server F G1 G2) : SignView F G1 G2 :=
  ⟨s.accumulators, s.witnessSecretKey, s.publicKeys, s.allUsers, s.allWitnesses, s.deletions⟩

/-- An adversary: it stops, asks the hash, makes a state-changing call, or enrols `y` with the proof of key `(c, z)` and
the secret key `x`. -/
inductive IssuerProg (F G1 G2 α : Type) where
  | done (a : α)
  | hash (q : Query) (k : F → IssuerProg F G1 G2 α)
  | call (op : Op F) (k : Option G1 → SignView F G1 G2 → IssuerProg F G1 G2 α)
  | enrol (y c z x : F) (k : Option (G1 × G1) → IssuerProg F G1 G2 α)

/-- At most `n` hash queries and enrolments, whatever happens. -/
def IssuerProg.Bound : Nat → IssuerProg F G1 G2 α → Prop
  | _, .done _ => True
  | 0, .hash _ _ => False
  | n + 1, .hash _ k => ∀ r, Bound n (k r)
  | n, .call _ k => ∀ r v, Bound n (k r v)
  | 0, .enrol _ _ _ _ _ => False
  | n + 1, .enrol _ _ _ _ k => ∀ r, Bound n (k r)

/-- State of the game: the server and the ids enrolled so far. -/
structure IssuerGame (F G1 G2 : Type) where
  server : Server F G1 G2
  enrolled : List F

/-- The query `Server::witness` makes (src/servers.rs:131-142). -/
def issueQuery (enc : Enc G1 G2 GT) (params : AccParams G1 G2) (c z : F) (pk : G1) : Query :=
  (⟨"user_signature_proof", [("user_pub_key", enc.g1 pk), ("commitment", enc.g1 (z • params.k1 + c • pk))]⟩, "challenge")

/-- The game. Enrolments of ids that are not in `l` are refused. -/
def IssuerProg.play (enc : Enc G1 G2 GT) (params : AccParams G1 G2) (l : List F) :
    IssuerProg F G1 G2 α → IssuerGame F G1 G2 → OracleProg Query F (Rust (α × IssuerGame F G1 G2))
  | .done a, g => .done (.ok (a, g))
  | .hash q k, g => .ask q (fun r => (k r).play enc params l g)
  | .call op k, g =>
    match g.server.step op with
    | .error e => .done (.error e)
    | .ok (s', r) => (k r s'.signView).play enc params l ⟨s', g.enrolled⟩
  | .enrol y c z x k, g =>
    if y ∈ l then
      .ask (issueQuery enc params c z (x • params.k1)) (fun r =>
        match g.server.witness (fun _ _ => r) enc params y c z (x • params.k1) with
        | .error e => .done (.error e)
        | .ok none => (k none).play enc params l g
        | .ok (some o) => (k (some o)).play enc params l ⟨g.server, g.enrolled ++ [y]⟩)
    else (k none).play enc params l g

/-- `Server::witness` asks exactly this query, so the answer may be looked up first. -/
theorem witness_query (O : Query → F) (enc : Enc G1 G2 GT) (params : AccParams G1 G2) (s : Server F G1 G2)
    (y c z : F) (pk : G1) :
    s.witness (fun _ _ => O (issueQuery enc params c z pk)) enc params y c z pk
      = s.witness (asHash O) enc params y c z pk := rfl

/-- Parameters with other `K₁` and `K₀`. -/
def AccParams.withK (params : AccParams G1 G2) (k1 k0 : G1) : AccParams G1 G2 := { params with k1 := k1, k0 := k0 }

/-- The game from the start. -/
def runIssuer (enc : Enc G1 G2 GT) (params : AccParams G1 G2) (alpha sM v : F) (l : List F)
    (adv : AccParams G1 G2 → SignView F G1 G2 → IssuerProg F G1 G2 α) :
    OracleProg Query F (Rust (α × IssuerGame F G1 G2)) :=
  let s := Server.new params alpha sM v
  (adv params s.signView).play enc params l ⟨s, []⟩

/-! ### The simulator -/

/-- The answer to an enrolment, without the signing key: `K₁ = aX`, `K₀ = bX`. -/
def simEnrol (pts : List G1) (a b : F) (l : List F) (m : Server F G1 G2) (y c x r : F) : Option (G1 × G1) :=
  if r = c then
    (mapGet m.allWitnesses y).map (fun C => (C, (x * a + b) • comb pts (coeffs (l.erase y))))
  else none

/-- The adversary against the simulator; the field `signSecretKey` of its server is never used. -/
def IssuerProg.simulate (enc : Enc G1 G2 GT) (params : AccParams G1 G2) (pts : List G1) (a b : F) (l : List F) :
    IssuerProg F G1 G2 α → IssuerGame F G1 G2 → OracleProg Query F (Rust (α × IssuerGame F G1 G2))
  | .done o, m => .done (.ok (o, m))
  | .hash q k, m => .ask q (fun r => (k r).simulate enc params pts a b l m)
  | .call op k, m =>
    match m.server.step op with
    | .error e => .done (.error e)
    | .ok (s', r) => (k r s'.signView).simulate enc params pts a b l ⟨s', m.enrolled⟩
  | .enrol y c z x k, m =>
    if y ∈ l then
      .ask (issueQuery enc params c z (x • params.k1)) (fun r =>
        match simEnrol pts a b l m.server y c x r with
        | none => (k none).simulate enc params pts a b l m
        | some o => (k (some o)).simulate enc params pts a b l ⟨m.server, m.enrolled ++ [y]⟩)
    else (k none).simulate enc params pts a b l m

/-- The parameters of the simulation. -/
def simParams (params : AccParams G1 G2) (pts : List G1) (a b : F) (l : List F) : AccParams G1 G2 :=
  params.withK (a • comb pts (coeffs l)) (b • comb pts (coeffs l))

/-- The simulation from the start: it is given the points `pts` and `key = s K₂`; `α` and `v` it chooses itself. -/
def runIssuerSim (enc : Enc G1 G2 GT) (params : AccParams G1 G2) (pts : List G1) (key : G2) (alpha v : F) (l : List F)
    (a b : F) (adv : AccParams G1 G2 → SignView F G1 G2 → IssuerProg F G1 G2 α) :
    OracleProg Query F (Rust (α × IssuerGame F G1 G2)) :=
  let P := simParams params pts a b l
  let s : Server F G1 G2 := { Server.new P alpha 0 v with publicKeys := ⟨alpha • P.p2, key⟩ }
  (adv P s.signView).simulate enc P pts a b l ⟨s, []⟩

/-- The candidate for `(y+s)⁻¹ B`, from a credential for `y`. -/
def signCandidate (pts : List G1) (a b : F) (l : List F) (y : F) (w : Witness F G1) : G1 :=
  (prodMinus y l)⁻¹ • ((w.secretKey * a + b)⁻¹ • w.signature - comb pts (quotient y l))

/-! ### Lemmas -/

/-- replacing the signing key -/
def Server.withSign (s : Server F G1 G2) (sM : F) : Server F G1 G2 := { s with signSecretKey := sM }

/-- No state-changing call uses the signing key. -/
theorem step_withSign (s : Server F G1 G2) (sM : F) (op : Op F) :
    (s.withSign sM).step op = (s.step op).map (fun p => (p.1.withSign sM, p.2)) := by
  cases op with
  | add y =>
    by_cases hc : mapContains s.allWitnesses y = true
    · simp [Server.step, Server.add, Server.withSign, hc, Except.map, pure, Except.pure]
    · simp only [Server.step, Server.add, Server.withSign, hc, if_false]
      cases h : s.accumulators.getLast? with
      | none => simp [unwrap, bind, Except.bind, Except.map]
      | some V =>
        cases hi : inv! (y + s.witnessSecretKey) <;>
          simp [unwrap, bind, Except.bind, Except.map, pure, Except.pure]
  | delete y =>
    cases hg : mapGet s.allWitnesses y with
    | none =>
      simp [Server.step, Server.delete, Server.withSign, hg, Except.map, pure, Except.pure]
    | some C =>
      have h1 := delete_member (s := s) hg
      have h2 := delete_member (s := s.withSign sM) hg
      simp only [Server.step]
      rw [h1, h2]
      rfl
  | quickDelete y =>
    by_cases hc : mapContains s.allWitnesses y = true
    · simp only [Server.step, Server.quickDelete, Server.withSign, hc, Bool.not_true, if_false]
      cases h : s.accumulators.getLast? with
      | none => simp [unwrap, bind, Except.bind, Except.map]
      | some V =>
        cases hi : inv! (y + s.witnessSecretKey) <;>
          simp [unwrap, bind, Except.bind, Except.map, pure, Except.pure]
    · simp [Server.step, Server.quickDelete, Server.withSign, hc, Except.map, pure, Except.pure]

theorem simEnrol_eq (enc : Enc G1 G2 GT) (params : AccParams G1 G2) (B : G1) (sM a b : F) (l : List F)
    (hl : ∀ y ∈ l, y + sM ≠ 0) (m : Server F G1 G2) (y c z x r : F) (hy : y ∈ l) :
    (m.withSign sM).witness (fun _ _ => r) enc (simParams params (powers sM B l.length) a b l) y c z
        (x • (simParams params (powers sM B l.length) a b l).k1)
      = .ok (simEnrol (powers sM B l.length) a b l m y c x r) := by
  have hX : comb (powers sM B l.length) (coeffs l) = (y + sM) • comb (powers sM B l.length) (coeffs (l.erase y)) := by
    rw [comb_powers _ _ _ _ (by rw [coeffs_length]), coeffs_val,
      comb_powers _ _ _ _ (by rw [coeffs_length]; have := List.length_erase_le (a := y) (l := l); omega), coeffs_val,
      prodPlus_erase sM l y hy, mul_smul]
  obtain ⟨h1, h2, h3⟩ := C21_witness (fun _ _ => r) enc (simParams params (powers sM B l.length) a b l)
    (m.withSign sM) y c z (x • (simParams params (powers sM B l.length) a b l).k1)
  unfold simEnrol
  by_cases hm : y ∈ (m.withSign sM).ids
  swap
  · have e : mapGet m.allWitnesses y = none := mapGet_none.2 hm
    rw [h1 hm, e]; split <;> rfl
  by_cases hc : r = c
  swap
  · rw [h2 hc, if_neg hc]
  obtain ⟨C, R, e1, e2, e3⟩ := (h3 hm hc).1 (hl y hy)
  rw [e1, if_pos hc]
  have e2 : mapGet m.allWitnesses y = some C := e2
  rw [e2]
  simp only [Option.map_some, Except.ok.injEq, Option.some.injEq, Prod.mk.injEq, true_and]
  refine smul_right_injective G1 (hl y hy) ?_
  refine e3.trans ?_
  simp only [simParams, AccParams.withK]
  rw [smul_smul, ← add_smul, hX, smul_comm]

theorem issuer_play (O : Query → F) (enc : Enc G1 G2 GT) (params : AccParams G1 G2) (B : G1) (sM a b : F) (l : List F)
    (hl : ∀ y ∈ l, y + sM ≠ 0) :
    ∀ (adv : IssuerProg F G1 G2 α) (m : IssuerGame F G1 G2),
      (adv.play enc (simParams params (powers sM B l.length) a b l) l ⟨m.server.withSign sM, m.enrolled⟩).eval O
        = ((adv.simulate enc (simParams params (powers sM B l.length) a b l) (powers sM B l.length) a b l m).eval O).map
          (fun o => (o.1, ⟨o.2.server.withSign sM, o.2.enrolled⟩))
  | .done o, m => rfl
  | .hash q k, m => issuer_play O enc params B sM a b l hl (k (O q)) m
  | .call op k, m => by
    rw [IssuerProg.play, IssuerProg.simulate]
    simp only [step_withSign]
    cases h : m.server.step op with
    | error e => rfl
    | ok p =>
      obtain ⟨s', r⟩ := p
      exact issuer_play O enc params B sM a b l hl (k r s'.signView) ⟨s', m.enrolled⟩
  | .enrol y c z x k, m => by
    rw [IssuerProg.play, IssuerProg.simulate]
    by_cases hy : y ∈ l
    · simp only [if_pos hy, OracleProg.eval]
      simp only [simEnrol_eq enc params B sM a b l hl m.server y c z x _ hy]
      cases simEnrol (powers sM B l.length) a b l m.server y c x
        (O (issueQuery enc (simParams params (powers sM B l.length) a b l) c z
          (x • (simParams params (powers sM B l.length) a b l).k1))) with
      | none => exact issuer_play O enc params B sM a b l hl (k none) m
      | some o => exact issuer_play O enc params B sM a b l hl (k (some o)) ⟨m.server, m.enrolled ++ [y]⟩
    · simp only [if_neg hy]
      exact issuer_play O enc params B sM a b l hl (k none) m

/-- The parameters of the game: `K₁ = κ₁ B`, `K₀ = κ₀ B`. -/
theorem simParams_eq (params : AccParams G1 G2) (B : G1) (sM a b : F) (l : List F) :
    simParams params (powers sM B l.length) a b l
      = params.withK ((a * prodPlus sM l) • B) ((b * prodPlus sM l) • B) := by
  unfold simParams
  rw [comb_powers _ _ _ _ (by rw [coeffs_length]), coeffs_val, smul_smul, smul_smul]

/-- If `y` is never enrolled it does not matter whether it could have been. -/
theorem issuer_without (O : Query → F) (enc : Enc G1 G2 GT) (params : AccParams G1 G2) (l : List F) (y₀ : F) :
    ∀ (adv : IssuerProg F G1 G2 α) (g : IssuerGame F G1 G2) x g',
      (adv.play enc params l g).eval O = .ok (x, g') → y₀ ∉ g'.enrolled →
      (adv.play enc params (l.filter (· ≠ y₀)) g).eval O = .ok (x, g')
  | .done o, g, x, g', e, hn => e
  | .hash q k, g, x, g', e, hn => issuer_without O enc params l y₀ (k (O q)) g x g' e hn
  | .call op k, g, x, g', e, hn => by
    rw [IssuerProg.play] at e ⊢
    split at e
    · simp [OracleProg.eval] at e
    · next s' r hs => exact issuer_without O enc params l y₀ (k r s'.signView) _ x g' e hn
  | .enrol y c z x k, g, o, g', e, hn => by
    rw [IssuerProg.play] at e ⊢
    have mono : ∀ (adv : IssuerProg F G1 G2 α) (g : IssuerGame F G1 G2) x g',
        (adv.play enc params l g).eval O = .ok (x, g') → g.enrolled ⊆ g'.enrolled := by
      intro adv
      induction adv with
      | done o =>
        intro g x g' e
        simp only [IssuerProg.play, OracleProg.eval, Except.ok.injEq, Prod.mk.injEq] at e
        rw [e.2]; exact fun _ h => h
      | hash q k ih => intro g x g' e; exact ih _ g x g' e
      | call op k ih =>
        intro g x g' e
        rw [IssuerProg.play] at e
        split at e
        · simp [OracleProg.eval] at e
        · next s' r hs => exact ih r s'.signView ⟨s', g.enrolled⟩ x g' e
      | enrol y c z x k ih =>
        intro g o g' e
        rw [IssuerProg.play] at e
        split at e
        · rw [OracleProg.eval] at e
          split at e
          · simp [OracleProg.eval] at e
          · exact ih _ g o g' e
          · exact fun a ha => ih _ _ o g' e (List.mem_append.2 (.inl ha))
        · exact ih _ g o g' e
    by_cases hy : y ∈ l
    · rw [if_pos hy, OracleProg.eval] at e
      by_cases h0 : y = y₀
      · rw [if_neg (by simp [h0])]
        split at e
        · simp [OracleProg.eval] at e
        · exact issuer_without O enc params l y₀ (k none) g o g' e hn
        · exact absurd (mono _ _ _ _ e (List.mem_append.2 (.inr (by simp [h0])))) hn
      · rw [if_pos (by simp [hy, h0]), OracleProg.eval]
        split at e
        · simp [OracleProg.eval] at e
        · next h =>
          exact issuer_without O enc params l y₀ (k none) g o g' e hn
        · next r h =>
          exact issuer_without O enc params l y₀ (k (some r)) _ o g' e hn
    · rw [if_neg hy] at e
      rw [if_neg (by simp [hy])]
      exact issuer_without O enc params l y₀ (k none) g o g' e hn

/-! ## C85 -/

/-- **C85** (simulation). Let the signing key `s` be the negative of no id in `l`. Then the adversary in the game (with the
signing key `s` and `K₁ = a∏(y+s) B`, `K₀ = b∏(y+s) B`) and against the simulator (which is given `B, sB, …, s^q B` and `sK₂`
but not `s`) ends in the same way: the same panic, or the same output, the same enrolled ids and the same
server up to the signing key. -/
theorem C85_simulation (enc : Enc G1 G2 GT) (params : AccParams G1 G2) (B : G1) (alpha sM v a b : F) (l : List F)
    (hl : ∀ y ∈ l, y + sM ≠ 0) (adv : AccParams G1 G2 → SignView F G1 G2 → IssuerProg F G1 G2 α) (O : Query → F) :
    (runIssuer enc (params.withK ((a * prodPlus sM l) • B) ((b * prodPlus sM l) • B)) alpha sM v l adv).eval O
      = ((runIssuerSim enc params (powers sM B l.length) (sM • params.k2) alpha v l a b adv).eval O).map
        (fun o => (o.1, ⟨{ o.2.server with signSecretKey := sM }, o.2.enrolled⟩)) := by
  rw [← simParams_eq]
  unfold runIssuer runIssuerSim
  let P := simParams params (powers sM B l.length) a b l
  let s : Server F G1 G2 := { Server.new P alpha 0 v with publicKeys := ⟨alpha • P.p2, sM • params.k2⟩ }
  exact issuer_play O enc params B sM a b l hl (adv P s.signView) ⟨s, []⟩

variable [DecidableEq GT]

/-- The adversary has made a credential for an id that cannot be enrolled, accepted by `Witness::verify` for some
accumulator and the issuer's signing key. -/
def SignForged (E : Pairing F G1 G2 GT) (params : AccParams G1 G2) (g : IssuerGame F G1 G2) (l : List F) (y : F)
    (w : Witness F G1) : Prop :=
  y ∉ l ∧ ∃ V, credVerify E V g.server.getPublicKeys params y w = .ok ()

/-- the keys never change -/
theorem issuer_keys (O : Query → F) (enc : Enc G1 G2 GT) (params : AccParams G1 G2) (l : List F) (K : PublicKeys G2) :
    ∀ (adv : IssuerProg F G1 G2 α) (g : IssuerGame F G1 G2), g.server.publicKeys = K →
      ∀ x g', (adv.play enc params l g).eval O = .ok (x, g') → g'.server.publicKeys = K
  | .done o, g, h, x, g', e => by
    simp only [IssuerProg.play, OracleProg.eval, Except.ok.injEq, Prod.mk.injEq] at e
    rw [← e.2]; exact h
  | .hash q k, g, h, x, g', e => issuer_keys O enc params l K (k (O q)) g h x g' e
  | .call op k, g, h, x, g', e => by
    rw [IssuerProg.play] at e
    split at e
    · simp [OracleProg.eval] at e
    · next s' r hs =>
      refine issuer_keys O enc params l K (k r s'.signView) ⟨s', g.enrolled⟩ ?_ x g' e
      rcases step_cases hs with ⟨rfl, -, -⟩ | ⟨y, V, rfl, hy, hV, h0, -, rfl⟩ | ⟨y, C, rfl, hC, -, rfl⟩ |
        ⟨y, V, rfl, hy, hV, h0, -, rfl⟩ <;> exact h
  | .enrol y c z x k, g, h, o, g', e => by
    rw [IssuerProg.play] at e
    split at e
    · rw [OracleProg.eval] at e
      split at e
      · simp [OracleProg.eval] at e
      · exact issuer_keys O enc params l K (k none) g h o g' e
      · exact issuer_keys O enc params l K (k _) ⟨g.server, g.enrolled ++ [y]⟩ h o g' e
    · exact issuer_keys O enc params l K (k none) g h o g' e

/-- an accepted credential for an id that is not in `l` gives a solution -/
theorem sign_solve (E : Pairing F G1 G2 GT) (params : AccParams G1 G2) (hP : params.p2 ≠ 0)
    (hK : params.k2 ≠ 0) (B V : G1) (alpha sM a b : F) (l : List F) (y : F) (hy : y ∉ l) (w : Witness F G1)
    (hw : credVerify E V ⟨alpha • params.p2, sM • params.k2⟩ (simParams params (powers sM B l.length) a b l) y w = .ok ())
    (h0 : w.secretKey * a + b ≠ 0) :
    (y + sM) • signCandidate (powers sM B l.length) a b l y w = B := by
  have : DecidableEq G1 := Classical.decEq _
  have hw := ((credVerify_iff E (simParams params (powers sM B l.length) a b l) hP hK alpha sM V y w).1 hw).2
  have hX : comb (powers sM B l.length) (coeffs l) = prodPlus sM l • B := by
    rw [comb_powers _ _ _ _ (by rw [coeffs_length]), coeffs_val]
  simp only [simParams, AccParams.withK, hX] at hw
  rw [smul_smul, ← add_smul] at hw
  rw [signCandidate, smul_comm, smul_sub, smul_comm (y + sM), hw, inv_smul_smul₀ h0,
    comb_powers _ _ _ _ (by have := quotient_length y l; omega), smul_smul (y + sM), ← sub_smul,
    quotient_val sM y, smul_smul, add_sub_cancel_left, inv_mul_cancel₀ (prodMinus_ne_zero' hy), one_smul]

/-- **C85** (every forgery is a solution). If the adversary in the game ends with a forged credential, then the simulation
ends with the same credential, from which the reduction computes `(y+s)⁻¹ B`, or the discrete logarithm of `K₀` to the
base `K₁`. -/
theorem C85_forgery (E : Pairing F G1 G2 GT) (enc : Enc G1 G2 GT) (params : AccParams G1 G2) (hP : params.p2 ≠ 0)
    (hK : params.k2 ≠ 0) (B : G1) (alpha sM v a b : F) (l : List F) (hl : ∀ y ∈ l, y + sM ≠ 0)
    (adv : AccParams G1 G2 → SignView F G1 G2 → IssuerProg F G1 G2 (F × Witness F G1)) (O : Query → F) (y : F)
    (w : Witness F G1) (g : IssuerGame F G1 G2)
    (h : (runIssuer enc (params.withK ((a * prodPlus sM l) • B) ((b * prodPlus sM l) • B)) alpha sM v l adv).eval O
      = .ok ((y, w), g))
    (hf : SignForged E (params.withK ((a * prodPlus sM l) • B) ((b * prodPlus sM l) • B)) g l y w) :
    let pts := powers sM B l.length
    ∃ m, (runIssuerSim enc params pts (sM • params.k2) alpha v l a b adv).eval O = .ok ((y, w), m) ∧
      ((y + sM) • signCandidate pts a b l y w = B ∨
        (simParams params pts a b l).k0 = (-w.secretKey) • (simParams params pts a b l).k1) := by
  have hk := issuer_keys O enc _ l _ _ _ rfl _ _ h
  have hs := C85_simulation enc params B alpha sM v a b l hl adv O
  rw [h] at hs
  cases hm : (runIssuerSim enc params (powers sM B l.length) (sM • params.k2) alpha v l a b adv).eval O with
  | error e => rw [hm] at hs; simp [Except.map] at hs
  | ok o =>
    rw [hm] at hs
    obtain ⟨x, m⟩ := o
    simp only [Except.map, Except.ok.injEq, Prod.mk.injEq] at hs
    obtain ⟨rfl, -⟩ := hs
    refine ⟨m, hm, ?_⟩
    obtain ⟨hy, V, hw⟩ := hf
    rw [getPublicKeys, hk, ← simParams_eq] at hw
    by_cases h0 : w.secretKey * a + b = 0
    · right
      simp only [simParams, AccParams.withK]
      rw [smul_smul, ← show b = -w.secretKey * a by linear_combination h0]
    · left
      exact sign_solve E params hP hK B V alpha sM a b l y hy w hw h0

end game

section prob
variable {F G1 G2 GT : Type} [Field F] [DecidableEq F] [Fintype F] [AddCommGroup G1] [Module F G1]
  [AddCommGroup G2] [Module F G2] [AddCommGroup GT] [Module F GT] [DecidableEq GT]
variable {Ω : Type} [Fintype Ω] [Nonempty Ω]

/-- the change of variables `κ = a ∏ (y + s)` for both points -/
theorem prob_issuer {Y : Type} [Fintype Y] [Nonempty Y] (l : List F) {P P' : (Ω × F × F × F) × Y → Prop}
    (h : ∀ ω s a b y, prodPlus s l ≠ 0 → P ((ω, s, a * prodPlus s l, b * prodPlus s l), y) → P' ((ω, s, a, b), y)) :
    prob P - (l.length : ℚ) / Nat.card F ≤ prob P' := by
  have h1 := prob_change (P := P) (P' := P') (Bad := fun x => prodPlus x.1.2.1 l = 0)
    (fun x => ((x.1.1, x.1.2.1, x.1.2.2.1 / prodPlus x.1.2.1 l, x.1.2.2.2 / prodPlus x.1.2.1 l), x.2)) ?_ ?_
  · rw [prob_fst (Y := Y) (fun x : Ω × F × F × F => prodPlus x.2.1 l = 0),
      prob_snd (X := Ω) (fun x : F × F × F => prodPlus x.1 l = 0), prob_fst (Y := F × F) (fun s : F => prodPlus s l = 0)] at h1
    have := prob_zero_le l
    linarith
  · rintro ⟨⟨ω, s, a, b⟩, y⟩ ⟨⟨ω', s', a', b'⟩, y'⟩ hb hb' e
    simp only [Prod.mk.injEq] at hb hb' e ⊢
    obtain ⟨⟨rfl, rfl, e1, e2⟩, rfl⟩ := e
    refine ⟨⟨rfl, rfl, ?_, ?_⟩, rfl⟩
    · field_simp [hb] at e1; exact e1
    · field_simp [hb] at e2; exact e2
  · rintro ⟨⟨ω, s, a, b⟩, y⟩ hP hb
    refine h ω s _ _ y hb ?_
    rw [div_mul_cancel₀ _ hb, div_mul_cancel₀ _ hb]
    exact hP

/-- **C85** (credentials). `s` is random, `K₁` and `K₀` are random multiples of a point `B`. The probability that an adversary
which steers the issuer, and knows everything but `s`, ends with a forged credential, is at most the probability that
the reduction, given `B, sB, …, s^q B` and `sK₂` only, solves the SDH problem or finds the discrete logarithm of `K₀` to the
base `K₁`, plus `q/|F|`. -/
theorem C85_credential (E : Pairing F G1 G2 GT) (enc : Enc G1 G2 GT) (params : AccParams G1 G2)
    (hP : params.p2 ≠ 0) (hK : params.k2 ≠ 0) (B : G1) (hB : B ≠ 0) (alpha v : F) (l : List F)
    (adv : Ω → AccParams G1 G2 → SignView F G1 G2 → IssuerProg F G1 G2 (F × Witness F G1)) (O : Query → F) :
    prob (fun x : Ω × F × F × F =>
        let P := params.withK (x.2.2.1 • B) (x.2.2.2 • B)
        ∃ y w g, (runIssuer enc P alpha x.2.1 v l (adv x.1)).eval O = .ok ((y, w), g) ∧ SignForged E P g l y w)
      ≤ prob (fun x : Ω × F × F × F =>
          let pts := powers x.2.1 B l.length
          let P := simParams params pts x.2.2.1 x.2.2.2 l
          ∃ y w m, (runIssuerSim enc params pts (x.2.1 • params.k2) alpha v l x.2.2.1 x.2.2.2 (adv x.1)).eval O
              = .ok ((y, w), m) ∧
            (SolvesSdh x.2.1 B y (signCandidate pts x.2.2.1 x.2.2.2 l y w) ∨ P.k0 = (-w.secretKey) • P.k1))
        + (l.length : ℚ) / Nat.card F := by
  have h := prob_issuer (Ω := Ω) (Y := Unit) l
    (P := fun x =>
        let P := params.withK (x.1.2.2.1 • B) (x.1.2.2.2 • B)
        ∃ y w g, (runIssuer enc P alpha x.1.2.1 v l (adv x.1.1)).eval O = .ok ((y, w), g) ∧ SignForged E P g l y w)
    (P' := fun x =>
          let pts := powers x.1.2.1 B l.length
          let P := simParams params pts x.1.2.2.1 x.1.2.2.2 l
          ∃ y w m, (runIssuerSim enc params pts (x.1.2.1 • params.k2) alpha v l x.1.2.2.1 x.1.2.2.2 (adv x.1.1)).eval O
              = .ok ((y, w), m) ∧
            (SolvesSdh x.1.2.1 B y (signCandidate pts x.1.2.2.1 x.1.2.2.2 l y w) ∨ P.k0 = (-w.secretKey) • P.k1)) ?_
  · rw [prob_fst (Y := Unit) (fun x : Ω × F × F × F =>
        let P := params.withK (x.2.2.1 • B) (x.2.2.2 • B)
        ∃ y w g, (runIssuer enc P alpha x.2.1 v l (adv x.1)).eval O = .ok ((y, w), g) ∧ SignForged E P g l y w),
      prob_fst (Y := Unit) (fun x : Ω × F × F × F =>
          let pts := powers x.2.1 B l.length
          let P := simParams params pts x.2.2.1 x.2.2.2 l
          ∃ y w m, (runIssuerSim enc params pts (x.2.1 • params.k2) alpha v l x.2.2.1 x.2.2.2 (adv x.1)).eval O
              = .ok ((y, w), m) ∧
            (SolvesSdh x.2.1 B y (signCandidate pts x.2.2.1 x.2.2.2 l y w) ∨ P.k0 = (-w.secretKey) • P.k1))] at h
    linarith
  · rintro ω s a b _ hl ⟨y, w, g, hg, hf⟩
    obtain ⟨m, hm, hs⟩ := C85_forgery E enc params hP hK B alpha s v a b l (not_neg_mem hl) (adv ω) O y w g hg hf
    exact ⟨y, w, m, hm, hs.imp (fun e => ⟨hB, e⟩) id⟩

/-- **C85** (ids that were not enrolled). An accepted credential for an id `y₀` that was not enrolled, although it could
have been, is not easier to make: then the simulator is run without `y₀` among the ids. -/
theorem C85_not_enrolled (E : Pairing F G1 G2 GT) (enc : Enc G1 G2 GT) (params : AccParams G1 G2)
    (hP : params.p2 ≠ 0) (hK : params.k2 ≠ 0) (B : G1) (hB : B ≠ 0) (alpha v : F) (l : List F) (y₀ : F)
    (adv : Ω → AccParams G1 G2 → SignView F G1 G2 → IssuerProg F G1 G2 (F × Witness F G1)) (O : Query → F) :
    let l' := l.filter (· ≠ y₀)
    prob (fun x : Ω × F × F × F =>
        let P := params.withK (x.2.2.1 • B) (x.2.2.2 • B)
        ∃ w g V, (runIssuer enc P alpha x.2.1 v l (adv x.1)).eval O = .ok ((y₀, w), g) ∧ y₀ ∉ g.enrolled ∧
          credVerify E V g.server.getPublicKeys P y₀ w = .ok ())
      ≤ prob (fun x : Ω × F × F × F =>
          let pts := powers x.2.1 B l'.length
          let P := simParams params pts x.2.2.1 x.2.2.2 l'
          ∃ y w m, (runIssuerSim enc params pts (x.2.1 • params.k2) alpha v l' x.2.2.1 x.2.2.2 (adv x.1)).eval O
              = .ok ((y, w), m) ∧
            (SolvesSdh x.2.1 B y (signCandidate pts x.2.2.1 x.2.2.2 l' y w) ∨ P.k0 = (-w.secretKey) • P.k1))
        + (l'.length : ℚ) / Nat.card F := by
  intro l'
  refine le_trans (prob_mono ?_) (C85_credential E enc params hP hK B hB alpha v l' adv O)
  rintro ⟨ω, s, a, b⟩ ⟨w, g, V, hg, hn, hw⟩
  exact ⟨y₀, w, g, issuer_without O enc _ l y₀ _ _ _ _ hg hn, by simp [l'], V, hw⟩

/-- The solver of the discrete logarithm problem: given the points `K₁` and `K₀` only, it runs the issuer itself, with a
signing key of its own, and reads the logarithm off the adversary's credential. -/
def keyLog (enc : Enc G1 G2 GT) (params : AccParams G1 G2) (alpha s v : F) (l : List F)
    (adv : AccParams G1 G2 → SignView F G1 G2 → IssuerProg F G1 G2 (F × Witness F G1)) (O : Query → F) (K1 K0 : G1) : F :=
  match (runIssuer enc (params.withK K1 K0) alpha s v l adv).eval O with
  | .ok ((_, w), _) => -w.secretKey
  | .error _ => 0

/-- **C85** (two hard problems). The probability of a forged credential is at most the sum of the probabilities that the
reduction of `C85_credential` solves the SDH problem (given `B, sB, …, s^q B` and `sK₂` only), and that the solver `keyLog`
finds the discrete logarithm of one random point to the base of another (given these two points only), and of `q/|F|`. -/
theorem C85_two_problems (E : Pairing F G1 G2 GT) (enc : Enc G1 G2 GT) (params : AccParams G1 G2)
    (hP : params.p2 ≠ 0) (hK : params.k2 ≠ 0) (B : G1) (hB : B ≠ 0) (alpha v : F) (l : List F)
    (adv : Ω → AccParams G1 G2 → SignView F G1 G2 → IssuerProg F G1 G2 (F × Witness F G1)) (O : Query → F) :
    prob (fun x : Ω × F × F × F =>
        let P := params.withK (x.2.2.1 • B) (x.2.2.2 • B)
        ∃ y w g, (runIssuer enc P alpha x.2.1 v l (adv x.1)).eval O = .ok ((y, w), g) ∧ SignForged E P g l y w)
      ≤ prob (fun x : Ω × F × F × F =>
          let pts := powers x.2.1 B l.length
          ∃ y w m, (runIssuerSim enc params pts (x.2.1 • params.k2) alpha v l x.2.2.1 x.2.2.2 (adv x.1)).eval O
              = .ok ((y, w), m) ∧
            SolvesSdh x.2.1 B y (signCandidate pts x.2.2.1 x.2.2.2 l y w))
        + prob (fun x : Ω × F × F × F =>
          let K1 := x.2.2.1 • B
          let K0 := x.2.2.2 • B
          K0 = keyLog enc params alpha x.2.1 v l (adv x.1) O K1 K0 • K1)
        + (l.length : ℚ) / Nat.card F := by
  let A : Ω × F × F × F → Prop := fun x =>
    let P := params.withK (x.2.2.1 • B) (x.2.2.2 • B)
    ∃ y w g, (runIssuer enc P alpha x.2.1 v l (adv x.1)).eval O = .ok ((y, w), g) ∧ SignForged E P g l y w
  let D : Ω × F × F × F → Prop := fun x => x.2.2.2 • B
    = keyLog enc params alpha x.2.1 v l (adv x.1) O (x.2.2.1 • B) (x.2.2.2 • B) • x.2.2.1 • B
  let R : Ω × F × F × F → Prop := fun x =>
    let pts := powers x.2.1 B l.length
    ∃ y w m, (runIssuerSim enc params pts (x.2.1 • params.k2) alpha v l x.2.2.1 x.2.2.2 (adv x.1)).eval O
        = .ok ((y, w), m) ∧ SolvesSdh x.2.1 B y (signCandidate pts x.2.2.1 x.2.2.2 l y w)
  show prob A ≤ prob R + prob D + (l.length : ℚ) / Nat.card F
  have h := prob_issuer (Ω := Ω) (Y := Unit) l (P := fun x => A x.1 ∧ ¬ D x.1) (P' := fun x => R x.1) ?_
  · rw [prob_fst (Y := Unit) (fun x : Ω × F × F × F => A x ∧ ¬ D x), prob_fst (Y := Unit) R] at h
    have h2 : prob A ≤ prob (fun x => A x ∧ ¬ D x) + prob D :=
      prob_le_add (fun x hx => by by_cases hd : D x; exacts [.inr hd, .inl ⟨hx, hd⟩])
    linarith
  · rintro ω s a b _ hl ⟨⟨y, w, g, hg, hf⟩, hd⟩
    obtain ⟨m, hm, hs⟩ := C85_forgery E enc params hP hK B alpha s v a b l (not_neg_mem hl) (adv ω) O y w g hg hf
    refine ⟨y, w, m, hm, ?_⟩
    rcases hs with hs | hs
    · exact ⟨hB, hs⟩
    · exfalso
      apply hd
      have e : keyLog enc params alpha s v l (adv ω) O ((a * prodPlus s l) • B) ((b * prodPlus s l) • B) = -w.secretKey := by
        unfold keyLog
        rw [hg]
      show (b * prodPlus s l) • B = keyLog enc params alpha s v l (adv ω) O ((a * prodPlus s l) • B) ((b * prodPlus s l) • B)
        • (a * prodPlus s l) • B
      rw [e]
      rw [simParams_eq] at hs
      exact hs

/-- The query that counts for the output of the adversary (an arbitrary one if a call panicked). -/
def outQuery (E : Pairing F G1 G2 GT) (enc : Enc G1 G2 GT) (P : AccParams G1 G2) :
    Rust (Presentation F G1 G2 × IssuerGame F G1 G2) → Query
  | .ok o => o.1.query E enc P
  | .error _ => (⟨"", []⟩, "")

theorem issuer_bound {α : Type} (enc : Enc G1 G2 GT) (params : AccParams G1 G2) (pts : List G1) (a b : F) (l : List F)
    (p : IssuerProg F G1 G2 α) :
    ∀ (n : Nat) (m : IssuerGame F G1 G2), p.Bound n → (p.simulate enc params pts a b l m).QueryBound n := by
  induction p with
  | done o => intro n m _; cases n <;> trivial
  | hash q k ih =>
    intro n m h
    cases n with
    | zero => exact absurd h id
    | succ n => exact fun r => ih r n m (h r)
  | call op k ih =>
    intro n m h
    have h : ∀ r v, (k r v).Bound n := by cases n <;> exact h
    rw [IssuerProg.simulate]
    split
    · cases n <;> trivial
    · exact ih _ _ n _ (h _ _)
  | enrol y c z x k ih =>
    intro n m h
    cases n with
    | zero => exact absurd h id
    | succ n =>
      have h : ∀ r, (k r).Bound n := h
      rw [IssuerProg.simulate]
      split
      · intro r
        beta_reduce
        cases simEnrol pts a b l m.server y c x r with
        | none => exact ih _ n _ (h _)
        | some o => exact ih _ n _ (h _)
      · have up : ∀ (n : Nat) (p : OracleProg Query F (Rust (α × IssuerGame F G1 G2))),
            p.QueryBound n → p.QueryBound (n + 1) := by
          intro n
          induction n with
          | zero => rintro (o | ⟨q, k⟩) h; exacts [trivial, absurd h id]
          | succ n ih => rintro (o | ⟨q, k⟩) h; exacts [trivial, fun r => ih _ (h r)]
        exact up n _ (ih _ n _ (h _))

/-- **C85** (the set of queries): a finite set of queries as used in `C85_presentation` exists. -/
theorem C85_query_set (E : Pairing F G1 G2 GT) (enc : Enc G1 G2 GT) (params : AccParams G1 G2) (B : G1) (alpha v : F)
    (l : List F) (adv : Ω → AccParams G1 G2 → SignView F G1 G2 → IssuerProg F G1 G2 (Presentation F G1 G2)) (n : Nat)
    (hn : ∀ ω P v, (adv ω P v).Bound n) :
    ∃ S : Finset Query, ∀ ω (s a b : F) (H : S → F),
      outQuery E enc (simParams params (powers s B l.length) a b l)
        ((runIssuerSim enc params (powers s B l.length) (s • params.k2) alpha v l a b (adv ω)).eval (oracle S 0 H)) ∈ S := by
  have h := fun x : F × F × F => C70_query_set (Ω := Ω) (F := F) (fun ω =>
    runIssuerSim enc params (powers x.1 B l.length) (x.1 • params.k2) alpha v l x.2.1 x.2.2 (adv ω)) n
    (fun ω => issuer_bound _ _ _ _ _ _ _ n _ (hn _ _ _)) (outQuery E enc (simParams params (powers x.1 B l.length) x.2.1 x.2.2 l))
  choose T _ hT using h
  exact ⟨Finset.univ.biUnion T, fun ω s a b H =>
    Finset.mem_biUnion.2 ⟨(s, a, b), Finset.mem_univ _, hT (s, a, b) ω _⟩⟩

/-- **C85** (presentations). The same for membership proofs: if the adversary, which makes at most `n` hash queries and
enrolments, ends with probability `a` with a presentation accepted for some accumulator and the issuer's keys, then for
`a' = a - q/|F|`, if not negative, with probability at least `a' (a'/(n+1) - 1/|F|)` the extractor, which runs the adversary twice
against the simulator and is given only `B, sB, …, s^q B` and `sK₂`, computes a credential for an id in `l`, or the
discrete logarithm of `K₀` to the base `K₁`, or a linear relation between `X`, `Y`, `Z`, or a solution of the SDH
problem. -/
theorem C85_presentation (E : Pairing F G1 G2 GT) (enc : Enc G1 G2 GT) (h1 : Function.Injective enc.g1)
    (h2 : Function.Injective enc.g2) (h3 : Function.Injective enc.gt) (params : AccParams G1 G2)
    (hP : params.p2 ≠ 0) (hK : params.k2 ≠ 0) (B : G1) (hB : B ≠ 0) (alpha v : F) (l : List F)
    (adv : Ω → AccParams G1 G2 → SignView F G1 G2 → IssuerProg F G1 G2 (Presentation F G1 G2)) (n : Nat)
    (hn : ∀ ω P v, (adv ω P v).Bound n) (S : Finset Query)
    (hS : ∀ ω (s a b : F) (H : S → F),
      outQuery E enc (simParams params (powers s B l.length) a b l)
        ((runIssuerSim enc params (powers s B l.length) (s • params.k2) alpha v l a b (adv ω)).eval (oracle S 0 H)) ∈ S) :
    let a := prob (fun x : (Ω × F × F × F) × (S → F) =>
      let P := params.withK (x.1.2.2.1 • B) (x.1.2.2.2 • B)
      ∃ p g, (runIssuer enc P alpha x.1.2.1 v l (adv x.1.1)).eval (oracle S 0 x.2) = .ok (p, g) ∧
        p.accepted E (asHash (oracle S 0 x.2)) enc P ∧ p.keys = g.server.getPublicKeys)
    let a' := a - (l.length : ℚ) / Nat.card F
    0 ≤ a' →
    a' * (a' / (n + 1) - 1 / Nat.card F) ≤ prob (fun x : (Ω × F × F × F) × (S → F) × (S → F) =>
      let pts := powers x.1.2.1 B l.length
      let key := x.1.2.1 • params.k2
      let P := simParams params pts x.1.2.2.1 x.1.2.2.2 l
      let prog := runIssuerSim enc params pts key alpha v l x.1.2.2.1 x.1.2.2.2 (adv x.1.1)
      ∃ p m p' m', prog.eval (oracle S 0 x.2.1) = .ok (p, m) ∧
        rerun S prog (outQuery E enc P) x.2.1 x.2.2 = .ok (p', m') ∧
        let y := extractId p.proof p'.proof
        let w := extractWitness P p.proof p'.proof
        let rel := extractRelation p.proof p'.proof
        ((y ∈ l ∧ credVerify E p.accumulator ⟨alpha • params.p2, key⟩ P y w = .ok ()) ∨
        P.k0 = (-w.secretKey) • P.k1 ∨
        (rel ≠ (0, 0, 0) ∧ rel.1 • P.x1 + rel.2.1 • P.y1 + rel.2.2 • P.z1 = 0) ∨
        SolvesSdh x.1.2.1 B y (signCandidate pts x.1.2.2.1 x.1.2.2.2 l y w))) := by
  intro a a' ha'
  let pr : Ω × F × F × F → AccParams G1 G2 := fun x => simParams params (powers x.2.1 B l.length) x.2.2.1 x.2.2.2 l
  let prog : Ω × F × F × F → OracleProg Query F (Rust (Presentation F G1 G2 × IssuerGame F G1 G2)) := fun x =>
    runIssuerSim enc params (powers x.2.1 B l.length) (x.2.1 • params.k2) alpha v l x.2.2.1 x.2.2.2 (adv x.1)
  have hb : ∀ x, (prog x).QueryBound n := fun x => issuer_bound _ _ _ _ _ _ _ n _ (hn _ _ _)
  let ok : Ω × F × F × F → Rust (Presentation F G1 G2 × IssuerGame F G1 G2) → F → Prop := fun x o c =>
    ∃ p m, o = .ok (p, m) ∧ c = p.proof.challenge ∧ p.keys = ⟨alpha • params.p2, x.2.1 • params.k2⟩
  have fk := forking (0 : F) S prog n hb (fun x => outQuery E enc (pr x)) (fun x H => hS _ _ _ _ H) ok
  have hle : a' ≤ prob (fun x : (Ω × F × F × F) × (S → F) => ok x.1 ((prog x.1).eval (oracle S 0 x.2))
      (oracle S 0 x.2 (outQuery E enc (pr x.1) ((prog x.1).eval (oracle S 0 x.2))))) := by
    refine prob_issuer (Ω := Ω) (Y := S → F) l ?_
    rintro ω s a b H hl ⟨p, g, hg, hacc, hk⟩
    simp only at hg hacc
    have hkeys := issuer_keys (oracle S 0 H) enc _ l _ _ _ rfl _ _ hg
    have hs := C85_simulation enc params B alpha s v a b l (not_neg_mem hl) (adv ω) (oracle S 0 H)
    rw [hg] at hs
    have hs' : (prog (ω, s, a, b)).eval (oracle S 0 H)
      = (runIssuerSim enc params (powers s B l.length) (s • params.k2) alpha v l a b (adv ω)).eval (oracle S 0 H) := rfl
    cases hm : (runIssuerSim enc params (powers s B l.length) (s • params.k2) alpha v l a b (adv ω)).eval
        (oracle S 0 H) with
    | error e => rw [hm] at hs; simp [Except.map] at hs
    | ok o =>
      rw [hm] at hs hs'
      obtain ⟨x, m⟩ := o
      simp only [Except.map, Except.ok.injEq, Prod.mk.injEq] at hs
      obtain ⟨rfl, -⟩ := hs
      refine ⟨p, m, hs', ?_, ?_⟩
      · simp only [outQuery, pr]
        rw [simParams_eq]
        simp only [Presentation.accepted, checkProof, decide_eq_true_eq] at hacc
        exact hacc
      · rw [hk, getPublicKeys, hkeys]; rfl
  have hmono : ∀ p : ℚ, a' ≤ p → a' * (a' / (n + 1) - 1 / Nat.card F) ≤ max 0 (p * (p / (n + 1) - 1 / Nat.card F)) := by
    intro p hle
    by_cases hneg : a' / (n + 1) - 1 / (Nat.card F : ℚ) ≤ 0
    · exact le_max_of_le_left (mul_nonpos_of_nonneg_of_nonpos ha' hneg)
    · refine le_max_of_le_right (mul_le_mul hle ?_ (le_of_not_ge hneg) (le_trans ha' hle))
      have : a' / (n + 1) ≤ p / (n + 1) := by gcongr
      linarith
  refine le_trans (hmono _ hle) (max_le (by unfold prob; positivity) (le_trans fk (prob_mono ?_)))
  rintro ⟨⟨ω, s, a, b⟩, H, G⟩ ⟨⟨p, m, hp, c1, k1⟩, ⟨p', m', hp', c2, k2⟩, e3, e4⟩
  refine ⟨p, m, p', m', hp, hp', ?_⟩
  have e3' : p'.query E enc (pr (ω, s, a, b)) = p.query E enc (pr (ω, s, a, b)) := by
    have := e3
    rw [hp, hp'] at this
    exact this
  obtain ⟨-, -, -, hc⟩ := query_inj E enc h1 h2 h3 (pr (ω, s, a, b)) p p' e3'
  have hne : p.proof.challenge ≠ p'.proof.challenge := by
    intro hcc
    apply e4
    rw [e3] at c2
    rw [c2, c1]
    exact hcc.symm
  rcases C43_special_sound E (pr (ω, s, a, b)) _ _ _ _ hc hne with hw | hw
  · rw [k1] at hw
    by_cases hm : extractId p.proof p'.proof ∈ l
    · exact .inl ⟨hm, hw⟩
    by_cases h0 : (extractWitness (pr (ω, s, a, b)) p.proof p'.proof).secretKey * a + b = 0
    · refine .inr (.inl ?_)
      have e : b = -(extractWitness (pr (ω, s, a, b)) p.proof p'.proof).secretKey * a := by linear_combination h0
      change b • _ = (-(extractWitness (pr (ω, s, a, b)) p.proof p'.proof).secretKey) • (a • _)
      rw [smul_smul, ← e]
    · exact .inr (.inr (.inr ⟨hB, sign_solve E params hP hK B _ alpha s a b l _ hm _ hw h0⟩))
  · exact .inr (.inr (.inl hw))

end prob

/-! ### A concrete case -/

/-- An adversary over the field with 7 elements: it adds id 1, enrols it with secret key 3 and an honest proof of key,
deletes it, and outputs a credential for id 5 which it signs with the guess `s = 4`. -/
def exIssuer (P : AccParams (ZMod 7) (ZMod 7)) (_ : SignView (ZMod 7) (ZMod 7) (ZMod 7)) :
    IssuerProg (ZMod 7) (ZMod 7) (ZMod 7) (ZMod 7 × Witness (ZMod 7) (ZMod 7)) :=
  .call (.add 1) fun _ _ => .hash (issueQuery enc7 P (0 : ZMod 7) 2 (3 * P.k1)) fun c => .enrol 1 c (2 - c * 3) 3 fun _ =>
    .call (.delete 1) fun _ v =>
      .done (5, ⟨3, (5 + v.witnessSecretKey)⁻¹ * (v.accumulators.getLast?.getD 0), (5 + 4)⁻¹ * (3 * P.k1 + P.k0)⟩)

/-- With `s = 4` the forgery succeeds, after id 1 has been enrolled: the hypotheses of `C85_forgery` are met. -/
theorem exIssuer_forges : ∃ y w g,
    (runIssuer enc7 ((⟨1, 1, 1, 2, 1, 5, 6, 4⟩ : AccParams (ZMod 7) (ZMod 7)).withK ((2 * prodPlus (4 : ZMod 7) [1, 2]) • 1)
      ((5 * prodPlus (4 : ZMod 7) [1, 2]) • 1)) 3 4 5 [1, 2] exIssuer).eval (fun _ => 6) = .ok ((y, w), g) ∧
    SignForged (Pairing.field (ZMod 7)) ((⟨1, 1, 1, 2, 1, 5, 6, 4⟩ : AccParams (ZMod 7) (ZMod 7)).withK
      ((2 * prodPlus (4 : ZMod 7) [1, 2]) • 1) ((5 * prodPlus (4 : ZMod 7) [1, 2]) • 1)) g [1, 2] y w ∧ g.enrolled = [1] := by
  have h : (match (runIssuer enc7 ((⟨1, 1, 1, 2, 1, 5, 6, 4⟩ : AccParams (ZMod 7) (ZMod 7)).withK
        ((2 * prodPlus (4 : ZMod 7) [1, 2]) • 1) ((5 * prodPlus (4 : ZMod 7) [1, 2]) • 1)) 3 4 5 [1, 2] exIssuer).eval (fun _ => 6) with
    | .ok ((y, w), g) => (match g.server.getAccumulator with
      | .ok V => (match credVerify (Pairing.field (ZMod 7)) V g.server.getPublicKeys
          ((⟨1, 1, 1, 2, 1, 5, 6, 4⟩ : AccParams (ZMod 7) (ZMod 7)).withK
            ((2 * prodPlus (4 : ZMod 7) [1, 2]) • 1) ((5 * prodPlus (4 : ZMod 7) [1, 2]) • 1)) y w with
        | .ok _ => decide (y ∉ ([1, 2] : List (ZMod 7)) ∧ g.enrolled = [1])
        | .error _ => false)
      | .error _ => false)
    | .error _ => false) = true := by decide +kernel
  split at h
  · next y w g hg =>
    split at h
    · next V hV =>
      split at h
      · next u hc =>
        obtain ⟨h1, h2⟩ := of_decide_eq_true h
        exact ⟨y, w, g, hg, ⟨h1, V, hc⟩, h2⟩
      · simp at h
    · simp at h
  · simp at h

/-- The ids of the example satisfy the condition on the signing key. -/
example : ∀ y ∈ ([1, 2] : List (ZMod 7)), y + 4 ≠ 0 := by decide +kernel

end Allo
