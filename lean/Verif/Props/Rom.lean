import Verif.Lemmas.Forking
import Mathlib.Data.ZMod.Basic
import Mathlib.Algebra.Field.ZMod
import Mathlib.Tactic.NormNum.Prime
import Verif.Props.Credential
import Verif.Props.Revocation
import Verif.Props.Signature
import Verif.Props.AccBinding
import Verif.Props.Enrol

/-!
# C70 – C72: accepted proofs prove knowledge, in the random oracle model

The adversary is any program which asks the Fiat-Shamir hash boundedly many queries and may use random bits `ω`;
the hash is a uniformly random function on a finite set `S` of queries which contains those the verifier makes.
The extractor runs the adversary twice: once with the hash `H`, and once, with the same random bits, with a hash
that is `H` for all that was asked before the transcript of the first output, and `G` for the rest.
-/

set_option linter.unusedSectionVars false
set_option linter.unusedVariables false
namespace Allo
open Spec Rom

/-- A query to the Fiat-Shamir hash: the content of the transcript and the challenge label. -/
abbrev Query := Transcript × String

/-- An oracle for queries as the model's hash function. -/
def asHash {F : Type} (O : Query → F) : Oracle F := fun t l => O (t, l)

theorem prob_mono {Ω : Type} [Finite Ω] {P P' : Ω → Prop} (h : ∀ ω, P ω → P' ω) : prob P ≤ prob P' := by
  unfold prob
  have : Nat.card {ω // P ω} ≤ Nat.card {ω // P' ω} :=
    Nat.card_le_card_of_injective (fun x => ⟨x.1, h x.1 x.2⟩) (fun a b e => Subtype.ext (Subtype.mk.inj e))
  gcongr

section
variable {F G1 G2 GT : Type} [Field F] [DecidableEq F] [Fintype F] [AddCommGroup G1] [Module F G1]
  [AddCommGroup G2] [Module F G2] [AddCommGroup GT] [Module F GT] [DecidableEq GT]
variable {Ω : Type} [Fintype Ω]

/-! ### C70: credential proofs -/

/-- What an adversary presents to a verifier: a proof, and the accumulator, keys and ephemeral challenge it is
for. -/
structure Presentation (F G1 G2 : Type) where
  proof : CredProof F G1
  keys : PublicKeys G2
  accumulator : G1
  ephemeral : Bytes

/-- The verifier accepts. -/
def Presentation.accepted (E : Pairing F G1 G2 GT) (H : Oracle F) (enc : Enc G1 G2 GT) (params : AccParams G1 G2)
    (x : Presentation F G1 G2) : Prop :=
  checkProof E H enc x.proof params x.keys x.accumulator x.ephemeral = true

/-- The query the verifier makes. -/
def Presentation.query (E : Pairing F G1 G2 GT) (enc : Enc G1 G2 GT) (params : AccParams G1 G2)
    (x : Presentation F G1 G2) : Query :=
  (checkTranscript E enc x.proof params x.keys x.accumulator x.ephemeral, "challenge")

/-- The second run of the adversary. -/
def rerun {α : Type} (S : Finset Query) (adv : OracleProg Query F α) (query : α → Query) (H G : S → F) : α :=
  adv.eval (oracle S 0 (splice S (before (oracle S 0 H) adv query) H G))

theorem query_inj (E : Pairing F G1 G2 GT) (enc : Enc G1 G2 GT) (h1 : Function.Injective enc.g1)
    (h2 : Function.Injective enc.g2) (h3 : Function.Injective enc.gt) (params : AccParams G1 G2)
    (x x' : Presentation F G1 G2) (h : x'.query E enc params = x.query E enc params) :
    x'.keys = x.keys ∧ x'.accumulator = x.accumulator ∧ x'.ephemeral = x.ephemeral ∧
      SameCommitments E params x.keys x.accumulator x.proof x'.proof := by
  obtain ⟨p, ⟨a, b⟩, V, e⟩ := x
  obtain ⟨p', ⟨a', b'⟩, V', e'⟩ := x'
  simp only [Presentation.query, checkTranscript, credTranscript, CredProof.getBytesForChallenge,
    appendCommitments, AccParams.addToTranscript, Transcript.append, Transcript.new, List.nil_append,
    List.append_assoc, List.cons_append, Prod.mk.injEq, Transcript.mk.injEq, List.cons.injEq, true_and, and_true,
    h1.eq_iff, h2.eq_iff, h3.eq_iff] at h
  obtain ⟨rfl, rfl, rfl, e1, e2, e3, e4, e5, e6, e7, rfl⟩ := h
  exact ⟨rfl, rfl, rfl, e1.symm, e2.symm, e3.symm, e4.symm, e5.symm, e6.symm, e7.symm⟩

/-- What the extractor computes from two presentations is an id with a credential that passes `Witness::verify` for
the accumulator and keys of the first, or a non-trivial linear relation between `X`, `Y` and `Z`. -/
def Extracts (E : Pairing F G1 G2 GT) (params : AccParams G1 G2) (out out' : Presentation F G1 G2) : Prop :=
  credVerify E out.accumulator out.keys params (extractId out.proof out'.proof)
      (extractWitness params out.proof out'.proof) = .ok () ∨
    (extractRelation out.proof out'.proof ≠ (0, 0, 0) ∧
      (extractRelation out.proof out'.proof).1 • params.x1
        + (extractRelation out.proof out'.proof).2.1 • params.y1
        + (extractRelation out.proof out'.proof).2.2 • params.z1 = 0)

/-- **C70** (knowledge). Let an adversary that asks at most `q` hash queries make, with probability `a`,
presentations that are accepted and satisfy `P` (it may choose the accumulator, the keys and the ephemeral challenge
as it likes, also depending on the hashes; `P` can say, for instance, what the verifier expects them to be). Then
with probability at least `a (a/(q+1) - 1/|F|)` both its outputs satisfy `P` and the extractor computes from them an
id and a credential that pass `Witness::verify` for the accumulator and keys of the first, or a non-trivial linear
relation between `X`, `Y` and `Z`. -/
theorem C70_knowledge (E : Pairing F G1 G2 GT) (enc : Enc G1 G2 GT) (h1 : Function.Injective enc.g1)
    (h2 : Function.Injective enc.g2) (h3 : Function.Injective enc.gt) (params : AccParams G1 G2)
    (adv : Ω → OracleProg Query F (Presentation F G1 G2)) (q : Nat) (hq : ∀ ω, (adv ω).QueryBound q)
    (S : Finset Query) (hS : ∀ ω (H : S → F), ((adv ω).eval (oracle S 0 H)).query E enc params ∈ S)
    (P : Presentation F G1 G2 → Prop) :
    let a := prob (fun x : Ω × (S → F) =>
      ((adv x.1).eval (oracle S 0 x.2)).accepted E (asHash (oracle S 0 x.2)) enc params ∧
      P ((adv x.1).eval (oracle S 0 x.2)))
    a * (a / (q + 1) - 1 / Nat.card F) ≤ prob (fun x : Ω × (S → F) × (S → F) =>
      let out := (adv x.1).eval (oracle S 0 x.2.1)
      let out' := rerun S (adv x.1) (Presentation.query E enc params) x.2.1 x.2.2
      P out ∧ P out' ∧ Extracts E params out out') := by
  have fk := forking (0 : F) S adv q hq (fun _ x => x.query E enc params) hS
    (fun _ x c => c = x.proof.challenge ∧ P x)
  intro a
  have ha : a = prob (fun x : Ω × (S → F) => (oracle S 0 x.2)
      (((adv x.1).eval (oracle S 0 x.2)).query E enc params) = ((adv x.1).eval (oracle S 0 x.2)).proof.challenge ∧
      P ((adv x.1).eval (oracle S 0 x.2))) := by
    simp only [a, Presentation.accepted, checkProof, decide_eq_true_eq]
    rfl
  rw [ha]
  refine le_trans fk (prob_mono ?_)
  rintro ⟨ω, H, G⟩ ⟨⟨e1, p1⟩, ⟨e2, p2⟩, e3, e4⟩
  obtain ⟨k1, k2, k3, hc⟩ := query_inj E enc h1 h2 h3 params _ _ e3
  refine ⟨p1, p2, C43_special_sound E params _ _ _ _ hc ?_⟩
  intro hcc
  apply e4
  rw [e3] at e2
  rw [e2, e1]
  exact hcc.symm

/-- **C70** (revoked users). For every `add`/`delete` history `ops` (with `q'` calls of `add`) there are public
coefficients such that for all secrets and every adversary that asks at most `q` hash queries: if with probability
`a` the adversary makes presentations accepted for the current accumulator and the server's keys, then with probability
at least `a (a/(q+1) - 1/|F|)` the extractor computes

* the id of a current member with a credential that passes `Witness::verify`, or
* a non-trivial linear relation between `X`, `Y` and `Z`, or
* a solution `(y+α)⁻¹ B` of the `q'`-SDH problem.

So whoever can present a proof for the current accumulator knows the credential of a current member. -/
theorem C70_revocation [DecidableEq G1] (ops : List (Server.Op F)) (hops : ∀ op ∈ ops, op.isQuick = false) :
    ∃ (quo : F → List F) (r : F → F), (∀ y, (quo y).length ≤ ops.countP isAdd + 1) ∧
      ∀ (E : Pairing F G1 G2 GT) (enc : Enc G1 G2 GT) (h1 : Function.Injective enc.g1)
        (h2 : Function.Injective enc.g2) (h3 : Function.Injective enc.gt) (params : AccParams G1 G2)
        (α sM v : F) (s : Server F G1 G2), params.p2 ≠ 0 → params.k2 ≠ 0 → v • params.p1 ≠ 0 →
        (Server.new params α sM v).run ops = .ok s →
        ∃ B : G1, B ≠ 0 ∧ ∀ V, s.getAccumulator = .ok V →
        ∀ (adv : Ω → OracleProg Query F (Presentation F G1 G2)) (q : Nat) (hq : ∀ ω, (adv ω).QueryBound q)
          (S : Finset Query) (hS : ∀ ω (H : S → F), ((adv ω).eval (oracle S 0 H)).query E enc params ∈ S),
        let a := prob (fun x : Ω × (S → F) =>
          let out := (adv x.1).eval (oracle S 0 x.2)
          out.accepted E (asHash (oracle S 0 x.2)) enc params ∧ out.accumulator = V ∧ out.keys = s.getPublicKeys)
        a * (a / (q + 1) - 1 / Nat.card F) ≤ prob (fun x : Ω × (S → F) × (S → F) =>
          let out := (adv x.1).eval (oracle S 0 x.2.1)
          let out' := rerun S (adv x.1) (Presentation.query E enc params) x.2.1 x.2.2
          let y := extractId out.proof out'.proof
          let w := extractWitness params out.proof out'.proof
          let rel := extractRelation out.proof out'.proof
          (y ∈ (regRun ops).members ∧ credVerify E V s.getPublicKeys params y w = .ok ()) ∨
          (rel ≠ (0, 0, 0) ∧ rel.1 • params.x1 + rel.2.1 • params.y1 + rel.2.2 • params.z1 = 0) ∨
          (y + α) • ((r y)⁻¹ • (w.witness - fromPowers α B (quo y))) = B) := by
  obtain ⟨accC, witC, quo, r, -, -, hquo, -, main⟩ :=
    C59_revocation_sdh (F := F) (G1 := G1) (G2 := G2) (GT := GT) ops hops
  refine ⟨quo, r, hquo, ?_⟩
  intro E enc h1 h2 h3 params α sM v s hp hk hv hs
  obtain ⟨B, hB, -, forge⟩ := main params α sM v s hs
  refine ⟨B, hB hv, ?_⟩
  intro V hV adv q hq S hS
  refine le_trans (C70_knowledge E enc h1 h2 h3 params adv q hq S hS
    (fun out => out.accumulator = V ∧ out.keys = s.getPublicKeys)) (prob_mono ?_)
  rintro ⟨ω, H, G⟩ ⟨⟨pV, pk⟩, -, h⟩
  rcases h with h | h
  · rw [pV, pk] at h
    by_cases hm : extractId ((adv ω).eval (oracle S 0 H)).proof
        (rerun S (adv ω) (Presentation.query E enc params) H G).proof ∈ (regRun ops).members
    · exact .inl ⟨hm, h⟩
    · exact .inr (.inr (forge E hp hk V hV _ hm _ h))
  · exact .inr (.inl h)

/-- **C70** (ids that never enrolled). The same with the signing key: for every list `l` of enrolled ids there are
public coefficients such that a successful adversary gives, with that probability, a credential for an id in `l`,
or the discrete logarithm of `K_0` to the base `K_1`, or a linear relation between `X`, `Y`, `Z`, or a solution
`(y+s)⁻¹ B` of the `|l|`-SDH problem. -/
theorem C70_unenrolled [DecidableEq G1] (l : List F) :
    ∃ (kc : List F) (quo : F → List F) (r : F → F), (∀ y, (quo y).length ≤ l.length) ∧
      ∀ (E : Pairing F G1 G2 GT) (enc : Enc G1 G2 GT) (h1 : Function.Injective enc.g1)
        (h2 : Function.Injective enc.g2) (h3 : Function.Injective enc.gt) (params : AccParams G1 G2)
        (s b b' : F) (B : G1), (∀ y ∈ l, y + s ≠ 0) → params.k1 = b • fromPowers s B kc →
        params.k0 = b' • fromPowers s B kc → params.p2 ≠ 0 → params.k2 ≠ 0 →
        ∀ (α : F) (V : G1) (adv : Ω → OracleProg Query F (Presentation F G1 G2)) (q : Nat)
          (hq : ∀ ω, (adv ω).QueryBound q) (S : Finset Query)
          (hS : ∀ ω (H : S → F), ((adv ω).eval (oracle S 0 H)).query E enc params ∈ S),
        let keys : PublicKeys G2 := ⟨α • params.p2, s • params.k2⟩
        let a := prob (fun x : Ω × (S → F) =>
          let out := (adv x.1).eval (oracle S 0 x.2)
          out.accepted E (asHash (oracle S 0 x.2)) enc params ∧ out.accumulator = V ∧ out.keys = keys)
        a * (a / (q + 1) - 1 / Nat.card F) ≤ prob (fun x : Ω × (S → F) × (S → F) =>
          let out := (adv x.1).eval (oracle S 0 x.2.1)
          let out' := rerun S (adv x.1) (Presentation.query E enc params) x.2.1 x.2.2
          let y := extractId out.proof out'.proof
          let w := extractWitness params out.proof out'.proof
          let rel := extractRelation out.proof out'.proof
          (y ∈ l ∧ credVerify E V keys params y w = .ok ()) ∨
          params.k0 = (-w.secretKey) • params.k1 ∨
          (rel ≠ (0, 0, 0) ∧ rel.1 • params.x1 + rel.2.1 • params.y1 + rel.2.2 • params.z1 = 0) ∨
          (y + s) • ((r y)⁻¹ • ((w.secretKey * b + b')⁻¹ • w.signature - fromPowers s B (quo y))) = B) := by
  obtain ⟨kc, sigC, quo, r, -, -, hquo, -, main⟩ := C61_unenrolled_sdh (F := F) (G1 := G1) (G2 := G2) (GT := GT) l
  refine ⟨kc, quo, r, hquo, ?_⟩
  intro E enc h1 h2 h3 params s b b' B hl hk1 hk0 hp hk α V adv q hq S hS keys
  have forge := (main params s b b' B hl hk1 hk0).2
  refine le_trans (C70_knowledge E enc h1 h2 h3 params adv q hq S hS
    (fun out => out.accumulator = V ∧ out.keys = keys)) (prob_mono ?_)
  rintro ⟨ω, H, G⟩ ⟨⟨pV, pk⟩, -, h⟩
  rcases h with h | h
  · rw [pV, pk] at h
    by_cases hm : extractId ((adv ω).eval (oracle S 0 H)).proof
        (rerun S (adv ω) (Presentation.query E enc params) H G).proof ∈ l
    · exact .inl ⟨hm, h⟩
    by_cases hz : (extractWitness params ((adv ω).eval (oracle S 0 H)).proof
        (rerun S (adv ω) (Presentation.query E enc params) H G).proof).secretKey * b + b' = 0
    · refine .inr (.inl (C61_exception params _ ?_))
      rw [hk1, hk0, smul_smul, ← add_smul, hz, zero_smul]
    · exact .inr (.inr (.inr (forge E V α _ _ hp hk hm h hz)))
  · exact .inr (.inr (.inl h))

/-- **C70** (the set of queries). For every adversary with boundedly many queries there is a finite set of queries
which contains all that it, and the verifier of its output, can ever ask, so that the hash is random wherever
anybody looks. -/
theorem C70_query_set {α : Type} (adv : Ω → OracleProg Query F α) (q : Nat) (hq : ∀ ω, (adv ω).QueryBound q)
    (query : α → Query) :
    ∃ S : Finset Query, (∀ ω, (adv ω).QueriesIn (· ∈ S)) ∧
      ∀ ω (O : Query → F), query ((adv ω).eval O) ∈ S := by
  have bound : ∀ (n : Nat) (p : OracleProg Query F α), p.QueryBound n → (p.andAsk query).QueryBound (n + 1) := by
    intro n
    induction n with
    | zero => rintro (a | ⟨q, k⟩) h; exacts [fun _ => trivial, absurd h id]
    | succ n ih => rintro (a | ⟨q, k⟩) h; exacts [fun _ => trivial, fun r => ih _ (h r)]
  choose T hT using fun ω => OracleProg.exists_querySet (q + 1) ((adv ω).andAsk query) (bound q _ (hq ω))
  have mono : ∀ (S T : Finset Query), S ⊆ T → ∀ p : OracleProg Query F α,
      p.QueriesIn (· ∈ S) → p.QueriesIn (· ∈ T) := by
    intro S T hST p
    induction p with
    | done a => intro _; trivial
    | ask q k ih => rintro ⟨h1, h2⟩; exact ⟨hST h1, fun r => ih r (h2 r)⟩
  have drop : ∀ (S : Finset Query) (p : OracleProg Query F α),
      (p.andAsk query).QueriesIn (· ∈ S) → p.QueriesIn (· ∈ S) ∧ ∀ O : Query → F, query (p.eval O) ∈ S := by
    intro S p
    induction p with
    | done a => intro h; exact ⟨trivial, fun _ => h.1⟩
    | ask q k ih =>
      rintro ⟨h1, h2⟩
      exact ⟨⟨h1, fun r => (ih r (h2 r)).1⟩, fun O => (ih (O q) (h2 (O q))).2 O⟩
  refine ⟨Finset.univ.biUnion T, fun ω => ?_, fun ω => ?_⟩
  all_goals
    have hsub : T ω ⊆ Finset.univ.biUnion T := fun x hx =>
      Finset.mem_biUnion.2 ⟨ω, Finset.mem_univ ω, hx⟩
  · exact (drop _ _ (mono _ _ hsub _ (hT ω))).1
  · exact (drop _ _ (mono _ _ hsub _ (hT ω))).2

/-- The honest prover as an oracle program: `make_membership_proof` asks one query. -/
def honestProver (E : Pairing F G1 G2 GT) (enc : Enc G1 G2 GT) (params : AccParams G1 G2) (keys : PublicKeys G2)
    (V : G1) (eph : Bytes) (y : F) (w : Witness F G1) (rand : ProofRand F) :
    OracleProg Query F (Presentation F G1 G2) :=
  let mpc := Committing.new E w params keys rand
  .ask (((mpc.getBytesForChallenge enc (credTranscript enc params keys V)).append "Ephemeral challenge" eph),
    "challenge") (fun c => .done ⟨mpc.genProof w y c, keys, V, eph⟩)

/-- It is `make_membership_proof`. -/
theorem honestProver_eval (E : Pairing F G1 G2 GT) (enc : Enc G1 G2 GT) (params : AccParams G1 G2)
    (keys : PublicKeys G2) (V : G1) (eph : Bytes) (y : F) (w : Witness F G1) (rand : ProofRand F)
    (hv : credVerify E V keys params y w = .ok ()) (O : Query → F) :
    some ((honestProver E enc params keys V eph y w rand).eval O).proof
      = makeProof E (asHash O) enc w y V params keys eph rand := by
  rw [makeProof_eq E (asHash O) enc w y V params keys eph rand hv]
  rfl

/-- **C70** is not empty: the owner of a valid credential is an adversary with `a = 1` and one query, from which the
extractor extracts with probability at least `1/2 - 1/|F|`. -/
theorem C70_honest (E : Pairing F G1 G2 GT) (enc : Enc G1 G2 GT) (h1 : Function.Injective enc.g1)
    (h2 : Function.Injective enc.g2) (h3 : Function.Injective enc.gt) (params : AccParams G1 G2)
    (keys : PublicKeys G2) (V : G1) (eph : Bytes) (y : F) (w : Witness F G1)
    (hv : credVerify E V keys params y w = .ok ()) (rand : ProofRand F) :
    let adv : Unit → OracleProg Query F (Presentation F G1 G2) := fun _ =>
      honestProver E enc params keys V eph y w rand
    (∀ ω, (adv ω).QueryBound 1) ∧
    ∃ S : Finset Query, (∀ ω (H : S → F), ((adv ω).eval (oracle S 0 H)).query E enc params ∈ S) ∧
      prob (fun x : Unit × (S → F) =>
        ((adv x.1).eval (oracle S 0 x.2)).accepted E (asHash (oracle S 0 x.2)) enc params) = 1 ∧
      1 / 2 - 1 / (Nat.card F : ℚ) ≤ prob (fun x : Unit × (S → F) × (S → F) =>
        Extracts E params ((adv x.1).eval (oracle S 0 x.2.1))
          (rerun S (adv x.1) (Presentation.query E enc params) x.2.1 x.2.2)) := by
  intro adv
  have hb : ∀ ω, (adv ω).QueryBound 1 := fun _ _ => trivial
  obtain ⟨S, -, hS⟩ := C70_query_set (Ω := Unit) adv 1 hb (Presentation.query E enc params)
  have hacc : ∀ x : Unit × (S → F),
      ((adv x.1).eval (oracle S 0 x.2)).accepted E (asHash (oracle S 0 x.2)) enc params := by
    intro x
    exact (C42_complete E (asHash (oracle S 0 x.2)) enc w y V params keys eph rand).2 _
      (honestProver_eval E enc params keys V eph y w rand hv (oracle S 0 x.2)).symm
  have hone : prob (fun x : Unit × (S → F) =>
        ((adv x.1).eval (oracle S 0 x.2)).accepted E (asHash (oracle S 0 x.2)) enc params) = 1 := by
    unfold prob
    rw [Nat.card_congr (Equiv.subtypeUnivEquiv hacc), div_self]
    exact_mod_cast Nat.card_pos.ne'
  refine ⟨hb, S, fun ω H => hS ω _, hone, ?_⟩
  have k := C70_knowledge E enc h1 h2 h3 params adv 1 hb S (fun ω H => hS ω _) (fun _ => True)
  simp only [and_true, true_and] at k
  rw [hone] at k
  norm_num at k ⊢
  linarith

/-! ### C71: accumulator proofs -/

/-- What is shown to a verifier of an accumulator proof: the proof, the challenge, and whatever the application
uses to build its transcript (`info`). -/
structure Shown (Pf F I : Type) where
  proof : Pf
  challenge : F
  info : I

/-- How an application uses the accumulator proofs: from `info` it gets the accumulator, the key and the
transcript prefix. -/
structure App (I G1 G2 : Type) where
  acc : I → G1
  key : I → G2
  pre : I → Transcript

/-- The prefix says which accumulator and key the proof is for: equal prefixes come with equal accumulators and keys.
(Two cases: the accumulator and key are fixed; or the application appends them to the transcript. Without this
the theorems are false, see `C66_accumulator_must_be_hashed`.) -/
def App.Binds {I G1 G2 : Type} (app : App I G1 G2) : Prop :=
  ∀ i i', app.pre i = app.pre i' → app.acc i = app.acc i' ∧ app.key i = app.key i'

/-- An application with a fixed accumulator and key; `info` is the prefix. -/
def App.fixed {G1 G2 : Type} (V : G1) (pk : G2) : App Transcript G1 G2 := ⟨fun _ => V, fun _ => pk, id⟩

theorem App.fixed_binds {G1 G2 : Type} (V : G1) (pk : G2) : (App.fixed V pk).Binds := fun _ _ _ => ⟨rfl, rfl⟩

/-- An application which appends the accumulator and the key, and then some message, to its transcript. -/
def App.hashed {G1 G2 GT : Type} (enc : Enc G1 G2 GT) (t : Transcript) : App (G1 × G2 × Bytes) G1 G2 :=
  ⟨fun i => i.1, fun i => i.2.1, fun i =>
    ((t.append "accumulator" (enc.g1 i.1)).append "key" (enc.g2 i.2.1)).append "message" i.2.2⟩

theorem App.hashed_binds {G1 G2 GT : Type} (enc : Enc G1 G2 GT) (h1 : Function.Injective enc.g1)
    (h2 : Function.Injective enc.g2) (t : Transcript) : (App.hashed enc t).Binds := by
  rintro ⟨V, pk, m⟩ ⟨V', pk', m'⟩ h
  simp only [App.hashed, Transcript.append, List.append_assoc, List.cons_append, List.nil_append,
    Transcript.mk.injEq, List.append_cancel_left_eq, List.cons.injEq, Prod.mk.injEq, true_and, and_true,
    h1.eq_iff, h2.eq_iff] at h
  exact ⟨h.1, h.2.1⟩

theorem MemFinal.bytes_inj' (enc : Enc G1 G2 GT) (h1 : Function.Injective enc.g1)
    (h3 : Function.Injective enc.gt) (a b : MemFinal G1 GT) (t t' : Transcript)
    (h : a.getBytesForChallenge enc t = b.getBytesForChallenge enc t') : t = t' ∧ a = b := by
  have ht : t = t' := by
    simp only [MemFinal.getBytesForChallenge, memBytes, Transcript.append, List.append_assoc, List.cons_append,
      List.nil_append, Transcript.mk.injEq] at h
    have := List.append_inj_left' h.2 rfl
    cases t; cases t'; simp_all
  subst ht
  exact ⟨rfl, MemFinal.bytes_inj enc h1 h3 a b t h⟩

theorem NonFinal.bytes_inj' (enc : Enc G1 G2 GT) (h1 : Function.Injective enc.g1)
    (h3 : Function.Injective enc.gt) (a b : NonFinal G1 GT) (t t' : Transcript)
    (h : a.getBytesForChallenge enc t = b.getBytesForChallenge enc t') : t = t' ∧ a = b := by
  have ht : t = t' := by
    simp only [NonFinal.getBytesForChallenge, nonBytes, Transcript.append, List.append_assoc, List.cons_append,
      List.nil_append, Transcript.mk.injEq] at h
    have := List.append_inj_left' h.2 rfl
    cases t; cases t'; simp_all
  subst ht
  exact ⟨rfl, NonFinal.bytes_inj enc h1 h3 a b t h⟩

/-- The query of the verifier of a membership proof. -/
def memQuery {I : Type} (E : Pairing F G1 G2 GT) (enc : Enc G1 G2 GT) (params : ProofParams G1) (app : App I G1 G2)
    (label : String) (x : Shown (MemProof F G1) F I) : Query :=
  ((x.proof.finalize E (app.acc x.info) params (app.key x.info) x.challenge).getBytesForChallenge enc
    (app.pre x.info), label)

/-- The query of the verifier of a non-membership proof. -/
def nonQuery {I : Type} (E : Pairing F G1 G2 GT) (enc : Enc G1 G2 GT) (params : ProofParams G1) (app : App I G1 G2)
    (label : String) (x : Shown (NonProof F G1) F I) : Query :=
  ((x.proof.finalize E (app.acc x.info) params (app.key x.info) x.challenge).getBytesForChallenge enc
    (app.pre x.info), label)

/-- **C71** (membership). An adversary which asks at most `q` hash queries and shows accepted membership proofs
satisfying `P` with probability `a` gives, with probability at least `a (a/(q+1) - 1/|F|)`, an element and a witness
that pass `MembershipWitness::verify` for the accumulator and key of its first output. -/
theorem C71_membership {I : Type} (E : Pairing F G1 G2 GT) (enc : Enc G1 G2 GT) (h1 : Function.Injective enc.g1)
    (h3 : Function.Injective enc.gt) (params : ProofParams G1) (hx : params.x ≠ 0) (hy : params.y ≠ 0)
    (app : App I G1 G2) (hb : app.Binds) (label : String)
    (adv : Ω → OracleProg Query F (Shown (MemProof F G1) F I)) (q : Nat) (hq : ∀ ω, (adv ω).QueryBound q)
    (S : Finset Query) (hS : ∀ ω (H : S → F), memQuery E enc params app label ((adv ω).eval (oracle S 0 H)) ∈ S)
    (P : Shown (MemProof F G1) F I → Prop) :
    let a := prob (fun x : Ω × (S → F) =>
      let out := (adv x.1).eval (oracle S 0 x.2)
      memAccepts E (asHash (oracle S 0 x.2)) enc out.proof (app.acc out.info) params (app.key out.info)
        out.challenge (app.pre out.info) label ∧ P out)
    a * (a / (q + 1) - 1 / Nat.card F) ≤ prob (fun x : Ω × (S → F) × (S → F) =>
      let out := (adv x.1).eval (oracle S 0 x.2.1)
      let out' := rerun S (adv x.1) (memQuery E enc params app label) x.2.1 x.2.2
      P out ∧ P out' ∧
      mwVerify E (out.proof.extractWitness params out'.proof out.challenge out'.challenge)
        (out.proof.extractElement out'.proof out.challenge out'.challenge) (app.key out.info) (app.acc out.info)
        = true) := by
  have fk := forking (0 : F) S adv q hq (fun _ => memQuery E enc params app label) hS
    (fun _ x c => c = x.challenge ∧ P x)
  intro a
  refine le_trans fk (prob_mono ?_)
  rintro ⟨ω, H, G⟩ ⟨⟨e1, p1⟩, ⟨e2, p2⟩, e3, e4⟩
  have e3' := (Prod.mk.inj e3).1
  obtain ⟨ht, hf⟩ := MemFinal.bytes_inj' enc h1 h3 _ _ _ _ e3'
  obtain ⟨hV, hk⟩ := hb _ _ ht
  rw [hV, hk] at hf
  refine ⟨p1, p2, C47_special_sound E params hx hy _ _ _ _ _ _ ?_ hf.symm⟩
  intro hcc
  apply e4
  rw [e3] at e2
  rw [e2, e1]
  exact hcc.symm

/-- **C71** (non-membership). The same for non-membership proofs: the extracted element and witness pass
`NonMembershipWitness::verify`, and `d ≠ 0` unless the discrete logarithm of the generator to the base `K` comes
out. -/
theorem C71_nonmembership {I : Type} (E : Pairing F G1 G2 GT) (enc : Enc G1 G2 GT) (h1 : Function.Injective enc.g1)
    (h3 : Function.Injective enc.gt) (params : ProofParams G1) (hx : params.x ≠ 0) (hy : params.y ≠ 0)
    (app : App I G1 G2) (hb : app.Binds) (label : String)
    (adv : Ω → OracleProg Query F (Shown (NonProof F G1) F I)) (q : Nat) (hq : ∀ ω, (adv ω).QueryBound q)
    (S : Finset Query) (hS : ∀ ω (H : S → F), nonQuery E enc params app label ((adv ω).eval (oracle S 0 H)) ∈ S)
    (P : Shown (NonProof F G1) F I → Prop) :
    let a := prob (fun x : Ω × (S → F) =>
      let out := (adv x.1).eval (oracle S 0 x.2)
      nonAccepts E (asHash (oracle S 0 x.2)) enc out.proof (app.acc out.info) params (app.key out.info)
        out.challenge (app.pre out.info) label ∧ P out)
    a * (a / (q + 1) - 1 / Nat.card F) ≤ prob (fun x : Ω × (S → F) × (S → F) =>
      let out := (adv x.1).eval (oracle S 0 x.2.1)
      let out' := rerun S (adv x.1) (nonQuery E enc params app label) x.2.1 x.2.2
      let w := out.proof.extractWitness params out'.proof out.challenge out'.challenge
      P out ∧ P out' ∧
      nmwVerify E w (out.proof.extractElement out'.proof out.challenge out'.challenge) (app.key out.info)
        (app.acc out.info) = true ∧
      (w.d ≠ 0 ∨ E.g1 = quot out.proof.sW out'.proof.sW out.challenge out'.challenge • params.k)) := by
  have fk := forking (0 : F) S adv q hq (fun _ => nonQuery E enc params app label) hS
    (fun _ x c => c = x.challenge ∧ P x)
  intro a
  refine le_trans fk (prob_mono ?_)
  rintro ⟨ω, H, G⟩ ⟨⟨e1, p1⟩, ⟨e2, p2⟩, e3, e4⟩
  have e3' := (Prod.mk.inj e3).1
  obtain ⟨ht, hf⟩ := NonFinal.bytes_inj' enc h1 h3 _ _ _ _ e3'
  obtain ⟨hV, hk⟩ := hb _ _ ht
  rw [hV, hk] at hf
  refine ⟨p1, p2, C50_special_sound E params hx hy _ _ _ _ _ _ ?_ hf.symm⟩
  intro hcc
  apply e4
  rw [e3] at e2
  rw [e2, e1]
  exact hcc.symm

/-- **C71** (membership in a set). Against the accumulator of the elements `l` under the key of `sk`, the extracted
element is in `l`, or a solution of the `|l|`-SDH problem is computed with public coefficients. -/
theorem C71_membership_in_set (l : List F) :
    ∃ (quo : F → List F) (r : F → F), (∀ y, (quo y).length ≤ l.length) ∧
      ∀ (E : Pairing F G1 G2 GT) (enc : Enc G1 G2 GT) (h1 : Function.Injective enc.g1)
        (h3 : Function.Injective enc.gt) (params : ProofParams G1) (hx : params.x ≠ 0) (hy : params.y ≠ 0)
        (sk : F) (label : String) (adv : Ω → OracleProg Query F (Shown (MemProof F G1) F Transcript)) (q : Nat)
        (hq : ∀ ω, (adv ω).QueryBound q) (S : Finset Query),
        let app := App.fixed (accWithElements E sk l) (publicKey E sk)
        (∀ ω (H : S → F), memQuery E enc params app label ((adv ω).eval (oracle S 0 H)) ∈ S) →
        let a := prob (fun x : Ω × (S → F) =>
          let out := (adv x.1).eval (oracle S 0 x.2)
          memAccepts E (asHash (oracle S 0 x.2)) enc out.proof (accWithElements E sk l) params (publicKey E sk)
            out.challenge out.info label)
        a * (a / (q + 1) - 1 / Nat.card F) ≤ prob (fun x : Ω × (S → F) × (S → F) =>
          let out := (adv x.1).eval (oracle S 0 x.2.1)
          let out' := rerun S (adv x.1) (memQuery E enc params app label) x.2.1 x.2.2
          let y := out.proof.extractElement out'.proof out.challenge out'.challenge
          let C := out.proof.extractWitness params out'.proof out.challenge out'.challenge
          (y ∈ l ∧ mwVerify E C y (publicKey E sk) (accWithElements E sk l) = true) ∨
          (y + sk) • ((r y)⁻¹ • (C - fromPowers sk E.g1 (quo y))) = E.g1) := by
  classical
  have pick : ∀ y : F, ∃ (quo : List F) (r : F), quo.length ≤ l.length ∧ (y ∉ l →
      ∀ (E : Pairing F G1 G2 GT) (sk : F) (C : G1),
        mwVerify E C y (publicKey E sk) (accWithElements E sk l) = true →
        (y + sk) • (r⁻¹ • (C - fromPowers sk E.g1 quo)) = E.g1) := by
    intro y
    by_cases hy : y ∈ l
    · exact ⟨[], 0, Nat.zero_le _, fun h => absurd hy h⟩
    · obtain ⟨quo, r, hq, -, h⟩ := C60_membership_forgery (G1 := G1) (G2 := G2) (GT := GT) l y hy
      exact ⟨quo, r, hq, fun _ E sk C hv => h E sk C hv⟩
  choose quo r hlen hforge using pick
  refine ⟨quo, r, hlen, ?_⟩
  intro E enc h1 h3 params hx hy sk label adv q hq S app hS a
  have k := C71_membership E enc h1 h3 params hx hy app (App.fixed_binds _ _) label adv q hq S hS (fun _ => True)
  have ha : a = prob (fun x : Ω × (S → F) =>
      let out := (adv x.1).eval (oracle S 0 x.2)
      memAccepts E (asHash (oracle S 0 x.2)) enc out.proof (app.acc out.info) params (app.key out.info)
        out.challenge (app.pre out.info) label ∧ True) := by
    simp only [and_true]; rfl
  rw [ha]
  refine le_trans k (prob_mono ?_)
  rintro ⟨ω, H, G⟩ ⟨-, -, h⟩
  by_cases hm : ((adv ω).eval (oracle S 0 H)).proof.extractElement
      (rerun S (adv ω) (memQuery E enc params app label) H G).proof ((adv ω).eval (oracle S 0 H)).challenge
      (rerun S (adv ω) (memQuery E enc params app label) H G).challenge ∈ l
  · exact .inl ⟨hm, h⟩
  · exact .inr (hforge _ hm E sk _ h)

/-- **C71** (non-membership in a set). Against the accumulator of the elements `l` under the key of `sk`, the extracted
element is not in `l`, or a solution of the `|l|`-SDH problem is computed with public coefficients, or the
discrete logarithm of the generator to the base `K` comes out. -/
theorem C71_nonmembership_in_set (l : List F) :
    ∃ quo : F → List F, (∀ y, (quo y).length ≤ l.length) ∧
      ∀ (E : Pairing F G1 G2 GT) (enc : Enc G1 G2 GT) (h1 : Function.Injective enc.g1)
        (h3 : Function.Injective enc.gt) (params : ProofParams G1) (hx : params.x ≠ 0) (hy : params.y ≠ 0)
        (sk : F) (label : String) (adv : Ω → OracleProg Query F (Shown (NonProof F G1) F Transcript)) (q : Nat)
        (hq : ∀ ω, (adv ω).QueryBound q) (S : Finset Query),
        let app := App.fixed (accWithElements E sk l) (publicKey E sk)
        (∀ ω (H : S → F), nonQuery E enc params app label ((adv ω).eval (oracle S 0 H)) ∈ S) →
        let a := prob (fun x : Ω × (S → F) =>
          let out := (adv x.1).eval (oracle S 0 x.2)
          nonAccepts E (asHash (oracle S 0 x.2)) enc out.proof (accWithElements E sk l) params (publicKey E sk)
            out.challenge out.info label)
        a * (a / (q + 1) - 1 / Nat.card F) ≤ prob (fun x : Ω × (S → F) × (S → F) =>
          let out := (adv x.1).eval (oracle S 0 x.2.1)
          let out' := rerun S (adv x.1) (nonQuery E enc params app label) x.2.1 x.2.2
          let y := out.proof.extractElement out'.proof out.challenge out'.challenge
          let w := out.proof.extractWitness params out'.proof out.challenge out'.challenge
          (y ∉ l ∧ nmwVerify E w y (publicKey E sk) (accWithElements E sk l) = true ∧ w.d ≠ 0) ∨
          (y + sk) • (w.d⁻¹ • (fromPowers sk E.g1 (quo y) - w.c)) = E.g1 ∨
          E.g1 = quot out.proof.sW out'.proof.sW out.challenge out'.challenge • params.k) := by
  classical
  have pick : ∀ y : F, ∃ quo : List F, quo.length ≤ l.length ∧ (y ∈ l →
      ∀ (E : Pairing F G1 G2 GT) (sk : F) (w : NonMembershipWitness F G1),
        nmwVerify E w y (publicKey E sk) (accWithElements E sk l) = true → w.d ≠ 0 →
        (y + sk) • (w.d⁻¹ • (fromPowers sk E.g1 quo - w.c)) = E.g1) := by
    intro y
    by_cases hy : y ∈ l
    · obtain ⟨quo, hq, h⟩ := C60_nonmembership_forgery (G1 := G1) (G2 := G2) (GT := GT) l y hy
      exact ⟨quo, hq, fun _ E sk w hv hd => h E sk w hv hd⟩
    · exact ⟨[], Nat.zero_le _, fun h => absurd h hy⟩
  choose quo hlen hforge using pick
  refine ⟨quo, hlen, ?_⟩
  intro E enc h1 h3 params hx hy sk label adv q hq S app hS a
  have k := C71_nonmembership E enc h1 h3 params hx hy app (App.fixed_binds _ _) label adv q hq S hS
    (fun _ => True)
  have ha : a = prob (fun x : Ω × (S → F) =>
      let out := (adv x.1).eval (oracle S 0 x.2)
      nonAccepts E (asHash (oracle S 0 x.2)) enc out.proof (app.acc out.info) params (app.key out.info)
        out.challenge (app.pre out.info) label ∧ True) := by
    simp only [and_true]; rfl
  rw [ha]
  refine le_trans k (prob_mono ?_)
  rintro ⟨ω, H, G⟩ ⟨-, -, h, hd⟩
  rcases hd with hd | hd
  · by_cases hm : ((adv ω).eval (oracle S 0 H)).proof.extractElement
        (rerun S (adv ω) (nonQuery E enc params app label) H G).proof ((adv ω).eval (oracle S 0 H)).challenge
        (rerun S (adv ω) (nonQuery E enc params app label) H G).challenge ∈ l
    · exact .inr (.inl (hforge _ hm E sk _ h hd))
    · exact .inl ⟨hm, h, hd⟩
  · exact .inr (.inr hd)

/-! ### C72: enrolment -/

/-- What is sent to `Server::witness`: id, challenge, response, public key. -/
structure EnrolRequest (F G1 : Type) where
  id : F
  challenge : F
  response : F
  pubKey : G1

/-- The query the server makes. -/
def enrolQuery (enc : Enc G1 G2 GT) (params : AccParams G1 G2) (x : EnrolRequest F G1) : Query :=
  (((Transcript.new "user_signature_proof").append "user_pub_key" (enc.g1 x.pubKey)).append "commitment"
    (enc.g1 (x.response • params.k1 + x.challenge • x.pubKey)), "challenge")

/-- **C72** (enrolment). If an adversary which asks at most `q` hash queries gets, with probability `a`, a
witness from a server (whatever the state of the server), then with probability at least `a (a/(q+1) - 1/|F|)`
its two outputs are for one public key and `(z - z')/(c' - c)` is the secret key of that public key. -/
theorem C72_enrol_knowledge [DecidableEq G1] (enc : Enc G1 G2 GT) (h1 : Function.Injective enc.g1)
    (params : AccParams G1 G2) (srv : Server F G1 G2) (adv : Ω → OracleProg Query F (EnrolRequest F G1)) (q : Nat)
    (hq : ∀ ω, (adv ω).QueryBound q) (S : Finset Query)
    (hS : ∀ ω (H : S → F), enrolQuery enc params ((adv ω).eval (oracle S 0 H)) ∈ S) :
    let a := prob (fun x : Ω × (S → F) =>
      let out := (adv x.1).eval (oracle S 0 x.2)
      ∃ r, srv.witness (asHash (oracle S 0 x.2)) enc params out.id out.challenge out.response out.pubKey
        = .ok (some r))
    a * (a / (q + 1) - 1 / Nat.card F) ≤ prob (fun x : Ω × (S → F) × (S → F) =>
      let out := (adv x.1).eval (oracle S 0 x.2.1)
      let out' := rerun S (adv x.1) (enrolQuery enc params) x.2.1 x.2.2
      out'.pubKey = out.pubKey ∧
      out.pubKey = ((out.response - out'.response) / (out'.challenge - out.challenge)) • params.k1) := by
  have acc : ∀ (H : Oracle F) (x : EnrolRequest F G1),
      (∃ r, srv.witness H enc params x.id x.challenge x.response x.pubKey = .ok (some r)) ↔
      H (enrolQuery enc params x).1 (enrolQuery enc params x).2 = x.challenge ∧
      ∃ r, srv.witness (fun _ _ => x.challenge) enc params x.id x.challenge x.response x.pubKey = .ok (some r) := by
    intro H x
    unfold Server.witness
    by_cases hm : (!mapContains srv.allWitnesses x.id) = true
    · simp [hm, pure, Except.pure]
    · simp only [hm, if_false, enrolQuery, ne_eq, not_true_eq_false]
      by_cases hc : H (((Transcript.new "user_signature_proof").append "user_pub_key" (enc.g1 x.pubKey)).append
        "commitment" (enc.g1 (x.response • params.k1 + x.challenge • x.pubKey))) "challenge" = x.challenge
      · simp [hc]
      · simp [hc, pure, Except.pure]
  have fk := forking (0 : F) S adv q hq (fun _ => enrolQuery enc params) hS
    (fun _ x c => c = x.challenge ∧
      ∃ r, srv.witness (fun _ _ => x.challenge) enc params x.id x.challenge x.response x.pubKey = .ok (some r))
  intro a
  have ha : a = prob (fun x : Ω × (S → F) =>
      let out := (adv x.1).eval (oracle S 0 x.2)
      oracle S 0 x.2 (enrolQuery enc params out) = out.challenge ∧
      ∃ r, srv.witness (fun _ _ => out.challenge) enc params out.id out.challenge out.response out.pubKey
        = .ok (some r)) :=
    congrArg prob (funext fun x => propext (acc _ _))
  rw [ha]
  refine le_trans fk (prob_mono ?_)
  rintro ⟨ω, H, G⟩ ⟨⟨e1, r, hr⟩, ⟨e2, r', hr'⟩, e3, e4⟩
  have e5 := e3
  simp only [enrolQuery, Transcript.append, Transcript.new, List.nil_append, List.cons_append, Prod.mk.injEq,
    Transcript.mk.injEq, List.cons.injEq, true_and, and_true, h1.eq_iff] at e5
  obtain ⟨hpk, hcom⟩ := e5
  refine ⟨hpk, ?_⟩
  rw [hpk] at hcom hr'
  refine C55_special_sound _ _ enc params srv srv _ _ _ _ _ _ _ r r' hr hr' hcom.symm ?_
  intro hcc
  apply e4
  rw [e3] at e2
  rw [e2, e1]
  exact hcc.symm

/-! ### The hypotheses are met: honest provers -/

theorem prob_one {Ω : Type} [Finite Ω] [Nonempty Ω] {P : Ω → Prop} (h : ∀ ω, P ω) : prob P = 1 := by
  unfold prob
  rw [Nat.card_congr (Equiv.subtypeUnivEquiv h), div_self]
  exact_mod_cast Nat.card_pos.ne'

/-- The honest membership prover as a program with one query (the owner of the witness `C` of `y`). -/
def honestMem (E : Pairing F G1 G2 GT) (enc : Enc G1 G2 GT) (params : ProofParams G1) (pk : G2) (t : Transcript)
    (label : String) (y : F) (C : G1) (rand : MemRand F) : OracleProg Query F (Shown (MemProof F G1) F Transcript) :=
  let mpc := MemCommitting.new E (.hidden y) C params pk rand
  .ask (mpc.getBytesForChallenge enc t, label) (fun c => .done ⟨mpc.genProof c, c, t⟩)

/-- **C71** is not empty: the owner of a witness is an adversary with `a = 1` and one query. -/
theorem C71_honest (E : Pairing F G1 G2 GT) (enc : Enc G1 G2 GT) (h1 : Function.Injective enc.g1)
    (h3 : Function.Injective enc.gt) (params : ProofParams G1) (hx : params.x ≠ 0) (hy : params.y ≠ 0)
    (V : G1) (pk : G2) (t : Transcript) (label : String) (y : F) (C : G1) (hv : mwVerify E C y pk V = true)
    (rand : MemRand F) :
    let adv : Unit → OracleProg Query F (Shown (MemProof F G1) F Transcript) := fun _ =>
      honestMem E enc params pk t label y C rand
    let app := App.fixed V pk
    (∀ ω, (adv ω).QueryBound 1) ∧
    ∃ S : Finset Query, (∀ ω (H : S → F), memQuery E enc params app label ((adv ω).eval (oracle S 0 H)) ∈ S) ∧
      prob (fun x : Unit × (S → F) =>
        let out := (adv x.1).eval (oracle S 0 x.2)
        memAccepts E (asHash (oracle S 0 x.2)) enc out.proof V params pk out.challenge out.info label) = 1 ∧
      1 / 2 - 1 / (Nat.card F : ℚ) ≤ prob (fun x : Unit × (S → F) × (S → F) =>
        let out := (adv x.1).eval (oracle S 0 x.2.1)
        let out' := rerun S (adv x.1) (memQuery E enc params app label) x.2.1 x.2.2
        mwVerify E (out.proof.extractWitness params out'.proof out.challenge out'.challenge)
          (out.proof.extractElement out'.proof out.challenge out'.challenge) pk V = true) := by
  intro adv app
  have hb : ∀ ω, (adv ω).QueryBound 1 := fun _ _ => trivial
  obtain ⟨S, -, hS⟩ := C70_query_set (Ω := Unit) adv 1 hb (memQuery E enc params app label)
  have hone : prob (fun x : Unit × (S → F) =>
      let out := (adv x.1).eval (oracle S 0 x.2)
      memAccepts E (asHash (oracle S 0 x.2)) enc out.proof V params pk out.challenge out.info label) = 1 := by
    refine prob_one (fun x => ?_)
    simp only [adv, honestMem, OracleProg.eval, memAccepts]
    rw [(C46_finalize_iff E (.hidden y) C V params pk rand _).2 (.inr hv)]
    rfl
  refine ⟨hb, S, fun ω H => hS ω _, hone, ?_⟩
  have k := C71_membership E enc h1 h3 params hx hy app (App.fixed_binds _ _) label adv 1 hb S (fun ω H => hS ω _)
    (fun _ => True)
  simp only [and_true, true_and] at k
  rw [show prob (fun x : Unit × (S → F) => memAccepts E (asHash (oracle S 0 x.2)) enc
      ((adv x.1).eval (oracle S 0 x.2)).proof (app.acc ((adv x.1).eval (oracle S 0 x.2)).info) params
      (app.key ((adv x.1).eval (oracle S 0 x.2)).info) ((adv x.1).eval (oracle S 0 x.2)).challenge
      (app.pre ((adv x.1).eval (oracle S 0 x.2)).info) label) = 1 from hone] at k
  refine le_trans ?_ k
  norm_num

/-- **C71** (non-membership) is not empty: the owner of a non-membership witness with `d ≠ 0` is an adversary with `a = 1`
and one query. -/
theorem C71_honest_non (E : Pairing F G1 G2 GT) (enc : Enc G1 G2 GT) (h1 : Function.Injective enc.g1)
    (h3 : Function.Injective enc.gt) (params : ProofParams G1) (hx : params.x ≠ 0) (hy : params.y ≠ 0)
    (V : G1) (pk : G2) (t : Transcript) (label : String) (y : F) (w : NonMembershipWitness F G1)
    (hv : nmwVerify E w y pk V = true) (hd : w.d ≠ 0) (rand : NonRand F) :
    ∃ nc, NonCommitting.new E y w params pk none rand = .ok nc ∧
    let adv : Unit → OracleProg Query F (Shown (NonProof F G1) F Transcript) := fun _ =>
      .ask (nc.getBytesForChallenge enc t, label) (fun c => .done ⟨nc.genProof c, c, t⟩)
    let app := App.fixed V pk
    (∀ ω, (adv ω).QueryBound 1) ∧
    ∃ S : Finset Query, (∀ ω (H : S → F), nonQuery E enc params app label ((adv ω).eval (oracle S 0 H)) ∈ S) ∧
      prob (fun x : Unit × (S → F) =>
        let out := (adv x.1).eval (oracle S 0 x.2)
        nonAccepts E (asHash (oracle S 0 x.2)) enc out.proof V params pk out.challenge out.info label) = 1 ∧
      1 / 2 - 1 / (Nat.card F : ℚ) ≤ prob (fun x : Unit × (S → F) × (S → F) =>
        let out := (adv x.1).eval (oracle S 0 x.2.1)
        let out' := rerun S (adv x.1) (nonQuery E enc params app label) x.2.1 x.2.2
        let w' := out.proof.extractWitness params out'.proof out.challenge out'.challenge
        nmwVerify E w' (out.proof.extractElement out'.proof out.challenge out'.challenge) pk V = true ∧
        (w'.d ≠ 0 ∨ E.g1 = quot out.proof.sW out'.proof.sW out.challenge out'.challenge • params.k)) := by
  obtain ⟨nc, hnc⟩ := (C49_panics_iff E y w params pk none rand).2 hd
  refine ⟨nc, hnc, ?_⟩
  intro adv app
  have hb : ∀ ω, (adv ω).QueryBound 1 := fun _ _ => trivial
  obtain ⟨S, -, hS⟩ := C70_query_set (Ω := Unit) adv 1 hb (nonQuery E enc params app label)
  have hone : prob (fun x : Unit × (S → F) =>
      let out := (adv x.1).eval (oracle S 0 x.2)
      nonAccepts E (asHash (oracle S 0 x.2)) enc out.proof V params pk out.challenge out.info label) = 1 := by
    refine prob_one (fun x => ?_)
    simp only [adv, OracleProg.eval, nonAccepts]
    rw [(C49_finalize_iff E y w V params pk none rand _ nc hnc).2 (.inr hv)]
    rfl
  refine ⟨hb, S, fun ω H => hS ω _, hone, ?_⟩
  have k := C71_nonmembership E enc h1 h3 params hx hy app (App.fixed_binds _ _) label adv 1 hb S (fun ω H => hS ω _)
    (fun _ => True)
  simp only [and_true, true_and] at k
  rw [show prob (fun x : Unit × (S → F) => nonAccepts E (asHash (oracle S 0 x.2)) enc
      ((adv x.1).eval (oracle S 0 x.2)).proof (app.acc ((adv x.1).eval (oracle S 0 x.2)).info) params
      (app.key ((adv x.1).eval (oracle S 0 x.2)).info) ((adv x.1).eval (oracle S 0 x.2)).challenge
      (app.pre ((adv x.1).eval (oracle S 0 x.2)).info) label) = 1 from hone] at k
  refine le_trans ?_ k
  norm_num

/-- **C72** is not empty: a user that knows its key gets a witness with probability 1 with one query. -/
theorem C72_honest [DecidableEq G1] (enc : Enc G1 G2 GT) (h1 : Function.Injective enc.g1)
    (params : AccParams G1 G2) (srv : Server F G1 G2) (y : F) (hy : y ∈ srv.ids) (hs : y + srv.signSecretKey ≠ 0)
    (key k : F) :
    let adv : Unit → OracleProg Query F (EnrolRequest F G1) := fun _ =>
      .ask (((Transcript.new "user_signature_proof").append "user_pub_key" (enc.g1 (key • params.k1))).append
        "commitment" (enc.g1 (k • params.k1)), "challenge") (fun c => .done ⟨y, c, k - c * key, key • params.k1⟩)
    (∀ ω, (adv ω).QueryBound 1) ∧
    ∃ S : Finset Query, (∀ ω (H : S → F), enrolQuery enc params ((adv ω).eval (oracle S 0 H)) ∈ S) ∧
      prob (fun x : Unit × (S → F) =>
        let out := (adv x.1).eval (oracle S 0 x.2)
        ∃ r, srv.witness (asHash (oracle S 0 x.2)) enc params out.id out.challenge out.response out.pubKey
          = .ok (some r)) = 1 := by
  intro adv
  have hb : ∀ ω, (adv ω).QueryBound 1 := fun _ _ => trivial
  obtain ⟨S, -, hS⟩ := C70_query_set (Ω := Unit) adv 1 hb (enrolQuery enc params)
  refine ⟨hb, S, fun ω H => hS ω _, prob_one (fun x => ?_)⟩
  have hcom : ∀ c : F, (k - c * key) • params.k1 + c • key • params.k1 = k • params.k1 := by intro c; module
  refine (C55_accept_iff _ enc params srv y _ _ _ hs).2 ⟨hy, ?_⟩
  simp only [adv, OracleProg.eval, hcom]
  rfl

end

/-! ### A concrete case over a field with 7 elements -/

section
instance : Fact (Nat.Prime 7) := ⟨by norm_num⟩

/-- One byte per element. -/
def enc7 : Enc (ZMod 7) (ZMod 7) (ZMod 7) :=
  let f : ZMod 7 → Bytes := fun x => [UInt8.ofNat x.val]
  ⟨f, f, f⟩

theorem enc7_inj : Function.Injective enc7.g1 := by decide

/-- Parameters, a key pair with secrets `1, 1`, and a credential of id `1` for the accumulator `2`: C70 applies to its
owner, whose credential is extracted with probability at least `1/2 - 1/7`. -/
example : ∃ S : Finset Query, 1 / 2 - 1 / 7 ≤ prob (fun x : Unit × (S → ZMod 7) × (S → ZMod 7) =>
    let adv := honestProver (Pairing.field (ZMod 7)) enc7 ⟨1, 1, 1, 1, 1, 1, 1, 1⟩ ⟨1, 1⟩ 2 [] 1 ⟨1, 1, 1⟩
      ⟨1, 2, 3, 4, 5, 6, 0, 1, 2, 3, 4⟩
    Extracts (Pairing.field (ZMod 7)) ⟨1, 1, 1, 1, 1, 1, 1, 1⟩ (adv.eval (oracle S 0 x.2.1))
      (rerun S adv (Presentation.query (Pairing.field (ZMod 7)) enc7 ⟨1, 1, 1, 1, 1, 1, 1, 1⟩) x.2.1 x.2.2)) := by
  obtain ⟨-, S, -, -, h⟩ := C70_honest (Pairing.field (ZMod 7)) enc7 enc7_inj enc7_inj enc7_inj
    ⟨1, 1, 1, 1, 1, 1, 1, 1⟩ ⟨1, 1⟩ 2 [] 1 ⟨1, 1, 1⟩ (by decide +kernel) ⟨1, 2, 3, 4, 5, 6, 0, 1, 2, 3, 4⟩
  refine ⟨S, ?_⟩
  simpa using h

end
end Allo
