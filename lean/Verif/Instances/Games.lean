import Verif.Instances.Rom
import Verif.Props.NonMalleable
import Verif.Props.EnrolZk
import Verif.Props.Random
import Verif.Props.Codec
import Verif.Props.AdaptiveSign
import Verif.Props.AdaptiveVb
import Verif.Props.AdaptiveAnon
import Verif.Props.VbZk
import Verif.Props.Full
import Verif.Props.ClientRandom

/-!
# Concrete cases of the theorems in `Props/NonMalleable`, `EnrolZk`, `Random`, `AdaptiveSign`, `AdaptiveVb`, `AdaptiveAnon`,
`VbZk` and `Full`

As in `Instances/Rom`, over a field with 7 elements. (`C79_example`, `C81_example`, `C87_example`, `exFull_wins` in those
files go further: they give adversaries which win, with their probabilities.)
-/

set_option linter.unusedVariables false
namespace Allo
open Spec Rom Inst
namespace Seven

/-! ### C84 once more: the bound is not trivial -/

/-- the insider of `Instances/Rom` succeeds with probability at least 6/7, so that the last hypothesis of
`C84_presentation` is met -/
example (S : Finset Query) :
    0 ≤ prob (fun x : (Unit × K × K) × (S → K) => ∃ p g,
        (runGame P x.1.2.1 1 x.1.2.2 [1] (ins x.1.1)).eval (oracle S 0 x.2) = .ok (p, g) ∧
        p.accepted E (asHash (oracle S 0 x.2)) enc7 P ∧ g.server.getAccumulator = .ok p.accumulator ∧
        p.keys = g.server.getPublicKeys) - (([1] : List K).length + 1) / Nat.card K := by
  have h1 : prob (fun _ : (Unit × K × K) × (S → K) => True) = 1 := prob_one (fun _ => trivial)
  have h2 := prob_le_add (X := (Unit × K × K) × (S → K)) (A := fun _ => True)
    (B := fun x => ∃ p g, (runGame P x.1.2.1 1 x.1.2.2 [1] (ins x.1.1)).eval (oracle S 0 x.2) = .ok (p, g) ∧
        p.accepted E (asHash (oracle S 0 x.2)) enc7 P ∧ g.server.getAccumulator = .ok p.accumulator ∧
        p.keys = g.server.getPublicKeys)
    (C := fun x => x.1.2.2 = 0 ∨ prodPlus x.1.2.1 [1] = 0) (by
      intro x _
      by_cases hb : 1 + x.1.2.1 = 0
      · right; right; simp [prodPlus, hb]
      · left
        obtain ⟨p, g, k1, k2, k3, k4, -⟩ := (C84_insider E enc7 P (by decide) (by decide) 1 5 [] rnd).2 x.1.2.1 1 x.1.2.2
          (oracle S 0 x.2) hb (by decide)
        exact ⟨p, g, k1, k2, k3, k4⟩)
  have h3 := prob_bad (Ω := Unit) (F := K) (Y := S → K) [1]
  have hc : (([1] : List K).length + 1 : ℚ) / Nat.card K = 2 / 7 := by
    rw [Nat.card_eq_fintype_card, ZMod.card]; norm_num
  rw [hc] at h3 ⊢
  rw [h1] at h2
  linarith

/-! ### C77 – C79 -/

/-- the adversary gets a proof for the ephemeral challenge `[1]` and presents its own for `[2]` -/
abbrev coll : Unit → ProverProg Query K (Unit × Bytes) (CredProof K K) (Presentation K K K) := fun _ =>
  .prove ((), [1]) (fun p => .hash ((credProver E enc7 ex79Params ex79Holders).commit ((), [2]) default)
    (fun c => .done ⟨(credProver E enc7 ex79Params ex79Holders).respond ((), [2]) default c, ⟨1, 1⟩, 2, [2]⟩))

/-- another user: id 3 with the credential `⟨1, 4, 4⟩` for the same accumulator -/
def other : Unit → Holder K K K := fun _ => ⟨3, ⟨1, 4, 4⟩, 2, ⟨1, 1⟩⟩
theorem other_valid : ValidHolders E ex79Params other := by rintro ⟨⟩; decide +kernel

noncomputable def S₆ : Finset Query := (C78_query_set (Ω := Unit) E enc7 ex79Params ex79Holders coll).choose ∪
  (C78_query_set (Ω := Unit) E enc7 ex79Params other coll).choose ∪
  (C78_query_set (Ω := Unit) E enc7 ex79Params ex79Holders
    (fun ω => (coll ω).andHash (Presentation.query E enc7 ex79Params))).choose

theorem mono {C R W α : Type} (pv : Prover Query K C R W) (S T : Finset Query) (hST : S ⊆ T) :
    ∀ p : ProverProg Query K C R α, p.QueriesIn pv (· ∈ S) → p.QueriesIn pv (· ∈ T) := by
  intro p
  induction p with
  | done a => intro _; trivial
  | hash q k ih => rintro ⟨h1, h2⟩; exact ⟨hST h1, fun r => ih r (h2 r)⟩
  | prove c k ih => rintro ⟨h1, h2⟩; exact ⟨fun w => hST (h1 w), fun r => ih r (h2 r)⟩

theorem S₆a (ω : Unit) : (coll ω).QueriesIn (credProver E enc7 ex79Params ex79Holders) (· ∈ S₆) :=
  mono _ _ _ (fun x hx => Finset.mem_union_left _ (Finset.mem_union_left _ hx)) _
    ((C78_query_set (Ω := Unit) E enc7 ex79Params ex79Holders coll).choose_spec ω)
theorem S₆b (ω : Unit) : (coll ω).QueriesIn (credProver E enc7 ex79Params other) (· ∈ S₆) :=
  mono _ _ _ (fun x hx => Finset.mem_union_left _ (Finset.mem_union_right _ hx)) _
    ((C78_query_set (Ω := Unit) E enc7 ex79Params other coll).choose_spec ω)
theorem S₆c (ω : Unit) : ((coll ω).andHash (Presentation.query E enc7 ex79Params)).QueriesIn
    (credProver E enc7 ex79Params ex79Holders) (· ∈ S₆) :=
  mono _ _ _ (fun x hx => Finset.mem_union_right _ hx) _
    ((C78_query_set (Ω := Unit) E enc7 ex79Params ex79Holders
      (fun ω => (coll ω).andHash (Presentation.query E enc7 ex79Params))).choose_spec ω)

example := C77_nonmalleable E (fun _ _ => 3) enc7 enc7_inj enc7_inj enc7_inj ex79Params (by decide +kernel)
  (by decide +kernel) (by decide +kernel) ⟨1, 1⟩ 2 (by decide) [9] 1 ⟨1, 1, 1⟩ rnd _ rfl
example := C77_other_context E enc7 enc7_inj enc7_inj enc7_inj P ⟨⟨1, 2, 3, 4, 5, 6, 0, 1, 2, 3, 4, 5⟩, keys, 2, [1]⟩
  ⟨⟨1, 2, 3, 4, 5, 6, 0, 1, 2, 3, 4, 5⟩, keys, 2, [2]⟩ (.inl (by decide))
example := C78_prover E enc7 ex79Params ex79Holders ex79_valid ((), [1]) rnd
example (ev : Presentation K K K → List ((Unit × Bytes) × CredProof K K) → Prop) :=
  C78_zero_knowledge E enc7 enc7_inj enc7_inj enc7_inj ex79Params (by decide +kernel) ex79Holders ex79_valid
    (publicOf ex79Holders) (fun _ => rfl) coll 1 1 (fun _ _ _ => trivial) S₆ S₆a ev
example (ev : Presentation K K K → List ((Unit × Bytes) × CredProof K K) → Prop) :=
  C78_worlds E enc7 enc7_inj enc7_inj enc7_inj ex79Params (by decide +kernel) ex79Holders other ex79_valid other_valid
    (fun _ => ⟨rfl, rfl⟩) coll 1 1 (fun _ _ _ => trivial) S₆ S₆a S₆b ev
example := C79_fresh_transcript E enc7 enc7_inj enc7_inj enc7_inj ex79Params (by decide +kernel) ex79Holders ex79_valid
  (publicOf ex79Holders) (fun _ => rfl) coll 1 1 (fun _ _ _ => trivial) S₆ S₆c (fun _ => True)
example := C79_not_a_copy E enc7 enc7_inj enc7_inj enc7_inj ex79Params (by decide +kernel) (by decide +kernel)
  (by decide +kernel) (by decide +kernel) ex79Holders ex79_valid (by decide +kernel)
  (publicOf ex79Holders) (fun _ => rfl) coll 1 1 (fun _ _ _ => trivial) S₆ S₆c (fun _ => True)
example : ∃ (quo : K → List K) (r : K → K), True := by
  obtain ⟨quo, r, -, h⟩ := C79_revocation (Ω := Unit) (ι := Unit) (G1 := K) (G2 := K) (GT := K) [.add 1, .add 3, .delete (3 : K)]
    (by decide)
  obtain ⟨B, hB, h⟩ := h E enc7 enc7_inj enc7_inj enc7_inj ex79Params 1 1 4 _ (by decide +kernel) (by decide +kernel)
    (by decide +kernel) (by decide +kernel) rfl
  have := h 1 (by decide +kernel) ex79Holders ex79_valid (publicOf ex79Holders) (fun _ => rfl) coll 1 1
    (fun _ _ _ => trivial) S₆ S₆c
  exact ⟨quo, r, trivial⟩

/-! ### C81 -/

abbrev watch : Unit → ProverProg Query K Bool (K × K) (EnrolRequest K K) := fun _ =>
  .prove false (fun _ => .hash ((enrolProver enc7 ex79Params ex81Key).commit true 5)
    (fun c => .done ⟨1, c, 5 - c * 3, 3⟩))
noncomputable def S₇ : Finset Query := (C81_query_set (Ω := Unit) enc7 ex79Params ex81Key watch).choose ∪
  (C81_query_set (Ω := Unit) enc7 ex79Params ex81Key (fun ω => (watch ω).andHash (enrolQuery enc7 ex79Params))).choose
theorem S₇a (ω : Unit) : (watch ω).QueriesIn (enrolProver enc7 ex79Params ex81Key) (· ∈ S₇) :=
  mono _ _ _ (fun x hx => Finset.mem_union_left _ hx) _
    ((C81_query_set (Ω := Unit) enc7 ex79Params ex81Key watch).choose_spec ω)
theorem S₇b (ω : Unit) : ((watch ω).andHash (enrolQuery enc7 ex79Params)).QueriesIn
    (enrolProver enc7 ex79Params ex81Key) (· ∈ S₇) :=
  mono _ _ _ (fun x hx => Finset.mem_union_right _ hx) _
    ((C81_query_set (Ω := Unit) enc7 ex79Params ex81Key
      (fun ω => (watch ω).andHash (enrolQuery enc7 ex79Params))).choose_spec ω)
theorem key81 : ∀ i, ex81Key i = ex81Key i • ex79Params.k1 := by decide +kernel

theorem accepted₃ (z : K) : EnrolRequest.accepted (fun _ _ => 3) enc7 ex79Params ex81Server ⟨1, 3, z, 3⟩ :=
  (C55_accept_iff (fun _ _ => 3) enc7 ex79Params ex81Server 1 3 z 3 (by decide +kernel)).2 ⟨by decide +kernel, rfl⟩
example := C81_nonmalleable (fun _ _ => 3) enc7 enc7_inj ex79Params (by decide +kernel) ex81Server ex81Server
  ⟨1, 3, 5, 3⟩ ⟨1, 3, 6, 3⟩ (accepted₃ 5) (accepted₃ 6)
example (ev : EnrolRequest K K → List (Bool × K × K) → Prop) := C81_zero_knowledge enc7 enc7_inj ex79Params
  (by decide +kernel) ex81Key ex81Key key81 watch 1 1 (fun _ _ _ => trivial) S₇ S₇a ev
example := C81_extract enc7 enc7_inj ex79Params (by decide +kernel) ex81Key ex81Key key81 ex81Server watch 1 1
  (fun _ _ _ => trivial) S₇ S₇b (fun _ => True)
example := C81_impersonation enc7 enc7_inj ex79Params (by decide +kernel) ex81Key ex81Key key81 ex81Server watch 1 1
  (fun _ _ _ => trivial) S₇ S₇b

/-! ### C85 -/

abbrev P₈ : AccParams K K := ⟨1, 1, 1, 2, 1, 5, 6, 4⟩

example := C85_simulation enc7 P₈ 1 3 4 5 2 5 [1, 2] (by decide +kernel) exIssuer O₃
example : ∃ y w g m, (runIssuer enc7 (P₈.withK ((2 * prodPlus (4 : K) [1, 2]) • 1)
      ((5 * prodPlus (4 : K) [1, 2]) • 1)) 3 4 5 [1, 2] exIssuer).eval (fun _ => 6) = .ok ((y, w), g) ∧
    (runIssuerSim enc7 P₈ (powers (4 : K) (1 : K) 2) ((4 : K) • P₈.k2) 3 5 [1, 2] 2 5 exIssuer).eval (fun _ => 6) = .ok ((y, w), m) := by
  obtain ⟨y, w, g, h1, h2, -⟩ := exIssuer_forges
  obtain ⟨m, hm, -⟩ := C85_forgery E enc7 P₈ (by decide) (by decide) 1 3 4 5 2 5 [1, 2] (by decide +kernel) exIssuer
    (fun _ => 6) y w g h1 h2
  exact ⟨y, w, g, m, h1, hm⟩
example := C85_credential E enc7 P₈ (by decide) (by decide) 1 (by decide) 3 5 [1, 2] (fun _ : Unit => exIssuer) O₃
example := C85_not_enrolled E enc7 P₈ (by decide) (by decide) 1 (by decide) 3 5 [1, 2] 5 (fun _ : Unit => exIssuer) O₃

/-- the issuer's adversary presents a proof of its own for id 1 -/
abbrev pres : Unit → AccParams K K → SignView K K K → IssuerProg K K K (Presentation K K K) := fun _ P _ =>
  .call (.add 1) fun _ v => .hash (issueQuery enc7 P (0 : K) 2 (3 * P.k1)) fun c => .enrol 1 c (2 - c * 3) 3 fun o =>
    let w : Witness K K := ⟨3, (o.getD 0).1, (o.getD 0).2⟩
    let V := v.accumulators.getLast?.getD 0
    let mpc := Committing.new E w P v.publicKeys rnd
    .hash ((mpc.getBytesForChallenge enc7 (credTranscript enc7 P v.publicKeys V)).append "Ephemeral challenge" [2],
      "challenge") fun c => .done ⟨mpc.genProof w 1 c, v.publicKeys, V, [2]⟩
theorem pres_bound (ω : Unit) (P : AccParams K K) (v : SignView K K K) : (pres ω P v).Bound 3 :=
  fun _ _ _ _ _ => trivial
example := C85_query_set E enc7 P₈ 1 3 5 [1, 2] pres 3 pres_bound
example := C85_presentation E enc7 enc7_inj enc7_inj enc7_inj P₈ (by decide) (by decide) 1 (by decide) 3 5 [1, 2] pres 3
  pres_bound _ (C85_query_set E enc7 P₈ 1 3 5 [1, 2] pres 3 pres_bound).choose_spec

/-! ### C86 -/

example : ∃ y f g, (runVb E 3 4 exVb).eval (fun _ => 6) = .ok ((y, f), g) ∧
    let pts := powers (3 : K) (1 : K) 4
    let sol := vbSolution pts ((runVbSim pts (publicKey E 3) 4 exVb).eval (fun _ => 6))
    SolvesSdh (3 : K) (1 : K) sol.1 sol.2 := by
  obtain ⟨y, f, g, h1, h2, -⟩ := exVb_forges
  exact ⟨y, f, g, h1, C86_forgery E 3 4 (by decide) (fun _ => 6) exVb y f g h1 h2⟩
example := C86_witness (Q := Unit) E 4 (by decide) (fun _ => 6) (fun _ : Unit => exVb)
example := C86_simulation E 3 4 (by decide) exVb (fun _ => 6)

abbrev app₇ : App (K × K × Bytes) K K := App.hashed enc7 (Transcript.new "t")

/-- it adds 1 and 2, gets the witness of 1, and proves membership of 1 -/
abbrev vbMem : Unit → K → VbProg K K Query (Shown (MemProof K K) K (K × K × Bytes)) := fun _ pk =>
  .call (.add 1) fun _ => .call (.add 2) fun a => .call (.membership 1) fun b =>
    let V := (a.map (·.accumulator)).getD 0
    let mpc := MemCommitting.new E (.hidden 1) (((b.bind (·.witness))).getD 0) pp pk mrand
    .hash (mpc.getBytesForChallenge enc7 (app₇.pre (V, pk, [])), "label") fun c => .done ⟨mpc.genProof c, c, (V, pk, [])⟩
theorem vbMem_bound (ω : Unit) (pk : K) : (vbMem ω pk).HashBound 1 := fun _ _ _ _ => trivial
example := C86_query_set E 4 (memQuery E enc7 pp app₇ "label") vbMem 1 vbMem_bound
example := C86_membership_proof E enc7 enc7_inj enc7_inj pp (by decide) (by decide) app₇
  (App.hashed_binds enc7 enc7_inj enc7_inj _) "label" 4 (by decide) vbMem 1 vbMem_bound _
  (C86_query_set E 4 (memQuery E enc7 pp app₇ "label") vbMem 1 vbMem_bound).choose_spec

/-- it adds 1 and 2 and gets the non-membership witness of 5; what it presents is always the same -/
abbrev vbNon : Unit → K → VbProg K K Query (Shown (NonProof K K) K (K × K × Bytes)) := fun _ pk =>
  .call (.add 1) fun _ => .call (.add 2) fun a => .call (.nonMembership 5) fun b =>
    .done ⟨⟨1, 2, 3, 4, 5, 6, 0, 1, 2, 3, 4, 5, 6⟩, 3, ((a.map (·.accumulator)).getD 0, pk, [])⟩
theorem vbNon_bound (ω : Unit) (pk : K) : (vbNon ω pk).HashBound 0 := fun _ _ _ => trivial
example := C86_nonmembership_proof E enc7 enc7_inj enc7_inj pp (by decide) (by decide) app₇
  (App.hashed_binds enc7 enc7_inj enc7_inj _) "label" 4 (by decide) vbNon 0 vbNon_bound _
  (C86_query_set E 4 (nonQuery E enc7 pp app₇ "label") vbNon 0 vbNon_bound).choose_spec

/-! ### C87 -/

theorem S₉ : ∃ S : Finset Query, ∀ ω, (ex87Adv ω).QueriesIn (memProver E enc7 ex87Params (ex87 true)) (· ∈ S) ∧
    (ex87Adv ω).QueriesIn (memProver E enc7 ex87Params (ex87 false)) (· ∈ S) :=
  C87_query_set (Ω := Unit) E enc7 ex87Params (ex87 true) (ex87 false) ex87Adv
example := C87_membership (Ω := Unit) E enc7 enc7_inj enc7_inj ex87Params (by decide +kernel) (by decide +kernel)
  (ex87 true) (ex87_valid true) (fun _ => (2, 1)) (fun _ => rfl) ex87Adv 0 1 (fun _ _ => trivial) _
  (fun ω => (S₉.choose_spec ω).1) (· = 1)
example := C87_membership_worlds (Ω := Unit) E enc7 enc7_inj enc7_inj ex87Params (by decide +kernel) (by decide +kernel)
  (ex87 true) (ex87 false) (ex87_valid true) (ex87_valid false) (fun _ => (2, 1)) (fun _ => rfl) (fun _ => rfl) ex87Adv 0 1
  (fun _ _ => trivial) _ (fun ω => (S₉.choose_spec ω).1) (fun ω => (S₉.choose_spec ω).2) (· = 1)

/-- two elements which are not accumulated in `2 = (0 + 2)`, secret key 2 -/
def nonm (b : Bool) (_ : Unit) : VbNonMember K K K := if b then ⟨1, ⟨1, 6⟩, 2, 2⟩ else ⟨3, ⟨1, 4⟩, 2, 2⟩
theorem nonm_valid (b : Bool) : ValidNonMembers E (nonm b) := by
  intro i
  cases b <;> (revert i; decide +kernel)

abbrev nonAdv (_ : Unit) : ProverProg Query K (VbContext Unit) (NonProof K K × K) K :=
  .prove ((), Transcript.new "app", "challenge") (fun p => .done p.2)
noncomputable def S₁₀ : Finset Query :=
  Finset.univ.image (fun x : Bool × NonRand K => (nonProver E enc7 ex87Params (nonm x.1)).commit ((), Transcript.new "app", "challenge") x.2)
theorem S₁₀_spec (b : Bool) (ω : Unit) : (nonAdv ω).QueriesIn (nonProver E enc7 ex87Params (nonm b)) (· ∈ S₁₀) :=
  ⟨fun w => Finset.mem_image.2 ⟨(b, w), Finset.mem_univ _, rfl⟩, fun _ => trivial⟩
example := C87_nonmembership (Ω := Unit) E enc7 enc7_inj enc7_inj ex87Params (by decide +kernel) (by decide +kernel)
  (by decide +kernel) (nonm true) (nonm_valid true) (fun _ => (2, 2)) (fun _ => rfl) nonAdv 0 1 (fun _ _ => trivial) S₁₀
  (S₁₀_spec true) (· = 1)
example := C87_nonmembership_worlds (Ω := Unit) E enc7 enc7_inj enc7_inj ex87Params (by decide +kernel) (by decide +kernel)
  (by decide +kernel) (nonm true) (nonm false) (nonm_valid true) (nonm_valid false) (fun _ => (2, 2)) (fun _ => rfl)
  (fun _ => rfl) nonAdv 0 1 (fun _ _ => trivial) S₁₀ (S₁₀_spec true) (S₁₀_spec false) (· = 1)
example := C87_prover E enc7 ex87Params (nonm true) ((), Transcript.new "app", "challenge") (by decide +kernel)
  ⟨1, 2, 3, 4, 5, 6, 0, 1, 2, 3, 4, 5⟩

/-! ### C88, C89 -/

example := C88_unforgeable (Ω := Unit) E enc7 enc7_inj enc7_inj enc7_inj P₈ (by decide) (by decide) (by decide) (by decide)
  1 (by decide) [1, 2] [2] [(1, 6)] (fun _ => exFull) 3 1 (fun _ => exFull_bound)

/-- an adversary that makes ids 1 and 2 enrol and asks the user in the first position for a proof -/
abbrev anon : AnonProg K K K Bool Nat :=
  .move (.serverOp (.add 1)) fun _ => .move (.serverOp (.add 2)) fun _ => .move (.enrol false) fun _ =>
    .move (.enrol true) fun _ => .done 7
example (H : Oracle K) := C89_anonymous (exAnon H enc7) (by simp only [exAnon]; decide) (by simp only [exAnon]; decide)
  (by simp only [exAnon]; decide) (fun _ _ => le_rfl) anon 4 8 (fun _ _ _ _ => trivial) (· = 7)

/-! ### C82 -/

noncomputable def Sb (salt : Bytes) : Finset Bytes := (Set.finite_range (fun rng : Seed => salt ++ List.ofFn rng)).toFinset
theorem Sb_spec (salt : Bytes) (rng : Seed) : salt ++ List.ofFn rng ∈ Sb salt := by
  unfold Sb
  rw [Set.Finite.mem_toFinset]
  exact Set.mem_range_self rng
example (ev : (Fin 3 → Fr) → Prop) := C82_generate_fr 3 SALT (Sb SALT) (Sb_spec SALT) ev
example := C82_random_ids (⟨1, 1, 2, 3, 1, 5, 7, 11⟩ : AccParams Fr Fr) 4 9 6 1000 (Sb SALT) (Sb_spec SALT)

abbrev EFr : Pairing Fr Fr Fr Fr := Pairing.field Fr
abbrev PFr : AccParams Fr Fr := ⟨1, 1, 2, 3, 1, 5, 7, 11⟩
def encFr : Enc Fr Fr Fr := ⟨scalarToBe, scalarToBe, scalarToBe⟩
theorem encFr_inj : Function.Injective encFr.g1 := by
  intro a b h
  have := congrArg scalarFromBe h
  simp only [encFr, scalarFromBe_toBe, Option.some.injEq] at this
  exact this

/-- it asks one query and presents a proof that contains the first byte of the answer -/
abbrev guess : Unit → OracleProg Query Wide (Presentation Fr Fr Fr) := fun _ =>
  .ask (Transcript.new "t", "challenge") fun b =>
    .done ⟨⟨1, 2, 3, ((b 0).toNat : Fr), 5, 6, 7, 8, 9, 10, 11, 12⟩, ⟨4, 9⟩, 6, []⟩
theorem guess_bound (ω : Unit) : (guess ω).QueryBound 1 := fun _ => trivial
theorem S₁₁ : ∃ S : Finset Query, ∀ ω, ((guess ω).withAnswer (Presentation.query EFr encFr PFr)).QueriesIn (· ∈ S) :=
  C82_query_set guess 1 guess_bound (Presentation.query EFr encFr PFr)
example (ev : Presentation Fr Fr Fr → Fr → Prop) := C82_challenges guess 1 guess_bound (Presentation.query EFr encFr PFr) _
  S₁₁.choose_spec ev
example := C82_knowledge EFr encFr encFr_inj encFr_inj encFr_inj PFr guess 1 guess_bound _ S₁₁.choose_spec (fun _ => True)

/-! ### C106 -/

/-- it makes ids 1 and 2 enrol, tries a seed, and asks the user in the first position for a proof -/
abbrev anonShake : AnonShake Fr Fr Fr Bool Nat :=
  .move (.serverOp (.add 1)) fun _ => .move (.serverOp (.add 2)) fun _ => .move (.enrol false) fun _ =>
    .move (.enrol true) fun _ => .shake (SALT ++ List.replicate 32 0) fun b => .move (.present false true []) fun r =>
      match r with
      | .proof (some p) => if p.s0 = fromBytesWide b then .done 1 else .done 0
      | _ => .done 0
theorem anonShake_moves : anonShake.Moves 5 := fun _ _ _ _ _ r => by
  show AnonShake.Moves 0 _
  rcases r with _ | _ | _ | _ | _ | (_ | p) <;> try trivial
  dsimp only
  split <;> trivial
theorem anonShake_hashes : anonShake.Hashes 1 := fun _ _ _ _ _ r => by
  show AnonShake.Hashes 0 _
  rcases r with _ | _ | _ | _ | _ | (_ | p) <;> try trivial
  dsimp only
  split <;> trivial
abbrev anonFr (H : Oracle Fr) : AnonGame Fr Fr Fr Fr Bool :=
  ⟨EFr, H, encFr, PFr, fun _ => 1, 4, 9, 6, fun j => if j then 2 else 1⟩
example (H : Oracle Fr) := C106_anonymous (anonFr H) (show (1 : Fr) ≠ 0 by decide +kernel)
  (show (1 : Fr) ≠ 0 by decide +kernel) (show (11 : Fr) ≠ 0 by decide +kernel)
  (fun _ _ => le_rfl) anonShake 5 8 1 anonShake_moves anonShake_hashes (Sb SALT) (Sb_spec SALT) (· = 1)

/-- guess one of two seeds -/
example := C106_game 2 1 (fun _ => SALT) (Sb SALT) (fun _ => Sb_spec SALT)
  (fun s => .ask (SALT ++ List.replicate 32 0) fun b => .done (fromBytesWide b = s 0 ∨ fromBytesWide b = s 1))
  (fun _ _ => trivial) id

noncomputable def Sb2 : Finset Bytes := Sb SALT ∪ Sb (ascii "VB-ACC-KEYGEN-SALT-")
/-- it tries a seed of a key, adds a user, gets a proof of user 1, and shows something else -/
abbrev forger : Unit → AccParams Fr Fr → FullView Fr Fr Fr → FullShake Fr Fr Fr (Presentation Fr Fr Fr) := fun _ P v =>
  .shake (ascii "VB-ACC-KEYGEN-SALT-" ++ List.replicate 32 0) fun b => .call (.add 1) fun _ v' => .prove 0 [] fun p =>
    .hash (Transcript.new "t", "challenge") fun c =>
      .done ⟨⟨1, 2, 3, c, fromBytesWide b, 6, 7, 8, 9, 10, 11, 12⟩, v'.publicKeys, v'.accumulators.headD 0, []⟩
example := C106_unforgeable EFr encFr (fun _ _ => 1) exStrings [1, 2] [2] [(1, 6)] ∅ forger 1 1
  (fun _ _ _ _ _ _ _ _ => trivial) Sb2
  (fun r => Finset.mem_union_left _ (Sb_spec _ r)) (fun r => Finset.mem_union_right _ (Sb_spec _ r))
example := C106_outsider EFr encFr encFr_inj encFr_inj encFr_inj (fun _ _ => 1) (by decide +kernel) exStrings
  exStrings_mem [1, 2] [(1, 6)] forger 1 1 1 (fun _ _ _ _ _ _ _ _ => trivial)
  (fun _ _ _ _ _ _ _ _ => trivial) Sb2
  (fun r => Finset.mem_union_left _ (Sb_spec _ r)) (fun r => Finset.mem_union_right _ (Sb_spec _ r))

end Seven
end Allo
