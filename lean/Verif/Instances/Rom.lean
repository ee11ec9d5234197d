import Verif.Props.Rom
import Verif.Props.Adaptive
import Verif.Instances.Data

/-!
# Concrete cases of the theorems in `Props/Rom` and `Props/Adaptive`

Over a field with 7 elements. All parameters are 1, the two secrets of the server are 1 and 1, the accumulator is 2 and
the adversary is the owner of the credential `⟨1, 1, 1⟩` of id 1: accepted with probability 1.
-/

set_option linter.unusedVariables false
namespace Allo
open Spec Rom Inst
namespace Seven

abbrev K := ZMod 7
abbrev E : Pairing K K K K := Pairing.field K
abbrev P : AccParams K K := ⟨1, 1, 1, 1, 1, 1, 1, 1⟩
abbrev keys : PublicKeys K := ⟨1, 1⟩
abbrev rnd : ProofRand K := ⟨1, 2, 3, 4, 5, 6, 0, 1, 2, 3, 4⟩
abbrev pp : ProofParams K := ⟨1, 2, 3, 4⟩

/-- the owner of the credential -/
abbrev owner : Unit → OracleProg Query K (Presentation K K K) :=
  fun _ => honestProver E enc7 P keys 2 [] 1 ⟨1, 1, 1⟩ rnd

theorem owner_bound : ∀ ω, (owner ω).QueryBound 1 := fun _ _ => trivial

noncomputable def S₁ : Finset Query := (C70_query_set owner 1 owner_bound (Presentation.query E enc7 P)).choose
theorem S₁_spec (ω : Unit) (H : S₁ → K) : ((owner ω).eval (oracle S₁ 0 H)).query E enc7 P ∈ S₁ :=
  (C70_query_set owner 1 owner_bound (Presentation.query E enc7 P)).choose_spec.2 ω _

example := C70_query_set owner 1 owner_bound (Presentation.query E enc7 P)
example := C70_knowledge E enc7 enc7_inj enc7_inj enc7_inj P owner 1 owner_bound S₁ S₁_spec (fun _ => True)

/-- a server with secrets 1 and 1, initial accumulator 4, ids 1 and 3 added, 3 deleted: its accumulator is 1 -/
example : ((Server.new P (1 : K) 1 4).run [.add 1, .add 3, .delete 3] >>= fun s => s.getAccumulator) = .ok 1 := by
  decide +kernel

example : ∃ (quo : K → List K) (r : K → K) (s : Server K K K) (B : K), B ≠ 0 ∧
    (Server.new P (1 : K) 1 4).run [.add 1, .add 3, .delete 3] = .ok s ∧
    let a := prob (fun x : Unit × (S₁ → K) =>
      let out := (owner x.1).eval (oracle S₁ 0 x.2)
      out.accepted E (asHash (oracle S₁ 0 x.2)) enc7 P ∧ out.accumulator = 1 ∧ out.keys = s.getPublicKeys)
    a * (a / (1 + 1) - 1 / Nat.card K) ≤ prob (fun x : Unit × (S₁ → K) × (S₁ → K) =>
      let out := (owner x.1).eval (oracle S₁ 0 x.2.1)
      let out' := rerun S₁ (owner x.1) (Presentation.query E enc7 P) x.2.1 x.2.2
      let y := extractId out.proof out'.proof
      let w := extractWitness P out.proof out'.proof
      let rel := extractRelation out.proof out'.proof
      (y ∈ (regRun [.add 1, .add 3, .delete (3 : K)]).members ∧ credVerify E 1 s.getPublicKeys P y w = .ok ()) ∨
      (rel ≠ (0, 0, 0) ∧ rel.1 • P.x1 + rel.2.1 • P.y1 + rel.2.2 • P.z1 = 0) ∨
      (y + 1) • ((r y)⁻¹ • (w.witness - fromPowers 1 B (quo y))) = B) := by
  obtain ⟨quo, r, -, h⟩ := C70_revocation (Ω := Unit) (G1 := K) (G2 := K) (GT := K) [.add 1, .add 3, .delete (3 : K)]
    (by decide)
  obtain ⟨B, hB, h⟩ := h E enc7 enc7_inj enc7_inj enc7_inj P 1 1 4 _ (by decide) (by decide) (by decide) rfl
  exact ⟨quo, r, _, B, hB, rfl, by simpa using h 1 (by decide +kernel) owner 1 owner_bound S₁ S₁_spec⟩

/-! ### accumulator proofs -/

abbrev mrand : MemRand K := ⟨1, 2, 3, 4, 5, 6, 0⟩

example := C71_honest E enc7 enc7_inj enc7_inj pp (by decide) (by decide) 2 1 (Transcript.new "t") "label" 1 1
  (by decide +kernel) mrand
example := C71_honest_non E enc7 enc7_inj enc7_inj pp (by decide) (by decide) 2 1 (Transcript.new "t") "label" 1
  ⟨4, 1⟩ (by decide +kernel) (by decide) ⟨1, 2, 3, 4, 5, 6, 0, 1, 2, 3, 4, 5⟩

/-- a member; the application puts accumulator and key into the transcript -/
abbrev memb : Unit → OracleProg Query K (Shown (MemProof K K) K (K × K × Bytes)) := fun _ =>
  let mpc := MemCommitting.new E (.hidden 1) 1 pp 1 mrand
  let app := App.hashed enc7 (Transcript.new "t")
  .ask (mpc.getBytesForChallenge enc7 (app.pre (2, 1, [])), "label") (fun c => .done ⟨mpc.genProof c, c, (2, 1, [])⟩)
theorem memb_bound : ∀ ω, (memb ω).QueryBound 1 := fun _ _ => trivial
abbrev memq := memQuery E enc7 pp (App.hashed enc7 (Transcript.new "t")) "label"
noncomputable def S₂ : Finset Query := (C70_query_set memb 1 memb_bound memq).choose
theorem S₂_spec (ω : Unit) (H : S₂ → K) : memq ((memb ω).eval (oracle S₂ 0 H)) ∈ S₂ :=
  (C70_query_set memb 1 memb_bound memq).choose_spec.2 ω _

example := C71_membership E enc7 enc7_inj enc7_inj pp (by decide) (by decide) (App.hashed enc7 (Transcript.new "t"))
  (App.hashed_binds enc7 enc7_inj enc7_inj _) "label" memb 1 memb_bound S₂ S₂_spec (fun _ => True)

/-- an adversary that always answers with one non-membership proof -/
abbrev non : Unit → OracleProg Query K (Shown (NonProof K K) K (K × K × Bytes)) := fun _ =>
  .done ⟨⟨1, 2, 3, 4, 5, 6, 0, 1, 2, 3, 4, 5, 6⟩, 3, (2, 1, [])⟩
abbrev nonq := nonQuery E enc7 pp (App.hashed enc7 (Transcript.new "t")) "label"
noncomputable def S₃ : Finset Query := (C70_query_set non 0 (fun _ => trivial) nonq).choose
theorem S₃_spec (ω : Unit) (H : S₃ → K) : nonq ((non ω).eval (oracle S₃ 0 H)) ∈ S₃ :=
  (C70_query_set non 0 (fun _ => trivial) nonq).choose_spec.2 ω _

example := C71_nonmembership E enc7 enc7_inj enc7_inj pp (by decide) (by decide) (App.hashed enc7 (Transcript.new "t"))
  (App.hashed_binds enc7 enc7_inj enc7_inj _) "label" non 0 (fun _ => trivial) S₃ S₃_spec (fun _ => True)

/-! ### enrolment -/

abbrev srv : Server K K K := ⟨[4], 1, keys, 1, [1, 3], [(1, 2), (3, 1)], []⟩

/-- the user with secret key 5 -/
abbrev enroller : Unit → OracleProg Query K (EnrolRequest K K) := fun _ =>
  .ask (((Transcript.new "user_signature_proof").append "user_pub_key" (enc7.g1 5)).append
    "commitment" (enc7.g1 6), "challenge") (fun c => .done ⟨1, c, 6 - c * 5, 5⟩)
theorem enroller_bound : ∀ ω, (enroller ω).QueryBound 1 := fun _ _ => trivial
noncomputable def S₄ : Finset Query := (C70_query_set enroller 1 enroller_bound (enrolQuery enc7 P)).choose
theorem S₄_spec (ω : Unit) (H : S₄ → K) : enrolQuery enc7 P ((enroller ω).eval (oracle S₄ 0 H)) ∈ S₄ :=
  (C70_query_set enroller 1 enroller_bound (enrolQuery enc7 P)).choose_spec.2 ω _

example := C72_enrol_knowledge enc7 enc7_inj P srv enroller 1 enroller_bound S₄ S₄_spec
example := C72_honest enc7 enc7_inj P srv 1 (by decide) (by decide) 5 6
example (H : Oracle K) := C55_complete H enc7 P srv 4 (by decide +kernel) ⟨1, none, 0, ⟨0, 0⟩, 0⟩ (by decide) (by decide) 5 6

/-! ### adaptive adversaries -/

deriving instance DecidableEq for Game

/-- the ids 1 and 2 may be added; the adversary adds both, deletes 2, and then gives a credential for 2 (it has guessed
the secrets) -/
abbrev cheat : Unit → View K K K → ServerProg K K K Query (K × Witness K K) := fun _ _ =>
  .call (.add 1) fun _ _ => .call (.add 2) fun _ _ => .call (.delete 2) fun _ _ => .done (2, ⟨1, 3, 3⟩)
abbrev O₃ : Query → K := fun _ => 3

/-- the end of the game with secrets 1, 1 and initial accumulator 6 -/
abbrev cheatEnd : Game K K K :=
  ⟨⟨[6, 2], 1, keys, 1, [2, 1], [(1, 1)], [2]⟩, [], [.add 1, .add 2, .delete 2]⟩

theorem cheat_run : (runGame P 1 1 (1 * prodPlus 1 [1, 2]) [1, 2] (cheat ())).eval O₃
    = .ok ((2, ⟨1, 3, 3⟩), cheatEnd) := by decide +kernel
theorem cheat_forged : Forged E P cheatEnd 2 ⟨1, 3, 3⟩ :=
  ⟨2, by decide +kernel, by decide +kernel, by decide +kernel, by decide +kernel⟩

example := C84_simulation P 1 1 1 [1, 2] (by decide +kernel) (cheat ()) O₃
example := C84_deleted P 1 1 1 [1, 2] (by decide +kernel) (by decide +kernel) (cheat ()) O₃ _ _ cheat_run
example := C84_forgery E P (by decide) (by decide) 1 1 1 [1, 2] (by decide +kernel) (cheat ()) O₃ _ _ _ cheat_run cheat_forged
example := C84_credential E P (by decide) (by decide) (by decide) 1 [1, 2] cheat O₃
example := C84_not_added E P (by decide) (by decide) (by decide) 1 [1, 2] 2 cheat O₃
example := C84_insider E enc7 P (by decide) (by decide) 1 5 [] rnd

abbrev ins : Unit → View K K K → ServerProg K K K Query (Presentation K K K) := fun _ => insider E enc7 P 1 5 [] rnd
theorem ins_bound (ω : Unit) (v : View K K K) : (ins ω v).HashBound 1 :=
  (C84_insider E enc7 P (by decide) (by decide) 1 5 [] rnd).1 v
noncomputable def S₅ : Finset Query := (C84_query_set E enc7 P 1 [1] ins 1 ins_bound).choose
example := C84_query_set E enc7 P 1 [1] ins 1 ins_bound
example := C84_presentation E enc7 enc7_inj enc7_inj enc7_inj P (by decide) (by decide) (by decide) 1 [1] ins 1 ins_bound
  S₅ (C84_query_set E enc7 P 1 [1] ins 1 ins_bound).choose_spec

end Seven
end Allo
