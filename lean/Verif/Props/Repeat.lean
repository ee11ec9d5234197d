import Verif.Props.World
import Verif.Props.Mixed
import Mathlib.Algebra.Polynomial.Roots

/-!
# C121: any number of updates by a user that does not record the epoch

`User::update` (src/user.rs:247-291) leaves `self.epoch` as it is, so each further update follows the deletions since
*enrolment* again, from a witness that has followed (most of) them already. C27 is about the second update. Here the
number of updates, and the server's history around them, are arbitrary.
-/

set_option linter.unusedSectionVars false
set_option linter.unusedVariables false
namespace Spec
variable {F : Type} [Field F]

/-- The factor between `(id + α) W` and the accumulator of the recorded epoch, after updates that each follow all
deletions since that epoch. `Ds`: these deletions, as they were at each update. At first the factor is `c` (1 for a
valid witness). -/
def factorAfter (α y c : F) (Ds : List (List F)) : F :=
  Ds.foldl (fun c D => (prodPlus α D)⁻¹ + (prodMinus y D)⁻¹ * (c - 1)) c

/-- the deletions since epoch `e` at each update; the history so far is `pre`, and the lists of `rounds` are the
server's calls before the first update, between the first and the second one, … -/
def logsAt [DecidableEq F] (e : Nat) : List (Allo.Server.Op F) → List (List (Allo.Server.Op F)) → List (List F)
  | _, [] => []
  | pre, ops :: rounds => (Allo.regRun (pre ++ ops)).log.drop (e - 1) :: logsAt e (pre ++ ops) rounds

end Spec

namespace Allo
open Spec Finset Server

section
variable {F G1 G2 GT : Type} [Field F] [DecidableEq F] [AddCommGroup G1] [Module F G1]
  [DecidableEq G1] [AddCommGroup G2] [Module F G2] [AddCommGroup GT] [Module F GT] [DecidableEq GT]

/-- The user goes from `u` to `u'` by updates that return `Ok`; before each of them the server makes the calls of one
list of `rounds`. The user is asked for nothing else (it does not record the epoch). The servers asked, thresholds and
random values are arbitrary. -/
inductive Repeated (params : AccParams G1 G2) (α sM v : F) (seed : Nat → Nat) :
    List (Op F) → User F G1 G2 → List (List (Op F)) → User F G1 G2 → Prop
  | done (pre : List (Op F)) (u : User F G1 G2) : Repeated params α sM v seed pre u [] u
  | round (pre ops : List (Op F)) (rounds : List (List (Op F))) (u u₁ u' : User F G1 G2) (srv : Server F G1 G2)
      (hrun : (Server.new params α sM v).run (pre ++ ops) = .ok srv) (servers : List (Server F G1 G2))
      (hs : ∀ s' ∈ servers, s'.accumulators = srv.accumulators ∧ s'.deletions = srv.deletions)
      (t : Nat) (hc : ∀ i, 0 < i → i ≤ servers.length → (i : F) ≠ 0) (rand : Nat → Nat → F)
      (hupd : u.update seed servers t rand = .ok (u₁, .ok ()))
      (rest : Repeated params α sM v seed (pre ++ ops) u₁ rounds u') :
      Repeated params α sM v seed pre u (ops :: rounds) u'

theorem safeFrom_append {α : F} (a b : List (Op F)) (m : Mix F) (h : SafeFrom α m (a ++ b)) : SafeFrom α m a := by
  induction a generalizing m with
  | nil => trivial
  | cons op a ih => exact ⟨h.1, ih _ h.2⟩

theorem deletions_run {params : AccParams G1 G2} {α sM v : F} {ops : List (Op F)} {s : Server F G1 G2}
    (h : (Server.new params α sM v).run ops = .ok s) : s.deletions = (regRun ops).log :=
  (refines_run ops (refines_new params α sM v) h).log

theorem regRun_append (a b : List (Op F)) : regRun (a ++ b) = b.foldl regStep (regRun a) := by
  rw [regRun, regRun, List.foldl_append]

theorem regRun_log_prefix (a b : List (Op F)) : (regRun a).log <+: (regRun (a ++ b)).log := by
  rw [regRun_append]
  generalize regRun a = r
  induction b generalizing r with
  | nil => exact List.prefix_refl _
  | cons op b ih =>
    refine List.IsPrefix.trans ?_ (ih (regStep r op))
    cases op <;> simp only [regStep, Registry.add, Registry.delete] <;> split <;> simp

/-- what the rounds do, from any witness -/
theorem repeated_core (params : AccParams G1 G2) (α sM v : F) (seed : Nat → Nat) (hseed : ∀ d, 1 ≤ d → 1 ≤ seed d)
    (hseed0 : seed 0 = 0) (pre : List (Op F)) (u : User F G1 G2) (rounds : List (List (Op F))) (u' : User F G1 G2)
    (hr : Repeated params α sM v seed pre u rounds u') (hsafe : SafeFrom α Mix.start (pre ++ rounds.flatten))
    (he1 : 1 ≤ u.epoch) (he2 : u.epoch ≤ (regRun pre).log.length + 1) (w : Witness F G1) (hw : u.witness = some w)
    (c : F) (hcw : (u.id + α) • w.witness = c • accAfter α (v • params.p1) ((regRun pre).log.take (u.epoch - 1))) :
    ∃ W', u' = { u with witness := some { w with witness := W' }, accumulator := u'.accumulator } ∧
      (u.id + α) • W' = factorAfter α u.id c (logsAt u.epoch pre rounds) •
        accAfter α (v • params.p1) ((regRun pre).log.take (u.epoch - 1)) ∧
      (rounds ≠ [] → u'.accumulator = accAfter α (v • params.p1) (regRun (pre ++ rounds.flatten)).log) ∧
      ∀ D ∈ logsAt u.epoch pre rounds, D ≠ [] ∧ u.id ∉ D ∧ -α ∉ D := by
  induction hr generalizing w c with
  | done pre u =>
    refine ⟨w.witness, ?_, hcw, by simp, by simp [logsAt]⟩
    rw [← hw]
  | round pre ops rounds u u₁ u' srv hrun servers hs t hc rand hupd rest ih =>
    have hI := invA_safe_run (pre ++ ops) (invM_new params α sM v) (invA_new' params α sM v)
      (safeFrom_append (pre ++ ops) rounds.flatten _ (by
        rw [List.append_assoc]; simpa using hsafe)) hrun
    have hlen := hI.length
    have hlog := deletions_run hrun
    have hpl := (regRun_log_prefix pre ops)
    have hle := hpl.length_le
    rw [← hlog] at hpl hle
    have htake : (regRun pre).log.take (u.epoch - 1) = srv.deletions.take (u.epoch - 1) := by
      obtain ⟨r, hr⟩ := hpl
      rw [← hr, List.take_append_of_le_length (by omega)]
    rcases update_outcomes seed hseed hseed0 u srv hlen _ hI.last servers hs t hc he1 (by omega) rand u₁ _ hupd with
      ⟨-, h⟩ | ⟨w₀, hw₀, ht, hn, hlt, hid, -, hu₁⟩
    · simp [Except.isOk, Except.toBool] at h
    rw [hw] at hw₀
    obtain rfl := Option.some.inj hw₀
    have hi : u.epoch - 1 ≤ srv.deletions.length := by omega
    have hch := chain_published hI (u.epoch - 1) hi
    rw [show srv.deletions.length - (u.epoch - 1) = srv.accumulators.length - u.epoch by omega] at hch
    have hfst : (srv.published (srv.accumulators.length - u.epoch)).map (·.1)
        = srv.deletions.drop (u.epoch - 1) := by
      rw [published_fst srv hlen]
      congr 1; omega
    have haff := followLog_affine α u.id _ _ _ w.witness hch (by rw [hfst]; exact hid)
    rw [hfst] at haff
    have hacc : accAfter α (v • params.p1) srv.deletions
        = (prodPlus α (srv.deletions.drop (u.epoch - 1)))⁻¹ •
          accAfter α (v • params.p1) (srv.deletions.take (u.epoch - 1)) := by
      conv_lhs => rw [← List.take_append_drop (u.epoch - 1) srv.deletions, accAfter_append]
      rfl
    rw [htake] at hcw
    have hpl' := hpl
    have key : (u.id + α) • followLog u.id (srv.published (srv.accumulators.length - u.epoch)) w.witness
        = ((prodPlus α (srv.deletions.drop (u.epoch - 1)))⁻¹
            + (prodMinus u.id (srv.deletions.drop (u.epoch - 1)))⁻¹ * (c - 1)) •
          accAfter α (v • params.p1) (srv.deletions.take (u.epoch - 1)) := by
      rw [haff, hcw, hacc]
      module
    have htake' : (regRun (pre ++ ops)).log.take (u.epoch - 1) = srv.deletions.take (u.epoch - 1) := by rw [hlog]
    obtain ⟨W', k1, k2, k3, k4⟩ := ih (by rw [List.append_assoc]; simpa using hsafe)
      (by rw [hu₁]; exact he1) (by rw [hu₁, ← hlog]; simp only; omega)
      { w with witness := followLog u.id (srv.published (srv.accumulators.length - u.epoch)) w.witness }
      (by rw [hu₁]) _ (by rw [hu₁]; simp only; rw [htake']; exact key)
    have e1 : u₁.epoch = u.epoch := by rw [hu₁]
    have e2 : u₁.id = u.id := by rw [hu₁]
    rw [e1, e2] at k2 k4
    refine ⟨W', ?_, ?_, ?_, ?_⟩
    · rw [k1, hu₁]
    · rw [k2, htake', htake, logsAt, factorAfter, factorAfter, List.foldl_cons, hlog]
    · intro _
      by_cases hr : rounds = []
      · subst hr
        cases rest
        rw [hu₁]
        simp only [List.flatten_cons, List.flatten_nil, List.append_nil]
        rw [hlog]
      · rw [k3 hr]; simp [List.append_assoc]
    · intro D hD
      rw [logsAt, List.mem_cons] at hD
      rcases hD with rfl | hD
      · rw [← hlog]
        refine ⟨?_, hid, fun h => hI.noneg (List.mem_of_mem_drop h)⟩
        intro h0
        have := congrArg List.length h0
        rw [List.length_drop, List.length_nil] at this
        omega
      · exact k4 D hD

theorem logsAt_snoc (e : Nat) (pre : List (Op F)) (rounds : List (List (Op F))) (o : List (Op F)) :
    logsAt e pre (rounds ++ [o])
      = logsAt e pre rounds ++ [(regRun (pre ++ rounds.flatten ++ o)).log.drop (e - 1)] := by
  induction rounds generalizing pre with
  | nil => simp [logsAt]
  | cons a rounds ih => simp [logsAt, ih, List.append_assoc]

theorem factorAfter_snoc (α y c : F) (Ds : List (List F)) (D : List F) :
    factorAfter α y c (Ds ++ [D])
      = (prodPlus α D)⁻¹ + (prodMinus y D)⁻¹ * (factorAfter α y c Ds - 1) := by
  rw [factorAfter, List.foldl_append]; rfl

theorem prodPlus_ne_zero' {α : F} {D : List F} (h : -α ∉ D) : prodPlus α D ≠ 0 := by
  intro e
  rw [prodPlus, List.prod_eq_zero_iff, List.mem_map] at e
  obtain ⟨d, hd, e⟩ := e
  exact h (by rw [← eq_neg_of_add_eq_zero_left e]; exact hd)

/-- **C121** (the witness after any number of updates). The user starts with a valid credential of epoch `e` and
updates any number of times without recording the epoch. Id, keys, epoch, secret and signature stay as they are,
and the witness point `W` satisfies `(id + α) W = c · Vₑ` with the factor `c` of the specification. -/
theorem C121_factor (E : Pairing F G1 G2 GT) (params : AccParams G1 G2) (hP : params.p2 ≠ 0) (hK : params.k2 ≠ 0)
    (α sM v : F) (seed : Nat → Nat) (hseed : ∀ d, 1 ≤ d → 1 ≤ seed d) (hseed0 : seed 0 = 0)
    (pre : List (Op F)) (s₀ : Server F G1 G2) (h : (Server.new params α sM v).run pre = .ok s₀)
    (u u' : User F G1 G2) (rounds : List (List (Op F))) (hsafe : SafeFrom α Mix.start (pre ++ rounds.flatten))
    (hr : Repeated params α sM v seed pre u rounds u') (hu : u.publicKeys = s₀.getPublicKeys)
    (he1 : 1 ≤ u.epoch) (he2 : u.epoch ≤ s₀.getEpoch) (Ve : G1) (hVe : s₀.accumulators[u.epoch - 1]? = some Ve)
    (hw : u.checkWitness E params Ve = .ok ()) :
    ∃ w W, u.witness = some w ∧
      u' = { u with witness := some { w with witness := W }, accumulator := u'.accumulator } ∧
      (u.id + α) • W = factorAfter α u.id 1 (logsAt u.epoch pre rounds) • Ve := by
  have hk := (keys_run h).1
  have hI := invA_safe_run pre (invM_new params α sM v) (invA_new' params α sM v)
    (safeFrom_append pre rounds.flatten _ hsafe) h
  have hlen := hI.length
  have hlog := deletions_run h
  rw [getEpoch] at he2
  rw [hI.get _ (by omega)] at hVe
  have hVe := Option.some.inj hVe
  rw [(C23_check_witness E params hP hK α sM u (by rw [hu, getPublicKeys, hk]) Ve).1] at hw
  obtain ⟨w, hw0, hw1, -⟩ := hw
  obtain ⟨W, k1, k2, -⟩ := repeated_core params α sM v seed hseed hseed0 pre u rounds u' hr hsafe he1
    (by rw [← hlog]; omega) w hw0 1 (by rw [one_smul, ← hlog, hVe]; exact hw1)
  exact ⟨w, W, hw0, k1, by rw [k2, ← hlog, hVe]⟩

/-- **C121** (which updates are right). After `rounds`, one more update, which returns `Ok`. The user records the
servers' accumulator, and its credential passes `check_witness` for it exactly if the factor *before* this update
was 1, that is if the witness was still the one of the recorded epoch, or the accumulators are the identity. If not,
the user cannot make membership proofs any more. -/
theorem C121_right_iff (E : Pairing F G1 G2 GT) (H : Oracle F) (enc : Enc G1 G2 GT) (params : AccParams G1 G2)
    (hP : params.p2 ≠ 0) (hK : params.k2 ≠ 0)
    (α sM v : F) (seed : Nat → Nat) (hseed : ∀ d, 1 ≤ d → 1 ≤ seed d) (hseed0 : seed 0 = 0)
    (pre : List (Op F)) (s₀ : Server F G1 G2) (h : (Server.new params α sM v).run pre = .ok s₀)
    (u u' : User F G1 G2) (rounds : List (List (Op F))) (last : List (Op F))
    (hsafe : SafeFrom α Mix.start (pre ++ (rounds ++ [last]).flatten))
    (hr : Repeated params α sM v seed pre u (rounds ++ [last]) u') (hu : u.publicKeys = s₀.getPublicKeys)
    (he1 : 1 ≤ u.epoch) (he2 : u.epoch ≤ s₀.getEpoch) (Ve : G1) (hVe : s₀.accumulators[u.epoch - 1]? = some Ve)
    (hw : u.checkWitness E params Ve = .ok ()) (s₁ : Server F G1 G2)
    (h₁ : (Server.new params α sM v).run (pre ++ (rounds ++ [last]).flatten) = .ok s₁) :
    s₁.getAccumulator = .ok u'.accumulator ∧
    (u'.checkWitness E params u'.accumulator = .ok () ↔
      factorAfter α u.id 1 (logsAt u.epoch pre rounds) = 1 ∨ v • params.p1 = 0) ∧
    ∀ eph rand, (u'.makeMembershipProof E H enc params u'.publicKeys eph rand = none ↔
      ¬ (factorAfter α u.id 1 (logsAt u.epoch pre rounds) = 1 ∨ v • params.p1 = 0)) := by
  have hk := (keys_run h).1
  have hI := invA_safe_run pre (invM_new params α sM v) (invA_new' params α sM v)
    (safeFrom_append pre (rounds ++ [last]).flatten _ hsafe) h
  have hlen := hI.length
  have hlog := deletions_run h
  have hI₁ := invA_safe_run _ (invM_new params α sM v) (invA_new' params α sM v) hsafe h₁
  have hlog₁ := deletions_run h₁
  rw [getEpoch] at he2
  rw [hI.get _ (by omega)] at hVe
  have hVe := Option.some.inj hVe
  rw [(C23_check_witness E params hP hK α sM u (by rw [hu, getPublicKeys, hk]) Ve).1] at hw
  obtain ⟨w, hw0, hw1, hw2⟩ := hw
  obtain ⟨W, k1, k2, k3, k4⟩ := repeated_core params α sM v seed hseed hseed0 pre u _ u' hr hsafe he1
    (by rw [← hlog]; omega) w hw0 1 (by rw [one_smul, ← hlog, hVe]; exact hw1)
  have k3 := k3 (by simp)
  set D := (regRun (pre ++ rounds.flatten ++ last)).log.drop (u.epoch - 1) with hD
  have hDm : D ∈ logsAt u.epoch pre (rounds ++ [last]) := by rw [logsAt_snoc]; simp [hD]
  obtain ⟨-, hid, hna⟩ := k4 D hDm
  have hfl : pre ++ (rounds ++ [last]).flatten = pre ++ rounds.flatten ++ last := by simp [List.append_assoc]
  have hpre : (regRun pre).log.take (u.epoch - 1) = (regRun (pre ++ rounds.flatten ++ last)).log.take (u.epoch - 1) := by
    obtain ⟨r, hr⟩ := regRun_log_prefix pre (rounds.flatten ++ last)
    rw [List.append_assoc, ← hr, List.take_append_of_le_length (by rw [← hlog]; omega)]
  have hacc : u'.accumulator = (prodPlus α D)⁻¹ • Ve := by
    rw [k3, hfl, ← hVe, hlog, hpre]
    conv_lhs => rw [← List.take_append_drop (u.epoch - 1) (regRun (pre ++ rounds.flatten ++ last)).log, accAfter_append]
    rfl
  have hVe0 : Ve = 0 ↔ v • params.p1 = 0 := by
    rw [← hVe, accAfter, smul_eq_zero, inv_eq_zero]
    have : prodPlus α (s₀.deletions.take (u.epoch - 1)) ≠ 0 :=
      prodPlus_ne_zero' (fun h => hI.noneg (List.mem_of_mem_take h))
    simp [this]
  have hpm : prodMinus u.id D ≠ 0 := fun e => hid (prodMinus_eq_zero.1 e)
  have main : u'.checkWitness E params u'.accumulator = .ok () ↔
      factorAfter α u.id 1 (logsAt u.epoch pre rounds) = 1 ∨ v • params.p1 = 0 := by
    rw [(C23_check_witness E params hP hK α sM u' (by rw [k1]; simp only; rw [hu, getPublicKeys, hk]) _).1]
    have hw' : u'.witness = some { w with witness := W } := by rw [k1]
    have hid' : u'.id = u.id := by rw [k1]
    rw [hw', hid']
    have e1 : (∃ w', some { w with witness := W } = some w' ∧ IsWitness α u'.accumulator u.id w'.witness ∧
        (u.id + sM) • w'.signature = w'.secretKey • params.k1 + params.k0)
        ↔ (u.id + α) • W = u'.accumulator := by
      constructor
      · rintro ⟨w', e, h1, -⟩
        obtain rfl := Option.some.inj e
        exact h1
      · intro h1
        exact ⟨_, rfl, h1, hw2⟩
    rw [e1, k2, hacc, logsAt_snoc, factorAfter_snoc, ← hlog, hVe, ← sub_eq_zero, ← sub_smul, smul_eq_zero,
      add_sub_cancel_left, mul_eq_zero, inv_eq_zero, hVe0, sub_eq_zero, or_iff_right hpm]
  refine ⟨by rw [getAccumulator, hI₁.last, k3, hlog₁]; rfl, main, fun eph rand => ?_⟩
  obtain ⟨c1, c2⟩ := C42_user E H enc u' params eph rand
  rw [← main]
  constructor
  · intro hn hok
    obtain ⟨p, hp, -⟩ := c1 hok
    rw [hn] at hp
    cases hp
  · exact c2

/-! ## for how many secret keys a further update is right -/

open Polynomial in
/-- the factor as a quotient of polynomials in the secret key -/
theorem factor_poly (y : F) (e : Nat) (pre : List (Op F)) (rounds : List (List (Op F))) :
    ∃ N : F[X], N.natDegree ≤ ((regRun (pre ++ rounds.flatten)).log.drop (e - 1)).length ∧
      ∀ α, -α ∉ (regRun (pre ++ rounds.flatten)).log.drop (e - 1) →
        prodPlus α ((regRun (pre ++ rounds.flatten)).log.drop (e - 1)) *
          (factorAfter α y 1 (logsAt e pre rounds) - 1) = N.eval α := by
  induction rounds using List.reverseRecOn with
  | nil => exact ⟨0, by simp, fun α _ => by simp [logsAt, factorAfter]⟩
  | append_singleton rounds o ih =>
    obtain ⟨N, hN, hf⟩ := ih
    have hfl : pre ++ (rounds ++ [o]).flatten = pre ++ rounds.flatten ++ o := by simp [List.append_assoc]
    rw [hfl]
    obtain ⟨Δ, hΔ⟩ := (regRun_log_prefix (pre ++ rounds.flatten) o).drop (e - 1)
    rw [← hΔ]
    set L := (regRun (pre ++ rounds.flatten)).log.drop (e - 1)
    have ev : ∀ (l : List F) (α : F), ((l.map (fun d => (C d + X : F[X]))).prod).eval α = prodPlus α l := by
      intro l α
      rw [eval_list_prod, List.map_map, prodPlus]
      congr 1
      apply List.map_congr_left
      intro d _
      simp
    have dg : ∀ l : List F, ((l.map (fun d => (C d + X : F[X]))).prod).natDegree ≤ l.length := by
      intro l
      refine (natDegree_list_prod_le _).trans ?_
      rw [List.map_map]
      refine (List.sum_le_card_nsmul _ 1 ?_).trans (by simp)
      intro x hx
      obtain ⟨d, _, rfl⟩ := List.mem_map.1 hx
      simp [add_comm (C d)]
    refine ⟨1 + C (prodMinus y (L ++ Δ))⁻¹ * ((Δ.map (fun d => (C d + X : F[X]))).prod * N)
      - ((L ++ Δ).map (fun d => (C d + X : F[X]))).prod, ?_, ?_⟩
    · refine (natDegree_sub_le _ _).trans (max_le ?_ (dg _))
      refine (natDegree_add_le _ _).trans (max_le (by simp) ?_)
      refine (natDegree_C_mul_le _ _).trans (natDegree_mul_le.trans ?_)
      have := dg Δ
      rw [List.length_append]
      omega
    · intro α hα
      have h1 : -α ∉ L := fun h => hα (List.mem_append_left _ h)
      have h2 := hf α h1
      rw [logsAt_snoc, factorAfter_snoc, ← hΔ]
      simp only [eval_sub, eval_add, eval_mul, eval_one, eval_C, ev]
      rw [← h2]
      have h3 := prodPlus_ne_zero' hα
      have h4 : prodPlus α (L ++ Δ) = prodPlus α L * prodPlus α Δ := by rw [prodPlus_append]
      rw [mul_sub, mul_add, mul_inv_cancel₀ h3, mul_one, h4]
      ring

open Polynomial in
/-- when the log grew before the last of the updates, the polynomial is not 0 -/
theorem factor_poly_ne (y : F) (e : Nat) (pre : List (Op F)) (rounds : List (List (Op F))) (ops : List (Op F))
    (he : e ≤ (regRun pre).log.length + 1)
    (hgrow : (regRun (pre ++ rounds.flatten ++ ops)).log ≠ (regRun (pre ++ rounds.flatten)).log) :
    ∃ bad : Finset F, bad.card ≤ ((regRun (pre ++ rounds.flatten ++ ops)).log.drop (e - 1)).length ∧
      ∀ α ∉ bad, -α ∉ (regRun (pre ++ rounds.flatten ++ ops)).log.drop (e - 1) →
        factorAfter α y 1 (logsAt e pre (rounds ++ [ops])) ≠ 1 := by
  obtain ⟨N, hN, hf⟩ := factor_poly y e pre rounds
  obtain ⟨Δ', hΔ'⟩ := regRun_log_prefix (pre ++ rounds.flatten) ops
  have hlen : (regRun pre).log.length ≤ (regRun (pre ++ rounds.flatten)).log.length :=
    (regRun_log_prefix pre rounds.flatten).length_le
  have hΔ : (regRun (pre ++ rounds.flatten)).log.drop (e - 1) ++ Δ'
      = (regRun (pre ++ rounds.flatten ++ ops)).log.drop (e - 1) := by
    rw [← hΔ', List.drop_append_of_le_length (by omega)]
  have hne : Δ' ≠ [] := by
    rintro rfl
    rw [List.append_nil] at hΔ'
    exact hgrow hΔ'.symm
  rw [← hΔ]
  set L := (regRun (pre ++ rounds.flatten)).log.drop (e - 1)
  have ev : ∀ (l : List F) (α : F), ((l.map (fun d => (C d + X : F[X]))).prod).eval α = prodPlus α l := by
    intro l α
    rw [eval_list_prod, List.map_map, prodPlus]
    congr 1
    apply List.map_congr_left
    intro d _
    simp
  have dg : ∀ l : List F, ((l.map (fun d => (C d + X : F[X]))).prod).natDegree ≤ l.length := by
    intro l
    refine (natDegree_list_prod_le _).trans ?_
    rw [List.map_map]
    refine (List.sum_le_card_nsmul _ 1 ?_).trans (by simp)
    intro x hx
    obtain ⟨d, _, rfl⟩ := List.mem_map.1 hx
    simp [add_comm (C d)]
  set Q : F[X] := 1 + C (prodMinus y (L ++ Δ'))⁻¹ * ((Δ'.map (fun d => (C d + X : F[X]))).prod * N)
      - ((L ++ Δ').map (fun d => (C d + X : F[X]))).prod with hQ
  have hdeg : Q.natDegree ≤ (L ++ Δ').length := by
    refine (natDegree_sub_le _ _).trans (max_le ?_ (dg _))
    refine (natDegree_add_le _ _).trans (max_le (by simp) ?_)
    refine (natDegree_C_mul_le _ _).trans (natDegree_mul_le.trans ?_)
    have := dg Δ'
    rw [List.length_append]
    omega
  have hQ0 : Q ≠ 0 := by
    obtain ⟨d, Δ'', rfl⟩ := List.exists_cons_of_ne_nil hne
    intro h0
    have h1 : Q.eval (-d) = 0 := by rw [h0, eval_zero]
    rw [hQ] at h1
    simp only [eval_sub, eval_add, eval_mul, eval_one, eval_C, ev] at h1
    rw [prodPlus_append, prodPlus_cons] at h1
    simp at h1
  refine ⟨Q.roots.toFinset, (Multiset.toFinset_card_le _).trans ((card_roots' Q).trans hdeg), ?_⟩
  intro α hα hna h1
  apply hα
  rw [Multiset.mem_toFinset, mem_roots hQ0, IsRoot.def, hQ]
  rw [logsAt_snoc, factorAfter_snoc, ← hΔ] at h1
  have h2 := hf α (fun h => hna (List.mem_append_left _ h))
  have h3 := prodPlus_ne_zero' hna
  have h4 : prodPlus α (L ++ Δ') = prodPlus α L * prodPlus α Δ' := by rw [prodPlus_append]
  simp only [eval_sub, eval_add, eval_mul, eval_one, eval_C, ev]
  rw [← h2]
  have h5 := congrArg (fun x => prodPlus α (L ++ Δ') * x) h1
  rw [mul_add, mul_inv_cancel₀ h3, mul_one, h4] at h5
  rw [h4]
  linear_combination h5

/-- **C121** (further updates fail). Fix an id, an epoch and a history in which something is deleted between the
second last and the third last update (or before the first one, if there are only two). There is a set of at most as
many secret keys as there were deletions between that epoch and the second last update, such that with every other
secret key, whatever the other secrets, users, servers, thresholds and random values are: the last update returns
`Ok`, and the credential it leaves fails `check_witness`. -/
theorem C121_rare (params : AccParams G1 G2) (y : F) (e : Nat) (he1 : 1 ≤ e)
    (pre : List (Op F)) (rounds : List (List (Op F))) (ops last : List (Op F))
    (he : e ≤ (regRun pre).log.length + 1)
    (hgrow : (regRun (pre ++ rounds.flatten ++ ops)).log ≠ (regRun (pre ++ rounds.flatten)).log) :
    ∃ bad : Finset F, bad.card ≤ ((regRun (pre ++ rounds.flatten ++ ops)).log.drop (e - 1)).length ∧
      ∀ α ∉ bad, ∀ (E : Pairing F G1 G2 GT) (hP : params.p2 ≠ 0) (hK : params.k2 ≠ 0) (sM v : F) (hv : v • params.p1 ≠ 0)
        (seed : Nat → Nat) (hseed : ∀ d, 1 ≤ d → 1 ≤ seed d) (hseed0 : seed 0 = 0)
        (s₀ s₁ : Server F G1 G2) (h : (Server.new params α sM v).run pre = .ok s₀)
        (hsafe : SafeFrom α Mix.start (pre ++ (rounds ++ [ops] ++ [last]).flatten))
        (h₁ : (Server.new params α sM v).run (pre ++ (rounds ++ [ops] ++ [last]).flatten) = .ok s₁)
        (u u' : User F G1 G2) (hid : u.id = y) (hep : u.epoch = e)
        (hr : Repeated params α sM v seed pre u (rounds ++ [ops] ++ [last]) u') (hu : u.publicKeys = s₀.getPublicKeys)
        (Ve : G1) (hVe : s₀.accumulators[u.epoch - 1]? = some Ve) (hw : u.checkWitness E params Ve = .ok ()),
        ∃ V, s₁.getAccumulator = .ok V ∧ u'.checkWitness E params V ≠ .ok () := by
  obtain ⟨bad, hb1, hb2⟩ := factor_poly_ne y e pre rounds ops he hgrow
  refine ⟨bad, hb1, ?_⟩
  intro α hα E hP hK sM v hv seed hseed hseed0 s₀ s₁ h hsafe h₁ u u' hid hep hr hu Ve hVe hw
  subst hid hep
  have hI := invA_safe_run pre (invM_new params α sM v) (invA_new' params α sM v)
    (safeFrom_append pre _ _ hsafe) h
  have hlen := hI.length
  have hlog := deletions_run h
  obtain ⟨k1, k2, -⟩ := C121_right_iff E (fun _ _ => 0) ⟨fun _ => [], fun _ => [], fun _ => []⟩ params hP hK α sM v seed
    hseed hseed0 pre s₀ h u u' (rounds ++ [ops]) last hsafe hr hu he1 (by rw [getEpoch, hlen, hlog]; exact he) Ve hVe hw
    s₁ h₁
  refine ⟨_, k1, ?_⟩
  rw [Ne, k2, not_or]
  refine ⟨hb2 α hα ?_, hv⟩
  rw [(C23_check_witness E params hP hK α sM u (by rw [hu, getPublicKeys, (keys_run h).1]) Ve).1] at hw
  obtain ⟨w, hw0, hw1, -⟩ := hw
  rw [hI.get _ (by rw [hlog]; omega)] at hVe
  have hVe := Option.some.inj hVe
  obtain ⟨-, -, -, -, k4⟩ := repeated_core params α sM v seed hseed hseed0 pre u _ u' hr hsafe he1
    he w hw0 1 (by rw [one_smul, ← hlog, hVe]; exact hw1)
  refine (k4 _ ?_).2.2
  rw [logsAt_snoc, logsAt_snoc]
  simp

/-- **C121** (updating again and again without new deletions). After `m` further updates at one epoch of the servers
the credential is right exactly if `(1/∏(d+α) - 1) · (1 + p + … + p^(m-1)) = 0`, with `p = 1/∏(d-id)`, or the
accumulators are the identity. -/
theorem C121_same_epoch (E : Pairing F G1 G2 GT) (params : AccParams G1 G2)
    (hP : params.p2 ≠ 0) (hK : params.k2 ≠ 0)
    (α sM v : F) (seed : Nat → Nat) (hseed : ∀ d, 1 ≤ d → 1 ≤ seed d) (hseed0 : seed 0 = 0)
    (pre ops : List (Op F)) (m : Nat) (s₀ s₁ : Server F G1 G2) (h : (Server.new params α sM v).run pre = .ok s₀)
    (h₁ : (Server.new params α sM v).run (pre ++ ops) = .ok s₁) (hsafe : SafeFrom α Mix.start (pre ++ ops))
    (u u' : User F G1 G2) (hr : Repeated params α sM v seed pre u (ops :: List.replicate m []) u')
    (hu : u.publicKeys = s₀.getPublicKeys)
    (he1 : 1 ≤ u.epoch) (he2 : u.epoch ≤ s₀.getEpoch) (Ve : G1) (hVe : s₀.accumulators[u.epoch - 1]? = some Ve)
    (hw : u.checkWitness E params Ve = .ok ()) :
    ∃ V, s₁.getAccumulator = .ok V ∧ (u'.checkWitness E params V = .ok () ↔
      ((prodPlus α (s₁.deletions.drop (u.epoch - 1)))⁻¹ - 1) *
        ∑ i ∈ range m, ((prodMinus u.id (s₁.deletions.drop (u.epoch - 1)))⁻¹) ^ i = 0 ∨ v • params.p1 = 0) := by
  have hlog := deletions_run h₁
  have hrep : ∀ (n : Nat) (q : List (Op F)), logsAt u.epoch q (List.replicate n [])
      = List.replicate n ((regRun q).log.drop (u.epoch - 1)) := by
    intro n
    induction n with
    | zero => intro q; rfl
    | succ n ih => intro q; rw [List.replicate_succ, logsAt, List.append_nil, ih, List.replicate_succ]
  have hfac : ∀ (n : Nat) (D : List F), factorAfter α u.id 1 (List.replicate n D) - 1
      = ((prodPlus α D)⁻¹ - 1) * ∑ i ∈ range n, ((prodMinus u.id D)⁻¹) ^ i := by
    intro n D
    induction n with
    | zero => simp [factorAfter]
    | succ n ih =>
      rw [List.replicate_succ', factorAfter_snoc, ih, Finset.sum_range_succ']
      rw [Finset.mul_sum, Finset.mul_sum, mul_add, Finset.mul_sum]
      rw [pow_zero, mul_one, add_sub_right_comm, add_comm]
      congr 1
      apply Finset.sum_congr rfl
      intro i _
      rw [pow_succ]
      ring
  have hsplit : ops :: List.replicate m [] = (if m = 0 then [] else ops :: List.replicate (m - 1) [])
      ++ [if m = 0 then ops else []] := by
    cases m with
    | zero => simp
    | succ m => simp [List.replicate_succ']
  have hfl : pre ++ (ops :: List.replicate m []).flatten = pre ++ ops := by simp
  rw [hsplit] at hr hfl
  obtain ⟨k1, k2, -⟩ := C121_right_iff E (fun _ _ => 0) ⟨fun _ => [], fun _ => [], fun _ => []⟩ params hP hK α sM v seed
    hseed hseed0 pre s₀ h u u' _ _ (by rw [hfl]; exact hsafe) hr hu he1 he2 Ve hVe hw s₁ (by rw [hfl]; exact h₁)
  refine ⟨_, k1, ?_⟩
  rw [k2, ← sub_eq_zero]
  have : logsAt u.epoch pre (if m = 0 then [] else ops :: List.replicate (m - 1) [])
      = List.replicate m (s₁.deletions.drop (u.epoch - 1)) := by
    cases m with
    | zero => simp [logsAt]
    | succ m =>
      simp only [Nat.succ_ne_zero, if_false, Nat.add_sub_cancel]
      rw [logsAt, hrep, hlog, List.replicate_succ]
  rw [this, hfac]

/-- **C121** (the updates do return `Ok`). As long as the server's calls do not panic, something was deleted since the
recorded epoch when the user first updates, and the id is not deleted, all the updates return `Ok`, with any number
`n` of servers and threshold `t`, `2 ≤ t ≤ n`. -/
theorem C121_returns_ok (params : AccParams G1 G2) (α sM v : F) (seed : Nat → Nat) (hseed : ∀ d, 1 ≤ d → 1 ≤ seed d)
    (n t : Nat) (ht : 2 ≤ t) (hn : t ≤ n) (hc : ∀ i, 0 < i → i ≤ n → (i : F) ≠ 0)
    (rounds : List (List (Op F))) (pre : List (Op F)) (s₁ : Server F G1 G2)
    (hsafe : SafeFrom α Mix.start (pre ++ rounds.flatten))
    (h₁ : (Server.new params α sM v).run (pre ++ rounds.flatten) = .ok s₁)
    (u : User F G1 G2) (hw : u.witness ≠ none) (he1 : 1 ≤ u.epoch)
    (hnew : ∀ ops rest, rounds = ops :: rest → u.epoch ≤ (regRun (pre ++ ops)).log.length)
    (hid : u.id ∉ s₁.deletions.drop (u.epoch - 1)) :
    ∃ u', Repeated params α sM v seed pre u rounds u' := by
  induction rounds generalizing pre u with
  | nil => exact ⟨u, .done pre u⟩
  | cons ops rounds ih =>
    have hfl : pre ++ (ops :: rounds).flatten = pre ++ ops ++ rounds.flatten := by simp [List.append_assoc]
    rw [hfl] at h₁ hsafe
    obtain ⟨srv, q1, q2⟩ := run_append.1 h₁
    have hI := invA_safe_run (pre ++ ops) (invM_new params α sM v) (invA_new' params α sM v)
      (safeFrom_append _ _ _ hsafe) q1
    have hlen := hI.length
    have hlog := deletions_run q1
    have hlt := hnew ops rounds rfl
    rw [← hlog] at hlt
    obtain ⟨-, hp, -⟩ := run_extends _ _ _ q2
    have hid' : u.id ∉ srv.deletions.drop (u.epoch - 1) := fun hm => hid ((hp.drop _).subset hm)
    obtain ⟨w, hw'⟩ := Option.ne_none_iff_exists'.1 hw
    have hcore := update_core seed hseed u w hw' srv hlen _ hI.last (List.replicate n srv)
      (fun s' hs' => by rw [List.eq_of_mem_replicate hs']; exact ⟨rfl, rfl⟩) t ht (by simpa using hn)
      (by simpa using hc) he1 (by omega) (fun _ _ => 0)
    rw [if_neg hid'] at hcore
    generalize hu₁ : ({ u with witness := _, accumulator := _ } : User F G1 G2) = u₁ at hcore
    obtain ⟨u', hu'⟩ := ih (pre ++ ops) hsafe h₁ u₁ (by rw [← hu₁]; simp) (by rw [← hu₁]; exact he1) (by
      intro o rest _
      rw [← hu₁]
      simp only
      have := (regRun_log_prefix (pre ++ ops) o).length_le
      rw [← hlog] at this
      omega) (by rw [← hu₁]; exact hid)
    exact ⟨u', .round pre ops rounds u u₁ u' srv q1 (List.replicate n srv)
      (fun s' hs' => by rw [List.eq_of_mem_replicate hs']; exact ⟨rfl, rfl⟩) t (by simpa using hc) _ hcore hu'⟩

/-! ### concrete runs -/

/-- the history before: 1, 2, 3 are added, and user 3 has the credential `exUser` of epoch 1 -/
def exBefore : List (Op ℚ) := [.add 1, .add 2, .add 3]

theorem exBefore_run : ∃ s₀ s₁, (Server.new exParams (4 : ℚ) 9 6).run exBefore = .ok s₀ ∧
    (Server.new exParams (4 : ℚ) 9 6).run (exBefore ++ [Op.delete (2 : ℚ)]) = .ok s₁ ∧
    s₀.accumulators = [6] ∧ s₁.deletions = [2] := by
  have h : (match (Server.new exParams (4 : ℚ) 9 6).run exBefore with
      | .ok s => decide (s.accumulators = [6])
      | .error _ => false) = true := by decide +kernel
  have h' : (match (Server.new exParams (4 : ℚ) 9 6).run (exBefore ++ [Op.delete (2 : ℚ)]) with
      | .ok s => decide (s.deletions = [2])
      | .error _ => false) = true := by decide +kernel
  split at h
  · next s hs =>
    split at h'
    · next s' hs' => exact ⟨s, s', hs, hs', of_decide_eq_true h, of_decide_eq_true h'⟩
    · simp at h'
  · simp at h

/-- user 3 updates `m + 1` times after the deletion of 2: right for even `m`, wrong for odd `m` (`2 - 3 = -1`) -/
example (seed : Nat → Nat) (hseed : ∀ d, 1 ≤ d → 1 ≤ seed d) (hseed0 : seed 0 = 0) (m : Nat) :
    ∃ s₁ u' V, (Server.new exParams (4 : ℚ) 9 6).run (exBefore ++ [Op.delete (2 : ℚ)]) = .ok s₁ ∧
      Repeated exParams 4 9 6 seed exBefore exUser ([.delete 2] :: List.replicate m []) u' ∧
      s₁.getAccumulator = .ok V ∧
      (u'.checkWitness (Pairing.field ℚ) exParams V = .ok () ↔ Even m) := by
  obtain ⟨s₀, s₁, h0, h1, h2, h3⟩ := exBefore_run
  have hsafe : SafeFrom (4 : ℚ) Mix.start (exBefore ++ [.delete 2]) :=
    C120_careful 4 _ (by norm_num [exBefore, Careful])
  have hfl : exBefore ++ ([Op.delete (2 : ℚ)] :: List.replicate m []).flatten = exBefore ++ [.delete 2] := by simp
  obtain ⟨u', hr⟩ := C121_returns_ok exParams 4 9 6 seed hseed 3 2 (by norm_num) (by norm_num)
    (fun i h0 _ => by exact_mod_cast (Nat.pos_iff_ne_zero.1 h0)) ([.delete 2] :: List.replicate m []) exBefore s₁
    (by rw [hfl]; exact hsafe) (by rw [hfl]; exact h1) exUser (by simp [exUser]) (by simp [exUser])
    (by
      intro ops rest e
      obtain ⟨rfl, -⟩ := List.cons.inj e
      decide +kernel)
    (by norm_num [h3, exUser])
  obtain ⟨V, k1, k2⟩ := C121_same_epoch (Pairing.field ℚ) exParams (by norm_num [exParams]) (by norm_num [exParams])
    4 9 6 seed hseed hseed0 exBefore [.delete 2] m s₀ s₁ h0 h1 hsafe exUser u' hr
    (by rw [Server.getPublicKeys, (keys_run h0).1]; norm_num [exUser, exParams]) (by simp [exUser])
    (by simp [exUser, getEpoch, h2]) 6 (by simp [h2, exUser]) exUser_ok
  refine ⟨s₁, u', V, h1, hr, k1, ?_⟩
  rw [k2, h3]
  have e1 : prodMinus exUser.id (List.drop (exUser.epoch - 1) [(2 : ℚ)]) = -1 := by norm_num [exUser, prodMinus]
  have e2 : prodPlus (4 : ℚ) (List.drop (exUser.epoch - 1) [(2 : ℚ)]) = 6 := by norm_num [exUser, prodPlus]
  have e3 : ¬ ((6 : ℚ) • exParams.p1 = 0) := by norm_num [exParams]
  rw [e1, e2, or_iff_left e3, mul_eq_zero, or_iff_right (by norm_num), show ((-1 : ℚ)⁻¹) = -1 by norm_num]
  rw [neg_one_geom_sum]
  split <;> simp_all

/-- a deletion before each of three updates: the hypotheses of `C121_rare` -/
example : 1 ≤ (regRun exBefore).log.length + 1 ∧
    (regRun (exBefore ++ [[Op.delete (2 : ℚ)]].flatten ++ [.delete 1])).log
      ≠ (regRun (exBefore ++ [[Op.delete (2 : ℚ)]].flatten)).log ∧
    SafeFrom (4 : ℚ) Mix.start (exBefore ++ ([[Op.delete (2 : ℚ)]] ++ [[Op.delete (1 : ℚ)]] ++ [[]]).flatten) :=
  ⟨by simp, by decide +kernel, C120_careful 4 _ (by norm_num [exBefore, Careful])⟩

end
end Allo
