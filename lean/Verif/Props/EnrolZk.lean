import Verif.Props.NonMalleable

/-!
# C81: enrolment reveals nothing, and requests seen cannot be turned into others
-/

set_option linter.unusedSectionVars false
set_option linter.unusedVariables false
set_option linter.unusedSimpArgs false
namespace Rom
open Allo

section
open Classical
variable {Q R C P W α : Type} [DecidableEq Q] [Fintype R] [Fintype W] [Fintype P] [Inhabited W] [Inhabited P]
variable {Ω : Type} [Fintype Ω]

/-- The program that asks only the oracle: the proofs are random and the oracle is programmed. -/
def withoutProver (query : C → P → Q) (challenge : P → R) {n : Nat} (adv : Ω → ProverProg Q R C P α)
    (x : Ω × (Fin n → P)) : OracleProg Q R α :=
  ((adv x.1).simulate query challenge [] (pad x.2) []).map (·.1)

/-- A program that succeeds with the prover, with a target query that is none of the prover's, succeeds without. -/
theorem withoutProver_success [Nonempty Ω] (r₀ : R) (S : Finset Q) (pv : Prover Q R C P W) (δ : ℚ) (hδ : 0 ≤ δ)
    (hs : pv.Simulatable δ) (target : α → Q) (adv : Ω → ProverProg Q R C P α) (m n : Nat)
    (hb : ∀ ω, (adv ω).Bound m n) (hS : ∀ ω, ((adv ω).andHash target).QueriesIn pv (· ∈ S))
    (acc : α → R → Prop) :
    prob (fun x : Ω × (S → R) × (Fin n → W) =>
        let out := (adv x.1).real pv (oracle S r₀ x.2.1) (pad x.2.2) []
        acc out.1 (oracle S r₀ x.2.1 (target out.1)) ∧ ∀ z ∈ out.2, pv.query z.1 z.2 ≠ target out.1)
      - n * (m + 1 + n) * δ ≤
    prob (fun x : (Ω × (Fin n → P)) × (S → R) =>
      let out := (withoutProver pv.query pv.challenge adv x.1).eval (oracle S r₀ x.2)
      acc out (oracle S r₀ x.2 (target out))) := by
  have close := sim_close r₀ S pv δ hδ hs (fun ω => (adv ω).andHash target) (m + 1) n
    (fun ω => (hb ω).andHash _) hS
    (fun y l => acc y.1 y.2 ∧ ∀ z ∈ l, pv.query z.1 z.2 ≠ target y.1)
  have hle := (abs_le.1 close).2
  have e1 : prob (fun x : Ω × (S → R) × (Fin n → W) =>
      let out := (adv x.1).real pv (oracle S r₀ x.2.1) (pad x.2.2) []
      acc out.1 (oracle S r₀ x.2.1 (target out.1)) ∧ ∀ z ∈ out.2, pv.query z.1 z.2 ≠ target out.1)
      = prob (fun x : Ω × (S → R) × (Fin n → W) =>
        let y := ((adv x.1).andHash target).real pv (oracle S r₀ x.2.1) (pad x.2.2) []
        acc y.1.1 y.1.2 ∧ ∀ z ∈ y.2, pv.query z.1 z.2 ≠ target y.1.1) := by
    congr 1
    funext x
    simp only [ProverProg.real_andHash]
  have e2 : prob (fun x : Ω × (S → R) × (Fin n → P) =>
      let y := (((adv x.1).andHash target).simulate pv.query pv.challenge [] (pad x.2.2) []).eval (oracle S r₀ x.2.1)
      acc y.1.1 y.1.2 ∧ ∀ z ∈ y.2, pv.query z.1 z.2 ≠ target y.1.1) ≤
      prob (fun x : (Ω × (Fin n → P)) × (S → R) =>
        let out := (withoutProver pv.query pv.challenge adv x.1).eval (oracle S r₀ x.2)
        acc out (oracle S r₀ x.2 (target out))) := by
    unfold prob
    have hcard : Nat.card (Ω × (S → R) × (Fin n → P)) = Nat.card ((Ω × (Fin n → P)) × (S → R)) := by
      simp only [Nat.card_prod]; ring
    rw [hcard]
    gcongr ?_ / _
    norm_cast
    refine Nat.card_le_card_of_injective (fun x => ⟨((x.1.1, x.1.2.2), x.1.2.1), ?_⟩) ?_
    · obtain ⟨⟨ω, H, ps⟩, hx1, hx3⟩ := x
      obtain ⟨s1, s2, s3⟩ := ProverProg.simulate_andHash pv (oracle S r₀ H) target
        (adv ω) [] (pad ps) [] (fun _ _ => rfl)
      simp only at hx1 hx3
      rw [s1] at hx1 hx3
      rw [s2] at hx3
      rw [s3 hx3] at hx1
      have ev : (withoutProver pv.query pv.challenge adv (ω, ps)).eval (oracle S r₀ H)
          = (((adv ω).simulate pv.query pv.challenge [] (pad ps) []).eval (oracle S r₀ H)).1 := by
        rw [withoutProver, OracleProg.eval_map]
      simp only [ev]
      exact hx1
    · rintro ⟨⟨ω, H, ps⟩, hx⟩ ⟨⟨ω', H', ps'⟩, hx'⟩ h
      simp only [Subtype.mk.injEq, Prod.mk.injEq] at h
      obtain ⟨⟨rfl, rfl⟩, rfl⟩ := h
      rfl
  rw [e1]
  push_cast at hle
  linarith

end
end Rom

namespace Allo
open Spec Rom

section
variable {F G1 G2 GT : Type} [Field F] [DecidableEq F] [Fintype F] [AddCommGroup G1] [Module F G1] [DecidableEq G1]
  [AddCommGroup G2] [Module F G2] [AddCommGroup GT] [Module F GT]
variable {Ω ι : Type} [Fintype Ω]

/-- The default nonce (never used: there are as many nonces as requests). -/
local instance fieldInhabited {F : Type} [Field F] : Inhabited F := ⟨0⟩

/-- The server (in whatever state) answers the request with a witness. -/
def EnrolRequest.accepted (H : Oracle F) (enc : Enc G1 G2 GT) (params : AccParams G1 G2) (srv : Server F G1 G2)
    (x : EnrolRequest F G1) : Prop :=
  ∃ r, srv.witness H enc params x.id x.challenge x.response x.pubKey = .ok (some r)

theorem enrol_accepted_iff (H : Oracle F) (enc : Enc G1 G2 GT) (params : AccParams G1 G2) (srv : Server F G1 G2)
    (x : EnrolRequest F G1) : x.accepted H enc params srv ↔
      H (enrolQuery enc params x).1 (enrolQuery enc params x).2 = x.challenge ∧
      x.accepted (fun _ _ => x.challenge) enc params srv := by
  unfold EnrolRequest.accepted Server.witness
  by_cases hm : (!mapContains srv.allWitnesses x.id) = true
  · simp [hm, pure, Except.pure]
  · simp only [hm, if_false, enrolQuery, ne_eq, not_true_eq_false]
    by_cases hc : H (((Transcript.new "user_signature_proof").append "user_pub_key" (enc.g1 x.pubKey)).append
      "commitment" (enc.g1 (x.response • params.k1 + x.challenge • x.pubKey))) "challenge" = x.challenge
    · simp [hc]
    · simp [hc, pure, Except.pure]

theorem enrolQuery_inj (enc : Enc G1 G2 GT) (h1 : Function.Injective enc.g1) (params : AccParams G1 G2)
    (x x' : EnrolRequest F G1) (h : enrolQuery enc params x = enrolQuery enc params x') :
    x.pubKey = x'.pubKey ∧
      x.response • params.k1 + x.challenge • x.pubKey = x'.response • params.k1 + x'.challenge • x'.pubKey := by
  simpa only [enrolQuery, Transcript.append, Transcript.new, List.nil_append, List.cons_append, Prod.mk.injEq,
    Transcript.mk.injEq, List.cons.injEq, true_and, and_true, h1.eq_iff] using h

/-- **C81** (requests cannot be altered). Two requests that servers (any, in any states) accept with the same
transcript are equal up to the id: the same challenge, response and public key. -/
theorem C81_nonmalleable (H : Oracle F) (enc : Enc G1 G2 GT) (h1 : Function.Injective enc.g1)
    (params : AccParams G1 G2) (hk : params.k1 ≠ 0) (srv srv' : Server F G1 G2) (x x' : EnrolRequest F G1)
    (hx : x.accepted H enc params srv) (hx' : x'.accepted H enc params srv') :
    enrolQuery enc params x ≠ enrolQuery enc params x' ∨
      (x.challenge = x'.challenge ∧ x.response = x'.response ∧ x.pubKey = x'.pubKey) := by
  by_cases h : enrolQuery enc params x = enrolQuery enc params x'
  · right
    obtain ⟨e1, e2⟩ := enrolQuery_inj enc h1 params x x' h
    have c1 := ((enrol_accepted_iff H enc params srv x).1 hx).1
    have c2 := ((enrol_accepted_iff H enc params srv' x').1 hx').1
    have hc : x.challenge = x'.challenge := by rw [← c1, ← c2, h]
    refine ⟨hc, ?_, e1⟩
    rw [hc, e1] at e2
    have e3 := add_right_cancel e2
    rw [← sub_eq_zero, ← sub_smul, smul_eq_zero] at e3
    exact sub_eq_zero.1 (e3.resolve_right hk)
  · exact .inl h

/-- Users that enrol: `key i` is the secret key of user `i`; the nonce is the randomness, a proof is a challenge with a
response, as in `create_witness`. -/
def enrolProver (enc : Enc G1 G2 GT) (params : AccParams G1 G2) (key : ι → F) : Prover Query F ι (F × F) F where
  commit i k := (((Transcript.new "user_signature_proof").append "user_pub_key" (enc.g1 (key i • params.k1))).append
    "commitment" (enc.g1 (k • params.k1)), "challenge")
  respond i k c := (c, k - c * key i)
  query i p := enrolQuery enc params ⟨0, p.1, p.2, key i • params.k1⟩
  challenge p := p.1

/-- **C81** (who the users are). The request that `create_witness` sends is the one of the games below. -/
theorem C81_request (enc : Enc G1 G2 GT) (params : AccParams G1 G2) (key : ι → F) (i : ι) (k : F) (O : Query → F) :
    let p := (enrolProver enc params key).respond i k (O ((enrolProver enc params key).commit i k))
    ∀ (u : User F G1 G2) (srv : Server F G1 G2),
    u.createWitness (asHash O) enc params srv (key i) k = (do
      match ← srv.witness (asHash O) enc params u.id p.1 p.2 (key i • params.k1) with
      | some (witness, signature) =>
        let acc ← srv.getAccumulator
        pure ⟨u.id, some ⟨key i, witness, signature⟩, acc, u.publicKeys, srv.getEpoch⟩
      | none => pure u) := fun _ _ => rfl

theorem enrol_guess (enc : Enc G1 G2 GT) (h1 : Function.Injective enc.g1) (params : AccParams G1 G2)
    (hk : params.k1 ≠ 0) (pk : G1) (q : Query) :
    prob (fun p : F × F => enrolQuery enc params ⟨0, p.1, p.2, pk⟩ = q) ≤ 1 / (Nat.card F : ℚ) := by
  let φ : {p : F × F // enrolQuery enc params ⟨0, p.1, p.2, pk⟩ = q} × F → F × F :=
    fun x => (x.1.1.1, x.1.1.2 + x.2)
  have hφ : Function.Injective φ := by
    rintro ⟨⟨⟨c, z⟩, hp⟩, a⟩ ⟨⟨⟨c', z'⟩, hp'⟩, a'⟩ h
    simp only [φ, Prod.mk.injEq] at h
    obtain ⟨rfl, h⟩ := h
    obtain ⟨-, e⟩ := enrolQuery_inj enc h1 params _ _ (hp.trans hp'.symm)
    simp only at e
    have e3 := add_right_cancel e
    rw [← sub_eq_zero, ← sub_smul, smul_eq_zero] at e3
    have hz : z = z' := sub_eq_zero.1 (e3.resolve_right hk)
    subst hz
    rw [add_left_cancel h]
  have hcard := Nat.card_le_card_of_injective φ hφ
  rw [Nat.card_prod] at hcard
  unfold prob
  have hF : (0 : ℚ) < Nat.card F := by exact_mod_cast Nat.card_pos
  have hP : (0 : ℚ) < Nat.card (F × F) := by exact_mod_cast Nat.card_pos
  rw [div_le_div_iff₀ hP hF, one_mul]
  exact_mod_cast hcard

theorem enrolProver_simulatable (enc : Enc G1 G2 GT) (h1 : Function.Injective enc.g1) (params : AccParams G1 G2)
    (hk : params.k1 ≠ 0) (key : ι → F) : (enrolProver enc params key).Simulatable (1 / (Nat.card F : ℚ)) where
  bij i := by
    constructor
    · rintro ⟨k, c⟩ ⟨k', c'⟩ h
      simp only [enrolProver, Prod.mk.injEq] at h ⊢
      obtain ⟨rfl, h⟩ := h
      exact ⟨by linear_combination h, rfl⟩
    · rintro ⟨c, z⟩
      exact ⟨(z + c * key i, c), by simp [enrolProver]⟩
  query_respond i k c := by
    simp only [enrolProver, enrolQuery]
    rw [show (k - c * key i) • params.k1 + c • key i • params.k1 = k • params.k1 by module]
  challenge_respond i k c := rfl
  guess i q := enrol_guess enc h1 params hk _ q

/-- **C81** (zero knowledge). Users with any keys. An adversary with any output asks the hash at most `m` times, and at
most `n` times makes a user of its choice enrol (at the adversary, which may be a server), in any order and depending
on all it has seen. The probability of every event about its output and the requests it got differs by at most
`n(m+n)/|F|` from the probability in the simulation, where there are no users: it uses only their public keys. -/
theorem C81_zero_knowledge [Nonempty Ω] {α : Type} (enc : Enc G1 G2 GT) (h1 : Function.Injective enc.g1)
    (params : AccParams G1 G2) (hk : params.k1 ≠ 0) (key : ι → F) (pub : ι → G1)
    (hpub : ∀ i, pub i = key i • params.k1)
    (adv : Ω → ProverProg Query F ι (F × F) α) (m n : Nat) (hb : ∀ ω, (adv ω).Bound m n)
    (S : Finset Query) (hS : ∀ ω, (adv ω).QueriesIn (enrolProver enc params key) (· ∈ S))
    (ev : α → List (ι × F × F) → Prop) :
    |prob (fun x : Ω × (S → F) × (Fin n → F) =>
        let out := (adv x.1).real (enrolProver enc params key) (oracle S 0 x.2.1) (pad x.2.2) []
        ev out.1 out.2)
      - prob (fun x : Ω × (S → F) × (Fin n → F × F) =>
        let out := ((adv x.1).simulate (fun i p => enrolQuery enc params ⟨0, p.1, p.2, pub i⟩) (·.1) []
          (pad x.2.2) []).eval (oracle S 0 x.2.1)
        ev out.1 out.2)|
      ≤ n * (m + n) * (1 / (Nat.card F : ℚ)) := by
  obtain rfl : pub = fun i => key i • params.k1 := funext hpub
  exact sim_close 0 S (enrolProver enc params key) _ (by positivity)
    (enrolProver_simulatable enc h1 params hk key) adv m n hb hS ev

/-- **C81** (main statement: nobody enrols a key it has only seen). Users as before. Let an adversary, with at most `m`
hash queries and `n` enrolments of users of its choice, make with probability `a` a request that a server accepts
(whatever its state), that satisfies `P` (for instance: for the public key of a certain user) and that is not a
copy of a request it got. For `a' = a - n(m+1+n)/|F|`, if not negative, with probability at least
`a' (a'/(m+1) - 1/|F|)` the extractor, which knows only the public keys, computes the secret key of the public key in
the request. -/
theorem C81_extract [Nonempty Ω] (enc : Enc G1 G2 GT) (h1 : Function.Injective enc.g1)
    (params : AccParams G1 G2) (hk : params.k1 ≠ 0) (key : ι → F) (pub : ι → G1)
    (hpub : ∀ i, pub i = key i • params.k1) (srv : Server F G1 G2)
    (adv : Ω → ProverProg Query F ι (F × F) (EnrolRequest F G1)) (m n : Nat) (hb : ∀ ω, (adv ω).Bound m n)
    (S : Finset Query)
    (hS : ∀ ω, ((adv ω).andHash (enrolQuery enc params)).QueriesIn (enrolProver enc params key) (· ∈ S))
    (P : EnrolRequest F G1 → Prop) (a' : ℚ) (ha0 : 0 ≤ a')
    (ha' : a' ≤ prob (fun x : Ω × (S → F) × (Fin n → F) =>
        let out := (adv x.1).real (enrolProver enc params key) (oracle S 0 x.2.1) (pad x.2.2) []
        out.1.accepted (asHash (oracle S 0 x.2.1)) enc params srv ∧ P out.1 ∧
        ∀ z ∈ out.2, ¬(out.1.challenge = z.2.1 ∧ out.1.response = z.2.2 ∧ out.1.pubKey = pub z.1))
      - n * (m + 1 + n) * (1 / (Nat.card F : ℚ))) :
    a' * (a' / (m + 1) - 1 / Nat.card F) ≤
      prob (fun x : (Ω × (Fin n → F × F)) × (S → F) × (S → F) =>
        let alone := withoutProver (fun i p => enrolQuery enc params ⟨0, p.1, p.2, pub i⟩) (·.1) adv x.1
        let out := alone.eval (oracle S 0 x.2.1)
        let out' := rerun S alone (enrolQuery enc params) x.2.1 x.2.2
        P out ∧ P out' ∧ out'.pubKey = out.pubKey ∧
        out.pubKey = ((out.response - out'.response) / (out'.challenge - out.challenge)) • params.k1) := by
  classical
  obtain rfl : pub = fun i => key i • params.k1 := funext hpub
  set pv := enrolProver enc params key with hpv
  let acc : EnrolRequest F G1 → F → Prop := fun x c =>
    c = x.challenge ∧ x.accepted (fun _ _ => x.challenge) enc params srv ∧ P x
  have fk := forking (0 : F) S (fun x : Ω × (Fin n → F × F) => withoutProver pv.query pv.challenge adv x) m
    (fun x => OracleProg.queryBound_map _ _ _ (ProverProg.simulate_queryBound pv (adv x.1) m n (hb x.1) _ _ _))
    (fun _ => enrolQuery enc params)
    (fun x H => by
      rw [withoutProver, OracleProg.eval_map]
      exact simulate_target_mem pv (· ∈ S) (enrolQuery enc params) (oracle S 0 H) (adv x.1) (hS x.1) _ _ _)
    (fun _ => acc)
  set b := prob (fun x : (Ω × (Fin n → F × F)) × (S → F) =>
    acc ((withoutProver pv.query pv.challenge adv x.1).eval (oracle S 0 x.2))
      (oracle S 0 x.2 (enrolQuery enc params ((withoutProver pv.query pv.challenge adv x.1).eval (oracle S 0 x.2)))))
    with hbdef
  have hab : a' ≤ b := by
    refine le_trans ha' (le_trans ?_ (withoutProver_success (0 : F) S pv _ (by positivity)
      (enrolProver_simulatable enc h1 params hk key) (enrolQuery enc params) adv m n hb hS acc))
    gcongr
    refine prob_mono (fun x hx => ?_)
    obtain ⟨hacc, hP, hcopy⟩ := hx
    have hi := (enrol_accepted_iff _ enc params srv _).1 hacc
    refine ⟨⟨hi.1, hi.2, hP⟩, fun z hz hq => hcopy z hz ?_⟩
    rcases real_log _ _ _ _ _ z hz with h | ⟨i, h⟩
    · simp at h
    obtain ⟨e1, e2⟩ := enrolQuery_inj enc h1 params _ _ hq.symm
    have hch : ((adv x.1).real pv (oracle S 0 x.2.1) (pad x.2.2) []).1.challenge = z.2.1 := by
      have : oracle S 0 x.2.1 (enrolQuery enc params ((adv x.1).real pv (oracle S 0 x.2.1) (pad x.2.2) []).1)
        = ((adv x.1).real pv (oracle S 0 x.2.1) (pad x.2.2) []).1.challenge := hi.1
      rw [← this, ← hq, h, (enrolProver_simulatable enc h1 params hk key).query_respond]
      rfl
    refine ⟨hch, ?_, e1⟩
    simp only at e1 e2
    rw [hch, e1] at e2
    have e3 := add_right_cancel e2
    rw [← sub_eq_zero, ← sub_smul, smul_eq_zero] at e3
    exact sub_eq_zero.1 (e3.resolve_right hk)
  by_cases hneg : a' / (m + 1) - 1 / Nat.card F ≤ 0
  · refine le_trans (mul_nonpos_of_nonneg_of_nonpos ha0 hneg) ?_
    unfold prob
    positivity
  have hm : (0 : ℚ) < (m : ℚ) + 1 := by positivity
  have hdiv : a' / (m + 1) ≤ b / (m + 1) := by gcongr
  refine le_trans (mul_le_mul hab (by linarith) (le_of_not_ge hneg) (ha0.trans hab)) (le_trans fk (prob_mono ?_))
  rintro ⟨x, H, G⟩ ⟨⟨e1, ⟨r, hr⟩, p1⟩, ⟨e2, ⟨r', hr'⟩, p2⟩, e3, e4⟩
  obtain ⟨hpk, hcom⟩ := enrolQuery_inj enc h1 params _ _ e3
  refine ⟨p1, p2, hpk, ?_⟩
  rw [hpk] at hcom hr'
  refine C55_special_sound _ _ enc params srv srv _ _ _ _ _ _ _ r r' hr hr' hcom.symm ?_
  intro hcc
  apply e4
  rw [e3] at e2
  rw [e2, e1]
  exact hcc.symm

/-- **C81** (impersonation). The case where the public key of the request is the one of a user: the extractor computes
the secret key of a user from the public keys alone. -/
theorem C81_impersonation [Nonempty Ω] (enc : Enc G1 G2 GT) (h1 : Function.Injective enc.g1)
    (params : AccParams G1 G2) (hk : params.k1 ≠ 0) (key : ι → F) (pub : ι → G1)
    (hpub : ∀ i, pub i = key i • params.k1) (srv : Server F G1 G2)
    (adv : Ω → ProverProg Query F ι (F × F) (EnrolRequest F G1)) (m n : Nat) (hb : ∀ ω, (adv ω).Bound m n)
    (S : Finset Query)
    (hS : ∀ ω, ((adv ω).andHash (enrolQuery enc params)).QueriesIn (enrolProver enc params key) (· ∈ S)) :
    let a' := prob (fun x : Ω × (S → F) × (Fin n → F) =>
        let out := (adv x.1).real (enrolProver enc params key) (oracle S 0 x.2.1) (pad x.2.2) []
        out.1.accepted (asHash (oracle S 0 x.2.1)) enc params srv ∧ (∃ i, out.1.pubKey = pub i) ∧
        ∀ z ∈ out.2, ¬(out.1.challenge = z.2.1 ∧ out.1.response = z.2.2 ∧ out.1.pubKey = pub z.1))
      - n * (m + 1 + n) * (1 / (Nat.card F : ℚ))
    0 ≤ a' → a' * (a' / (m + 1) - 1 / Nat.card F) ≤
      prob (fun x : (Ω × (Fin n → F × F)) × (S → F) × (S → F) =>
        let alone := withoutProver (fun i p => enrolQuery enc params ⟨0, p.1, p.2, pub i⟩) (·.1) adv x.1
        let out := alone.eval (oracle S 0 x.2.1)
        let out' := rerun S alone (enrolQuery enc params) x.2.1 x.2.2
        ∃ i, key i = (out.response - out'.response) / (out'.challenge - out.challenge)) := by
  intro a' ha0
  refine le_trans (C81_extract enc h1 params hk key pub hpub srv adv m n hb S hS
    (fun x => ∃ i, x.pubKey = pub i) a' ha0 le_rfl) (prob_mono ?_)
  rintro x ⟨⟨i, hi⟩, -, -, h⟩
  refine ⟨i, ?_⟩
  rw [hi, hpub, ← sub_eq_zero, ← sub_smul, smul_eq_zero] at h
  exact sub_eq_zero.1 (h.resolve_right hk)

/-- **C81** (the set of queries). The finite set `S` exists for every such adversary. -/
theorem C81_query_set {α : Type} (enc : Enc G1 G2 GT) (params : AccParams G1 G2)
    (key : ι → F) (adv : Ω → ProverProg Query F ι (F × F) α) :
    ∃ S : Finset Query, ∀ ω, (adv ω).QueriesIn (enrolProver enc params key) (· ∈ S) := by
  choose T hT using fun ω => ProverProg.exists_querySet (enrolProver enc params key) (adv ω)
  have mono : ∀ (S T : Finset Query), S ⊆ T → ∀ p : ProverProg Query F ι (F × F) α,
      p.QueriesIn (enrolProver enc params key) (· ∈ S) →
      p.QueriesIn (enrolProver enc params key) (· ∈ T) := by
    intro S T hST p
    induction p with
    | done a => intro _; trivial
    | hash q k ih => rintro ⟨h1, h2⟩; exact ⟨hST h1, fun r => ih r (h2 r)⟩
    | prove c k ih => rintro ⟨h1, h2⟩; exact ⟨fun w => hST (h1 w), fun r => ih r (h2 r)⟩
  exact ⟨Finset.univ.biUnion T, fun ω => mono _ _ (fun x hx => Finset.mem_biUnion.2 ⟨ω, Finset.mem_univ ω, hx⟩) _
    (hT ω)⟩

end

/-! ### A concrete case over a field with 7 elements -/

section
local instance fieldInhabited' {F : Type} [Field F] : Inhabited F := ⟨0⟩

/-- A server with the member 1 (secrets `1, 1`). -/
def ex81Server : Server (ZMod 7) (ZMod 7) (ZMod 7) := ⟨[2], 1, ⟨1, 1⟩, 1, [1], [(1, 1)], []⟩

/-- Two users, with the keys 2 and 3. -/
def ex81Key : Bool → ZMod 7 := fun b => if b then 3 else 2

/-- An adversary that sees the enrolment of the first user and then enrols, as id 1, with the key of the second,
which it knows: it always succeeds (`a = 1`, `m = n = 1`), and one of the users' keys is extracted from the public keys
with probability at least `4/49`. -/
theorem C81_example : ∃ S : Finset Query, 4 / 49 ≤
    prob (fun x : (Unit × (Fin 1 → ZMod 7 × ZMod 7)) × (S → ZMod 7) × (S → ZMod 7) =>
      let adv : Unit → ProverProg Query (ZMod 7) Bool (ZMod 7 × ZMod 7) (EnrolRequest (ZMod 7) (ZMod 7)) := fun _ =>
        .prove false (fun _ => .hash ((enrolProver enc7 ex79Params ex81Key).commit true 5)
          (fun c => .done ⟨1, c, 5 - c * 3, 3⟩))
      let alone := withoutProver (fun i p => enrolQuery enc7 ex79Params ⟨0, p.1, p.2, ex81Key i⟩) (·.1) adv x.1
      let out := alone.eval (oracle S 0 x.2.1)
      let out' := rerun S alone (enrolQuery enc7 ex79Params) x.2.1 x.2.2
      ∃ i, ex81Key i = (out.response - out'.response) / (out'.challenge - out.challenge)) := by
  let adv : Unit → ProverProg Query (ZMod 7) Bool (ZMod 7 × ZMod 7) (EnrolRequest (ZMod 7) (ZMod 7)) := fun _ =>
    .prove false (fun _ => .hash ((enrolProver enc7 ex79Params ex81Key).commit true 5)
      (fun c => .done ⟨1, c, 5 - c * 3, 3⟩))
  obtain ⟨S, hS⟩ := C81_query_set (Ω := Unit) enc7 ex79Params ex81Key
    (fun ω => (adv ω).andHash (enrolQuery enc7 ex79Params))
  refine ⟨S, ?_⟩
  have hk1 : ∀ i, ex81Key i = ex81Key i • ex79Params.k1 := by decide +kernel
  have hone : prob (fun x : Unit × (S → ZMod 7) × (Fin 1 → ZMod 7) =>
      let out := (adv x.1).real (enrolProver enc7 ex79Params ex81Key) (oracle S 0 x.2.1) (pad x.2.2) []
      out.1.accepted (asHash (oracle S 0 x.2.1)) enc7 ex79Params ex81Server ∧ (∃ i, out.1.pubKey = ex81Key i) ∧
      ∀ z ∈ out.2, ¬(out.1.challenge = z.2.1 ∧ out.1.response = z.2.2 ∧ out.1.pubKey = ex81Key z.1)) = 1 := by
    refine prob_one (fun x => ⟨?_, ⟨true, rfl⟩, ?_⟩)
    · refine (C55_accept_iff _ enc7 ex79Params ex81Server 1 _ _ _ (by decide +kernel)).2 ⟨by decide +kernel, ?_⟩
      have hcom : ∀ c : ZMod 7, (5 - c * 3) • ex79Params.k1 + c • (3 : ZMod 7) = 5 • ex79Params.k1 := by
        decide +kernel
      simp only [adv, ProverProg.real, hcom]
      rfl
    · intro z hz
      simp only [adv, ProverProg.real, List.nil_append, List.mem_singleton] at hz
      subst hz
      simp only [adv, ProverProg.real]
      rintro ⟨-, -, h⟩
      revert h
      decide +kernel
  have k := C81_impersonation enc7 enc7_inj ex79Params (by decide +kernel) ex81Key ex81Key hk1 ex81Server adv 1 1
    (fun _ _ _ => trivial) S hS
  simp only [hone] at k
  refine le_trans ?_ (k ?_)
  · simp; norm_num
  · simp; norm_num

end
end Allo
