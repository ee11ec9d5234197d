import Verif.Lemmas.Simulation
import Verif.Props.Rom

/-!
# C77 – C79: proofs seen are of no use for making others

C77: the only proof that is accepted with the transcript of an honest proof is that proof.
C78: whoever collects proofs from honest users, in contexts of its choice, learns nothing.
C79: whoever collects proofs from honest users and then presents a proof that is not a copy of one of these
knows a credential.
-/

set_option linter.unusedSectionVars false
set_option linter.unusedVariables false
set_option linter.unusedSimpArgs false
namespace Allo
open Spec Rom

section
variable {F G1 G2 GT : Type} [Field F] [DecidableEq F] [AddCommGroup G1] [Module F G1]
  [AddCommGroup G2] [Module F G2] [AddCommGroup GT] [Module F GT] [DecidableEq GT]

/-! ### C77 -/

/-- `(a, b, c)` is a non-trivial linear relation between `X`, `Y` and `Z`. -/
def IsRelation (params : AccParams G1 G2) (r : F × F × F) : Prop :=
  r ≠ (0, 0, 0) ∧ r.1 • params.x1 + r.2.1 • params.y1 + r.2.2 • params.z1 = 0

/-- The relation computed from the first group of responses of two proofs. -/
def relFirst (p p' : CredProof F G1) : F × F × F := (p'.s1 - p.s1, p'.s2 - p.s2, p'.s3 - p.s3)

/-- The relation computed from the second group of responses of two proofs, the first of which was made with the
randomness `rand`. -/
def relSecond (rand : ProofRand F) (p p' : CredProof F G1) : F × F × F :=
  (p'.s4 - p.s4 - (p'.s7 - p.s7) * rand.r0, p'.s5 - p.s5 - (p'.s7 - p.s7) * rand.r1,
    p'.s6 - p.s6 - (p'.s7 - p.s7) * rand.r2)

theorem responses_unique (E : Pairing F G1 G2 GT) (params : AccParams G1 G2) (hk1 : params.k1 ≠ 0)
    (hk2 : params.k2 ≠ 0) (hp2 : params.p2 ≠ 0) (pk : PublicKeys G2) (V : G1) (hV : V ≠ 0) (y : F)
    (w : Witness F G1) (hw : credVerify E V pk params y w = .ok ()) (rand : ProofRand F) (c : F)
    (p' : CredProof F G1) :
    let p := (Committing.new E w params pk rand).genProof w y c
    SameCommitments E params pk V p p' → p'.challenge = c →
    p' = p ∨ IsRelation params (relFirst p p') ∨ IsRelation params (relSecond rand p p') := by
  intro p h hc
  have hC : w.witness ≠ 0 := by
    intro h0
    have := ((credVerify_pairing E V pk params y w).1 hw).1
    rw [h0, map_zero, LinearMap.zero_apply, eq_comm, E.eq_zero_iff hp2] at this
    exact hV this
  obtain ⟨hu1, hu2, hr, ht1, ht2, hp1, hp2'⟩ := h
  have hpc : p.challenge = c := rfl
  have hru : p.r = rand.r0 • params.x1 + rand.r1 • params.y1 + rand.r2 • params.z1 := rfl
  have hu : p.u2 = w.witness + rand.r1 • params.z1 := rfl
  have hu' : p.u1 = w.signature + rand.r0 • params.z1 := rfl
  clear_value p
  by_cases hA : relFirst p p' = (0, 0, 0)
  swap
  · right; left
    refine ⟨hA, ?_⟩
    simp only [relFirst]
    simp only [CredProof.t1, hc, hpc, hr] at ht1
    linear_combination (norm := module) -ht1
  by_cases hB : relSecond rand p p' = (0, 0, 0)
  swap
  · right; right
    refine ⟨hB, ?_⟩
    simp only [relSecond]
    simp only [CredProof.t2, ← hr, hru] at ht2
    linear_combination (norm := module) -ht2
  left
  simp only [relFirst, Prod.mk.injEq, sub_eq_zero] at hA
  simp only [relSecond, Prod.mk.injEq] at hB
  obtain ⟨a1, a2, a3⟩ := hA
  obtain ⟨b1, b2, b3⟩ := hB
  have b1 : p'.s4 = p.s4 + (p'.s7 - p.s7) * rand.r0 := by linear_combination b1
  have b2 : p'.s5 = p.s5 + (p'.s7 - p.s7) * rand.r1 := by linear_combination b2
  have b3 : p'.s6 = p.s6 + (p'.s7 - p.s7) * rand.r2 := by linear_combination b3
  have h7 : p'.s7 = p.s7 := by
    simp only [CredProof.pi2, pair, hc, hpc, ← hu2, a2, b2, hu] at hp2'
    have : (p'.s7 - p.s7) • E.e w.witness params.p2 = 0 := by
      simp only [map_add, map_sub, map_smul, map_neg, LinearMap.add_apply, LinearMap.sub_apply,
        LinearMap.smul_apply, LinearMap.neg_apply] at hp2' ⊢
      linear_combination (norm := module) hp2'
    rw [smul_eq_zero, E.eq_zero_iff hp2] at this
    exact sub_eq_zero.1 (this.resolve_right hC)
  rw [h7, sub_self, zero_mul, add_zero] at b1 b2 b3
  have h0 : p'.s0 = p.s0 := by
    simp only [CredProof.pi1, pair, hc, hpc, ← hu1, a1, b1, h7] at hp1
    have : (p'.s0 - p.s0) • E.e params.k1 params.k2 = 0 := by
      simp only [map_add, map_sub, map_smul, map_neg, LinearMap.add_apply, LinearMap.sub_apply,
        LinearMap.smul_apply, LinearMap.neg_apply] at hp1 ⊢
      linear_combination (norm := module) -hp1
    rw [smul_eq_zero, E.eq_zero_iff hk2] at this
    exact sub_eq_zero.1 (this.resolve_right hk1)
  ext
  exacts [hu1.symm, hu2.symm, hr.symm, hc.trans hpc.symm, h0, a1, a2, a3, b1, b2, b3, h7]

end

section
variable {F G1 G2 GT : Type} [Field F] [DecidableEq F] [Fintype F] [AddCommGroup G1] [Module F G1]
  [AddCommGroup G2] [Module F G2] [AddCommGroup GT] [Module F GT] [DecidableEq GT]

/-- **C77** (non-malleability). Let `p` be a proof that `make_membership_proof` returned with randomness `rand`.
Whatever else a verifier accepts (any proof, any accumulator, keys and ephemeral challenge): it is the same
presentation, or the verifier hashed another transcript, or a non-trivial linear relation between `X`, `Y` and
`Z` is read off. -/
theorem C77_nonmalleable (E : Pairing F G1 G2 GT) (H : Oracle F) (enc : Enc G1 G2 GT)
    (h1 : Function.Injective enc.g1) (h2 : Function.Injective enc.g2) (h3 : Function.Injective enc.gt)
    (params : AccParams G1 G2) (hk1 : params.k1 ≠ 0) (hk2 : params.k2 ≠ 0) (hp2 : params.p2 ≠ 0)
    (pk : PublicKeys G2) (V : G1) (hV : V ≠ 0) (eph : Bytes) (y : F) (w : Witness F G1) (rand : ProofRand F)
    (p : CredProof F G1) (hp : makeProof E H enc w y V params pk eph rand = some p)
    (x : Presentation F G1 G2) (hx : x.accepted E H enc params) :
    x = ⟨p, pk, V, eph⟩ ∨ x.query E enc params ≠ (⟨p, pk, V, eph⟩ : Presentation F G1 G2).query E enc params ∨
      IsRelation params (relFirst p x.proof) ∨ IsRelation params (relSecond rand p x.proof) := by
  have hw : credVerify E V pk params y w = .ok () := (C42_complete E H enc w y V params pk eph rand).1.1 ⟨p, hp⟩
  by_cases hq : x.query E enc params = (⟨p, pk, V, eph⟩ : Presentation F G1 G2).query E enc params
  swap
  · exact .inr (.inl hq)
  have hacc : (⟨p, pk, V, eph⟩ : Presentation F G1 G2).accepted E H enc params :=
    (C42_complete E H enc w y V params pk eph rand).2 p hp
  have hch : x.proof.challenge = p.challenge := by
    simp only [Presentation.accepted, checkProof, decide_eq_true_eq] at hx hacc
    rw [← hx, ← hacc]
    simp only [Presentation.query, Prod.mk.injEq, and_true] at hq
    rw [hq]
  obtain ⟨e1, e2, e3, hsame⟩ := query_inj E enc h1 h2 h3 params ⟨p, pk, V, eph⟩ x hq
  rw [makeProof_eq E H enc w y V params pk eph rand hw] at hp
  obtain rfl := Option.some.inj hp
  rcases responses_unique E params hk1 hk2 hp2 pk V hV y w hw rand _ x.proof hsame hch with h | h
  · left
    obtain ⟨xp, xk, xV, xe⟩ := x
    simp only at e1 e2 e3 h
    rw [h, e1, e2, e3]
  · exact .inr (.inr h)

/-- **C77** (other contexts). A presentation with another ephemeral challenge, accumulator or key, or with other points
in the proof, has another transcript. -/
theorem C77_other_context (E : Pairing F G1 G2 GT) (enc : Enc G1 G2 GT)
    (h1 : Function.Injective enc.g1) (h2 : Function.Injective enc.g2) (h3 : Function.Injective enc.gt)
    (params : AccParams G1 G2) (x x' : Presentation F G1 G2)
    (h : x.ephemeral ≠ x'.ephemeral ∨ x.accumulator ≠ x'.accumulator ∨ x.keys ≠ x'.keys ∨
      x.proof.u1 ≠ x'.proof.u1 ∨ x.proof.u2 ≠ x'.proof.u2 ∨ x.proof.r ≠ x'.proof.r) :
    x.query E enc params ≠ x'.query E enc params := by
  intro hq
  obtain ⟨e1, e2, e3, e4, e5, e6, -⟩ := query_inj E enc h1 h2 h3 params x' x hq
  rcases h with h | h | h | h | h | h
  exacts [h e3, h e2, h e1, h e4.symm, h e5.symm, h e6.symm]

/-! ### C78 -/

/-- A user, with the accumulator and keys its credential is for. -/
structure Holder (F G1 G2 : Type) where
  id : F
  witness : Witness F G1
  accumulator : G1
  keys : PublicKeys G2

def CredProof.equiv : CredProof F G1 ≃ G1 × G1 × G1 × F × F × F × F × F × F × F × F × F where
  toFun p := ⟨p.u1, p.u2, p.r, p.challenge, p.s0, p.s1, p.s2, p.s3, p.s4, p.s5, p.s6, p.s7⟩
  invFun x := ⟨x.1, x.2.1, x.2.2.1, x.2.2.2.1, x.2.2.2.2.1, x.2.2.2.2.2.1, x.2.2.2.2.2.2.1, x.2.2.2.2.2.2.2.1,
    x.2.2.2.2.2.2.2.2.1, x.2.2.2.2.2.2.2.2.2.1, x.2.2.2.2.2.2.2.2.2.2.1, x.2.2.2.2.2.2.2.2.2.2.2⟩
  left_inv _ := rfl
  right_inv _ := rfl

def ProofRand.equiv : ProofRand F ≃ F × F × F × F × F × F × F × F × F × F × F where
  toFun p := ⟨p.r0, p.r1, p.r2, p.k0, p.k1, p.k2, p.k3, p.k4, p.k5, p.k6, p.k7⟩
  invFun x := ⟨x.1, x.2.1, x.2.2.1, x.2.2.2.1, x.2.2.2.2.1, x.2.2.2.2.2.1, x.2.2.2.2.2.2.1, x.2.2.2.2.2.2.2.1,
    x.2.2.2.2.2.2.2.2.1, x.2.2.2.2.2.2.2.2.2.1, x.2.2.2.2.2.2.2.2.2.2⟩
  left_inv _ := rfl
  right_inv _ := rfl

instance [Fintype G1] : Fintype (CredProof F G1) := Fintype.ofEquiv _ CredProof.equiv.symm
instance : Fintype (ProofRand F) := Fintype.ofEquiv _ ProofRand.equiv.symm
instance : Inhabited (CredProof F G1) := ⟨⟨0, 0, 0, 0, 0, 0, 0, 0, 0, 0, 0, 0⟩⟩
instance : Inhabited (ProofRand F) := ⟨⟨0, 0, 0, 0, 0, 0, 0, 0, 0, 0, 0⟩⟩

variable {ι : Type}

/-- The presentation of a proof made by user `c.1` for the ephemeral challenge `c.2`, where `pub` gives the accumulator
and keys the users use. -/
def shown (pub : ι → G1 × PublicKeys G2) (c : ι × Bytes) (p : CredProof F G1) : Presentation F G1 G2 :=
  ⟨p, (pub c.1).2, (pub c.1).1, c.2⟩

/-- What is public about the users. -/
def publicOf (holders : ι → Holder F G1 G2) (i : ι) : G1 × PublicKeys G2 := ((holders i).accumulator, (holders i).keys)

/-- The honest users: `Committing.new` and `gen_proof` in the two moves of `make_membership_proof`. -/
def credProver (E : Pairing F G1 G2 GT) (enc : Enc G1 G2 GT) (params : AccParams G1 G2) (holders : ι → Holder F G1 G2) :
    Prover Query F (ι × Bytes) (CredProof F G1) (ProofRand F) where
  commit c rand := (((Committing.new E (holders c.1).witness params (holders c.1).keys rand).getBytesForChallenge enc
    (credTranscript enc params (holders c.1).keys (holders c.1).accumulator)).append "Ephemeral challenge" c.2,
    "challenge")
  respond c rand ch := (Committing.new E (holders c.1).witness params (holders c.1).keys rand).genProof
    (holders c.1).witness (holders c.1).id ch
  query c p := (shown (publicOf holders) c p).query E enc params
  challenge p := p.challenge

/-- The users' credentials are valid. -/
def ValidHolders (E : Pairing F G1 G2 GT) (params : AccParams G1 G2) (holders : ι → Holder F G1 G2) : Prop :=
  ∀ i, credVerify E (holders i).accumulator (holders i).keys params (holders i).id (holders i).witness = .ok ()

/-- **C78** (who the prover is). The prover of the games below is `make_membership_proof`. -/
theorem C78_prover (E : Pairing F G1 G2 GT) (enc : Enc G1 G2 GT) (params : AccParams G1 G2)
    (holders : ι → Holder F G1 G2) (hv : ValidHolders E params holders) (c : ι × Bytes) (rand : ProofRand F)
    (O : Query → F) :
    makeProof E (asHash O) enc (holders c.1).witness (holders c.1).id (holders c.1).accumulator params
        (holders c.1).keys c.2 rand
      = some ((credProver E enc params holders).respond c rand (O ((credProver E enc params holders).commit c rand))) := by
  rw [makeProof_eq E (asHash O) enc _ _ _ params _ c.2 rand (hv c.1)]
  rfl

/-- A random proof has a given transcript with probability at most `1/|F|^5`. -/
theorem cred_guess [Fintype G1] (E : Pairing F G1 G2 GT) (enc : Enc G1 G2 GT) (h1 : Function.Injective enc.g1)
    (h2 : Function.Injective enc.g2) (h3 : Function.Injective enc.gt) (params : AccParams G1 G2)
    (hz : params.z1 ≠ 0) (pub : ι → G1 × PublicKeys G2) (c : ι × Bytes) (q : Query) :
    prob (fun p : CredProof F G1 => (shown pub c p).query E enc params = q) ≤ 1 / (Nat.card F : ℚ) ^ 5 := by
  have inj : ∀ {a b : F}, a • params.z1 = b • params.z1 → a = b := by
    intro a b h
    rw [← sub_eq_zero, ← sub_smul, smul_eq_zero] at h
    exact sub_eq_zero.1 (h.resolve_right hz)
  let φ : {p : CredProof F G1 // (shown pub c p).query E enc params = q} × (F × F × F × F × F) → CredProof F G1 :=
    fun x => ⟨x.1.1.u1 + x.2.1 • params.z1, x.1.1.u2 + x.2.2.1 • params.z1, x.1.1.r + x.2.2.2.1 • params.z1,
      x.1.1.challenge, x.1.1.s0, x.1.1.s1, x.1.1.s2, x.1.1.s3 + x.2.2.2.2.1, x.1.1.s4, x.1.1.s5,
      x.1.1.s6 + x.2.2.2.2.2, x.1.1.s7⟩
  have hφ : Function.Injective φ := by
    rintro ⟨⟨p, hp⟩, a1, a2, a3, a4, a5⟩ ⟨⟨p', hp'⟩, b1, b2, b3, b4, b5⟩ h
    obtain ⟨-, -, -, u1, u2, r, t1, t2, -, -⟩ :=
      query_inj E enc h1 h2 h3 params (shown pub c p) (shown pub c p') (hp'.trans hp.symm)
    simp only [shown] at u1 u2 r t1 t2
    simp only [φ, CredProof.mk.injEq] at h
    obtain ⟨c1, c2, c3, c4, c5, c6, c7, c8, c9, c10, c11, c12⟩ := h
    have e1 : a1 = b1 := inj (by rw [u1] at c1; exact add_left_cancel c1)
    have e2 : a2 = b2 := inj (by rw [u2] at c2; exact add_left_cancel c2)
    have e3 : a3 = b3 := inj (by rw [r] at c3; exact add_left_cancel c3)
    have s3 : p.s3 = p'.s3 := by
      simp only [CredProof.t1, c4, c6, c7, r] at t1
      exact inj (by simpa using t1)
    have s6 : p.s6 = p'.s6 := by
      simp only [CredProof.t2, c9, c10, c12, r] at t2
      exact inj (by simpa using t2)
    have e4 : a4 = b4 := by rw [s3] at c8; exact add_left_cancel c8
    have e5 : a5 = b5 := by rw [s6] at c11; exact add_left_cancel c11
    have hpp : p = p' := by ext; exacts [u1, u2, r, c4, c5, c6, c7, s3, c9, c10, s6, c12]
    subst hpp e1 e2 e3 e4 e5
    rfl
  have hcard := Nat.card_le_card_of_injective φ hφ
  rw [Nat.card_prod, Nat.card_prod, Nat.card_prod, Nat.card_prod, Nat.card_prod] at hcard
  unfold prob
  have hF : (0 : ℚ) < Nat.card F := by exact_mod_cast Nat.card_pos
  have hP : (0 : ℚ) < Nat.card (CredProof F G1) := by exact_mod_cast Nat.card_pos
  rw [div_le_div_iff₀ hP (by positivity), one_mul]
  have : (Nat.card {p : CredProof F G1 // (shown pub c p).query E enc params = q} : ℚ)
      * (Nat.card F * (Nat.card F * (Nat.card F * (Nat.card F * Nat.card F)))) ≤ Nat.card (CredProof F G1) := by
    exact_mod_cast hcard
  calc _ = _ := by ring
    _ ≤ _ := this

theorem credProver_simulatable [Fintype G1] (E : Pairing F G1 G2 GT) (enc : Enc G1 G2 GT)
    (h1 : Function.Injective enc.g1) (h2 : Function.Injective enc.g2) (h3 : Function.Injective enc.gt)
    (params : AccParams G1 G2) (hz : params.z1 ≠ 0) (holders : ι → Holder F G1 G2)
    (hv : ValidHolders E params holders) :
    (credProver E enc params holders).Simulatable (1 / (Nat.card F : ℚ) ^ 5) where
  bij c := by
    constructor
    · rintro ⟨w, r⟩ ⟨w', r'⟩ h
      have hr : r = r' := congrArg CredProof.challenge h
      subst hr
      have := (C44_simulation E params hz (holders c.1).keys (holders c.1).id (holders c.1).witness
        ((credProver E enc params holders).respond c w r)).unique (y₁ := w) (y₂ := w') rfl h.symm
      rw [this]
    · intro p
      obtain ⟨w, hw, -⟩ := C44_simulation E params hz (holders c.1).keys (holders c.1).id (holders c.1).witness p
      exact ⟨(w, p.challenge), hw⟩
  query_respond c w r := by
    simp only [credProver, Presentation.query, shown, publicOf, checkTranscript]
    rw [getBytes_eq E enc _ _ params _ _ (hv c.1)]
  challenge_respond c w r := rfl
  guess c q := cred_guess E enc h1 h2 h3 params hz (publicOf holders) c q

variable {Ω : Type} [Fintype Ω]

/-- **C78** (zero knowledge). Honest users, any number, with valid credentials. An adversary with any output asks the
Fiat-Shamir hash at most `m` times, and at most `n` times asks a user of its choice for a proof for an ephemeral
challenge of its choice, in any order and depending on all it has seen. For every event about its output and the
proofs it got: the probability differs by at most `n(m+n)/|F|^5` from the probability in the simulation, where
there are no users (the proofs are random points and scalars, and the hash is programmed to fit): the simulation
uses nothing about the users but the accumulator and the keys. -/
theorem C78_zero_knowledge [Fintype G1] [Nonempty Ω] {α : Type} (E : Pairing F G1 G2 GT) (enc : Enc G1 G2 GT)
    (h1 : Function.Injective enc.g1) (h2 : Function.Injective enc.g2) (h3 : Function.Injective enc.gt)
    (params : AccParams G1 G2) (hz : params.z1 ≠ 0) (holders : ι → Holder F G1 G2)
    (hv : ValidHolders E params holders) (pub : ι → G1 × PublicKeys G2)
    (hpub : ∀ i, pub i = ((holders i).accumulator, (holders i).keys))
    (adv : Ω → ProverProg Query F (ι × Bytes) (CredProof F G1) α) (m n : Nat) (hb : ∀ ω, (adv ω).Bound m n)
    (S : Finset Query) (hS : ∀ ω, (adv ω).QueriesIn (credProver E enc params holders) (· ∈ S))
    (ev : α → List ((ι × Bytes) × CredProof F G1) → Prop) :
    |prob (fun x : Ω × (S → F) × (Fin n → ProofRand F) =>
        let out := (adv x.1).real (credProver E enc params holders) (oracle S 0 x.2.1) (pad x.2.2) []
        ev out.1 out.2)
      - prob (fun x : Ω × (S → F) × (Fin n → CredProof F G1) =>
        let out := ((adv x.1).simulate (fun c p => (shown pub c p).query E enc params) (·.challenge) []
          (pad x.2.2) []).eval (oracle S 0 x.2.1)
        ev out.1 out.2)|
      ≤ n * (m + n) * (1 / (Nat.card F : ℚ) ^ 5) := by
  obtain rfl : pub = publicOf holders := funext hpub
  exact sim_close 0 S (credProver E enc params holders) _ (by positivity)
    (credProver_simulatable E enc h1 h2 h3 params hz holders hv) adv m n hb hS ev

/-- **C78** (unlinkability, adaptive). Two worlds with the same public data but different users behind it (other ids,
other credentials, the same person twice or two persons): no such adversary can tell which world it is in, except
with probability `2n(m+n)/|F|^5`. -/
theorem C78_worlds [Fintype G1] [Nonempty Ω] {α : Type} (E : Pairing F G1 G2 GT) (enc : Enc G1 G2 GT)
    (h1 : Function.Injective enc.g1) (h2 : Function.Injective enc.g2) (h3 : Function.Injective enc.gt)
    (params : AccParams G1 G2) (hz : params.z1 ≠ 0) (holders holders' : ι → Holder F G1 G2)
    (hv : ValidHolders E params holders) (hv' : ValidHolders E params holders')
    (hpub : ∀ i, (holders i).accumulator = (holders' i).accumulator ∧ (holders i).keys = (holders' i).keys)
    (adv : Ω → ProverProg Query F (ι × Bytes) (CredProof F G1) α) (m n : Nat) (hb : ∀ ω, (adv ω).Bound m n)
    (S : Finset Query) (hS : ∀ ω, (adv ω).QueriesIn (credProver E enc params holders) (· ∈ S))
    (hS' : ∀ ω, (adv ω).QueriesIn (credProver E enc params holders') (· ∈ S))
    (ev : α → List ((ι × Bytes) × CredProof F G1) → Prop) :
    |prob (fun x : Ω × (S → F) × (Fin n → ProofRand F) =>
        let out := (adv x.1).real (credProver E enc params holders) (oracle S 0 x.2.1) (pad x.2.2) []
        ev out.1 out.2)
      - prob (fun x : Ω × (S → F) × (Fin n → ProofRand F) =>
        let out := (adv x.1).real (credProver E enc params holders') (oracle S 0 x.2.1) (pad x.2.2) []
        ev out.1 out.2)|
      ≤ 2 * n * (m + n) * (1 / (Nat.card F : ℚ) ^ 5) := by
  have k := C78_zero_knowledge E enc h1 h2 h3 params hz holders hv (publicOf holders) (fun _ => rfl) adv m n hb S hS ev
  have k' := C78_zero_knowledge E enc h1 h2 h3 params hz holders' hv' (publicOf holders)
    (fun i => by rw [publicOf, (hpub i).1, (hpub i).2]) adv m n hb S hS' ev
  refine le_trans (abs_sub_le _ _ _) (le_trans (add_le_add k ((abs_sub_comm _ _).le.trans k')) (le_of_eq ?_))
  ring

/-- **C78** (the set of queries). The finite set `S` exists for every such adversary. -/
theorem C78_query_set [Fintype G1] {α : Type} (E : Pairing F G1 G2 GT) (enc : Enc G1 G2 GT) (params : AccParams G1 G2)
    (holders : ι → Holder F G1 G2) (adv : Ω → ProverProg Query F (ι × Bytes) (CredProof F G1) α) :
    ∃ S : Finset Query, ∀ ω, (adv ω).QueriesIn (credProver E enc params holders) (· ∈ S) := by
  choose T hT using fun ω => ProverProg.exists_querySet (credProver E enc params holders) (adv ω)
  have mono : ∀ (S T : Finset Query), S ⊆ T → ∀ p : ProverProg Query F (ι × Bytes) (CredProof F G1) α,
      p.QueriesIn (credProver E enc params holders) (· ∈ S) →
      p.QueriesIn (credProver E enc params holders) (· ∈ T) := by
    intro S T hST p
    induction p with
    | done a => intro _; trivial
    | hash q k ih => rintro ⟨h1, h2⟩; exact ⟨hST h1, fun r => ih r (h2 r)⟩
    | prove c k ih => rintro ⟨h1, h2⟩; exact ⟨fun w => hST (h1 w), fun r => ih r (h2 r)⟩
  exact ⟨Finset.univ.biUnion T, fun ω => mono _ _ (fun x hx => Finset.mem_biUnion.2 ⟨ω, Finset.mem_univ ω, hx⟩) _
    (hT ω)⟩

/-! ### C79 -/

/-- A program that computes something from the output of another. -/
def _root_.Rom.OracleProg.map {Q R α β : Type} (f : α → β) : OracleProg Q R α → OracleProg Q R β
  | .done a => .done (f a)
  | .ask q k => .ask q (fun r => (k r).map f)

theorem _root_.Rom.OracleProg.eval_map {Q R α β : Type} (f : α → β) (O : Q → R) :
    ∀ p : OracleProg Q R α, (p.map f).eval O = f (p.eval O)
  | .done _ => rfl
  | .ask q k => eval_map f O (k (O q))

theorem _root_.Rom.OracleProg.queryBound_map {Q R α β : Type} (f : α → β) :
    ∀ (n : Nat) (p : OracleProg Q R α), p.QueryBound n → (p.map f).QueryBound n
  | 0, .done _, _ => trivial
  | _ + 1, .done _, _ => trivial
  | 0, .ask _ _, h => absurd h id
  | n + 1, .ask _ k, h => fun r => queryBound_map f n (k r) (h r)

theorem simulate_target_mem {Q R C P W α : Type} [DecidableEq Q] (pv : Prover Q R C P W) (S : Q → Prop)
    (target : α → Q) (O : Q → R) :
    ∀ (prog : ProverProg Q R C P α), (prog.andHash target).QueriesIn pv S → ∀ T ps l,
      S (target ((prog.simulate pv.query pv.challenge T ps l).eval O).1)
  | .done a, h, T, ps, l => h.1
  | .hash q k, h, T, ps, l => by
    unfold ProverProg.simulate
    cases T.lookup q with
    | some r => exact simulate_target_mem pv S target O (k r) (h.2 r) T ps l
    | none => exact simulate_target_mem pv S target O (k (O q)) (h.2 _) T ps l
  | .prove c k, h, T, ps, l => simulate_target_mem pv S target O (k (ps 0)) (h.2 _) _ _ _

/-- The adversary that asks only the hash: it draws the users' proofs at random and programs the hash. -/
def alone (E : Pairing F G1 G2 GT) (enc : Enc G1 G2 GT) (params : AccParams G1 G2) (pub : ι → G1 × PublicKeys G2)
    {n : Nat} (adv : Ω → ProverProg Query F (ι × Bytes) (CredProof F G1) (Presentation F G1 G2))
    (x : Ω × (Fin n → CredProof F G1)) : OracleProg Query F (Presentation F G1 G2) :=
  ((adv x.1).simulate (fun c p => (shown pub c p).query E enc params) (·.challenge) [] (pad x.2) []).map (·.1)

/-- **C79** (simulation extractability). Honest users as in C78. Let an adversary, which asks the hash at most `m` times
and gets at most `n` proofs from the users, make with probability `a` a presentation that is accepted, satisfies
`P`, and has a transcript that is none of those of the proofs it got. Then for `a' = a - n(m+1+n)/|F|^5`, if not
negative, with probability at least `a' (a'/(m+1) - 1/|F|)` the extractor, which runs the adversary with random
proofs (it does not need the users), computes a credential that passes `Witness::verify` for the accumulator and
keys of the presentation, or a non-trivial linear relation between `X`, `Y` and `Z`. -/
theorem C79_fresh_transcript [Fintype G1] [Nonempty Ω] (E : Pairing F G1 G2 GT) (enc : Enc G1 G2 GT)
    (h1 : Function.Injective enc.g1) (h2 : Function.Injective enc.g2) (h3 : Function.Injective enc.gt)
    (params : AccParams G1 G2) (hz : params.z1 ≠ 0) (holders : ι → Holder F G1 G2)
    (hv : ValidHolders E params holders) (pub : ι → G1 × PublicKeys G2)
    (hpub : ∀ i, pub i = ((holders i).accumulator, (holders i).keys))
    (adv : Ω → ProverProg Query F (ι × Bytes) (CredProof F G1) (Presentation F G1 G2)) (m n : Nat)
    (hb : ∀ ω, (adv ω).Bound m n) (S : Finset Query)
    (hS : ∀ ω, ((adv ω).andHash (Presentation.query E enc params)).QueriesIn (credProver E enc params holders) (· ∈ S))
    (P : Presentation F G1 G2 → Prop) (a' : ℚ) (ha0 : 0 ≤ a')
    (ha' : a' ≤ prob (fun x : Ω × (S → F) × (Fin n → ProofRand F) =>
        let out := (adv x.1).real (credProver E enc params holders) (oracle S 0 x.2.1) (pad x.2.2) []
        out.1.accepted E (asHash (oracle S 0 x.2.1)) enc params ∧ P out.1 ∧
        ∀ z ∈ out.2, (shown pub z.1 z.2).query E enc params ≠ out.1.query E enc params)
      - n * (m + 1 + n) * (1 / (Nat.card F : ℚ) ^ 5)) :
    a' * (a' / (m + 1) - 1 / Nat.card F) ≤
      prob (fun x : (Ω × (Fin n → CredProof F G1)) × (S → F) × (S → F) =>
        let out := (alone E enc params pub adv x.1).eval (oracle S 0 x.2.1)
        let out' := rerun S (alone E enc params pub adv x.1) (Presentation.query E enc params) x.2.1 x.2.2
        P out ∧ P out' ∧ Extracts E params out out') := by
  classical
  obtain rfl : pub = publicOf holders := funext hpub
  set pv := credProver E enc params holders with hpv
  -- the probability of success of the adversary that is alone
  set b := prob (fun x : (Ω × (Fin n → CredProof F G1)) × (S → F) =>
      ((alone E enc params (publicOf holders) adv x.1).eval (oracle S 0 x.2)).accepted E
        (asHash (oracle S 0 x.2)) enc params ∧
      P ((alone E enc params (publicOf holders) adv x.1).eval (oracle S 0 x.2))) with hbdef
  have key := C70_knowledge E enc h1 h2 h3 params
    (fun x : Ω × (Fin n → CredProof F G1) => alone E enc params (publicOf holders) adv x) m
    (fun x => OracleProg.queryBound_map _ _ _ (ProverProg.simulate_queryBound pv (adv x.1) m n (hb x.1) _ _ _)) S
    (fun x H => by
      rw [alone, OracleProg.eval_map]
      exact simulate_target_mem pv (· ∈ S) (Presentation.query E enc params) (oracle S 0 H) (adv x.1) (hS x.1) _ _ _) P
  simp only [← hbdef] at key
  by_cases hneg : a' / (m + 1) - 1 / Nat.card F ≤ 0
  · refine le_trans (mul_nonpos_of_nonneg_of_nonpos ha0 hneg) ?_
    unfold prob
    positivity
  refine le_trans ?_ key
  -- `b` is large
  have hab : a' ≤ b := by
    have close := sim_close (0 : F) S pv _ (by positivity)
      (credProver_simulatable E enc h1 h2 h3 params hz holders hv)
      (fun ω => (adv ω).andHash (Presentation.query E enc params)) (m + 1) n
      (fun ω => (hb ω).andHash _) hS
      (fun y l => y.2 = y.1.proof.challenge ∧ P y.1 ∧
        ∀ z ∈ l, (shown (publicOf holders) z.1 z.2).query E enc params ≠ y.1.query E enc params)
    have hle := (abs_le.1 close).2
    refine le_trans ha' ?_
    have e1 : prob (fun x : Ω × (S → F) × (Fin n → ProofRand F) =>
        let out := (adv x.1).real pv (oracle S 0 x.2.1) (pad x.2.2) []
        out.1.accepted E (asHash (oracle S 0 x.2.1)) enc params ∧ P out.1 ∧
        ∀ z ∈ out.2, (shown (publicOf holders) z.1 z.2).query E enc params ≠ out.1.query E enc params)
        = prob (fun x : Ω × (S → F) × (Fin n → ProofRand F) =>
          let y := ((adv x.1).andHash (Presentation.query E enc params)).real pv (oracle S 0 x.2.1) (pad x.2.2) []
          y.1.2 = y.1.1.proof.challenge ∧ P y.1.1 ∧
          ∀ z ∈ y.2, (shown (publicOf holders) z.1 z.2).query E enc params ≠ y.1.1.query E enc params) := by
      congr 1
      funext x
      simp only [ProverProg.real_andHash, Presentation.accepted, checkProof, decide_eq_true_eq]
      rfl
    have e2 : prob (fun x : Ω × (S → F) × (Fin n → CredProof F G1) =>
        let y := (((adv x.1).andHash (Presentation.query E enc params)).simulate pv.query pv.challenge [] (pad x.2.2)
          []).eval (oracle S 0 x.2.1)
        y.1.2 = y.1.1.proof.challenge ∧ P y.1.1 ∧
          ∀ z ∈ y.2, (shown (publicOf holders) z.1 z.2).query E enc params ≠ y.1.1.query E enc params) ≤ b := by
      rw [hbdef]
      unfold prob
      have hcard : Nat.card (Ω × (S → F) × (Fin n → CredProof F G1))
          = Nat.card ((Ω × (Fin n → CredProof F G1)) × (S → F)) := by
        simp only [Nat.card_prod]; ring
      rw [hcard]
      gcongr ?_ / _
      norm_cast
      refine Nat.card_le_card_of_injective (fun x => ⟨((x.1.1, x.1.2.2), x.1.2.1), ?_⟩) ?_
      · obtain ⟨⟨ω, H, ps⟩, hx1, hx2, hx3⟩ := x
        obtain ⟨s1, s2, s3⟩ := ProverProg.simulate_andHash pv (oracle S 0 H) (Presentation.query E enc params)
          (adv ω) [] (pad ps) [] (fun _ _ => rfl)
        simp only at hx1 hx2 hx3
        rw [s1] at hx1 hx2 hx3
        rw [s2] at hx3
        have hans := s3 hx3
        rw [hans] at hx1
        have ev : (alone E enc params (publicOf holders) adv (ω, ps)).eval (oracle S 0 H)
            = (((adv ω).simulate pv.query pv.challenge [] (pad ps) []).eval (oracle S 0 H)).1 := by
          rw [alone, OracleProg.eval_map]
          rfl
        rw [ev]
        refine ⟨?_, hx2⟩
        simp only [Presentation.accepted, checkProof, decide_eq_true_eq]
        exact hx1
      · rintro ⟨⟨ω, H, ps⟩, hx⟩ ⟨⟨ω', H', ps'⟩, hx'⟩ h
        simp only [Subtype.mk.injEq, Prod.mk.injEq] at h
        obtain ⟨⟨rfl, rfl⟩, rfl⟩ := h
        rfl
    rw [e1]
    push_cast at hle
    linarith
  have hm : (0 : ℚ) < (m : ℚ) + 1 := by positivity
  have : a' / (m + 1) ≤ b / (m + 1) := by gcongr
  exact mul_le_mul hab (by linarith) (le_of_not_ge hneg) (ha0.trans hab)

/-- Every proof in the list comes from the prover. -/
theorem real_log {Q R C P W α : Type} (pv : Prover Q R C P W) (O : Q → R) :
    ∀ (prog : ProverProg Q R C P α) (ws : Nat → W) (l : List (C × P)) (z : C × P),
      z ∈ (prog.real pv O ws l).2 → z ∈ l ∨ ∃ i, z.2 = pv.respond z.1 (ws i) (O (pv.commit z.1 (ws i)))
  | .done a, ws, l, z, h => .inl h
  | .hash q k, ws, l, z, h => real_log pv O (k (O q)) ws l z h
  | .prove c k, ws, l, z, h => by
    rcases real_log pv O (k _) _ _ z h with h | ⟨i, hi⟩
    · rcases List.mem_append.1 h with h | h
      · exact .inl h
      · rw [List.mem_singleton] at h
        subst h
        exact .inr ⟨0, rfl⟩
    · exact .inr ⟨i + 1, hi⟩

theorem prob_le_add {X : Type} [Fintype X] {A B C : X → Prop} (h : ∀ x, A x → B x ∨ C x) :
    prob A ≤ prob B + prob C := by
  classical
  rw [prob_eq_avg, prob_eq_avg, prob_eq_avg, avg_add]
  refine avg_mono (fun x => ?_)
  by_cases hA : A x
  · rcases h x hA with hB | hC
    · simp only [hA, hB, if_true]; split <;> norm_num
    · simp only [hA, hC, if_true]; split <;> norm_num
  · simp only [hA, if_false]
    split <;> split <;> norm_num

/-- A relation between `X`, `Y`, `Z` is read off (with the formulas of C77) from the adversary's proof and one of the
proofs of the users. -/
def RelationFound (params : AccParams G1 G2) (ws : Nat → ProofRand F) (l : List ((ι × Bytes) × CredProof F G1))
    (p : CredProof F G1) : Prop :=
  ∃ z ∈ l, IsRelation params (relFirst z.2 p) ∨ ∃ i, IsRelation params (relSecond (ws i) z.2 p)

/-- **C79** (main statement). Honest users as in C78, with accumulators other than the identity. Let an adversary,
which asks the hash at most `m` times and gets at most `n` proofs from the users, make with probability `a` an
accepted presentation that satisfies `P` and is not a copy of one it got, and let `b` be the probability that a linear
relation between `X`, `Y` and `Z` is found. For `a' = a - b - n(m+1+n)/|F|^5`, if not negative, with probability at
least `a' (a'/(m+1) - 1/|F|)` the extractor computes, without the users, a credential that passes `Witness::verify`
for the accumulator and keys of the presentation (or a relation). -/
theorem C79_not_a_copy [Fintype G1] [Nonempty Ω] (E : Pairing F G1 G2 GT) (enc : Enc G1 G2 GT)
    (h1 : Function.Injective enc.g1) (h2 : Function.Injective enc.g2) (h3 : Function.Injective enc.gt)
    (params : AccParams G1 G2) (hz : params.z1 ≠ 0) (hk1 : params.k1 ≠ 0) (hk2 : params.k2 ≠ 0) (hp2 : params.p2 ≠ 0)
    (holders : ι → Holder F G1 G2) (hv : ValidHolders E params holders) (hV : ∀ i, (holders i).accumulator ≠ 0)
    (pub : ι → G1 × PublicKeys G2) (hpub : ∀ i, pub i = ((holders i).accumulator, (holders i).keys))
    (adv : Ω → ProverProg Query F (ι × Bytes) (CredProof F G1) (Presentation F G1 G2)) (m n : Nat)
    (hb : ∀ ω, (adv ω).Bound m n) (S : Finset Query)
    (hS : ∀ ω, ((adv ω).andHash (Presentation.query E enc params)).QueriesIn (credProver E enc params holders) (· ∈ S))
    (P : Presentation F G1 G2 → Prop) :
    let out := fun x : Ω × (S → F) × (Fin n → ProofRand F) =>
      (adv x.1).real (credProver E enc params holders) (oracle S 0 x.2.1) (pad x.2.2) []
    let a := prob (fun x => (out x).1.accepted E (asHash (oracle S 0 x.2.1)) enc params ∧ P (out x).1 ∧
      ∀ z ∈ (out x).2, (out x).1 ≠ shown pub z.1 z.2)
    let b := prob (fun x => RelationFound params (pad x.2.2) (out x).2 (out x).1.proof)
    let a' := a - b - n * (m + 1 + n) * (1 / (Nat.card F : ℚ) ^ 5)
    0 ≤ a' → a' * (a' / (m + 1) - 1 / Nat.card F) ≤
      prob (fun x : (Ω × (Fin n → CredProof F G1)) × (S → F) × (S → F) =>
        let out := (alone E enc params pub adv x.1).eval (oracle S 0 x.2.1)
        let out' := rerun S (alone E enc params pub adv x.1) (Presentation.query E enc params) x.2.1 x.2.2
        P out ∧ P out' ∧ Extracts E params out out') := by
  intro out a b a' ha0
  refine C79_fresh_transcript E enc h1 h2 h3 params hz holders hv pub hpub adv m n hb S hS P a' ha0 ?_
  obtain rfl : pub = publicOf holders := funext hpub
  have : a ≤ prob (fun x => (out x).1.accepted E (asHash (oracle S 0 x.2.1)) enc params ∧ P (out x).1 ∧
      ∀ z ∈ (out x).2, (shown (publicOf holders) z.1 z.2).query E enc params ≠ (out x).1.query E enc params) + b := by
    refine prob_le_add (fun x hx => ?_)
    obtain ⟨hacc, hP, hcopy⟩ := hx
    by_cases hq : ∀ z ∈ (out x).2,
        (shown (publicOf holders) z.1 z.2).query E enc params ≠ (out x).1.query E enc params
    · exact .inl ⟨hacc, hP, hq⟩
    · right
      push Not at hq
      obtain ⟨z, hzl, hq⟩ := hq
      rcases real_log _ _ _ _ _ z hzl with h | ⟨i, hi⟩
      · simp at h
      have hm := C78_prover E enc params holders hv z.1 (pad x.2.2 i) (oracle S 0 x.2.1)
      rw [← hi] at hm
      rcases C77_nonmalleable E (asHash (oracle S 0 x.2.1)) enc h1 h2 h3 params hk1 hk2 hp2 (holders z.1.1).keys
        (holders z.1.1).accumulator (hV _) z.1.2 _ _ _ z.2 hm (out x).1 hacc with h | h | h | h
      · exact absurd h (hcopy z hzl)
      · exact absurd hq.symm h
      · exact ⟨z, hzl, .inl h⟩
      · exact ⟨z, hzl, .inr ⟨i, h⟩⟩
  simp only [a']
  linarith

/-- **C79** (revoked users). For every `add`/`delete` history there are public coefficients such that for all secrets:
an adversary that collects proofs from honest users (with credentials for whatever accumulators) and then, with
probability `a`, makes a presentation for the server's current accumulator and keys which is accepted and whose
transcript is none of those it got, gives, with the probability of C79, the credential of a current member, or a linear
relation, or a solution of the SDH problem, all computed without the honest users. -/
theorem C79_revocation [Fintype G1] [DecidableEq G1] [Nonempty Ω] (ops : List (Server.Op F))
    (hops : ∀ op ∈ ops, op.isQuick = false) :
    ∃ (quo : F → List F) (r : F → F), (∀ y, (quo y).length ≤ ops.countP isAdd + 1) ∧
      ∀ (E : Pairing F G1 G2 GT) (enc : Enc G1 G2 GT) (h1 : Function.Injective enc.g1)
        (h2 : Function.Injective enc.g2) (h3 : Function.Injective enc.gt) (params : AccParams G1 G2)
        (α sM v : F) (s : Server F G1 G2), params.p2 ≠ 0 → params.k2 ≠ 0 → params.z1 ≠ 0 → v • params.p1 ≠ 0 →
        (Server.new params α sM v).run ops = .ok s →
        ∃ B : G1, B ≠ 0 ∧ ∀ V, s.getAccumulator = .ok V →
        ∀ (holders : ι → Holder F G1 G2) (hv : ValidHolders E params holders) (pub : ι → G1 × PublicKeys G2)
          (hpub : ∀ i, pub i = ((holders i).accumulator, (holders i).keys))
          (adv : Ω → ProverProg Query F (ι × Bytes) (CredProof F G1) (Presentation F G1 G2)) (m n : Nat)
          (hb : ∀ ω, (adv ω).Bound m n) (S : Finset Query)
          (hS : ∀ ω, ((adv ω).andHash (Presentation.query E enc params)).QueriesIn (credProver E enc params holders)
            (· ∈ S)),
        let a' := prob (fun x : Ω × (S → F) × (Fin n → ProofRand F) =>
            let out := (adv x.1).real (credProver E enc params holders) (oracle S 0 x.2.1) (pad x.2.2) []
            out.1.accepted E (asHash (oracle S 0 x.2.1)) enc params ∧
            (out.1.accumulator = V ∧ out.1.keys = s.getPublicKeys) ∧
            ∀ z ∈ out.2, (shown pub z.1 z.2).query E enc params ≠ out.1.query E enc params)
          - n * (m + 1 + n) * (1 / (Nat.card F : ℚ) ^ 5)
        0 ≤ a' → a' * (a' / (m + 1) - 1 / Nat.card F) ≤
          prob (fun x : (Ω × (Fin n → CredProof F G1)) × (S → F) × (S → F) =>
            let out := (alone E enc params pub adv x.1).eval (oracle S 0 x.2.1)
            let out' := rerun S (alone E enc params pub adv x.1) (Presentation.query E enc params) x.2.1 x.2.2
            let y := extractId out.proof out'.proof
            let w := extractWitness params out.proof out'.proof
            (y ∈ (regRun ops).members ∧ credVerify E V s.getPublicKeys params y w = .ok ()) ∨
            IsRelation params (extractRelation out.proof out'.proof) ∨
            (y + α) • ((r y)⁻¹ • (w.witness - fromPowers α B (quo y))) = B) := by
  obtain ⟨accC, witC, quo, r, -, -, hquo, -, main⟩ :=
    C59_revocation_sdh (F := F) (G1 := G1) (G2 := G2) (GT := GT) ops hops
  refine ⟨quo, r, hquo, ?_⟩
  intro E enc h1 h2 h3 params α sM v s hp hk hz hv hs
  obtain ⟨B, hB, -, forge⟩ := main params α sM v s hs
  refine ⟨B, hB hv, ?_⟩
  intro V hV holders hvalid pub hpub adv m n hb S hS a' ha0
  refine le_trans (C79_fresh_transcript E enc h1 h2 h3 params hz holders hvalid pub hpub adv m n hb S hS
    (fun out => out.accumulator = V ∧ out.keys = s.getPublicKeys) a' ha0 le_rfl) (prob_mono ?_)
  rintro ⟨x, H, G⟩ ⟨⟨pV, pk⟩, -, h⟩
  rcases h with h | h
  · rw [pV, pk] at h
    by_cases hm : extractId ((alone E enc params pub adv x).eval (oracle S 0 H)).proof
        (rerun S (alone E enc params pub adv x) (Presentation.query E enc params) H G).proof ∈ (regRun ops).members
    · exact .inl ⟨hm, h⟩
    · exact .inr (.inr (forge E hp hk V hV _ hm _ h))
  · exact .inr (.inl h)

end

/-! ### A concrete case over a field with 7 elements -/

section

/-- The honest user: id 1 with a credential for the accumulator 2 (secrets `1, 1`). -/
def ex79Holders : Unit → Holder (ZMod 7) (ZMod 7) (ZMod 7) := fun _ => ⟨1, ⟨1, 1, 1⟩, 2, ⟨1, 1⟩⟩

def ex79Params : AccParams (ZMod 7) (ZMod 7) := ⟨1, 1, 1, 1, 1, 1, 1, 1⟩

theorem ex79_valid : ValidHolders (Pairing.field (ZMod 7)) ex79Params ex79Holders := by
  rintro ⟨⟩
  decide +kernel

/-- C77: a proof of the honest user, and a presentation of other responses with the same commitments (here `X`, `Y`,
`Z` are known multiples of each other, so there is one): the relation is read off. -/
example :
    let E := Pairing.field (ZMod 7)
    let H : Oracle (ZMod 7) := fun _ _ => 3
    ∃ p, makeProof E H enc7 ⟨1, 1, 1⟩ 1 2 ex79Params ⟨1, 1⟩ [9] ⟨1, 2, 3, 4, 5, 6, 0, 1, 2, 3, 4⟩ = some p ∧
      let x : Presentation (ZMod 7) (ZMod 7) (ZMod 7) := ⟨
        { p with s3 := p.s3 + 1, s2 := p.s2 - 1, s5 := p.s5 + 1, s6 := p.s6 - 1 }, ⟨1, 1⟩, 2, [9]⟩
      x.accepted E H enc7 ex79Params ∧ x ≠ ⟨p, ⟨1, 1⟩, 2, [9]⟩ ∧
      x.query E enc7 ex79Params = (⟨p, ⟨1, 1⟩, 2, [9]⟩ : Presentation _ _ _).query E enc7 ex79Params ∧
      IsRelation ex79Params (relFirst p x.proof) := by
  refine ⟨_, rfl, ?_, ?_, ?_, ?_⟩
  · simp only [Presentation.accepted]
    decide +kernel
  · intro h
    have := congrArg (fun x : Presentation (ZMod 7) (ZMod 7) (ZMod 7) => x.proof.s3) h
    revert this
    decide +kernel
  · decide +kernel
  · refine ⟨?_, ?_⟩ <;> decide +kernel

/-- C79: an adversary with its own credential (here another copy of the credential of id 1) that first gets a proof
from the honest user for the ephemeral challenge `[1]`, and then presents its own proof for `[2]`, succeeds
always: `a = 1`, `m = n = 1`, and the extractor succeeds with probability at least `a' (a'/2 - 1/7) > 1/3`. -/
theorem C79_example : ∃ S : Finset Query, 1 / 3 <
    prob (fun x : (Unit × (Fin 1 → CredProof (ZMod 7) (ZMod 7))) × (S → ZMod 7) × (S → ZMod 7) =>
      let E := Pairing.field (ZMod 7)
      let adv : Unit → ProverProg Query (ZMod 7) (Unit × Bytes) (CredProof (ZMod 7) (ZMod 7))
          (Presentation (ZMod 7) (ZMod 7) (ZMod 7)) := fun _ =>
        .prove ((), [1]) (fun p => .hash ((credProver E enc7 ex79Params ex79Holders).commit ((), [2]) default)
          (fun c => .done ⟨(credProver E enc7 ex79Params ex79Holders).respond ((), [2]) default c, ⟨1, 1⟩, 2, [2]⟩))
      Extracts E ex79Params
        ((alone E enc7 ex79Params (publicOf ex79Holders) adv x.1).eval (oracle S 0 x.2.1))
        (rerun S (alone E enc7 ex79Params (publicOf ex79Holders) adv x.1) (Presentation.query E enc7 ex79Params)
          x.2.1 x.2.2)) := by
  let E := Pairing.field (ZMod 7)
  let adv : Unit → ProverProg Query (ZMod 7) (Unit × Bytes) (CredProof (ZMod 7) (ZMod 7))
      (Presentation (ZMod 7) (ZMod 7) (ZMod 7)) := fun _ =>
    .prove ((), [1]) (fun p => .hash ((credProver E enc7 ex79Params ex79Holders).commit ((), [2]) default)
      (fun c => .done ⟨(credProver E enc7 ex79Params ex79Holders).respond ((), [2]) default c, ⟨1, 1⟩, 2, [2]⟩))
  obtain ⟨S, hS⟩ := C78_query_set (Ω := Unit) E enc7 ex79Params ex79Holders
    (fun ω => (adv ω).andHash (Presentation.query E enc7 ex79Params))
  refine ⟨S, ?_⟩
  have hone : prob (fun x : Unit × (S → ZMod 7) × (Fin 1 → ProofRand (ZMod 7)) =>
      let out := (adv x.1).real (credProver E enc7 ex79Params ex79Holders) (oracle S 0 x.2.1) (pad x.2.2) []
      out.1.accepted E (asHash (oracle S 0 x.2.1)) enc7 ex79Params ∧ True ∧
      ∀ z ∈ out.2, (shown (publicOf ex79Holders) z.1 z.2).query E enc7 ex79Params ≠ out.1.query E enc7 ex79Params) = 1 := by
    refine prob_one (fun x => ?_)
    refine ⟨?_, trivial, ?_⟩
    · exact (C42_complete E (asHash (oracle S 0 x.2.1)) enc7 _ _ _ ex79Params _ [2] default).2 _
        (C78_prover E enc7 ex79Params ex79Holders ex79_valid ((), [2]) default (oracle S 0 x.2.1))
    · intro z hz
      simp only [adv, ProverProg.real, List.nil_append, List.mem_singleton] at hz
      subst hz
      apply C77_other_context E enc7 enc7_inj enc7_inj enc7_inj
      left
      simp [shown, adv, ProverProg.real]
  have k := C79_fresh_transcript E enc7 enc7_inj enc7_inj enc7_inj ex79Params (by decide +kernel) ex79Holders ex79_valid
    (publicOf ex79Holders) (fun _ => rfl) adv 1 1 (fun _ _ _ => trivial) S hS (fun _ => True)
    (1 - 3 / 7 ^ 5) (by norm_num) (by rw [hone]; simp; norm_num)
  simp only [true_and] at k
  refine lt_of_lt_of_le ?_ k
  simp
  norm_num

end
end Allo
