import Verif.Props.Revocation
import Verif.Props.Enrol

/-!
# C61, C62: the enrolment signature
-/

set_option linter.unusedSectionVars false
set_option linter.unusedVariables false
namespace Allo
open Spec Server

section
variable {F G1 G2 GT : Type} [Field F] [DecidableEq F] [AddCommGroup G1] [Module F G1]
  [AddCommGroup G2] [Module F G2] [AddCommGroup GT] [Module F GT] [DecidableEq GT] [DecidableEq G1]

/-! ## C61 -/

/-- C61. For every list `l` of enrolled ids there are public coefficient lists (depending on the ids only)
such that for all secrets: a party that is given only the points `B, sB, …, s^q B` (`q` the length of `l`), and
that has chosen `K1 = a·X`, `K0 = b·X` with `X` computed from these points, can answer every enrolment of an
id in `l` (any number, any user keys `x`) without knowing the signing key `s`; and any accepted credential
for an id that is not in `l` (whose key is not the one key with `x K1 + K0 = 0`) gives `(y+s)⁻¹B`:
a solution of the `q`-SDH problem. So nobody can make a credential for an id that never enrolled. -/
theorem C61_unenrolled_sdh (l : List F) :
    ∃ (kc : List F) (sigC quo : F → List F) (r : F → F),
      kc.length ≤ l.length + 1 ∧ (∀ y, (sigC y).length ≤ l.length + 1) ∧ (∀ y, (quo y).length ≤ l.length) ∧
      (∀ y, y ∉ l → r y ≠ 0) ∧
      ∀ (params : AccParams G1 G2) (s a b : F) (B : G1), (∀ y ∈ l, y + s ≠ 0) →
        params.k1 = a • fromPowers s B kc → params.k0 = b • fromPowers s B kc →
        (∀ (H : Oracle F) (enc : Enc G1 G2 GT) (srv : Server F G1 G2) (y c z x : F) (C R : G1),
          srv.signSecretKey = s → y ∈ l →
          srv.witness H enc params y c z (x • params.k1) = .ok (some (C, R)) →
          R = (x * a + b) • fromPowers s B (sigC y)) ∧
        (∀ (E : Pairing F G1 G2 GT) (V : G1) (α y : F) (w : Witness F G1),
          params.p2 ≠ 0 → params.k2 ≠ 0 → y ∉ l →
          credVerify E V ⟨α • params.p2, s • params.k2⟩ params y w = .ok () →
          w.secretKey * a + b ≠ 0 →
          (y + s) • ((r y)⁻¹ • ((w.secretKey * a + b)⁻¹ • w.signature - fromPowers s B (quo y))) = B) := by
  choose cf hcl hcf using exists_coeffs (F := F)
  choose qf hql hqf using exists_quotient (F := F)
  refine ⟨cf l, fun y => cf (l.erase y), qf l, fun y => prodMinus y l, hcl l, ?_, hql l,
    fun y hy => prodMinus_ne_zero' hy, ?_⟩
  · intro y
    show (cf (l.erase y)).length ≤ l.length + 1
    have := hcl (l.erase y)
    have h2 := List.length_erase_le (a := y) (l := l)
    omega
  · intro params s a b B hl hk1 hk0
    have hkey : ∀ x, x • params.k1 + params.k0 = (x * a + b) • (prodPlus s l • B) := by
      intro x
      rw [hk1, hk0, fromPowers_eq, hcf]; module
    constructor
    · intro H enc srv y c z x C R hsk hy hw
      have hne : y + srv.signSecretKey ≠ 0 := by rw [hsk]; exact hl y hy
      obtain ⟨hid, hch⟩ := (C55_accept_iff H enc params srv y c z (x • params.k1) hne).1 ⟨_, hw⟩
      obtain ⟨C', R', hw', -, hR⟩ := ((C21_witness H enc params srv y c z (x • params.k1)).2.2 hid hch).1 hne
      rw [hw'] at hw
      simp only [Except.ok.injEq, Option.some.injEq, Prod.mk.injEq] at hw
      obtain ⟨-, rfl⟩ := hw
      rw [hsk, hkey, prodPlus_erase s l y hy, mul_smul (y + s), smul_comm] at hR
      rw [fromPowers_eq, hcf]
      exact smul_right_injective G1 (hl y hy) hR
    · intro E V α y w hP hK hy hw hx
      rw [credVerify_iff E params hP hK] at hw
      have hw := hw.2
      have hr : prodMinus y l ≠ 0 := prodMinus_ne_zero' hy
      rw [hkey] at hw
      rw [smul_comm, smul_sub, smul_comm (y + s), hw, smul_smul _ _ (prodPlus s l • B),
        inv_mul_cancel₀ hx, one_smul, fromPowers_eq, smul_smul (y + s), ← sub_smul, hqf l y s,
        add_sub_cancel_left, smul_smul, inv_mul_cancel₀ hr, one_smul]

/-- C61 (the exception): an accepted credential whose key makes `x K1 + K0` the identity reveals the discrete
logarithm of `K0` to the base `K1`. -/
theorem C61_exception (params : AccParams G1 G2) (x : F) (h : x • params.k1 + params.k0 = 0) :
    params.k0 = (-x) • params.k1 := by
  rw [neg_smul]; exact eq_neg_of_add_eq_zero_right h

/-! ## C62 -/

/-- C62. Enrolment authenticates nobody: for every `add`/`delete` history, every current member id (other than
`-s`) and every key chosen by anyone at all, `create_witness` on a fresh user with that id gives a
credential with that key that passes `check_witness`. It can be repeated with any number of keys. -/
theorem C62_anyone_enrols (E : Pairing F G1 G2 GT) (H : Oracle F) (enc : Enc G1 G2 GT)
    (params : AccParams G1 G2) (hP : params.p2 ≠ 0) (hK : params.k2 ≠ 0) (α sM v : F)
    (ops : List (Op F)) (h₁ : ∀ op ∈ ops, op.isQuick = false) (srv : Server F G1 G2)
    (h : (Server.new params α sM v).run ops = .ok srv) (y : F)
    (hy : y ∈ (regRun ops).members) (hs : y ≠ -sM) (key k : F) :
    ∃ u u' V w, User.new srv y = .ok u ∧ u.createWitness H enc params srv key k = .ok u' ∧
      srv.getAccumulator = .ok V ∧ u'.checkWitness E params V = .ok () ∧ u'.id = y ∧
      u'.witness = some w ∧ w.secretKey = key := by
  have hI := invW_run params α sM v ops h₁ srv h
  have hR := refines_run ops (refines_new params α sM v) h
  have hk := keys_run h
  have hV : srv.getAccumulator = .ok (accAfter α (v • params.p1) srv.deletions) := by
    rw [getAccumulator, hI.last]; rfl
  have hyid : y ∈ srv.ids := (hR.members y).2 hy
  have hs' : y + srv.signSecretKey ≠ 0 := by
    rw [hk.2.2]
    exact fun e => hs (eq_neg_of_add_eq_zero_left e)
  have hu : User.new srv y = .ok ⟨y, none, accAfter α (v • params.p1) srv.deletions, srv.getPublicKeys,
      srv.getEpoch⟩ := by
    unfold User.new
    rw [hV]; rfl
  obtain ⟨C, R, hC, hR', hc⟩ := C55_complete H enc params srv _ hV
    ⟨y, none, accAfter α (v • params.p1) srv.deletions, srv.getPublicKeys, srv.getEpoch⟩ hyid hs' key k
  refine ⟨_, _, _, _, hu, hc, hV, ?_, rfl, rfl, rfl⟩
  have hw := hI.wits _ (mapGet_mem hC)
  refine (C23_check_witness E params hP hK α sM _ ?_ _).1.2 ⟨_, rfl, hw, ?_⟩
  · exact hk.1
  · rw [hk.2.2] at hR'; exact hR'

/-- C62. Two credentials for one id with different keys give, without the server, accepted credentials for
every affine combination of the two keys, hence for every key whatsoever. -/
theorem C62_any_key (E : Pairing F G1 G2 GT) (V : G1) (params : AccParams G1 G2) (hP : params.p2 ≠ 0)
    (hK : params.k2 ≠ 0) (α s y : F) (w₁ w₂ : Witness F G1)
    (h₁ : credVerify E V ⟨α • params.p2, s • params.k2⟩ params y w₁ = .ok ())
    (h₂ : credVerify E V ⟨α • params.p2, s • params.k2⟩ params y w₂ = .ok ())
    (hne : w₁.secretKey ≠ w₂.secretKey) (key : F) :
    let t := (key - w₂.secretKey) / (w₁.secretKey - w₂.secretKey)
    credVerify E V ⟨α • params.p2, s • params.k2⟩ params y
      ⟨key, w₁.witness, t • w₁.signature + (1 - t) • w₂.signature⟩ = .ok () := by
  intro t
  rw [credVerify_iff E params hP hK] at *
  refine ⟨h₁.1, ?_⟩
  have hd : w₁.secretKey - w₂.secretKey ≠ 0 := sub_ne_zero.2 hne
  have ht : t * w₁.secretKey + (1 - t) * w₂.secretKey = key := by
    have : t * (w₁.secretKey - w₂.secretKey) = key - w₂.secretKey := by
      simp only [t]; field_simp
    linear_combination this
  simp only
  rw [smul_add, smul_comm, smul_comm (y + s) (1 - t), h₁.2, h₂.2]
  linear_combination (norm := module) congrArg (· • params.k1) ht

/-- What `create_witness` sends to the server besides the id: challenge, response and public key. -/
def enrolRequest (H : Oracle F) (enc : Enc G1 G2 GT) (params : AccParams G1 G2) (key k : F) : F × F × G1 :=
  let c := enrolChallenge H enc (key • params.k1) (k • params.k1)
  (c, k - c * key, key • params.k1)

/-- `create_witness` uses its key and nonce only through that message, and to store the key. -/
theorem C62_request (H : Oracle F) (enc : Enc G1 G2 GT) (params : AccParams G1 G2) (u : User F G1 G2)
    (srv : Server F G1 G2) (key k : F) :
    u.createWitness H enc params srv key k = (do
      let m := enrolRequest H enc params key k
      match ← srv.witness H enc params u.id m.1 m.2.1 m.2.2 with
      | some (witness, signature) =>
        let acc ← srv.getAccumulator
        pure ⟨u.id, some ⟨key, witness, signature⟩, acc, u.publicKeys, srv.getEpoch⟩
      | none => pure u) := rfl

/-- C62 (what enrolment does hide): a message `(c, z, pk)` is sent by the holder of `pk`'s key for exactly one
nonce if it is an accepting one (a condition on the public values only) and for none otherwise. So the
server learns nothing about the key beyond the public key: choosing `c` and `z` first and setting the hash
of `(pk, z K1 + c pk)` to `c` gives the same messages without the key. -/
theorem C62_zero_knowledge (H : Oracle F) (enc : Enc G1 G2 GT) (params : AccParams G1 G2)
    (key c z : F) :
    (enrolChallenge H enc (key • params.k1) (z • params.k1 + c • key • params.k1) = c →
      ∃! k : F, enrolRequest H enc params key k = (c, z, key • params.k1)) ∧
    (enrolChallenge H enc (key • params.k1) (z • params.k1 + c • key • params.k1) ≠ c →
      ∀ k : F, enrolRequest H enc params key k ≠ (c, z, key • params.k1)) := by
  have hcom : ∀ k : F, k - c * key = z → k • params.k1 = z • params.k1 + c • (key • params.k1) := by
    rintro k rfl; module
  constructor
  · intro h
    refine ⟨z + c * key, ?_, ?_⟩
    · have e : enrolChallenge H enc (key • params.k1) ((z + c * key) • params.k1) = c := by
        rw [hcom (z + c * key) (by ring)]; exact h
      simp only [enrolRequest, e]
      simp
    · intro k hk
      simp only [enrolRequest, Prod.mk.injEq, and_true] at hk
      obtain ⟨h1, h2⟩ := hk
      rw [h1] at h2
      linear_combination h2
  · intro h k hk
    simp only [enrolRequest, Prod.mk.injEq, and_true] at hk
    obtain ⟨h1, h2⟩ := hk
    rw [h1] at h2
    rw [hcom k h2] at h1
    exact h h1

end

/-- two credentials for the id 1 with keys 5 and 6 -/
example : credVerify (Pairing.field ℚ) 35 ⟨4, 9⟩ exParams 1 ⟨5, 7, 17 / 10⟩ = .ok () ∧
    credVerify (Pairing.field ℚ) 35 ⟨4, 9⟩ exParams 1 ⟨6, 7, 2⟩ = .ok () ∧
    (⟨4, 9⟩ : PublicKeys ℚ) = ⟨(4 : ℚ) • exParams.p2, (9 : ℚ) • exParams.k2⟩ := by
  refine ⟨by decide +kernel, by decide +kernel, ?_⟩
  simp [exParams]

/-- parameters as C61 wants them: ids 1, 2, key 9, base point 1, `X = (1+9)(2+9) = 110`, `a = 3`, `b = 2` -/
example : (∀ y ∈ [1, 2], y + (9 : ℚ) ≠ 0) ∧ fromPowers (9 : ℚ) (1 : ℚ) [2, 3, 1] = 110 ∧
    ((5 : ℚ) * 3 + 2 ≠ 0) := by
  refine ⟨by decide +kernel, by decide +kernel, by norm_num⟩

end Allo
