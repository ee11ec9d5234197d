import Verif.Props.NonMalleable
import Verif.Props.Codec
import Verif.Props.VbZk
import Verif.Model.Field

/-!
# C116: membership proofs sent as bytes

The proofs travel as the arrays of `to_bytes` (432 bytes for the credential, 304 bytes and the 32-byte challenge for the
accumulator proof). The theorems about proofs (C42, C44, C46, C77) and about encodings (C52) are put together here: what
holds of the values holds of the byte strings a verifier really receives.
-/

set_option linter.unusedSectionVars false
set_option linter.unusedVariables false
namespace Allo
open Spec

section
variable {G1 G2 GT : Type} [AddCommGroup G1] [Module Fr G1] [AddCommGroup G2] [Module Fr G2]
  [AddCommGroup GT] [Module Fr GT] [DecidableEq GT]

/-- The holder's side: `Witness::make_membership_proof` (src/witness.rs:88-124), then `to_bytes` (335-350). -/
def credSend (E : Pairing Fr G1 G2 GT) (H : Oracle Fr) (enc : Enc G1 G2 GT) (pc : PointCodec G1 48)
    (w : Witness Fr G1) (y : Fr) (V : G1) (params : AccParams G1 G2) (pk : PublicKeys G2) (eph : Bytes)
    (rand : ProofRand Fr) : Rust (Option Bytes) :=
  match makeProof E H enc w y V params pk eph rand with
  | none => .ok none
  | some p => do
    let b ← p.toBytes pc
    pure (some b)

/-- The verifier's side: `from_bytes` (src/witness.rs:353-368), then `check_membership_proof` (127-153). -/
def credReceive (E : Pairing Fr G1 G2 GT) (H : Oracle Fr) (enc : Enc G1 G2 GT) (pc : PointCodec G1 48)
    (b : Bytes) (params : AccParams G1 G2) (pk : PublicKeys G2) (V : G1) (eph : Bytes) : Rust (Except String Bool) :=
  match (CredProof.fromBytes pc b : Rust (Except String _)) with
  | .error a => .error a
  | .ok (.error e) => .ok (.error e)
  | .ok (.ok p) => .ok (.ok (checkProof E H enc p params pk V eph))

theorem credSend_some (E : Pairing Fr G1 G2 GT) (H : Oracle Fr) (enc : Enc G1 G2 GT) (pc : PointCodec G1 48)
    (w : Witness Fr G1) (y : Fr) (V : G1) (params : AccParams G1 G2) (pk : PublicKeys G2) (eph : Bytes)
    (rand : ProofRand Fr) (b : Bytes) :
    credSend E H enc pc w y V params pk eph rand = .ok (some b) ↔
      ∃ p, makeProof E H enc w y V params pk eph rand = some p ∧ p.toBytes pc = .ok b := by
  unfold credSend
  cases hm : makeProof E H enc w y V params pk eph rand with
  | none => simp
  | some p =>
    simp only [(C52_cred_layout pc p).1, Option.some.injEq, exists_eq_left']
    simp [bind, Except.bind, pure, Except.pure]

theorem credReceive_true (E : Pairing Fr G1 G2 GT) (H : Oracle Fr) (enc : Enc G1 G2 GT) (pc : PointCodec G1 48)
    (b : Bytes) (params : AccParams G1 G2) (pk : PublicKeys G2) (V : G1) (eph : Bytes) (hb : b.length = 432) (r : Bool) :
    credReceive E H enc pc b params pk V eph = .ok (.ok r) ↔
      ∃ p, p.toBytes pc = .ok b ∧ checkProof E H enc p params pk V eph = r := by
  obtain ⟨h1, h2⟩ := C52_cred_decode pc b hb
  unfold credReceive
  rcases h2 with ⟨p, hp⟩ | h
  · rw [hp]
    simp only [Except.ok.injEq]
    constructor
    · intro h; exact ⟨p, (h1 p).1 hp, h⟩
    · rintro ⟨p', hp', h⟩
      have := (h1 p').2 hp'
      rw [hp] at this
      rw [Except.ok.inj (Except.ok.inj this), h]
  · rw [h]
    constructor
    · intro h'; cases h'
    · rintro ⟨p, hp, -⟩
      rw [(h1 p).2 hp] at h
      cases h

/-- **C116** (delivery). Neither side panics: whatever the witness, accumulator, keys, challenge and randomness, a holder
sends 432 bytes exactly if its credential verifies, and nothing otherwise, and the verifier answers every 432 bytes; what
a holder sends is accepted. -/
theorem C116_delivered (E : Pairing Fr G1 G2 GT) (H : Oracle Fr) (enc : Enc G1 G2 GT) (pc : PointCodec G1 48)
    (w : Witness Fr G1) (y : Fr) (V : G1) (params : AccParams G1 G2) (pk : PublicKeys G2) (eph : Bytes)
    (rand : ProofRand Fr) :
    (credVerify E V pk params y w = .ok () → ∃ b, credSend E H enc pc w y V params pk eph rand = .ok (some b) ∧
      b.length = 432 ∧ credReceive E H enc pc b params pk V eph = .ok (.ok true)) ∧
    (credVerify E V pk params y w ≠ .ok () → credSend E H enc pc w y V params pk eph rand = .ok none) ∧
    (∀ b : Bytes, b.length = 432 → ∃ r, credReceive E H enc pc b params pk V eph = .ok r) := by
  obtain ⟨hc, ha⟩ := C42_complete E H enc w y V params pk eph rand
  refine ⟨fun hv => ?_, fun hv => ?_, fun b hb => ?_⟩
  · obtain ⟨p, hp⟩ := hc.2 hv
    refine ⟨p.encoding pc, (credSend_some E H enc pc w y V params pk eph rand _).2
      ⟨p, hp, (C52_cred_layout pc p).1⟩, (C52_cred_layout pc p).2, ?_⟩
    exact (credReceive_true E H enc pc _ params pk V eph (C52_cred_layout pc p).2 true).2
      ⟨p, (C52_cred_layout pc p).1, ha p hp⟩
  · have : makeProof E H enc w y V params pk eph rand = none := by
      cases hm : makeProof E H enc w y V params pk eph rand with
      | none => rfl
      | some p => exact absurd (hc.1 ⟨p, hm⟩) hv
    unfold credSend
    rw [this]
  · unfold credReceive
    rcases (C52_cred_decode pc b hb).2 with ⟨p, hp⟩ | h
    · rw [hp]; exact ⟨_, rfl⟩
    · rw [h]; exact ⟨_, rfl⟩

/-- **C116** (anonymity of the bytes). Each holder of a valid credential can send exactly the 432-byte strings the
verifier accepts, each with exactly one choice of randomness. -/
theorem C116_accepted_iff (E : Pairing Fr G1 G2 GT) (H : Oracle Fr) (enc : Enc G1 G2 GT) (pc : PointCodec G1 48)
    (params : AccParams G1 G2) (hz : params.z1 ≠ 0) (pk : PublicKeys G2) (V : G1) (eph : Bytes)
    (y : Fr) (w : Witness Fr G1) (h : credVerify E V pk params y w = .ok ()) (b : Bytes) (hb : b.length = 432) :
    (credReceive E H enc pc b params pk V eph = .ok (.ok true) →
      ∃! rand, credSend E H enc pc w y V params pk eph rand = .ok (some b)) ∧
    (credReceive E H enc pc b params pk V eph ≠ .ok (.ok true) →
      ∀ rand, credSend E H enc pc w y V params pk eph rand ≠ .ok (some b)) := by
  have inj : ∀ p p' : CredProof Fr G1, p.toBytes pc = .ok b → p'.toBytes pc = .ok b → p = p' := by
    intro p p' hp hp'
    have e := ((C52_cred_decode pc b hb).1 p).2 hp
    rw [((C52_cred_decode pc b hb).1 p').2 hp'] at e
    exact (Except.ok.inj (Except.ok.inj e)).symm
  constructor
  · intro hr
    obtain ⟨p, hp, hck⟩ := (credReceive_true E H enc pc b params pk V eph hb true).1 hr
    obtain ⟨rand, hm, hu⟩ := (C44_accepted_iff E H enc params hz pk V eph y w h p).1 hck
    refine ⟨rand, (credSend_some E H enc pc w y V params pk eph rand b).2 ⟨p, hm, hp⟩, ?_⟩
    intro rand' hs
    obtain ⟨p', hm', hp'⟩ := (credSend_some E H enc pc w y V params pk eph rand' b).1 hs
    rw [inj p' p hp' hp] at hm'
    exact hu _ hm'
  · intro hr rand hs
    obtain ⟨p, hm, hp⟩ := (credSend_some E H enc pc w y V params pk eph rand b).1 hs
    exact hr ((credReceive_true E H enc pc b params pk V eph hb true).2
      ⟨p, hp, (C42_complete E H enc w y V params pk eph rand).2 p hm⟩)

/-- **C116** (number of accepted strings). If anybody holds a valid credential, exactly `r ^ 11` of the 432-byte strings
are accepted (`r` the order of the groups), whoever and how many the members are. -/
theorem C116_count (E : Pairing Fr G1 G2 GT) (H : Oracle Fr) (enc : Enc G1 G2 GT) (pc : PointCodec G1 48)
    (params : AccParams G1 G2) (hz : params.z1 ≠ 0) (pk : PublicKeys G2) (V : G1) (eph : Bytes)
    (y : Fr) (w : Witness Fr G1) (h : credVerify E V pk params y w = .ok ()) :
    Nat.card {b : Bytes // b.length = 432 ∧ credReceive E H enc pc b params pk V eph = .ok (.ok true)}
      = groupOrder ^ 11 := by
  have hsend : ∀ rand, ∃ b : {b : Bytes // b.length = 432 ∧
      credReceive E H enc pc b params pk V eph = .ok (.ok true)},
      credSend E H enc pc w y V params pk eph rand = .ok (some b.1) := by
    intro rand
    obtain ⟨b, h1, h2, h3⟩ := (C116_delivered E H enc pc w y V params pk eph rand).1 h
    exact ⟨⟨b, h2, h3⟩, h1⟩
  choose f hf using hsend
  have hbij : Function.Bijective f := by
    constructor
    · intro r r' e
      have h1 := hf r
      have h2 := hf r'
      rw [← e] at h2
      exact ((C116_accepted_iff E H enc pc params hz pk V eph y w h _ (f r).2.1).1 (f r).2.2).unique h1 h2
    · intro b
      obtain ⟨r, hr, -⟩ := (C116_accepted_iff E H enc pc params hz pk V eph y w h b.1 b.2.1).1 b.2.2
      refine ⟨r, Subtype.ext ?_⟩
      have := (hf r).symm.trans hr
      simpa using this
  rw [← Nat.card_congr (Equiv.ofBijective f hbij), Nat.card_congr (ProofRand.equiv (F := Fr))]
  simp only [Nat.card_prod, Nat.card_zmod]
  ring

/-- **C116** (presentations of two holders). A permutation of the random choices turns the bytes one holder sends into the
bytes another holder sends. -/
theorem C116_anonymous (E : Pairing Fr G1 G2 GT) (H : Oracle Fr) (enc : Enc G1 G2 GT) (pc : PointCodec G1 48)
    (params : AccParams G1 G2) (hz : params.z1 ≠ 0) (pk : PublicKeys G2) (V : G1) (eph : Bytes)
    (y y' : Fr) (w w' : Witness Fr G1) (h : credVerify E V pk params y w = .ok ())
    (h' : credVerify E V pk params y' w' = .ok ()) :
    ∃ φ : Equiv.Perm (ProofRand Fr), ∀ rand, credSend E H enc pc w' y' V params pk eph (φ rand)
      = credSend E H enc pc w y V params pk eph rand := by
  obtain ⟨φ, hφ⟩ := C44_sessions (ι := Unit) E H enc params hz pk (fun _ => V) (fun _ => eph) (fun _ => y) (fun _ => y')
    (fun _ => w) (fun _ => w') (fun _ => h) (fun _ => h')
  refine ⟨(Equiv.funUnique Unit (ProofRand Fr)).symm.trans (φ.trans (Equiv.funUnique Unit (ProofRand Fr))), ?_⟩
  intro rand
  have := hφ (fun _ => rand) ()
  simp only [credSend, ← this]
  rfl

/-- **C116** (non-malleability of the bytes). Whoever turns the bytes `b` a holder sent into anything else that is
accepted (other bytes, or the same bytes for another accumulator, key or ephemeral challenge) made the verifier hash
another transcript, or has a non-trivial linear relation between `X`, `Y` and `Z`. -/
theorem C116_nonmalleable (E : Pairing Fr G1 G2 GT) (H : Oracle Fr) (enc : Enc G1 G2 GT) (pc : PointCodec G1 48)
    (h1 : Function.Injective enc.g1) (h2 : Function.Injective enc.g2) (h3 : Function.Injective enc.gt)
    (params : AccParams G1 G2) (hk1 : params.k1 ≠ 0) (hk2 : params.k2 ≠ 0) (hp2 : params.p2 ≠ 0)
    (pk pk' : PublicKeys G2) (V V' : G1) (hV : V ≠ 0) (eph eph' : Bytes) (y : Fr) (w : Witness Fr G1)
    (rand : ProofRand Fr) (b b' : Bytes) (hb : credSend E H enc pc w y V params pk eph rand = .ok (some b))
    (hb' : b'.length = 432) (hacc : credReceive E H enc pc b' params pk' V' eph' = .ok (.ok true))
    (hne : (b', pk', V', eph') ≠ (b, pk, V, eph)) :
    ∃ p p' : CredProof Fr G1, p.toBytes pc = .ok b ∧ p'.toBytes pc = .ok b' ∧
      (checkTranscript E enc p' params pk' V' eph' ≠ checkTranscript E enc p params pk V eph ∨
        IsRelation params (relFirst p p') ∨ IsRelation params (relSecond rand p p')) := by
  obtain ⟨p, hp, hpb⟩ := (credSend_some E H enc pc w y V params pk eph rand b).1 hb
  obtain ⟨p', hpb', hck⟩ := (credReceive_true E H enc pc b' params pk' V' eph' hb' true).1 hacc
  refine ⟨p, p', hpb, hpb', ?_⟩
  rcases C77_nonmalleable E H enc h1 h2 h3 params hk1 hk2 hp2 pk V hV eph y w rand p hp ⟨p', pk', V', eph'⟩ hck with
    e | e | e | e
  · simp only [Presentation.mk.injEq] at e
    obtain ⟨rfl, rfl, rfl, rfl⟩ := e
    rw [hpb] at hpb'
    simp only [Except.ok.injEq] at hpb'
    rw [hpb'] at hne
    exact absurd rfl hne
  · left
    intro hq
    exact e (by simp only [Presentation.query, hq])
  · exact .inr (.inl e)
  · exact .inr (.inr e)

/-! ### The accumulator's membership proof: 304 bytes, and the challenge -/

/-- The prover's side (src/accumulator/proof.rs:100-225, 333-344; used as in the crate's test `basic_membership_proof`,
819-849): commit, hash, respond, `to_bytes`. The challenge is sent along as a scalar: the crate has no format for it. -/
def memSend (E : Pairing Fr G1 G2 GT) (H : Oracle Fr) (enc : Enc G1 G2 GT) (pc : PointCodec G1 48)
    (y : ProofMessage Fr) (C : G1) (params : ProofParams G1) (pk : G2) (t : Transcript) (label : String)
    (rand : MemRand Fr) : Rust (Bytes × Fr) := do
  let mpc := MemCommitting.new E y C params pk rand
  let challenge := H (mpc.getBytesForChallenge enc t) label
  let b ← (mpc.genProof challenge).toBytes pc
  pure (b, challenge)

/-- The verifier's side: `from_bytes` (src/accumulator/proof.rs:347-358), `finalize` (254-330), hash, compare (as in the
crate's test). -/
def memReceive (E : Pairing Fr G1 G2 GT) (H : Oracle Fr) (enc : Enc G1 G2 GT) (pc : PointCodec G1 48)
    (b : Bytes) (c : Fr) (V : G1) (params : ProofParams G1) (pk : G2) (t : Transcript) (label : String) :
    Rust (Except String Bool) :=
  match (MemProof.fromBytes pc b : Rust (Except String _)) with
  | .error a => .error a
  | .ok (.error e) => .ok (.error e)
  | .ok (.ok p) => .ok (.ok (decide (H ((p.finalize E V params pk c).getBytesForChallenge enc t) label = c)))

theorem memReceive_true (E : Pairing Fr G1 G2 GT) (H : Oracle Fr) (enc : Enc G1 G2 GT) (pc : PointCodec G1 48)
    (b : Bytes) (c : Fr) (V : G1) (params : ProofParams G1) (pk : G2) (t : Transcript) (label : String)
    (hb : b.length = 304) :
    memReceive E H enc pc b c V params pk t label = .ok (.ok true) ↔
      ∃ p, p.toBytes pc = .ok b ∧ memAccepts E H enc p V params pk c t label := by
  obtain ⟨h1, h2⟩ := C52_mem_decode pc b hb
  unfold memReceive memAccepts
  rcases h2 with ⟨p, hp⟩ | h
  · rw [hp]
    simp only [Except.ok.injEq, decide_eq_true_eq]
    constructor
    · intro h; exact ⟨p, (h1 p).1 hp, h⟩
    · rintro ⟨p', hp', h⟩
      have := (h1 p').2 hp'
      rw [hp] at this
      rw [Except.ok.inj (Except.ok.inj this), h]
  · rw [h]
    constructor
    · intro h'; cases h'
    · rintro ⟨p, hp, -⟩
      rw [(h1 p).2 hp] at h
      cases h

/-- **C116** (delivery of accumulator proofs): 304 bytes are sent, and accepted if the witness is valid; neither side
panics. -/
theorem C116_vb_delivered (E : Pairing Fr G1 G2 GT) (H : Oracle Fr) (enc : Enc G1 G2 GT) (pc : PointCodec G1 48)
    (y : ProofMessage Fr) (C V : G1) (params : ProofParams G1) (pk : G2) (t : Transcript) (label : String)
    (rand : MemRand Fr) :
    (∃ b c, memSend E H enc pc y C params pk t label rand = .ok (b, c) ∧ b.length = 304 ∧
      (mwVerify E C y.getMessage pk V = true → memReceive E H enc pc b c V params pk t label = .ok (.ok true))) ∧
    (∀ (b : Bytes) (c : Fr), b.length = 304 → ∃ r, memReceive E H enc pc b c V params pk t label = .ok r) := by
  constructor
  · set mpc := MemCommitting.new E y C params pk rand with hm
    set ch := H (mpc.getBytesForChallenge enc t) label with hc
    refine ⟨(mpc.genProof ch).encoding pc, ch, ?_, (C52_mem_layout pc _).2, fun hv => ?_⟩
    · simp only [memSend, ← hm, ← hc, (C52_mem_layout pc (mpc.genProof ch)).1]
      rfl
    · refine (memReceive_true E H enc pc _ ch V params pk t label (C52_mem_layout pc _).2).2
        ⟨_, (C52_mem_layout pc _).1, ?_⟩
      exact C46_complete E H enc y C V params pk hv rand t label
  · intro b c hb
    unfold memReceive
    rcases (C52_mem_decode pc b hb).2 with ⟨p, hp⟩ | h
    · rw [hp]; exact ⟨_, rfl⟩
    · rw [h]; exact ⟨_, rfl⟩

end

section
variable {F G1 G2 GT : Type} [Field F] [DecidableEq F] [AddCommGroup G1] [Module F G1] [AddCommGroup G2] [Module F G2]
  [AddCommGroup GT] [Module F GT] [DecidableEq GT]

theorem smul_cancel_pt {x : G1} (hx : x ≠ 0) {a b : F} (h : a • x = b • x) : a = b := by
  rw [← sub_eq_zero, ← sub_smul, smul_eq_zero] at h
  exact sub_eq_zero.1 (h.resolve_right hx)

/-- **C116** (accumulator proofs have unique responses). A proof that finalizes to the commitments of a proof of an honest
prover, with the same challenge, accumulator and key, is that proof. No assumption about relations is needed. -/
theorem C116_vb_unique (E : Pairing F G1 G2 GT) (y : ProofMessage F) (C V : G1) (params : ProofParams G1)
    (hx : params.x ≠ 0) (hy : params.y ≠ 0) (pk : G2) (hC : C ≠ 0) (rand : MemRand F) (c : F) (p : MemProof F G1)
    (h : p.finalize E V params pk c
      = ((MemCommitting.new E y C params pk rand).genProof c).finalize E V params pk c) :
    p = (MemCommitting.new E y C params pk rand).genProof c := by
  set q := (MemCommitting.new E y C params pk rand).genProof c with hq
  have e1 : p.eC = q.eC := congrArg MemFinal.eC h
  have e2 : p.tSigma = q.tSigma := congrArg MemFinal.tSigma h
  have e3 : p.tRho = q.tRho := congrArg MemFinal.tRho h
  have r1 := congrArg MemFinal.capRSigma h
  have r2 := congrArg MemFinal.capRRho h
  have r3 := congrArg MemFinal.capRDeltaSigma h
  have r4 := congrArg MemFinal.capRDeltaRho h
  have r5 := congrArg MemFinal.capRE h
  have q1 : q.eC = (rand.sigma + rand.rho) • params.z + C := rfl
  have q2 : q.tSigma = rand.sigma • params.x := rfl
  have q3 : q.tRho = rand.rho • params.y := rfl
  simp only [MemProof.finalize, e1, e2, e3, capR, List.zipWith_cons_cons, List.zipWith_nil_right, List.sum_cons,
    List.sum_nil, add_zero, add_left_inj] at r1 r2 r3 r4 r5
  have s1 : p.sSigma = q.sSigma := smul_cancel_pt hx r1
  have s2 : p.sRho = q.sRho := smul_cancel_pt hy r2
  have s3 : p.sDeltaSigma = q.sDeltaSigma + (p.sY - q.sY) * rand.sigma := by
    apply smul_cancel_pt hx
    rw [q2] at r3
    linear_combination (norm := module) -r3
  have s4 : p.sDeltaRho = q.sDeltaRho + (p.sY - q.sY) * rand.rho := by
    apply smul_cancel_pt hy
    rw [q3] at r4
    linear_combination (norm := module) -r4
  have s5 : p.sY = q.sY := by
    have : (p.sY - q.sY) • E.e C E.g2 = 0 := by
      simp only [pair, s1, s2, s3, s4, q1, map_add, map_smul, map_neg, LinearMap.add_apply, LinearMap.smul_apply,
        LinearMap.neg_apply] at r5
      linear_combination (norm := module) r5
    rw [smul_eq_zero, E.eq_zero_iff E.g2_ne] at this
    exact sub_eq_zero.1 (this.resolve_right hC)
  rw [s5, sub_self, zero_mul, add_zero] at s3 s4
  exact MemProof.ext e1 e2 e3 s1 s2 s3 s4 s5

end

section
variable {G1 G2 GT : Type} [AddCommGroup G1] [Module Fr G1] [AddCommGroup G2] [Module Fr G2]
  [AddCommGroup GT] [Module Fr GT] [DecidableEq GT]

/-- **C116** (non-malleability of accumulator proofs). Whoever turns what a prover sent into anything else that is accepted
for the same accumulator, parameters and key (other bytes, another challenge, another transcript before the proof) made
the verifier hash something else. -/
theorem C116_vb_nonmalleable (E : Pairing Fr G1 G2 GT) (H : Oracle Fr) (enc : Enc G1 G2 GT) (pc : PointCodec G1 48)
    (h1 : Function.Injective enc.g1) (h3 : Function.Injective enc.gt)
    (y : ProofMessage Fr) (C V : G1) (params : ProofParams G1) (hx : params.x ≠ 0) (hy : params.y ≠ 0) (pk : G2)
    (hC : C ≠ 0) (hv : mwVerify E C y.getMessage pk V = true) (t t' : Transcript) (label label' : String)
    (rand : MemRand Fr) (b b' : Bytes) (c c' : Fr)
    (hb : memSend E H enc pc y C params pk t label rand = .ok (b, c)) (hb' : b'.length = 304)
    (hacc : memReceive E H enc pc b' c' V params pk t' label' = .ok (.ok true))
    (hne : (b', c', t', label') ≠ (b, c, t, label)) :
    ∃ p p' : MemProof Fr G1, p.toBytes pc = .ok b ∧ p'.toBytes pc = .ok b' ∧
      ((p'.finalize E V params pk c').getBytesForChallenge enc t', label')
        ≠ ((p.finalize E V params pk c).getBytesForChallenge enc t, label) := by
  set mpc := MemCommitting.new E y C params pk rand with hm
  set ch := H (mpc.getBytesForChallenge enc t) label with hch
  have hs : memSend E H enc pc y C params pk t label rand = .ok ((mpc.genProof ch).encoding pc, ch) := by
    simp only [memSend, ← hm, ← hch, (C52_mem_layout pc (mpc.genProof ch)).1]
    rfl
  rw [hs] at hb
  obtain ⟨rfl, rfl⟩ := Prod.mk.inj (Except.ok.inj hb)
  obtain ⟨p', hp', hck⟩ := (memReceive_true E H enc pc b' c' V params pk t' label' hb').1 hacc
  refine ⟨mpc.genProof ch, p', (C52_mem_layout pc _).1, hp', fun hq => hne ?_⟩
  obtain ⟨hT, rfl⟩ := Prod.mk.inj hq
  have hacc' : memAccepts E H enc (mpc.genProof ch) V params pk ch t label' :=
    C46_complete E H enc y C V params pk hv rand t label'
  have hcc : c' = ch := by
    unfold memAccepts at hck hacc'
    rw [← hck, hT, hacc']
  obtain ⟨rfl, hf⟩ := MemFinal.bytes_inj' enc h1 h3 _ _ _ _ hT
  rw [hcc] at hf
  have := C116_vb_unique E y C V params hx hy pk hC rand ch p' hf
  rw [this, (C52_mem_layout pc _).1] at hp'
  rw [← Except.ok.inj hp', hcc]

end

/-! ### Concrete cases -/

/-- A system over the scalar field: the pairing is multiplication, points are encoded as in `padCodec`. -/
def wireParams : AccParams Fr Fr := ⟨1, 1, 2, 3, 1, 5, 7, 1⟩
def wireKeys : PublicKeys Fr := ⟨2, 3⟩
def wireEnc : Enc Fr Fr Fr := ⟨scalarToBe, scalarToBe, scalarToBe⟩

theorem scalarToBe_inj : Function.Injective scalarToBe := by
  intro a b h
  have := scalarFromBe_toBe a
  rw [h, scalarFromBe_toBe] at this
  exact (Option.some.inj this).symm

/-- Two holders (ids 1 and 0) of valid credentials for the accumulator 6. -/
theorem wireHolders : credVerify (Pairing.field Fr) (6 : Fr) wireKeys wireParams 1 ⟨2, 2, 2⟩ = .ok () ∧
    credVerify (Pairing.field Fr) (6 : Fr) wireKeys wireParams 0 ⟨1/3, 3, 1⟩ = .ok () := by
  constructor <;> simp [credVerify, Pairing.field, wireKeys, wireParams] <;> constructor <;> try ring
  have : (3 : Fr) ≠ 0 := by decide +kernel
  field_simp
  ring

theorem wire_one_ne : (1 : Fr) ≠ 0 := one_ne_zero

/-- A holder sends two different strings, both accepted (so the hypotheses of all statements are met, with every hash
function). -/
example (H : Oracle Fr) (eph : Bytes) : ∃ (r r' : ProofRand Fr) (b b' : Bytes), b ≠ b' ∧ b'.length = 432 ∧
    credSend (Pairing.field Fr) H wireEnc padCodec ⟨2, 2, 2⟩ 1 6 wireParams wireKeys eph r = .ok (some b) ∧
    credReceive (Pairing.field Fr) H wireEnc padCodec b' wireParams wireKeys 6 eph = .ok (.ok true) := by
  obtain ⟨b, h1, h2, h3⟩ := (C116_delivered (Pairing.field Fr) H wireEnc padCodec ⟨2, 2, 2⟩ 1 6 wireParams wireKeys eph
    ⟨0, 0, 0, 0, 0, 0, 0, 0, 0, 0, 0⟩).1 wireHolders.1
  obtain ⟨b', h1', h2', h3'⟩ := (C116_delivered (Pairing.field Fr) H wireEnc padCodec ⟨2, 2, 2⟩ 1 6 wireParams wireKeys
    eph ⟨1, 0, 0, 0, 0, 0, 0, 0, 0, 0, 0⟩).1 wireHolders.1
  refine ⟨_, ⟨1, 0, 0, 0, 0, 0, 0, 0, 0, 0, 0⟩, b, b', ?_, h2', h1, h3'⟩
  rintro rfl
  have := ((C116_accepted_iff (Pairing.field Fr) H wireEnc padCodec wireParams wire_one_ne wireKeys 6 eph 1 ⟨2, 2, 2⟩
    wireHolders.1 b h2).1 h3).unique h1 h1'
  have := congrArg ProofRand.r0 this
  simp at this

/-- Random bytes are answered with an error or `false`: here 432 bytes `0xFF`. -/
example (H : Oracle Fr) (eph : Bytes) : credReceive (Pairing.field Fr) H wireEnc padCodec (List.replicate 432 255)
    wireParams wireKeys 6 eph = .ok (.error "Proof serialization error") := by
  have : (CredProof.fromBytes padCodec (List.replicate 432 255) : Rust (Except String _))
      = .ok (.error "Proof serialization error") := by
    rcases (C52_cred_decode padCodec (List.replicate 432 255) List.length_replicate).2 with ⟨p, hp⟩ | h
    · have := ((C52_cred_decode padCodec (List.replicate 432 255) List.length_replicate).1 p).1 hp
      rw [(C52_cred_layout padCodec p).1] at this
      have h0 := congrArg (fun b : Bytes => b.head?) (Except.ok.inj this)
      rw [show List.replicate 432 (255 : UInt8) = 255 :: List.replicate 431 255 from rfl] at h0
      simp only [CredProof.encoding, padCodec, List.append_assoc] at h0
      rw [show List.replicate 16 (0 : UInt8) = 0 :: List.replicate 15 0 from rfl] at h0
      simp only [List.cons_append, List.head?_cons, Option.some.injEq] at h0
      exact absurd h0 (by decide)
    · exact h
  unfold credReceive
  rw [this]

/-- All hypotheses of `C116_nonmalleable` on the group side, and of the accumulator statements, hold here. -/
example : Function.Injective wireEnc.g1 ∧ Function.Injective wireEnc.g2 ∧ Function.Injective wireEnc.gt ∧
    wireParams.k1 ≠ 0 ∧ wireParams.k2 ≠ 0 ∧ wireParams.p2 ≠ 0 ∧ wireParams.z1 ≠ 0 ∧ (6 : Fr) ≠ 0 ∧
    mwVerify (Pairing.field Fr) (2 : Fr) 1 2 6 = true := by
  refine ⟨scalarToBe_inj, scalarToBe_inj, scalarToBe_inj, ?_, ?_, ?_, ?_, ?_, ?_⟩
  all_goals decide +kernel

/-- Accumulator proofs: with the hash that is constantly 0 another prover's proof is accepted too, and it hashes something
else. -/
example (t : Transcript) : ∃ (r r' : MemRand Fr) (b b' : Bytes), b ≠ b' ∧ b'.length = 304 ∧
    memSend (Pairing.field Fr) (fun _ _ => 0) wireEnc padCodec (.hidden 1) 2 ⟨1, 2, 3, 4⟩ 2 t "c" r = .ok (b, 0) ∧
    memReceive (Pairing.field Fr) (fun _ _ => 0) wireEnc padCodec b' 0 6 ⟨1, 2, 3, 4⟩ 2 t "c" = .ok (.ok true) := by
  have hv : mwVerify (Pairing.field Fr) (2 : Fr) 1 2 6 = true := by simp [mwVerify, Pairing.field]; ring
  obtain ⟨b, c, h1, h2, h3⟩ := (C116_vb_delivered (Pairing.field Fr) (fun _ _ => 0) wireEnc padCodec (.hidden 1) 2 6
    ⟨1, 2, 3, 4⟩ 2 t "c" ⟨0, 0, 0, 0, 0, 0, 0⟩).1
  obtain ⟨b', c', h1', h2', h3'⟩ := (C116_vb_delivered (Pairing.field Fr) (fun _ _ => 0) wireEnc padCodec (.hidden 1) 2 6
    ⟨1, 2, 3, 4⟩ 2 t "c" ⟨0, 0, 0, 1, 0, 0, 0⟩).1
  have e := h1
  have e' := h1'
  simp only [memSend, (C52_mem_layout padCodec _).1] at e e'
  obtain ⟨a1, rfl⟩ := Prod.mk.inj (Except.ok.inj e)
  obtain ⟨a2, rfl⟩ := Prod.mk.inj (Except.ok.inj e')
  refine ⟨_, ⟨0, 0, 0, 1, 0, 0, 0⟩, b, b', ?_, h2', h1, h3' hv⟩
  rintro rfl
  have q1 := ((C52_mem_decode padCodec b h2).1 _).2 ((C52_mem_layout padCodec _).1.trans (congrArg Except.ok a1))
  have q2 := ((C52_mem_decode padCodec b h2).1 _).2 ((C52_mem_layout padCodec _).1.trans (congrArg Except.ok a2))
  rw [q1] at q2
  have := congrArg MemProof.sSigma (Except.ok.inj (Except.ok.inj q2))
  simp [MemCommitting.genProof, MemCommitting.new, schnorr] at this

end Allo
