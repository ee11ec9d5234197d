import Verif.Props.Update
import Verif.Props.Enrol

/-!
# C83: what the calls of a user can change

Any history of `create_witness` and `update` calls, against any servers (also ones with arbitrary contents), in which
no call panicked.
-/

set_option linter.unusedSectionVars false
set_option linter.unusedVariables false
set_option linter.unusedSimpArgs false
namespace Allo
open Spec

section
variable {F G1 G2 GT : Type} [Field F] [DecidableEq F] [AddCommGroup G1] [Module F G1]
  [DecidableEq G1] [AddCommGroup G2] [Module F G2] [AddCommGroup GT] [Module F GT] [DecidableEq GT]

/-- The server whose accumulator the call records: the one enrolled with, or the first of the list. -/
def User.Call.source : User.Call F G1 G2 → Option (Server F G1 G2)
  | .createWitness server _ _ => some server
  | .update servers _ _ => servers.head?

/-- A call of `update`. -/
def User.Call.isUpdate : User.Call F G1 G2 → Prop
  | .createWitness _ _ _ => False
  | .update _ _ _ => True

/-- What one call of `update` does: nothing, or it replaces the membership witness and the accumulator. -/
theorem update_cases {seed : Nat → Nat} {u u' : User F G1 G2} {servers : List (Server F G1 G2)} {t : Nat}
    {rand : Nat → Nat → F} {r : Except String Unit} (h : u.update seed servers t rand = .ok (u', r)) :
    u' = u ∨ ∃ w C V s0, u.witness = some w ∧ servers.head? = some s0 ∧ s0.getAccumulator = .ok V ∧
      u' = { u with witness := some { w with witness := C }, accumulator := V } := by
  unfold User.update at h
  cases hw : u.witness with
  | none =>
    simp only [hw, pure, Except.pure, Except.ok.injEq, Prod.mk.injEq] at h
    exact .inl h.1.symm
  | some w =>
    simp only [hw, bind, Except.bind, pure, Except.pure] at h
    cases h0 : idx servers 0 with
    | error e => rw [h0] at h; simp at h
    | ok s0 =>
      have hs0 : servers.head? = some s0 := by
        unfold idx at h0
        cases servers with
        | nil => simp at h0
        | cons a l =>
          simp only [List.getElem?_cons_zero] at h0
          simpa [Rust, pure, Except.pure] using h0
      rw [h0] at h
      simp only at h
      split at h
      · simp at h
      · split at h
        · simp only [Except.ok.injEq, Prod.mk.injEq] at h
          exact .inl h.1.symm
        · split at h
          · simp at h
          · split at h
            · simp at h
            · split at h
              · cases ha : s0.getAccumulator with
                | error e => rw [ha] at h; simp at h
                | ok V =>
                  rw [ha] at h
                  simp only [Except.ok.injEq, Prod.mk.injEq] at h
                  exact .inr ⟨w, _, V, s0, rfl, hs0, ha, h.1.symm⟩
              · simp only [Except.ok.injEq, Prod.mk.injEq] at h
                exact .inl h.1.symm

/-- What one call of `create_witness` does: nothing, or a new witness. -/
theorem createWitness_cases {H : Oracle F} {enc : Enc G1 G2 GT} {params : AccParams G1 G2} {u u' : User F G1 G2}
    {s : Server F G1 G2} {key k : F} (h : u.createWitness H enc params s key k = .ok u') :
    (u' = u ∧ u.id ∉ s.ids) ∨ ∃ C V, u.id ∈ s.ids ∧ mapGet s.allWitnesses u.id = some C ∧ s.getAccumulator = .ok V ∧
      u.id + s.signSecretKey ≠ 0 ∧
      u' = { u with witness := some { signature := (u.id + s.signSecretKey)⁻¹ • (key • params.k1 + params.k0),
                                      witness := C, secretKey := key },
                    epoch := s.getEpoch, accumulator := V } := by
  by_cases hm : u.id ∈ s.ids
  · right
    unfold User.createWitness at h
    obtain ⟨-, -, h3⟩ := C21_witness H enc params s u.id
      (enrolChallenge H enc (key • params.k1) (k • params.k1))
      (k - enrolChallenge H enc (key • params.k1) (k • params.k1) * key) (key • params.k1)
    have he : (k - enrolChallenge H enc (key • params.k1) (k • params.k1) * key) • params.k1
        + enrolChallenge H enc (key • params.k1) (k • params.k1) • key • params.k1 = k • params.k1 := by
      rw [smul_smul, ← add_smul]; congr 1; ring
    obtain ⟨h4, h5⟩ := h3 hm (by rw [he])
    by_cases hs : u.id + s.signSecretKey = 0
    · have := h5 hs
      simp only [enrolChallenge] at this
      simp only [bind, Except.bind, Transcript.new, Transcript.append, List.nil_append, List.cons_append, this] at h
      simp at h
    · obtain ⟨C, R, e1, e2, e3⟩ := h4 hs
      simp only [enrolChallenge] at e1
      simp only [bind, Except.bind, Transcript.new, Transcript.append, List.nil_append, List.cons_append, e1, pure,
        Except.pure] at h
      cases ha : s.getAccumulator with
      | error e => rw [ha] at h; simp at h
      | ok V =>
        rw [ha] at h
        simp only [Except.ok.injEq] at h
        refine ⟨C, V, hm, e2, rfl, hs, ?_⟩
        rw [← e3, inv_smul_smul₀ hs]
        exact h.symm
  · left
    rw [C22_nonmember H enc params s u hm] at h
    exact ⟨(Except.ok.inj h).symm, hm⟩

/-- **C83** (histories). After any history of calls the id and the public keys are what they were; epoch and accumulator
are what they were or were reported by a server contacted; a credential is never lost; and the secret key and the
signature are what they were, or those of an enrolment in the history, with a server that had the id as a member, and
the signature is valid for that server's key. -/
theorem C83_frame (H : Oracle F) (enc : Enc G1 G2 GT) (params : AccParams G1 G2) (seed : Nat → Nat)
    (cs : List (User.Call F G1 G2)) (u u' : User F G1 G2) (h : u.calls H enc params seed cs = .ok u') :
    u'.getId = u.getId ∧ u'.publicKeys = u.publicKeys ∧
    (u'.epoch = u.epoch ∨ ∃ s key k, .createWitness s key k ∈ cs ∧ u'.epoch = s.getEpoch) ∧
    (u'.getAccumulator = u.getAccumulator ∨
      ∃ c ∈ cs, ∃ s, c.source = some s ∧ s.getAccumulator = .ok u'.getAccumulator) ∧
    (u.witness.isSome → u'.witness.isSome) ∧
    ∀ w', u'.witness = some w' →
      (∃ w, u.witness = some w ∧ w'.secretKey = w.secretKey ∧ w'.signature = w.signature) ∨
      ∃ s key k, .createWitness s key k ∈ cs ∧ u.getId ∈ s.ids ∧ w'.secretKey = key ∧
        (u.getId + s.signSecretKey) • w'.signature = key • params.k1 + params.k0 := by
  induction cs generalizing u with
  | nil =>
    simp only [User.calls, List.foldlM_nil, pure, Except.pure, Except.ok.injEq] at h
    subst h
    exact ⟨rfl, rfl, .inl rfl, .inl rfl, id, fun w' hw => .inl ⟨w', hw, rfl, rfl⟩⟩
  | cons c cs ih =>
    rw [User.calls, List.foldlM_cons] at h
    cases h1 : u.call H enc params seed c with
    | error e => rw [h1] at h; simp [bind, Except.bind] at h
    | ok u1 =>
      rw [h1] at h
      obtain ⟨i1, i2, i3, i4, i5, i6⟩ := ih u1 h
      have later : ∀ {P : User.Call F G1 G2 → Prop}, (∃ c' ∈ cs, P c') → ∃ c' ∈ c :: cs, P c' :=
        fun ⟨c', hc, hp⟩ => ⟨c', List.mem_cons_of_mem _ hc, hp⟩
      have key : u1.id = u.id ∧ u1.publicKeys = u.publicKeys ∧
          (u1.epoch = u.epoch ∨ ∃ s key k, .createWitness s key k ∈ c :: cs ∧ u1.epoch = s.getEpoch) ∧
          (u1.accumulator = u.accumulator ∨ ∃ s, c.source = some s ∧ s.getAccumulator = .ok u1.accumulator) ∧
          (u.witness.isSome → u1.witness.isSome) ∧
          ∀ w', u1.witness = some w' →
            (∃ w, u.witness = some w ∧ w'.secretKey = w.secretKey ∧ w'.signature = w.signature) ∨
            ∃ s key k, .createWitness s key k ∈ c :: cs ∧ u.id ∈ s.ids ∧ w'.secretKey = key ∧
              (u.id + s.signSecretKey) • w'.signature = key • params.k1 + params.k0 := by
        cases c with
        | createWitness s key k =>
          rcases createWitness_cases (show u.createWitness H enc params s key k = .ok u1 from h1) with
            ⟨rfl, -⟩ | ⟨C, V, hm, hC, hV, hs, rfl⟩
          · exact ⟨rfl, rfl, .inl rfl, .inl rfl, id, fun w' hw => .inl ⟨w', hw, rfl, rfl⟩⟩
          · refine ⟨rfl, rfl, .inr ⟨s, key, k, by simp, rfl⟩, .inr ⟨s, rfl, hV⟩, fun _ => rfl, ?_⟩
            intro w' hw
            cases hw
            exact .inr ⟨s, key, k, by simp, hm, rfl, smul_inv_smul₀ hs _⟩
        | update servers t rand =>
          simp only [User.call, bind, Except.bind] at h1
          cases hu : u.update seed servers t rand with
          | error e => rw [hu] at h1; simp at h1
          | ok p =>
            rw [hu] at h1
            simp only [pure, Except.pure, Except.ok.injEq] at h1
            obtain ⟨v, r⟩ := p
            simp only at h1
            subst h1
            rcases update_cases hu with rfl | ⟨w, C, V, s0, hw, h0, hV, rfl⟩
            · exact ⟨rfl, rfl, .inl rfl, .inl rfl, id, fun w' hw => .inl ⟨w', hw, rfl, rfl⟩⟩
            · refine ⟨rfl, rfl, .inl rfl, .inr ⟨s0, h0, hV⟩, fun _ => rfl, ?_⟩
              intro w' hw'
              cases hw'
              exact .inl ⟨w, hw, rfl, rfl⟩
      obtain ⟨k1, k2, k3, k4, k5, k6⟩ := key
      simp only [User.getId, User.getAccumulator] at i1 i4 i6 ⊢
      refine ⟨i1.trans k1, i2.trans k2, ?_, ?_, fun hs => i5 (k5 hs), ?_⟩
      · rcases i3 with e | ⟨s, key, k, hc, e⟩
        · rw [e]; exact k3
        · exact .inr ⟨s, key, k, List.mem_cons_of_mem _ hc, e⟩
      · rcases i4 with e | ⟨c', hc, s, e1, e2⟩
        · rw [e]
          rcases k4 with e' | ⟨s, e1, e2⟩
          · exact .inl e'
          · exact .inr ⟨c, by simp, s, e1, e2⟩
        · exact .inr ⟨c', List.mem_cons_of_mem _ hc, s, e1, e2⟩
      · intro w' hw
        rcases i6 w' hw with ⟨w1, hw1, e1, e2⟩ | ⟨s, key, k, hc, hm, e1, e2⟩
        · rw [e1, e2]
          exact k6 w1 hw1
        · rw [k1] at hm e2
          exact .inr ⟨s, key, k, List.mem_cons_of_mem _ hc, hm, e1, e2⟩

/-- **C83** (updates only). Histories of `update` calls alone, with any servers, change neither the epoch nor the secret
key nor the signature, and do nothing for a user without a credential. -/
theorem C83_updates (H : Oracle F) (enc : Enc G1 G2 GT) (params : AccParams G1 G2) (seed : Nat → Nat)
    (cs : List (User.Call F G1 G2)) (hcs : ∀ c ∈ cs, c.isUpdate) (u u' : User F G1 G2)
    (h : u.calls H enc params seed cs = .ok u') :
    u'.epoch = u.epoch ∧ u'.witness.map (fun w => (w.secretKey, w.signature))
      = u.witness.map (fun w => (w.secretKey, w.signature)) ∧ (u.witness = none → u' = u) := by
  induction cs generalizing u with
  | nil =>
    simp only [User.calls, List.foldlM_nil, pure, Except.pure, Except.ok.injEq] at h
    subst h
    exact ⟨rfl, rfl, fun _ => rfl⟩
  | cons c cs ih =>
    rw [User.calls, List.foldlM_cons] at h
    cases h1 : u.call H enc params seed c with
    | error e => rw [h1] at h; simp [bind, Except.bind] at h
    | ok u1 =>
      rw [h1] at h
      obtain ⟨i1, i2, i3⟩ := ih (fun c' hc => hcs c' (List.mem_cons_of_mem _ hc)) u1 h
      cases c with
      | createWitness s key k => exact absurd (hcs (.createWitness s key k) (by simp)) id
      | update servers t rand =>
        simp only [User.call, bind, Except.bind] at h1
        cases hu : u.update seed servers t rand with
        | error e => rw [hu] at h1; simp at h1
        | ok p =>
          rw [hu] at h1
          simp only [pure, Except.pure, Except.ok.injEq] at h1
          obtain ⟨v, r⟩ := p
          simp only at h1
          subst h1
          rcases update_cases hu with rfl | ⟨w, C, V, s0, hw, h0, hV, rfl⟩
          · exact ⟨i1, i2, i3⟩
          · refine ⟨i1, ?_, fun e => absurd e (by rw [hw]; simp)⟩
            rw [i2, hw]
            rfl

/-- **C83** (enrolling starts afresh). What a user was before a successful `create_witness` does not matter: two users
with the same id and public keys that make the same call with the same key and nonce are equal afterwards. -/
theorem C83_enrol_resets (H : Oracle F) (enc : Enc G1 G2 GT) (params : AccParams G1 G2) (u₁ u₂ : User F G1 G2)
    (hid : u₁.id = u₂.id) (hpk : u₁.publicKeys = u₂.publicKeys) (s : Server F G1 G2) (hm : u₁.id ∈ s.ids) (key k : F)
    (u₁' : User F G1 G2) (h : u₁.createWitness H enc params s key k = .ok u₁') :
    u₂.createWitness H enc params s key k = .ok u₁' := by
  rcases createWitness_cases h with ⟨-, hn⟩ | ⟨C, V, -, hC, hV, hs, rfl⟩
  · exact absurd hm hn
  · have : ∃ u₂', u₂.createWitness H enc params s key k = .ok u₂' := by
      obtain ⟨i₁, w₁, a₁, p₁, e₁⟩ := u₁
      obtain ⟨i₂, w₂, a₂, p₂, e₂⟩ := u₂
      simp only at hid hpk
      subst hid hpk
      unfold User.createWitness at h ⊢
      simp only [bind, Except.bind] at h ⊢
      split at h
      · simp at h
      · split at h
        · rw [hV]; exact ⟨_, rfl⟩
        · exact ⟨_, rfl⟩
    obtain ⟨u₂', h2⟩ := this
    rcases createWitness_cases h2 with ⟨-, hn⟩ | ⟨C', V', -, hC', hV', -, rfl⟩
    · exact absurd (hid ▸ hm) hn
    · rw [h2]
      rw [← hid, hC] at hC'
      rw [hV] at hV'
      cases hC'
      cases hV'
      rw [hid, hpk]

/-- **C83** (keys of another server). `create_witness` does not fetch the server's public keys. A user made from one server
(keys `α`, `s`) that enrols with another one (keys `α'`, `s'`, where it is a member) gets a credential, but
`check_witness` accepts it, for the accumulator of that server, only if the keys are the same. -/
theorem C83_foreign_keys (E : Pairing F G1 G2 GT) (H : Oracle F) (enc : Enc G1 G2 GT) (params : AccParams G1 G2)
    (hP : params.p2 ≠ 0) (hK : params.k2 ≠ 0) (α sM v α' sM' v' : F) (ops ops' : List (Server.Op F))
    (h₁ : ∀ op ∈ ops', op.isQuick = false) (srv srv' : Server F G1 G2)
    (hsrv : (Server.new params α sM v).run ops = .ok srv) (hsrv' : (Server.new params α' sM' v').run ops' = .ok srv')
    (y : F) (u u' : User F G1 G2) (hu : User.new srv y = .ok u) (hy : y ∈ (regRun ops').members) (key k : F)
    (h : u.createWitness H enc params srv' key k = .ok u') (V : G1) (hV : srv'.getAccumulator = .ok V) (hV0 : V ≠ 0)
    (hpk : key • params.k1 + params.k0 ≠ 0) :
    u'.checkWitness E params V = .ok () ↔ α' = α ∧ sM' = sM := by
  have hk := (keys_run hsrv).1
  have hpub : u'.publicKeys = ⟨α • params.p2, sM • params.k2⟩ ∧ u.id = y := by
    unfold User.new at hu
    simp only [bind, Except.bind, pure, Except.pure] at hu
    split at hu
    · simp at hu
    · simp only [Except.ok.injEq] at hu
      subst hu
      have := (C83_frame H enc params (fun _ => 0) [.createWitness srv' key k] _ u' (by
        simp only [User.calls, User.call, List.foldlM_cons, List.foldlM_nil]
        rw [h]
        rfl)).2.1
      rw [this]
      exact ⟨hk, rfl⟩
  obtain ⟨hpub, rfl⟩ := hpub
  rw [(C23_check_witness E params hP hK α sM u' hpub V).1]
  obtain ⟨-, hk2, hk3⟩ := keys_run hsrv'
  rcases createWitness_cases h with ⟨-, hn⟩ | ⟨C, V', hm, hC, hV', hs, rfl⟩
  · exact absurd (((refines_run ops' (refines_new params α' sM' v') hsrv').members _).2 hy) hn
  · have hw := ((C17_stored_witnesses_valid E params α' sM' v' ops' h₁ srv' hsrv' V hV).1 _ _ hC).1
    simp only [Option.some.injEq, exists_eq_left', IsWitness] at hw ⊢
    rw [hk3] at hs ⊢
    constructor
    · rintro ⟨e1, e2⟩
      have hC0 : C ≠ 0 := by
        rintro rfl
        rw [smul_zero] at hw
        exact hV0 hw.symm
      constructor
      · have : (α' - α) • C = 0 := by
          rw [← sub_eq_zero.2 (hw.trans e1.symm), ← sub_smul]
          congr 1
          ring
        exact sub_eq_zero.1 ((smul_eq_zero.1 this).resolve_right hC0)
      · have : (sM' - sM) • (u.id + sM')⁻¹ • (key • params.k1 + params.k0) = 0 := by
          rw [← sub_eq_zero.2 ((smul_inv_smul₀ hs (key • params.k1 + params.k0)).trans e2.symm), ← sub_smul]
          congr 1
          ring
        refine sub_eq_zero.1 ((smul_eq_zero.1 this).resolve_right (fun e => ?_))
        rcases smul_eq_zero.1 e with e | e
        · exact inv_ne_zero hs e
        · exact hpk e
    · rintro ⟨rfl, rfl⟩
      exact ⟨hw, smul_inv_smul₀ hs _⟩

end

/-- For the example: no hash. -/
def ex83Enc : Enc ℚ ℚ ℚ := ⟨fun _ => [], fun _ => [], fun _ => []⟩

/-- Not vacuous (over `ℚ`): a user enrols, two others are deleted, it updates, re-enrols with another key; no call panics,
the witness is updated and the key replaced. And a user of another server (other keys) enrols without a panic, but its
credential does not check. -/
example :
    (match (do
      let s ← (Server.new exParams (4 : ℚ) 9 6 : Server ℚ ℚ ℚ).run [.add 1, .add 2, .add 3]
      let s' ← s.run [.delete 2, .delete 3]
      let foreign ← (Server.new exParams (5 : ℚ) 9 6 : Server ℚ ℚ ℚ).run []
      let u ← User.new s 1
      let u1 ← u.calls (fun _ _ => 1) ex83Enc exParams Nat.sqrt
        [.createWitness s 10 20, .update [s', s', s'] 2 (fun i j => i + j)]
      let u2 ← u1.calls (fun _ _ => 1) ex83Enc exParams Nat.sqrt [.createWitness s' 11 21]
      let f ← User.new foreign 1
      let f1 ← f.calls (fun _ _ => 1) ex83Enc exParams Nat.sqrt [.createWitness s' 11 21]
      let V ← s'.getAccumulator
      pure (u1, u2, f1, V) : Rust (User ℚ ℚ ℚ × User ℚ ℚ ℚ × User ℚ ℚ ℚ × ℚ)) with
    | .ok (u1, u2, f1, V) =>
      decide (u1.witness.map (·.secretKey) = some 10) && decide (u2.witness.map (·.secretKey) = some 11) &&
      decide (u1.epoch = 1) && decide (u2.epoch = 3) && (u1.checkWitness (Pairing.field ℚ) exParams V).isOk &&
      (u2.checkWitness (Pairing.field ℚ) exParams V).isOk && !(f1.checkWitness (Pairing.field ℚ) exParams V).isOk
    | .error _ => false) = true := by
  decide +kernel

end Allo
