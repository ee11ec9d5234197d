import Verif.Props.Update
import Verif.Props.Credential
import Verif.Props.Secrecy
import Verif.Props.Examples
import Mathlib.Logic.Equiv.Prod

/-!
# C76: updating and presenting, any number of times, is anonymous

C37 (the share vectors fewer than `t` servers see) and C44 (presentations) put together: servers and verifiers may
collude, over all sessions.
-/

set_option linter.unusedSectionVars false
set_option linter.unusedVariables false
namespace Allo
open Spec Finset

section
variable {F G1 G2 GT : Type} [Field F] [DecidableEq F] [AddCommGroup G1] [Module F G1]
  [DecidableEq G1] [AddCommGroup G2] [Module F G2] [AddCommGroup GT] [Module F GT] [DecidableEq GT]

/-- One session: a user updates its witness with `servers`, which are in the state `srv` that the history
`ops₁ ++ ops₂` leads to, and then presents it with the verifier's challenge `eph`. The servers with index in
`colluders` collude with the verifier. -/
structure Session (F G1 G2 : Type) where
  ops₁ : List (Server.Op F)
  ops₂ : List (Server.Op F)
  srv : Server F G1 G2
  servers : List (Server F G1 G2)
  threshold : Nat
  eph : Bytes
  colluders : Finset Nat

/-- The session is as described, with fewer than the threshold of the servers colluding. -/
structure Session.WF (params : AccParams G1 G2) (α sM v : F) (S : Session F G1 G2) : Prop where
  noQuick : ∀ op ∈ S.ops₁, op.isQuick = false
  noDelete : ∀ op ∈ S.ops₂, op.isDelete = false
  run : (Server.new params α sM v).run (S.ops₁ ++ S.ops₂) = .ok S.srv
  synced : ∀ s' ∈ S.servers, s'.accumulators = S.srv.accumulators ∧ s'.deletions = S.srv.deletions
  threshold_ge : 2 ≤ S.threshold
  threshold_le : S.threshold ≤ S.servers.length
  points : ∀ i, 0 < i → i ≤ S.servers.length → (i : F) ≠ 0
  colluders_lt : ∀ i ∈ S.colluders, i < S.servers.length
  few : S.colluders.card < S.threshold

/-- `u` can take part: its witness was valid at its epoch, there have been deletions since, not of `u`. -/
structure Session.Holder (E : Pairing F G1 G2 GT) (params : AccParams G1 G2) (S : Session F G1 G2)
    (u : User F G1 G2) : Prop where
  keys : u.publicKeys = S.srv.getPublicKeys
  epoch_ge : 1 ≤ u.epoch
  epoch_lt : u.epoch < S.srv.getEpoch
  valid : ∃ Ve, S.srv.accumulators[u.epoch - 1]? = some Ve ∧ u.checkWitness E params Ve = .ok ()
  present : u.id ∉ S.srv.deletions.drop (u.epoch - 1)

/-- What the colluders see of the session of `u` with sharing randomness `rand` and proof randomness `pr`: the
epoch difference and the share vectors sent to the colluding servers, and the proof made after the update. -/
structure Session.Sees (E : Pairing F G1 G2 GT) (H : Oracle F) (enc : Enc G1 G2 GT) (params : AccParams G1 G2)
    (seed : Nat → Nat) (S : Session F G1 G2) (u : User F G1 G2) (rand : Nat → Nat → F) (pr : ProofRand F)
    (diff : Nat) (shares : Nat → Option (List F)) (proof : CredProof F G1) : Prop where
  prepared : ∃ upd, u.prepareForUpdate seed S.srv.getEpoch S.servers.length S.threshold rand = .ok (.ok upd) ∧
    upd.epochDiff = diff ∧ ∀ i ∈ S.colluders, upd.yShares[i]? = shares i
  presented : ∃ u', u.update seed S.servers S.threshold rand = .ok (u', .ok ()) ∧
    u'.makeMembershipProof E H enc params S.srv.getPublicKeys S.eph pr = some proof

/-- **C76**: take any family of sessions (any index type: any number, with any accumulators, server sets,
colluders, verifier challenges) and for each session two users `u s`, `u' s` who can take part and have the same
epoch. There is a bijection of all random choices together under which the colluders see exactly the same of the
users `u'` as of the users `u`. So sessions of one user cannot be told from sessions of many. The proofs they see
are accepted by everyone who checks them against the current accumulator. -/
theorem C76_anonymous {ι : Type} (E : Pairing F G1 G2 GT) (H : Oracle F) (enc : Enc G1 G2 GT)
    (params : AccParams G1 G2) (hP : params.p2 ≠ 0) (hK : params.k2 ≠ 0) (hz : params.z1 ≠ 0) (α sM v : F)
    (seed : Nat → Nat) (hseed : ∀ d, 1 ≤ d → 1 ≤ seed d) (S : ι → Session F G1 G2)
    (hS : ∀ s, (S s).WF params α sM v) (u u' : ι → User F G1 G2) (hu : ∀ s, (S s).Holder E params (u s))
    (hu' : ∀ s, (S s).Holder E params (u' s)) (hee : ∀ s, (u' s).epoch = (u s).epoch) :
    ∃ φ : Equiv.Perm ((ι → Nat → Nat → F) × (ι → ProofRand F)),
      ∀ (x : (ι → Nat → Nat → F) × (ι → ProofRand F)) (s : ι), ∃ diff shares proof,
        (S s).Sees E H enc params seed (u s) (x.1 s) (x.2 s) diff shares proof ∧
        (S s).Sees E H enc params seed (u' s) ((φ x).1 s) ((φ x).2 s) diff shares proof ∧
        ∃ V, (S s).srv.getAccumulator = .ok V ∧
          checkProof E H enc proof params (S s).srv.getPublicKeys V (S s).eph = true := by
  -- the shares
  choose δ _ hδ using fun s => C37_secrecy seed hseed (u s) (u' s) (S s).srv.getEpoch (S s).servers.length
    (S s).threshold (hS s).threshold_ge (hS s).threshold_le (hS s).points (hu s).epoch_lt (hee s)
    (S s).colluders (hS s).colluders_lt (hS s).few
  -- the updates
  have hup : ∀ (a : User F G1 G2) (s : ι), (S s).Holder E params a → ∀ rand : Nat → Nat → F,
      ∃ b w V, (S s).srv.getAccumulator = .ok V ∧ a.update seed (S s).servers (S s).threshold rand = .ok (b, .ok ()) ∧
        b.witness = some w ∧ b.accumulator = V ∧ credVerify E V (S s).srv.getPublicKeys params b.id w = .ok () := by
    intro a s ha rand
    obtain ⟨Ve, hVe, hw⟩ := ha.valid
    obtain ⟨b, V, h1, h2, h3, h4, h5, h6⟩ := C25_update E params hP hK α sM v (S s).ops₁ (S s).ops₂ (hS s).noQuick
      (hS s).noDelete (S s).srv (hS s).run (S s).servers (hS s).synced (S s).threshold (hS s).threshold_ge
      (hS s).threshold_le (hS s).points seed hseed a ha.keys ha.epoch_ge ha.epoch_lt Ve hVe hw ha.present rand
    unfold User.checkWitness at h3
    split at h3
    · next w hbw => exact ⟨b, w, V, h1, h2, hbw, h4, by rwa [h6, ha.keys] at h3⟩
    · cases h3
  choose b w V hV hb hbw hbV hcred using fun (rand : ι → Nat → Nat → F) s => hup (u s) s (hu s) (rand s)
  choose b' w' V' hV' hb' hbw' hbV' hcred' using fun (rand : ι → Nat → Nat → F) s => hup (u' s) s (hu' s) (rand s)
  -- the keys and the current accumulators do not depend on the randomness
  have hVV : ∀ rand rand' s, V' rand' s = V rand s := by
    intro rand rand' s
    have := (hV' rand' s).symm.trans (hV rand s)
    injection this
  have hpk : ∀ s, (S s).srv.getPublicKeys = ⟨α • params.p2, sM • params.k2⟩ := by
    intro s
    refine Server.run_inv (fun s => s.publicKeys = ⟨α • params.p2, sM • params.k2⟩) (fun _ => True) ?_ _
      (fun _ _ => trivial) (hS s).run rfl
    intro s op s' r _ hI h
    rcases Server.step_cases h with ⟨rfl, -, -⟩ | ⟨y, V, rfl, hy, hV, h0, -, rfl⟩ |
      ⟨y, C, rfl, hC, -, rfl⟩ | ⟨y, V, rfl, hy, hV, h0, -, rfl⟩ <;> exact hI
  have hpr : ∀ rand : ι → Nat → Nat → F, ∃ ψ : Equiv.Perm (ι → ProofRand F), ∀ (pr : ι → ProofRand F) (s : ι),
      makeProof E H enc (w' (rand + δ) s) (b' (rand + δ) s).id (V rand s) params ⟨α • params.p2, sM • params.k2⟩
          (S s).eph (ψ pr s)
        = makeProof E H enc (w rand s) (b rand s).id (V rand s) params ⟨α • params.p2, sM • params.k2⟩
          (S s).eph (pr s) := by
    intro rand
    exact C44_sessions E H enc params hz ⟨α • params.p2, sM • params.k2⟩ (V rand) (fun s => (S s).eph)
      (fun s => (b rand s).id) (fun s => (b' (rand + δ) s).id) (w rand) (w' (rand + δ))
      (fun s => by rw [← hpk s]; exact hcred rand s)
      (fun s => by rw [← hpk s, ← hVV rand (rand + δ) s]; exact hcred' (rand + δ) s)
  choose ψ hψ using hpr
  refine ⟨Equiv.prodShear (Equiv.addRight δ) ψ, ?_⟩
  rintro ⟨rand, pr⟩ s
  obtain ⟨upd, upd', p1, p2, p3, -, p5⟩ := hδ s (rand s)
  obtain ⟨proof, hproof⟩ := (C42_complete E H enc (w rand s) (b rand s).id (V rand s) params
    ⟨α • params.p2, sM • params.k2⟩ (S s).eph (pr s)).1.2 (by rw [← hpk s]; exact hcred rand s)
  have hacc := (C42_complete E H enc (w rand s) (b rand s).id (V rand s) params
    ⟨α • params.p2, sM • params.k2⟩ (S s).eph (pr s)).2 proof hproof
  refine ⟨upd.epochDiff, fun i => upd.yShares[i]?, proof, ⟨⟨upd, p1, rfl, fun _ _ => rfl⟩, b rand s, hb rand s, ?_⟩,
    ⟨⟨upd', p2, p3, p5⟩, b' (rand + δ) s, hb' (rand + δ) s, ?_⟩, V rand s, hV rand s, by rw [hpk s]; exact hacc⟩
  · unfold User.makeMembershipProof
    rw [hbw rand s, hpk s, hbV rand s]
    exact hproof
  · unfold User.makeMembershipProof
    rw [hbw' (rand + δ) s, hpk s, hbV' (rand + δ) s, hVV rand (rand + δ) s]
    exact (hψ rand pr s).trans hproof

end

/-- user 5 with its witness from before the deletion -/
def exUser5 : User ℚ ℚ ℚ :=
  ⟨5, some { signature := (10 * exParams.k1 + exParams.k0) / 14, witness := 6 / 9, secretKey := 10 }, 6,
    ⟨4, 9 * exParams.k2⟩, 1⟩

/-- C76 on a concrete case: two sessions of user 3 look like one of user 3 and one of user 5; three servers,
threshold 2, server 1 colludes with both verifiers. -/
example (H : Oracle ℚ) (enc : Enc ℚ ℚ ℚ) : ∃ (S : Bool → Session ℚ ℚ ℚ),
    (∀ s, (S s).WF exParams 4 9 6) ∧ (∀ s, (S s).Holder (Pairing.field ℚ) exParams exUser) ∧
    (∀ s, (S s).colluders = {1}) ∧
    ∃ φ : Equiv.Perm ((Bool → Nat → Nat → ℚ) × (Bool → ProofRand ℚ)), ∀ x s, ∃ diff shares proof,
      (S s).Sees (Pairing.field ℚ) H enc exParams (fun _ => 1) exUser (x.1 s) (x.2 s) diff shares proof ∧
      (S s).Sees (Pairing.field ℚ) H enc exParams (fun _ => 1) (if s then exUser5 else exUser) ((φ x).1 s)
        ((φ x).2 s) diff shares proof := by
  obtain ⟨srv, srv', h1, h2, h3, h4, h5, h6⟩ := exUpdateRun
  have hkeys := (keys_run h1).1
  let S : Bool → Session ℚ ℚ ℚ := fun s => ⟨exPre, [], srv, [srv, srv, srv], 2, if s then [1] else [], {1}⟩
  have hS : ∀ s, (S s).WF exParams 4 9 6 := fun s => ⟨by simp only [S]; decide, by simp [S], by simpa [S] using h1,
    by simp [S], le_refl _, by simp [S], fun i h0 _ => by exact_mod_cast (Nat.pos_iff_ne_zero.1 h0),
    by simp [S], by simp [S]⟩
  have h5ok : exUser5.checkWitness (Pairing.field ℚ) exParams 6 = .ok () := by
    rw [(C23_check_witness (Pairing.field ℚ) exParams (by norm_num [exParams]) (by norm_num [exParams]) 4 9
      exUser5 (by norm_num [exUser5, exParams]) 6).1]
    exact ⟨_, rfl, by norm_num [IsWitness, exUser5], by norm_num [exUser5, exParams]⟩
  have hA : ∀ s, (S s).Holder (Pairing.field ℚ) exParams exUser := fun s =>
    ⟨by simp only [S]; rw [Server.getPublicKeys, hkeys]; norm_num [exUser, exParams], le_refl _,
      by simp [S, Server.getEpoch, h3, exUser], ⟨6, by simp [S, h3, exUser], exUser_ok⟩, by simp [S, h4, exUser]⟩
  have hB : ∀ s, (S s).Holder (Pairing.field ℚ) exParams exUser5 := fun s =>
    ⟨by simp only [S]; rw [Server.getPublicKeys, hkeys]; norm_num [exUser5, exParams], le_refl _,
      by simp [S, Server.getEpoch, h3, exUser5], ⟨6, by simp [S, h3, exUser5], h5ok⟩, by simp [S, h4, exUser5]⟩
  obtain ⟨φ, hφ⟩ := C76_anonymous (Pairing.field ℚ) H enc exParams (by norm_num [exParams])
    (by norm_num [exParams]) (by norm_num [exParams]) 4 9 6 (fun _ => 1) (fun _ _ => le_refl _) S hS
    (fun _ => exUser) (fun s => if s then exUser5 else exUser) hA
    (fun s => by split; exacts [hB s, hA s]) (fun s => by split <;> rfl)
  refine ⟨S, hS, hA, fun _ => rfl, φ, fun x s => ?_⟩
  obtain ⟨d, sh, p, a, b, -⟩ := hφ x s
  exact ⟨d, sh, p, a, b⟩

end Allo
