import Verif.Props.Rollback
import Verif.Props.Enrol
import Verif.Props.Update
import Verif.Props.PostUpdate
import Verif.Props.Rom
import Verif.Props.NonMalleable

/-!
# C108: showing different users different accumulators

Presentations are perfectly anonymous among the users of one accumulator (C44). Nothing in the client lets a user check
that the accumulator it is given is the one the others are given: `create_witness` and `update` store the one of a
single server. An issuer, or colluding servers, can therefore give every user an accumulator of its own and recognise
its presentations.
-/

set_option linter.unusedSectionVars false
set_option linter.unusedVariables false
namespace Allo
open Spec Server Rom

section
variable {F G1 G2 GT : Type} [Field F] [DecidableEq F] [AddCommGroup G1] [Module F G1]
  [DecidableEq G1] [AddCommGroup G2] [Module F G2] [AddCommGroup GT] [Module F GT] [DecidableEq GT]

/-- `u` is content with `V`, and what it shows is accepted for `V`. It is accepted for `V'` exactly if the hash function
collides on two different inputs, the transcripts of this proof with `V` and with `V'`. -/
def Tagged (E : Pairing F G1 G2 GT) (H : Oracle F) (enc : Enc G1 G2 GT) (params : AccParams G1 G2) (u : User F G1 G2)
    (V V' : G1) : Prop :=
  u.checkWitness E params V = .ok () ∧ u.checkWitness E params V' ≠ .ok () ∧
  ∀ eph rand, ∃ p, u.makeMembershipProof E H enc params u.publicKeys eph rand = some p ∧
    checkProof E H enc p params u.publicKeys V eph = true ∧
    let q := checkTranscript E enc p params u.publicKeys V eph
    let q' := checkTranscript E enc p params u.publicKeys V' eph
    q ≠ q' ∧ (checkProof E H enc p params u.publicKeys V' eph = true ↔ H q "challenge" = H q' "challenge")

theorem transcript_ne (E : Pairing F G1 G2 GT) (enc : Enc G1 G2 GT) (h1 : Function.Injective enc.g1)
    (h2 : Function.Injective enc.g2) (h3 : Function.Injective enc.gt) (params : AccParams G1 G2) (pk : PublicKeys G2)
    (eph : Bytes) (p : CredProof F G1) {V V' : G1} (hV : V ≠ V') :
    checkTranscript E enc p params pk V eph ≠ checkTranscript E enc p params pk V' eph := by
  intro h
  refine hV ?_
  simp only [checkTranscript, credTranscript, CredProof.getBytesForChallenge, appendCommitments,
    AccParams.addToTranscript, Transcript.append, Transcript.new, List.nil_append, List.cons_append,
    Transcript.mk.injEq, List.cons.injEq, Prod.mk.injEq, true_and, and_true, h1.eq_iff, h3.eq_iff] at h
  exact h.1

theorem tagged_of (E : Pairing F G1 G2 GT) (H : Oracle F) (enc : Enc G1 G2 GT) (h1 : Function.Injective enc.g1)
    (h2 : Function.Injective enc.g2) (h3 : Function.Injective enc.gt) (params : AccParams G1 G2) (hP : params.p2 ≠ 0)
    (hK : params.k2 ≠ 0) (α s : F) (u : User F G1 G2) (hu : u.publicKeys = ⟨α • params.p2, s • params.k2⟩)
    (V V' : G1) (hV : V ≠ V') (ha : u.accumulator = V) (hw : u.checkWitness E params V = .ok ()) :
    Tagged E H enc params u V V' := by
  subst ha
  refine ⟨hw, fun h => hV ?_, fun eph rand => ?_⟩
  · obtain ⟨w, e, hi, -⟩ := (C23_check_witness E params hP hK α s u hu _).1.1 hw
    obtain ⟨w', e', hi', -⟩ := (C23_check_witness E params hP hK α s u hu _).1.1 h
    rw [e] at e'
    obtain rfl := Option.some.inj e'
    exact (show u.accumulator = _ from hi.symm).trans hi'
  · obtain ⟨p, hp, hc⟩ := (C42_user E H enc u params eph rand).1 hw
    have hp1 : H (checkTranscript E enc p params u.publicKeys u.accumulator eph) "challenge" = p.challenge := by
      simpa [checkProof, eq_comm] using hc
    refine ⟨p, hp, hc, ?_, ?_⟩
    · exact transcript_ne E enc h1 h2 h3 params u.publicKeys eph p hV
    · rw [hp1]
      simp [checkProof, eq_comm]

/-- **C108** (by the issuer, at enrolment). One pair of secret keys `α, s`, two servers started with it (with different
initial accumulators or different histories of additions and deletions), two users enrolled at one of them each. The
public keys are the same, everything either user can check succeeds, and if the accumulators differ each presentation
is accepted for the accumulator of its user and, but for hash collisions, for no other. -/
theorem C108_enrol (E : Pairing F G1 G2 GT) (H : Oracle F) (enc : Enc G1 G2 GT) (h1 : Function.Injective enc.g1)
    (h2 : Function.Injective enc.g2) (h3 : Function.Injective enc.gt) (params : AccParams G1 G2) (hP : params.p2 ≠ 0)
    (hK : params.k2 ≠ 0) (α s v v' : F) (ops ops' : List (Op F)) (hq : ∀ op ∈ ops, op.isQuick = false)
    (hq' : ∀ op ∈ ops', op.isQuick = false) (srv srv' : Server F G1 G2)
    (h : (Server.new params α s v).run ops = .ok srv) (h' : (Server.new params α s v').run ops' = .ok srv')
    (y y' : F) (hy : y ∈ srv.ids) (hy' : y' ∈ srv'.ids) (hs : y ≠ -s) (hs' : y' ≠ -s) (key k key' k' : F) :
    srv.getPublicKeys = srv'.getPublicKeys ∧
    ∃ V V' u₀ u₀' u u', srv.getAccumulator = .ok V ∧ srv'.getAccumulator = .ok V' ∧
      User.new srv y = .ok u₀ ∧ User.new srv' y' = .ok u₀' ∧
      u₀.createWitness H enc params srv key k = .ok u ∧ u₀'.createWitness H enc params srv' key' k' = .ok u' ∧
      u.accumulator = V ∧ u'.accumulator = V' ∧
      (V ≠ V' → Tagged E H enc params u V V' ∧ Tagged E H enc params u' V' V) := by
  have key1 : ∀ (v : F) (ops : List (Op F)), (∀ op ∈ ops, op.isQuick = false) → ∀ srv : Server F G1 G2,
      (Server.new params α s v).run ops = .ok srv → ∀ y ∈ srv.ids, y ≠ -s → ∀ key k : F,
      ∃ V u₀ u, srv.getAccumulator = .ok V ∧ User.new srv y = .ok u₀ ∧
        u₀.createWitness H enc params srv key k = .ok u ∧ u.accumulator = V ∧
        u.publicKeys = ⟨α • params.p2, s • params.k2⟩ ∧ u.checkWitness E params V = .ok () := by
    intro v ops hq srv h y hy hs key k
    obtain ⟨-, -, -, V, hV⟩ := C20_no_panic params α s v ops srv h y
    have hk := keys_run h
    have hs1 : y + srv.signSecretKey ≠ 0 := by
      rw [hk.2.2]; exact fun h0 => hs (eq_neg_of_add_eq_zero_left h0)
    obtain ⟨C, R, hC, hR, hcw⟩ := C55_complete H enc params srv V hV ⟨y, none, V, srv.publicKeys, srv.getEpoch⟩ hy hs1
      key k
    refine ⟨V, _, _, hV, ?_, hcw, rfl, hk.1, ?_⟩
    · unfold User.new
      rw [hV]
      rfl
    · rw [(C23_check_witness E params hP hK α s _ hk.1 V).1]
      refine ⟨_, rfl, ((C17_stored_witnesses_valid E params α s v ops hq srv h V hV).1 y C hC).1, ?_⟩
      rw [← hk.2.2]
      exact hR
  obtain ⟨V, u₀, u, a1, a2, a3, a4, a5, a6⟩ := key1 v ops hq srv h y hy hs key k
  obtain ⟨V', u₀', u', b1, b2, b3, b4, b5, b6⟩ := key1 v' ops' hq' srv' h' y' hy' hs' key' k'
  refine ⟨?_, V, V', u₀, u₀', u, u', a1, b1, a2, b2, a3, b3, a4, b4, fun hne => ⟨?_, ?_⟩⟩
  · exact (keys_run h).1.trans (keys_run h').1.symm
  · exact tagged_of E H enc h1 h2 h3 params hP hK α s u a5 V V' hne a4 a6
  · exact tagged_of E H enc h1 h2 h3 params hP hK α s u' b5 V' V hne.symm b4 b6

/-- **C108** (by the servers, at an update). A server `srv` is forked into `srv₁` and `srv₂`, and users with credentials
issued before are updated from copies of one fork each. Both calls of `update` succeed and both users' checks, and the
users are told apart by their presentations, unless the two forks have the same accumulator. -/
theorem C108_update (E : Pairing F G1 G2 GT) (H : Oracle F) (enc : Enc G1 G2 GT) (h1 : Function.Injective enc.g1)
    (h2 : Function.Injective enc.g2) (h3 : Function.Injective enc.gt) (params : AccParams G1 G2) (hP : params.p2 ≠ 0)
    (hK : params.k2 ≠ 0) (α s v : F) (ops ops₁ ops₂ : List (Op F)) (hq : ∀ op ∈ ops, op.isQuick = false)
    (hq₁ : ∀ op ∈ ops₁, op.isQuick = false) (hq₂ : ∀ op ∈ ops₂, op.isQuick = false) (srv srv₁ srv₂ : Server F G1 G2)
    (h : (Server.new params α s v).run ops = .ok srv) (hf₁ : srv.run ops₁ = .ok srv₁) (hf₂ : srv.run ops₂ = .ok srv₂)
    (t n₁ n₂ : Nat) (ht : 2 ≤ t) (hn₁ : t ≤ n₁) (hn₂ : t ≤ n₂) (hc : ∀ i, 0 < i → i ≤ max n₁ n₂ → (i : F) ≠ 0)
    (seed : Nat → Nat) (hseed : ∀ d, 1 ≤ d → 1 ≤ seed d) (u₁ u₂ : User F G1 G2)
    (hk₁ : u₁.publicKeys = srv.getPublicKeys) (hk₂ : u₂.publicKeys = srv.getPublicKeys)
    (he₁ : 1 ≤ u₁.epoch ∧ u₁.epoch ≤ srv.getEpoch) (he₂ : 1 ≤ u₂.epoch ∧ u₂.epoch ≤ srv.getEpoch)
    (hnew₁ : u₁.epoch < srv₁.getEpoch) (hnew₂ : u₂.epoch < srv₂.getEpoch)
    (W₁ W₂ : G1) (hW₁ : srv.accumulators[u₁.epoch - 1]? = some W₁) (hW₂ : srv.accumulators[u₂.epoch - 1]? = some W₂)
    (hw₁ : u₁.checkWitness E params W₁ = .ok ()) (hw₂ : u₂.checkWitness E params W₂ = .ok ())
    (hid₁ : u₁.id ∉ srv₁.deletions.drop (u₁.epoch - 1)) (hid₂ : u₂.id ∉ srv₂.deletions.drop (u₂.epoch - 1))
    (rand₁ rand₂ : Nat → Nat → F) :
    ∃ V₁ V₂ u₁' u₂', srv₁.getAccumulator = .ok V₁ ∧ srv₂.getAccumulator = .ok V₂ ∧
      u₁.update seed (List.replicate n₁ srv₁) t rand₁ = .ok (u₁', .ok ()) ∧
      u₂.update seed (List.replicate n₂ srv₂) t rand₂ = .ok (u₂', .ok ()) ∧
      u₁'.accumulator = V₁ ∧ u₂'.accumulator = V₂ ∧ u₁'.publicKeys = u₂'.publicKeys ∧
      (V₁ ≠ V₂ → Tagged E H enc params u₁' V₁ V₂ ∧ Tagged E H enc params u₂' V₂ V₁) ∧
      (V₁ = V₂ ↔ v • params.p1 = 0 ∨
        (srv₁.deletions.map (fun d => d + α)).prod = (srv₂.deletions.map (fun d => d + α)).prod) := by
  have r : ∀ (ops₁ : List (Op F)) (srv₁ : Server F G1 G2), srv.run ops₁ = .ok srv₁ →
      (Server.new params α s v).run ((ops ++ ops₁) ++ []) = .ok srv₁ := by
    intro o s1 h1
    rw [List.append_nil]
    exact run_append.2 ⟨srv, h, h1⟩
  have hqq : ∀ (ops₁ : List (Op F)), (∀ op ∈ ops₁, op.isQuick = false) → ∀ op ∈ ops ++ ops₁, op.isQuick = false := by
    intro o ho op hop
    rcases List.mem_append.1 hop with hop | hop
    exacts [hq op hop, ho op hop]
  have step : ∀ (ops₁ : List (Op F)) (hq₁ : ∀ op ∈ ops₁, op.isQuick = false) (srv₁ : Server F G1 G2)
      (hf₁ : srv.run ops₁ = .ok srv₁) (n₁ : Nat) (hn₁ : t ≤ n₁) (hc : ∀ i, 0 < i → i ≤ n₁ → (i : F) ≠ 0)
      (u₁ : User F G1 G2) (hk₁ : u₁.publicKeys = srv.getPublicKeys) (he₁ : 1 ≤ u₁.epoch ∧ u₁.epoch ≤ srv.getEpoch)
      (hnew₁ : u₁.epoch < srv₁.getEpoch) (W₁ : G1) (hW₁ : srv.accumulators[u₁.epoch - 1]? = some W₁)
      (hw₁ : u₁.checkWitness E params W₁ = .ok ()) (hid₁ : u₁.id ∉ srv₁.deletions.drop (u₁.epoch - 1))
      (rand₁ : Nat → Nat → F),
      ∃ u' V, srv₁.getAccumulator = .ok V ∧ u₁.update seed (List.replicate n₁ srv₁) t rand₁ = .ok (u', .ok ()) ∧
        u'.checkWitness E params V = .ok () ∧ u'.accumulator = V ∧ u'.id = u₁.id ∧
        u'.publicKeys = u₁.publicKeys := by
    intro ops₁ hq₁ srv₁ hf₁ n₁ hn₁ hc u₁ hk₁ he₁ hnew₁ W₁ hW₁ hw₁ hid₁ rand₁
    obtain ⟨p1, p2, p3⟩ := run_extends ops₁ srv srv₁ hf₁
    refine C25_update E params hP hK α s v (ops ++ ops₁) [] (hqq ops₁ hq₁) (by simp) srv₁ (r ops₁ srv₁ hf₁)
      (List.replicate n₁ srv₁) ?_ t ht (by simpa using hn₁) (by simpa using hc) seed hseed u₁ ?_ he₁.1 hnew₁ W₁ ?_ hw₁
      hid₁ rand₁
    · intro s' hs'
      rw [List.eq_of_mem_replicate hs']
      exact ⟨rfl, rfl⟩
    · rw [hk₁]; exact p3.symm
    · obtain ⟨l, hl⟩ := p1
      rw [← hl, List.getElem?_append_left]
      · exact hW₁
      · exact (List.getElem?_eq_some_iff.1 hW₁).1
  obtain ⟨u₁', V₁, a1, a2, a3, a4, a5, a6⟩ := step ops₁ hq₁ srv₁ hf₁ n₁ hn₁
    (fun i hi hi' => hc i hi (hi'.trans (le_max_left _ _))) u₁ hk₁ he₁ hnew₁ W₁ hW₁ hw₁ hid₁ rand₁
  obtain ⟨u₂', V₂, b1, b2, b3, b4, b5, b6⟩ := step ops₂ hq₂ srv₂ hf₂ n₂ hn₂
    (fun i hi hi' => hc i hi (hi'.trans (le_max_right _ _))) u₂ hk₂ he₂ hnew₂ W₂ hW₂ hw₂ hid₂ rand₂
  have hkeys := (keys_run h).1
  have q1 : u₁'.publicKeys = ⟨α • params.p2, s • params.k2⟩ := a6.trans (hk₁.trans hkeys)
  have q2 : u₂'.publicKeys = ⟨α • params.p2, s • params.k2⟩ := b6.trans (hk₂.trans hkeys)
  refine ⟨V₁, V₂, u₁', u₂', a1, b1, a2, b2, a4, b4, q1.trans q2.symm, fun hne => ⟨?_, ?_⟩, ?_⟩
  · exact tagged_of E H enc h1 h2 h3 params hP hK α s u₁' q1 V₁ V₂ hne a4 a3
  · exact tagged_of E H enc h1 h2 h3 params hP hK α s u₂' q2 V₂ V₁ hne.symm b4 b3
  · have e1 := (C16_history params α s v (ops ++ ops₁) [] (hqq ops₁ hq₁) (by simp) srv₁ (r ops₁ srv₁ hf₁)).2.2.2
    have e2 := (C16_history params α s v (ops ++ ops₂) [] (hqq ops₂ hq₂) (by simp) srv₂ (r ops₂ srv₂ hf₂)).2.2.2
    rw [a1] at e1
    rw [b1] at e2
    rw [Except.ok.inj e1, Except.ok.inj e2]
    constructor
    · intro he
      by_cases h0 : v • params.p1 = 0
      · exact .inl h0
      · right
        have := sub_eq_zero.2 he
        rw [← sub_smul, smul_eq_zero] at this
        rcases this with h | h
        · exact inv_injective (sub_eq_zero.1 h)
        · exact absurd h h0
    · rintro (h0 | h0)
      · rw [h0, smul_zero, smul_zero]
      · rw [h0]

/-- Multiply the `d` value of the last chunk. -/
def scaleLast (lam : F) (a : List F × List G1) : List F × List G1 :=
  (a.1.modify (a.1.length - 1) (lam * ·), a.2)

/-- **C108** (by colluding servers, at an update, without forking). Let the servers multiply the last `d` value of each
of their answers by one and the same `lam ≠ 0`. If the user accepts the original answers with the new witness `W`, it
accepts these with `lam⁻¹ W`; and this is a valid witness for the accumulator `lam⁻¹ V` whenever `W` is for `V`. -/
theorem C108_scale (w : G1) (t c : Nat) (ht : 1 ≤ t) (hc1 : 1 ≤ c) (ans : List (List F × List G1))
    (hn : t ≤ ans.length) (hans : ∀ a ∈ ans, a.1.length = c ∧ a.2.length = c)
    (hc : ∀ i, 0 < i → i ≤ ans.length → (i : F) ≠ 0) (yShares : List (List F))
    (hy : yShares.length = ans.length) (lam : F) (hl : lam ≠ 0) (W : G1)
    (hW : User.postUpdate w t yShares ((List.range ans.length).map (fun i => ((i + 1 : Nat) : F))) ans = .ok (.ok W)) :
    User.postUpdate w t yShares ((List.range ans.length).map (fun i => ((i + 1 : Nat) : F))) (ans.map (scaleLast lam))
      = .ok (.ok (lam⁻¹ • W)) ∧
    ∀ (α y : F) (V : G1), IsWitness α V y W → IsWitness α (lam⁻¹ • V) y (lam⁻¹ • W) := by
  have hlen : (ans.map (scaleLast (F := F) (G1 := G1) lam)).length = ans.length := by simp
  constructor
  · obtain ⟨P, Q, hPQ, hWe⟩ := ((C96_accept_iff w t c ht hc1 ans hn hans hc yShares hy).2 W).1 hW
    have hans' : ∀ a ∈ ans.map (scaleLast (F := F) (G1 := G1) lam), a.1.length = c ∧ a.2.length = c := by
      intro a ha
      obtain ⟨b, hb, rfl⟩ := List.mem_map.1 ha
      obtain ⟨e1, e2⟩ := hans b hb
      exact ⟨by simp [scaleLast, e1], e2⟩
    have := (C96_accept_iff w t c ht hc1 (ans.map (scaleLast lam)) (by rw [hlen]; exact hn) hans'
      (by rw [hlen]; exact hc) yShares (by rw [hlen]; exact hy)).2 (lam⁻¹ • W)
    rw [hlen] at this
    rw [this]
    have hpv : ∀ (x : F) (l : List F), polyVal x (l.map (lam * ·)) = lam * polyVal x l := by
      intro x l
      induction l with
      | nil => simp [polyVal]
      | cons a l ih =>
        simp only [polyVal, List.map_cons, ih, smul_eq_mul]
        ring
    have hP' : ∀ (j : Nat) (x : F), polyVal x (if j = c - 1 then (P j).map (lam * ·) else P j)
        = (if j = c - 1 then lam else 1) * polyVal x (P j) := by
      intro j x
      split
      · exact hpv x _
      · rw [one_mul]
    refine ⟨fun j => if j = c - 1 then (P j).map (lam * ·) else P j, Q, fun j hj => ?_, ?_⟩
    · obtain ⟨g1, g2, g3, g4⟩ := hPQ j hj
      refine ⟨?_, g2, ?_, fun i hi => ?_⟩
      · by_cases hjc : j = c - 1 <;> simp [hjc, ← g1]
      · rw [hP']
        exact mul_ne_zero (by split <;> simp [hl]) g3
      · obtain ⟨a, e, e1, e2⟩ := g4 i hi
        refine ⟨scaleLast lam a, by simp [e], ?_, e2⟩
        have := (hans a (List.mem_of_getElem? e)).1
        simp only [scaleLast, List.getElem?_modify, e1, this]
        by_cases hjc : j = c - 1
        · simp [hjc] at *
          simp [hpv]
        · rw [hP', if_neg hjc, one_mul]
          simp [show ¬ c - 1 = j from fun h => hjc h.symm]
    · subst hWe
      simp only [hP']
      obtain ⟨c, rfl⟩ : ∃ m, c = m + 1 := ⟨c - 1, by omega⟩
      have hfold : ∀ (l : List Nat) (x : G1), (∀ j ∈ l, j < c) →
          l.foldl (fun C j => ((if j = c + 1 - 1 then lam else 1) * polyVal (0 : F) (P j))⁻¹ • (C - polyVal (0 : F) (Q j))) x
            = l.foldl (fun C j => (polyVal (0 : F) (P j))⁻¹ • (C - polyVal (0 : F) (Q j))) x := by
        intro l
        induction l with
        | nil => intro x _; rfl
        | cons j l ih =>
          intro x hx
          have : ¬ j = c + 1 - 1 := by have := hx j (by simp); omega
          simp only [List.foldl_cons]
          rw [if_neg this, one_mul]
          exact ih _ (fun j hj => hx j (by simp [hj]))
      simp only [List.range_succ, List.foldl_append, List.foldl_cons, List.foldl_nil]
      rw [hfold _ _ (fun j hj => List.mem_range.1 hj), if_pos (by omega), mul_inv, mul_smul]
  · intro α y V h
    unfold IsWitness at *
    rw [smul_comm, h]

/-! ## Recognising users -/

section
variable [Fintype F]

/-- One value of a random function, at a place that does not depend on it, is anything with probability `1/|F|`. -/
theorem prob_hit {S : Finset Query} (q : Query) (q' : F → Query) (hS : ∀ c, q' c ∈ S) (hq : ∀ c, q' c ≠ q) :
    prob (fun h : S → F => oracle S 0 h (q' (oracle S 0 h q)) = oracle S 0 h q) = 1 / (Nat.card F : ℚ) := by
  classical
  have hup : ∀ (h : S → F) (r : F) (c : F), oracle S 0 (Function.update h ⟨q' c, hS c⟩ r) q = oracle S 0 h q := by
    intro h r c
    unfold oracle
    split
    · next hm => rw [Function.update_of_ne]; exact fun e => hq c (congrArg Subtype.val e).symm
    · rfl
  have hor : ∀ (h : S → F) (c : F), oracle S 0 h (q' c) = h ⟨q' c, hS c⟩ := by
    intro h c; unfold oracle; rw [dif_pos (hS c)]
  let e : (S → F) ≃ {h : S → F // oracle S 0 h (q' (oracle S 0 h q)) = oracle S 0 h q} × F :=
    { toFun := fun h => (⟨Function.update h ⟨q' (oracle S 0 h q), hS _⟩ (oracle S 0 h q), by
          rw [hup, hor, Function.update_self]⟩, h ⟨q' (oracle S 0 h q), hS _⟩)
      invFun := fun x => Function.update x.1.1 ⟨q' (oracle S 0 x.1.1 q), hS _⟩ x.2
      left_inv := by
        intro h
        simp only
        rw [hup, Function.update_idem, Function.update_eq_self]
      right_inv := by
        rintro ⟨⟨h, hh⟩, r⟩
        have h1 := hh
        rw [hor] at h1
        refine Prod.ext (Subtype.ext ?_) ?_
        · simp only
          rw [hup, Function.update_idem]
          have hs := Function.update_eq_self (⟨q' (oracle S 0 h q), hS _⟩ : S) h
          rw [h1] at hs
          exact hs
        · simp only
          rw [hup, Function.update_self] }
  have hcard := Nat.card_congr e
  rw [Nat.card_prod] at hcard
  unfold prob
  rw [hcard]
  have hF : (Nat.card F : ℚ) ≠ 0 := by exact_mod_cast Nat.card_pos.ne'
  have h0 : (Nat.card {h : S → F // oracle S 0 h (q' (oracle S 0 h q)) = oracle S 0 h q} : ℚ) ≠ 0 := by
    intro h0
    have : Nat.card (S → F) ≠ 0 := Nat.card_pos.ne'
    rw [hcard] at this
    have h0' : Nat.card {h : S → F // oracle S 0 h (q' (oracle S 0 h q)) = oracle S 0 h q} = 0 := by exact_mod_cast h0
    rw [h0'] at this
    simp at this
  push_cast
  field_simp

/-- **C108** (the verifier recognises the user). `others` are the accumulators given to the other users, `V` is that of
this one, who shows a valid credential with any randomness. Over the choice of a random hash function the presentation,
which is accepted for `V`, is accepted for one of the others with probability at most `|others| / |F|`. (The hash
function is random on a finite set `S` of inputs that contains all it is asked for here; any larger set will do.) -/
theorem C108_recognised (E : Pairing F G1 G2 GT) (enc : Enc G1 G2 GT) (h1 : Function.Injective enc.g1)
    (h2 : Function.Injective enc.g2) (h3 : Function.Injective enc.gt) (params : AccParams G1 G2) (keys : PublicKeys G2)
    (V : G1) (eph : Bytes) (y : F) (w : Witness F G1) (hv : credVerify E V keys params y w = .ok ())
    (rand : ProofRand F) (others : Finset G1) (hV : V ∉ others) :
    ∃ S₀ : Finset Query, ∀ S : Finset Query, S₀ ⊆ S →
    prob (fun h : S → F => ∃ p, makeProof E (asHash (oracle S 0 h)) enc w y V params keys eph rand = some p ∧
      checkProof E (asHash (oracle S 0 h)) enc p params keys V eph = true) = 1 ∧
    prob (fun h : S → F => ∃ p, makeProof E (asHash (oracle S 0 h)) enc w y V params keys eph rand = some p ∧
      ∃ V' ∈ others, checkProof E (asHash (oracle S 0 h)) enc p params keys V' eph = true)
      ≤ (others.card : ℚ) / Nat.card F := by
  classical
  refine ⟨(Finset.univ ×ˢ others).image (fun x : F × G1 => (checkTranscript E enc
    ((Committing.new E w params keys rand).genProof w y x.1) params keys x.2 eph, "challenge")), fun S hS₀ => ?_⟩
  have hS : ∀ c, ∀ V' ∈ others, (checkTranscript E enc ((Committing.new E w params keys rand).genProof w y c) params keys
      V' eph, "challenge") ∈ S := by
    intro c V' hV'
    exact hS₀ (Finset.mem_image.2 ⟨(c, V'), by simp [hV'], rfl⟩)
  have hm : ∀ H : Oracle F, makeProof E H enc w y V params keys eph rand = some _ := fun H =>
    makeProof_eq E H enc w y V params keys eph rand hv
  constructor
  · refine prob_one (fun h => ⟨_, hm _, (C42_complete E _ enc w y V params keys eph rand).2 _ (hm _)⟩)
  let q : Query := (((Committing.new E w params keys rand).getBytesForChallenge enc
    (credTranscript enc params keys V)).append "Ephemeral challenge" eph, "challenge")
  let pr : F → CredProof F G1 := fun c => (Committing.new E w params keys rand).genProof w y c
  have hq : ∀ c, (checkTranscript E enc (pr c) params keys V eph, "challenge") = q := by
    intro c
    unfold checkTranscript
    simp only [pr, getBytes_eq E enc V keys params y w hv]
    rfl
  have one : ∀ V' ∈ others, prob (fun h : S → F =>
      checkProof E (asHash (oracle S 0 h)) enc (pr (oracle S 0 h q)) params keys V' eph = true)
        = 1 / (Nat.card F : ℚ) := by
    intro V' hV'
    have := prob_hit (F := F) (S := S) q (fun c => (checkTranscript E enc (pr c) params keys V' eph, "challenge"))
      (fun c => hS c V' hV') (by
        intro c
        rw [← hq c]
        intro e
        exact transcript_ne E enc h1 h2 h3 params keys eph (pr c) (V := V) (V' := V')
          (fun e' => hV (by rw [e']; exact hV')) (congrArg Prod.fst e).symm)
    rw [← this]
    congr 1
    funext h
    exact propext (decide_eq_true_iff (p := asHash (oracle S 0 h)
      (checkTranscript E enc (pr (oracle S 0 h q)) params keys V' eph) "challenge" = (pr (oracle S 0 h q)).challenge))
  have union : ∀ T : Finset G1, T ⊆ others → prob (fun h : S → F => ∃ V' ∈ T,
      checkProof E (asHash (oracle S 0 h)) enc (pr (oracle S 0 h q)) params keys V' eph = true)
        ≤ (T.card : ℚ) / Nat.card F := by
    intro T
    induction T using Finset.induction_on with
    | empty => intro _; simp [prob]
    | insert a T ha ih =>
      intro hT
      have h1 := ih (fun x hx => hT (Finset.mem_insert_of_mem hx))
      have h2 := one a (hT (Finset.mem_insert_self a T))
      have h3 := prob_le_add (X := S → F) (A := fun h => ∃ V' ∈ insert a T,
        checkProof E (asHash (oracle S 0 h)) enc (pr (oracle S 0 h q)) params keys V' eph = true)
        (B := fun h => checkProof E (asHash (oracle S 0 h)) enc (pr (oracle S 0 h q)) params keys a eph = true)
        (C := fun h => ∃ V' ∈ T,
        checkProof E (asHash (oracle S 0 h)) enc (pr (oracle S 0 h q)) params keys V' eph = true) (by
          rintro h ⟨V', hV', hc⟩
          rcases Finset.mem_insert.1 hV' with rfl | hV'
          exacts [.inl hc, .inr ⟨V', hV', hc⟩])
      rw [Finset.card_insert_of_notMem ha]
      push_cast
      rw [add_div]
      linarith
  refine le_trans (prob_mono ?_) (union others (Finset.Subset.refl _))
  rintro h ⟨p, hp, V', hV', hc⟩
  rw [hm] at hp
  obtain rfl := Option.some.inj hp
  exact ⟨V', hV', hc⟩

end
end

/-! ### Concrete cases -/

section
/-- All generators 1. -/
def onePar : AccParams (ZMod 7) (ZMod 7) := ⟨1, 1, 1, 1, 1, 1, 1, 1⟩

/-- C108_enrol: keys `1, 1`, initial accumulators 2 and 3, member 2 at each. -/
example (H : Oracle (ZMod 7)) (srv srv' : Server (ZMod 7) (ZMod 7) (ZMod 7))
    (h : srv = ⟨[2], 1, ⟨1, 1⟩, 1, [2], [(2, 3)], []⟩) (h' : srv' = ⟨[3], 1, ⟨1, 1⟩, 1, [2], [(2, 1)], []⟩) :
    (Server.new onePar 1 1 2).run [.add 2] = .ok srv ∧ (Server.new onePar 1 1 3).run [.add 2] = .ok srv' ∧
    ∃ u₀ u₀' u u', User.new srv 2 = .ok u₀ ∧ User.new srv' 2 = .ok u₀' ∧
      u₀.createWitness H enc7 onePar srv 5 4 = .ok u ∧ u₀'.createWitness H enc7 onePar srv' 6 3 = .ok u' ∧
      Tagged (Pairing.field (ZMod 7)) H enc7 onePar u 2 3 ∧ Tagged (Pairing.field (ZMod 7)) H enc7 onePar u' 3 2 := by
  have r : (Server.new onePar 1 1 2).run [.add 2] = .ok srv := by subst h; with_unfolding_all rfl
  have r' : (Server.new onePar 1 1 3).run [.add 2] = .ok srv' := by subst h'; with_unfolding_all rfl
  obtain ⟨-, V, V', u₀, u₀', u, u', a1, a2, a3, a4, a5, a6, -, -, a7⟩ := C108_enrol (Pairing.field (ZMod 7)) H enc7
    enc7_inj enc7_inj enc7_inj onePar (by decide) (by decide) 1 1 2 3 [.add 2] [.add 2] (by decide) (by decide) srv srv'
    r r' 2 2 (by subst h; decide) (by subst h'; decide) (by decide) (by decide) 5 4 6 3
  have e : V = 2 := by subst h; exact (Except.ok.inj a1).symm
  have e' : V' = 3 := by subst h'; exact (Except.ok.inj a2).symm
  subst e e'
  exact ⟨r, r', u₀, u₀', u, u', a3, a4, a5, a6, a7 (by decide)⟩

/-- C108_update: three members; one fork deletes 1, the other 2; user 3 is updated from one or the other. -/
example (H : Oracle (ZMod 7)) (rand₁ rand₂ : Nat → Nat → ZMod 7) (u : User (ZMod 7) (ZMod 7) (ZMod 7))
    (hu : u = ⟨3, some ⟨0, 4, 2⟩, 2, ⟨1, 1⟩, 1⟩) :
    ∃ srv srv₁ srv₂ V₁ V₂ u₁ u₂, (Server.new (F := ZMod 7) onePar 1 1 2).run [.add 1, .add 2, .add 3] = .ok srv ∧
      srv.run [.delete 1] = .ok srv₁ ∧ srv.run [.delete 2] = .ok srv₂ ∧
      u.update (fun d => d) (List.replicate 3 srv₁) 2 rand₁ = .ok (u₁, .ok ()) ∧
      u.update (fun d => d) (List.replicate 2 srv₂) 2 rand₂ = .ok (u₂, .ok ()) ∧
      Tagged (Pairing.field (ZMod 7)) H enc7 onePar u₁ V₁ V₂ ∧
      Tagged (Pairing.field (ZMod 7)) H enc7 onePar u₂ V₂ V₁ := by
  have r : (Server.new (F := ZMod 7) onePar 1 1 2).run [.add 1, .add 2, .add 3]
      = .ok ⟨[2], 1, ⟨1, 1⟩, 1, [3, 2, 1], [(3, 4), (2, 3), (1, 1)], []⟩ := by with_unfolding_all rfl
  have r1 : (⟨[2], 1, ⟨1, 1⟩, 1, [3, 2, 1], [(3, 4), (2, 3), (1, 1)], []⟩ : Server (ZMod 7) (ZMod 7) (ZMod 7)).run
      [.delete 1] = .ok ⟨[2, 1], 1, ⟨1, 1⟩, 1, [3, 2, 1], [(3, 2), (2, 5)], [1]⟩ := by with_unfolding_all rfl
  have r2 : (⟨[2], 1, ⟨1, 1⟩, 1, [3, 2, 1], [(3, 4), (2, 3), (1, 1)], []⟩ : Server (ZMod 7) (ZMod 7) (ZMod 7)).run
      [.delete 2] = .ok ⟨[2, 3], 1, ⟨1, 1⟩, 1, [3, 2, 1], [(3, 6), (1, 5)], [2]⟩ := by with_unfolding_all rfl
  subst hu
  obtain ⟨V₁, V₂, u₁, u₂, -, -, b1, b2, -, -, -, b3, b4⟩ := C108_update (Pairing.field (ZMod 7)) H enc7
    enc7_inj enc7_inj enc7_inj onePar (by decide) (by decide) 1 1 2 [.add 1, .add 2, .add 3] [.delete 1] [.delete 2] (by decide) (by decide)
    (by decide) _ _ _ r r1 r2 2 3 2 (by decide) (by decide) (by decide)
    (fun i h0 h3 => by
      have : i ≤ 3 := h3
      interval_cases i <;> decide) (fun d => d) (fun d h => h) ⟨3, some ⟨0, 4, 2⟩, 2, ⟨1, 1⟩, 1⟩
    ⟨3, some ⟨0, 4, 2⟩, 2, ⟨1, 1⟩, 1⟩ rfl rfl (by decide) (by decide) (by decide) (by decide) 2 2 rfl rfl
    (by decide +kernel) (by decide +kernel) (by decide) (by decide) rand₁ rand₂
  refine ⟨_, _, _, V₁, V₂, u₁, u₂, r, r1, r2, b1, b2, b3 (fun e => ?_)⟩
  have := b4.1 e
  revert this
  decide +kernel

/-- C108_scale: two servers, threshold 2, one chunk; doubling both `d` values halves the witness. -/
example : User.postUpdate (6 : ZMod 7) 2 [[1], [2]] ((List.range 2).map (fun i => ((i + 1 : Nat) : ZMod 7)))
      [([3], [1]), ([3], [1])] = .ok (.ok 4) ∧
    User.postUpdate (6 : ZMod 7) 2 [[1], [2]] ((List.range 2).map (fun i => ((i + 1 : Nat) : ZMod 7)))
      [([6], [1]), ([6], [1])] = .ok (.ok ((2 : ZMod 7)⁻¹ • 4)) := by
  have h0 : User.postUpdate (6 : ZMod 7) 2 [[1], [2]] ((List.range 2).map (fun i => ((i + 1 : Nat) : ZMod 7)))
      [([3], [1]), ([3], [1])] = .ok (.ok 4) := by decide +kernel
  exact ⟨h0, (C108_scale (6 : ZMod 7) 2 1 (by decide) (by decide) [([3], [1]), ([3], [1])] (by decide) (by decide)
    (fun i h0 h3 => by
      have : i ≤ 2 := h3
      interval_cases i <;> decide) [[1], [2]] rfl 2 (by decide) 4 h0).1⟩

/-- C108_recognised: a user with accumulator 2, three others with 3, 4 and 5. -/
example : ∃ S : Finset Query, prob (fun h : S → ZMod 7 => ∃ p, makeProof (Pairing.field (ZMod 7)) (asHash (oracle S 0 h))
      enc7 ⟨1, 1, 1⟩ 1 2 onePar ⟨1, 1⟩ [] ⟨1, 2, 3, 4, 5, 6, 0, 1, 2, 3, 4⟩ = some p ∧
      ∃ V' ∈ ({3, 4, 5} : Finset (ZMod 7)), checkProof (Pairing.field (ZMod 7)) (asHash (oracle S 0 h)) enc7 p onePar
        ⟨1, 1⟩ V' [] = true) ≤ 3 / 7 := by
  obtain ⟨S, h⟩ := C108_recognised (Pairing.field (ZMod 7)) enc7 enc7_inj enc7_inj enc7_inj onePar ⟨1, 1⟩ 2 [] 1
    ⟨1, 1, 1⟩ (by decide +kernel) ⟨1, 2, 3, 4, 5, 6, 0, 1, 2, 3, 4⟩ {3, 4, 5} (by decide)
  refine ⟨S, ?_⟩
  have := (h S (Finset.Subset.refl _)).2
  have hc : (({3, 4, 5} : Finset (ZMod 7)).card : ℚ) = 3 := by
    have : ({3, 4, 5} : Finset (ZMod 7)).card = 3 := by decide
    exact_mod_cast this
  rw [hc] at this
  simpa using this

end
end Allo
