import Verif.Props.Update
import Verif.Props.Enrol

/-!
# C68: servers whose public fields are filled in directly (as in `benches/updates.rs`)

All fields of `Server` and `User` are public, so a caller may build them without `Server::new`. The update
protocol is characterised here for such values: it follows the public log of the servers, and is correct as
soon as that log is a chain under some key.
-/

set_option linter.unusedSectionVars false
set_option linter.unusedVariables false
namespace Allo
open Spec Finset Server

section
variable {F G1 G2 GT : Type} [Field F] [DecidableEq F] [AddCommGroup G1] [Module F G1]
  [DecidableEq G1] [AddCommGroup G2] [Module F G2] [AddCommGroup GT] [Module F GT] [DecidableEq GT]

/-- `MembershipWitness::update` once for each entry `(deleted element, accumulator before, accumulator
after)` of a public log. -/
def stepwise (y : F) (log : List (F × G1 × G1)) (C : G1) : G1 :=
  log.foldl (fun C e => mwUpdate C y e.2.1 e.2.2 [] [e.1]) C

/-- The public log of a server from (0-based) position `i` on. -/
def logFrom (s : Server F G1 G2) (i : Nat) : List (F × G1 × G1) :=
  (s.deletions.drop i).zip ((s.accumulators.drop i).zip (s.accumulators.drop (i + 1)))

theorem stepwise_follow (y : F) : ∀ (ds : List F) (Vs Ws : List G1) (C : G1), ds.length ≤ Vs.length →
    y ∉ ds → stepwise y (ds.zip (Vs.zip Ws)) C = followLog y (ds.zip Ws) C := by
  intro ds
  induction ds with
  | nil => intro Vs Ws C _ _; rfl
  | cons d ds ih =>
    intro Vs Ws C hl hy
    cases Vs with
    | nil => simp at hl
    | cons V Vs =>
      cases Ws with
      | nil => simp [stepwise, followLog]
      | cons W Ws =>
        have hd : d - y ≠ 0 := by
          intro h
          exact hy (by simp [sub_eq_zero.1 h])
        have := ih Vs Ws ((d - y)⁻¹ • (C - W)) (by simpa using hl) (fun h => hy (by simp [h]))
        simp only [List.zip_cons_cons, stepwise, followLog, List.foldl_cons] at this ⊢
        rw [← this]
        simp [mwUpdate, mwUpdateDels, mwUpdateAdds, invert?, hd]

/-- **C68**. For any servers that show the same log (one accumulator more than deletions; nothing is assumed
about how it came about), any user with a witness and a recorded epoch in `1 .. current - 1`, and any
`n ≥ t ≥ 2`: the threshold update gives exactly the witness that single `MembershipWitness::update` calls
would give for each deletion of the log in turn, or "user has been deleted" if the user is in that part
of the log. -/
theorem C68_follow_log (seed : Nat → Nat) (hseed : ∀ d, 1 ≤ d → 1 ≤ seed d) (s : Server F G1 G2)
    (hlen : s.accumulators.length = s.deletions.length + 1) (servers : List (Server F G1 G2))
    (hs : ∀ s' ∈ servers, s'.accumulators = s.accumulators ∧ s'.deletions = s.deletions)
    (t : Nat) (ht : 2 ≤ t) (hn : t ≤ servers.length)
    (hc : ∀ i : Nat, 0 < i → i ≤ servers.length → (i : F) ≠ 0)
    (u : User F G1 G2) (w : Witness F G1) (hw : u.witness = some w) (he1 : 1 ≤ u.epoch)
    (he2 : u.epoch < s.getEpoch) (rand : Nat → Nat → F) :
    ∃ V, s.getAccumulator = .ok V ∧ u.update seed servers t rand = .ok
      (if u.id ∈ s.deletions.drop (u.epoch - 1) then (u, .error "user has been deleted")
       else ({ u with
          witness := some { w with witness := stepwise u.id (logFrom s (u.epoch - 1)) w.witness }
          accumulator := V }, .ok ())) := by
  rw [Server.getEpoch] at he2
  obtain ⟨V, hV⟩ : ∃ V, s.accumulators.getLast? = some V := by
    cases e : s.accumulators.getLast? with
    | none => rw [List.getLast?_eq_none_iff] at e; rw [e] at hlen; simp at hlen
    | some V => exact ⟨V, rfl⟩
  refine ⟨V, by rw [Server.getAccumulator, hV]; rfl, ?_⟩
  rw [update_core seed hseed u w hw s hlen V hV servers hs t ht hn hc he1 he2 rand]
  split
  · rfl
  · next hid =>
    rw [logFrom, stepwise_follow _ _ _ _ _ (by simp only [List.length_drop]; omega) hid]
    congr 6
    unfold Server.published
    rw [show s.deletions.length - (s.accumulators.length - u.epoch) = u.epoch - 1 by omega,
      List.zip, List.drop_zipWith, List.drop_drop, Nat.add_comm 1]

/-- The invariants hold for a server built directly on one accumulator. -/
theorem invW_direct (α : F) (s : Server F G1 G2) (V : G1) (hk : s.witnessSecretKey = α)
    (ha : s.accumulators = [V]) (hd : s.deletions = []) (hi : ∀ p ∈ s.allWitnesses, p.1 ≠ -α)
    (hw : ∀ p ∈ s.allWitnesses, IsWitness α V p.1 p.2) : InvW α V s := by
  refine ⟨⟨hk, ?_, ?_, ?_⟩, ?_⟩
  · rw [ha, hd]; simp [accAfter]
  · simp [hd]
  · intro y hy h0
    obtain ⟨p, hp, rfl⟩ := List.mem_map.1 hy
    exact hi p hp (eq_neg_of_add_eq_zero_left h0)
  · intro p hp
    rw [hd]
    simpa [accAfter, IsWitness] using hw p hp

/-- **C68**. A server built directly on an arbitrary accumulator `V` with valid witnesses for its members, after
any history of `add`/`delete` followed by `add`/`quick_delete`: a user at a recorded epoch whose witness point
is valid for the accumulator of that epoch and who was not deleted since gets a witness point valid for the
current accumulator. The public keys in the structures play no role. -/
theorem C68_built (α : F) (s₀ s : Server F G1 G2) (V₀ : G1) (hk : s₀.witnessSecretKey = α)
    (ha : s₀.accumulators = [V₀]) (hd : s₀.deletions = []) (hi : ∀ p ∈ s₀.allWitnesses, p.1 ≠ -α)
    (hw₀ : ∀ p ∈ s₀.allWitnesses, IsWitness α V₀ p.1 p.2)
    (ops₁ ops₂ : List (Server.Op F)) (h₁ : ∀ op ∈ ops₁, op.isQuick = false)
    (h₂ : ∀ op ∈ ops₂, op.isDelete = false) (h : s₀.run (ops₁ ++ ops₂) = .ok s)
    (servers : List (Server F G1 G2))
    (hs : ∀ s' ∈ servers, s'.accumulators = s.accumulators ∧ s'.deletions = s.deletions)
    (t : Nat) (ht : 2 ≤ t) (hn : t ≤ servers.length)
    (hc : ∀ i : Nat, 0 < i → i ≤ servers.length → (i : F) ≠ 0)
    (seed : Nat → Nat) (hseed : ∀ d, 1 ≤ d → 1 ≤ seed d)
    (u : User F G1 G2) (w : Witness F G1) (hw : u.witness = some w) (he1 : 1 ≤ u.epoch)
    (he2 : u.epoch < s.getEpoch) (Ve : G1) (hVe : s.accumulators[u.epoch - 1]? = some Ve)
    (hv : IsWitness α Ve u.id w.witness) (rand : Nat → Nat → F) :
    ∃ V, s.getAccumulator = .ok V ∧
      (u.id ∈ s.deletions.drop (u.epoch - 1) →
        u.update seed servers t rand = .ok (u, .error "user has been deleted")) ∧
      (u.id ∉ s.deletions.drop (u.epoch - 1) → ∃ C, IsWitness α V u.id C ∧
        u.update seed servers t rand
          = .ok ({ u with witness := some { w with witness := C }, accumulator := V }, .ok ())) := by
  have hI : InvA α V₀ s := by
    obtain ⟨s1, h3, h4⟩ := run_append.1 h
    have := run_inv (InvW α V₀) (fun op => op.isQuick = false)
      (fun s op s' r ho hI hs => invW_step ho hI hs) ops₁ h₁ h3 (invW_direct α s₀ V₀ hk ha hd hi hw₀)
    exact run_inv (InvA α V₀) (fun op => op.isDelete = false)
      (fun s op s' r ho hI hs => invA_step ho hI hs) ops₂ h₂ h4 this.toInvA
  have hlen := hI.length
  rw [Server.getEpoch] at he2
  refine ⟨_, by rw [Server.getAccumulator, hI.last]; rfl, ?_, ?_⟩
  · intro hid
    rw [update_core seed hseed u w hw s hlen _ hI.last servers hs t ht hn hc he1 he2 rand, if_pos hid]
  · intro hid
    refine ⟨_, ?_, by
      rw [update_core seed hseed u w hw s hlen _ hI.last servers hs t ht hn hc he1 he2 rand, if_neg hid]⟩
    have hi : u.epoch - 1 ≤ s.deletions.length := by omega
    rw [hI.get _ hi] at hVe
    have hVe := Option.some.inj hVe
    have hch := chain_published hI (u.epoch - 1) hi
    rw [hVe, show s.deletions.length - (u.epoch - 1) = s.accumulators.length - u.epoch by omega] at hch
    have hfst : (s.published (s.accumulators.length - u.epoch)).map (·.1)
        = s.deletions.drop (u.epoch - 1) := by
      rw [published_fst s hlen]
      congr 1; omega
    have haff := followLog_affine α u.id _ _ _ w.witness hch (by rw [hfst]; exact hid)
    unfold IsWitness at hv ⊢
    rw [haff, hv, sub_self, smul_zero, add_zero]

/-- **C68** (the key used by the benchmark). `check_witness` for a user whose signature is the one
`User::random` computes, when the sign public key is `s * Q` for an arbitrary point `Q` in place of `s * K2`
(the benchmark uses `Q = P2`, benches/updates.rs:184): it accepts exactly if, besides the witness equation,
`s = 0` or `Q = K2` or the signature is the identity. -/
theorem C68_sign_key_base (E : Pairing F G1 G2 GT) (params : AccParams G1 G2) (hP : params.p2 ≠ 0)
    (hK : params.k2 ≠ 0) (α s : F) (Q : G2) (V₀ V : G1) (epoch : Nat) (id secret : F) (u : User F G1 G2)
    (hu : User.random α s params V₀ ⟨α • params.p2, s • Q⟩ epoch id secret = .ok u) :
    u.checkWitness E params V = .ok () ↔
      V = V₀ ∧ (s = 0 ∨ Q = params.k2 ∨ secret • params.k1 + params.k0 = 0) := by
  by_cases h1 : s + id = 0
  · simp [User.random, h1, bind, Except.bind] at hu
  by_cases h2 : α + id = 0
  · simp [User.random, inv!_ne h1, mwNew, accRemove, h2, bind, Except.bind] at hu
  simp only [User.random, inv!_ne h1, mwNew, accRemove, inv!_ne h2, unwrap, bind, Except.bind, pure,
    Except.pure, Except.ok.injEq] at hu
  subst hu
  unfold User.checkWitness credVerify
  simp only
  have e1 : (E.e ((α + id)⁻¹ • V₀) (id • params.p2 + α • params.p2) + E.e V (-params.p2) = 0) ↔ V = V₀ := by
    rw [E.check_iff hP, smul_smul, add_comm id α, mul_inv_cancel₀ h2, one_smul, eq_comm]
  have e2 : (E.e ((s + id)⁻¹ • (secret • params.k1 + params.k0)) (id • params.k2 + s • Q)
      + E.e (secret • params.k1 + params.k0) (-params.k2) = 0) ↔
      (s = 0 ∨ Q = params.k2 ∨ secret • params.k1 + params.k0 = 0) := by
    set S := secret • params.k1 + params.k0 with hS
    have : E.e ((s + id)⁻¹ • S) (id • params.k2 + s • Q) + E.e S (-params.k2)
        = E.e S (((s + id)⁻¹ * s) • (Q - params.k2)) := by
      have hk2 : params.k2 = ((s + id)⁻¹ * (s + id)) • params.k2 := by
        rw [inv_mul_cancel₀ h1, one_smul]
      rw [map_smul, LinearMap.smul_apply, ← map_smul, ← map_add]
      congr 1
      conv_lhs => rw [show -params.k2 = -((s + id)⁻¹ * (s + id)) • params.k2 by
        rw [inv_mul_cancel₀ h1]; simp]
      module
    rw [this]
    constructor
    · intro h
      rcases E.nondeg _ _ h with h | h
      · exact .inr (.inr h)
      · rcases smul_eq_zero.1 h with h | h
        · rcases mul_eq_zero.1 h with h | h
          · exact absurd (inv_eq_zero.1 h) h1
          · exact .inl h
        · exact .inr (.inl (sub_eq_zero.1 h))
    · rintro (h | h | h)
      · simp [h]
      · simp [h]
      · simp [h]
  rw [← e1, ← e2]
  split
  · next h => simpa using h
  · next h =>
    constructor
    · intro h'; cases h'
    · intro h'; exact absurd (by simpa using h') h

/-- The benchmark's `Server { .. }` literal, benches/updates.rs:212-222, for users with the given ids. -/
def benchServer (α s : F) (keys : PublicKeys G2) (V : G1) (users : List (User F G1 G2)) : Server F G1 G2 :=
  { accumulators := [V]
    witnessSecretKey := α
    publicKeys := keys
    signSecretKey := s
    allUsers := users.map (·.id)
    allWitnesses := users.filterMap (fun u => u.witness.map (fun w => (u.id, w.witness)))
    deletions := [] }

/-- Fact about `User::random` used below. -/
theorem random_facts {α s : F} {params : AccParams G1 G2} {V : G1} {keys : PublicKeys G2} {epoch : Nat}
    {id secret : F} {u : User F G1 G2} (h : User.random α s params V keys epoch id secret = .ok u) :
    id ≠ -α ∧ u.id = id ∧ u.epoch = epoch ∧ ∃ w, u.witness = some w ∧ IsWitness α V id w.witness := by
  by_cases h1 : s + id = 0
  · simp [User.random, h1, bind, Except.bind] at h
  by_cases h2 : α + id = 0
  · simp [User.random, inv!_ne h1, mwNew, accRemove, h2, bind, Except.bind] at h
  simp only [User.random, inv!_ne h1, mwNew, accRemove, inv!_ne h2, unwrap, bind, Except.bind, pure,
    Except.pure, Except.ok.injEq] at h
  subst h
  refine ⟨fun e => h2 (by rw [e]; ring), rfl, rfl, _, rfl, ?_⟩
  unfold IsWitness
  rw [smul_smul, add_comm id α, mul_inv_cancel₀ h2, one_smul]

/-- **C68** (the benchmark). Users drawn with `User::random` at epoch 1, servers built from them as in the
benchmark, any `quick_delete`s of some of them: every user that was not deleted updates to a witness point
valid for the new accumulator, whatever public keys are in the structures. -/
theorem C68_bench (α s : F) (params : AccParams G1 G2) (keys : PublicKeys G2) (V₀ : G1)
    (users : List (User F G1 G2))
    (hu : ∀ u ∈ users, ∃ id secret, User.random α s params V₀ keys 1 id secret = .ok u)
    (dels : List F) (srv : Server F G1 G2)
    (h : (benchServer α s keys V₀ users).run (dels.map Server.Op.quickDelete) = .ok srv)
    (n t : Nat) (ht : 2 ≤ t) (hn : t ≤ n) (hc : ∀ i : Nat, 0 < i → i ≤ n → (i : F) ≠ 0)
    (seed : Nat → Nat) (hseed : ∀ d, 1 ≤ d → 1 ≤ seed d) (u : User F G1 G2) (hm : u ∈ users)
    (hid : u.id ∉ srv.deletions) (hone : srv.deletions ≠ []) (rand : Nat → Nat → F) :
    ∃ V u' w', srv.getAccumulator = .ok V ∧
      u.update seed (List.replicate n srv) t rand = .ok (u', .ok ()) ∧
      u'.witness = some w' ∧ IsWitness α V u.id w'.witness := by
  obtain ⟨id, secret, hr⟩ := hu u hm
  obtain ⟨-, hid', hep, w, hw, hwit⟩ := random_facts hr
  have hfacts : ∀ p ∈ (benchServer α s keys V₀ users).allWitnesses, p.1 ≠ -α ∧ IsWitness α V₀ p.1 p.2 := by
    intro p hp
    simp only [benchServer, List.mem_filterMap] at hp
    obtain ⟨v, hv, hp⟩ := hp
    obtain ⟨i, x, hv⟩ := hu v hv
    obtain ⟨f1, f2, -, w', f3, f4⟩ := random_facts hv
    rw [f3] at hp
    simp only [Option.map_some, Option.some.injEq] at hp
    subst hp
    exact ⟨by rw [f2]; exact f1, by rw [f2]; exact f4⟩
  have hq : ∀ op ∈ dels.map Server.Op.quickDelete, op.isDelete = false := by
    intro op hop
    obtain ⟨d, -, rfl⟩ := List.mem_map.1 hop
    rfl
  have hI : InvA α V₀ srv := by
    have := invW_direct α (benchServer α s keys V₀ users) V₀ rfl rfl rfl (fun p hp => (hfacts p hp).1)
      (fun p hp => (hfacts p hp).2)
    exact run_inv (InvA α V₀) (fun op => op.isDelete = false)
      (fun s op s' r ho hI hs => invA_step ho hI hs) _ hq h this.toInvA
  have hpos := List.length_pos_iff.2 hone
  obtain ⟨V, hV, -, hok⟩ := C68_built α (benchServer α s keys V₀ users) srv V₀ rfl rfl rfl
    (fun p hp => (hfacts p hp).1) (fun p hp => (hfacts p hp).2) [] (dels.map Server.Op.quickDelete)
    (by simp) hq (by simpa using h) (List.replicate n srv)
    (fun s' hs' => by rw [List.eq_of_mem_replicate hs']; exact ⟨rfl, rfl⟩) t ht (by simpa using hn)
    (by simpa using hc) seed hseed u w hw (by omega)
    (by rw [Server.getEpoch, hI.length, hep]; omega) V₀
    (by rw [hep, hI.get 0 (by omega)]; simp [accAfter]) (by rw [hid']; exact hwit) rand
  obtain ⟨C, hC, hup⟩ := hok (by rw [hep]; simpa using hid)
  exact ⟨V, _, _, hV, hup, rfl, hC⟩

/-- Concrete cases: three users with ids 2, 3, 5; user 2 is quick-deleted; user 3 updates with 3 of 4 servers.
The public keys have the wrong base, so `check_witness` rejects already the fresh user. -/
def benchKeys : PublicKeys ℚ := ⟨4 • 1, 9 • 1⟩
def benchParams : AccParams ℚ ℚ := ⟨1, 1, 2, 3, 6, 5, 7, 11⟩
def benchUser (id secret : ℚ) : User ℚ ℚ ℚ :=
  { id := id, witness := some ⟨secret, (4 + id)⁻¹ * 60, (9 + id)⁻¹ * (secret * 3 + 2)⟩, accumulator := 60,
    publicKeys := benchKeys, epoch := 1 }

theorem benchUser_random (id secret : ℚ) (h1 : 9 + id ≠ 0) (h2 : 4 + id ≠ 0) :
    User.random 4 9 benchParams 60 benchKeys 1 id secret = .ok (benchUser id secret) := by
  simp [User.random, inv!_ne h1, mwNew, accRemove, inv!_ne h2, unwrap, bind, Except.bind, pure, Except.pure,
    benchUser, benchParams]

example (rand : Nat → Nat → ℚ) : ∃ srv : Server ℚ ℚ ℚ,
    (benchServer 4 9 benchKeys 60 [benchUser 2 7, benchUser 3 8, benchUser 5 9]).run
      (([2] : List ℚ).map Server.Op.quickDelete) = .ok srv ∧
    ∃ V u' w', srv.getAccumulator = .ok V ∧
      (benchUser 3 8).update (fun d => d) (List.replicate 4 srv) 3 rand = .ok (u', .ok ()) ∧
      u'.witness = some w' ∧ IsWitness (4 : ℚ) V 3 w'.witness := by
  have hrun : ∃ srv : Server ℚ ℚ ℚ, (benchServer 4 9 benchKeys 60 [benchUser 2 7, benchUser 3 8, benchUser 5 9]).run
      (([2] : List ℚ).map Server.Op.quickDelete) = .ok srv ∧ srv.deletions = [2] := by
    have := quickDelete_member (s := benchServer 4 9 benchKeys 60 [benchUser 2 7, benchUser 3 8, benchUser 5 9])
      (y := (2 : ℚ)) (V := 60) (by simp [benchServer, ids, benchUser]) rfl (by norm_num [benchServer])
    refine ⟨_, run_cons_of (show _ = _ from this) rfl, rfl⟩
  obtain ⟨srv, h, hd⟩ := hrun
  refine ⟨srv, h, ?_⟩
  refine C68_bench 4 9 benchParams benchKeys 60 [benchUser 2 7, benchUser 3 8, benchUser 5 9] ?_ [2] srv h 4 3
    (by norm_num) (by norm_num) (fun i hi _ => by exact_mod_cast hi.ne') (fun d => d) (fun d hd => hd)
    (benchUser 3 8) (by simp) ?_ ?_ rand
  · intro u hu
    simp only [List.mem_cons, List.not_mem_nil, or_false] at hu
    rcases hu with rfl | rfl | rfl
    · exact ⟨2, 7, benchUser_random 2 7 (by norm_num) (by norm_num)⟩
    · exact ⟨3, 8, benchUser_random 3 8 (by norm_num) (by norm_num)⟩
    · exact ⟨5, 9, benchUser_random 5 9 (by norm_num) (by norm_num)⟩
  · rw [hd]; norm_num [benchUser]
  · rw [hd]; simp

example : (benchUser 3 8).checkWitness (Pairing.field ℚ) benchParams 60 ≠ .ok () := by
  intro h
  have := (C68_sign_key_base (Pairing.field ℚ) benchParams (by norm_num [benchParams])
    (by norm_num [benchParams]) 4 9 (1 : ℚ) 60 60 1 3 8 (benchUser 3 8) (by
      have := benchUser_random 3 8 (by norm_num) (by norm_num)
      simpa [benchParams, benchKeys] using this)).1 h
  norm_num [benchParams] at this

end
end Allo
