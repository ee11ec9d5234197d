import Verif.Lemmas.UserUpdate

/-!
# C25 – C28: `User::update` against honest, up-to-date servers
-/

set_option linter.unusedSectionVars false
set_option linter.unusedVariables false
namespace Allo
open Spec Finset

section
variable {F G1 G2 GT : Type} [Field F] [DecidableEq F] [AddCommGroup G1] [Module F G1]
  [DecidableEq G1] [AddCommGroup G2] [Module F G2] [AddCommGroup GT] [Module F GT] [DecidableEq GT]

/-- General form: a user whose recorded epoch is `e` and whose witness is valid for the accumulator of
*some* epoch (index `i`). -/
theorem update_general (E : Pairing F G1 G2 GT) (params : AccParams G1 G2) (hP : params.p2 ≠ 0)
    (hK : params.k2 ≠ 0) (α sM v : F) (ops₁ ops₂ : List (Server.Op F))
    (h₁ : ∀ op ∈ ops₁, op.isQuick = false) (h₂ : ∀ op ∈ ops₂, op.isDelete = false)
    (srv : Server F G1 G2) (h : (Server.new params α sM v).run (ops₁ ++ ops₂) = .ok srv)
    (servers : List (Server F G1 G2)) (hs : Synced servers srv) (t : Nat) (ht : 2 ≤ t)
    (hn : t ≤ servers.length) (hc : ∀ i, 0 < i → i ≤ servers.length → (i : F) ≠ 0)
    (seed : Nat → Nat) (hseed : ∀ d, 1 ≤ d → 1 ≤ seed d) (u : User F G1 G2)
    (hu : u.publicKeys = srv.getPublicKeys) (he1 : 1 ≤ u.epoch) (he2 : u.epoch < srv.getEpoch)
    (Ve Vi : G1) (hVe : srv.accumulators[u.epoch - 1]? = some Ve)
    (hw : u.checkWitness E params Vi = .ok ())
    (hid : u.id ∉ srv.deletions.drop (u.epoch - 1)) (rand : Nat → Nat → F) :
    ∃ u' V w w', srv.getAccumulator = .ok V ∧ u.update seed servers t rand = .ok (u', .ok ()) ∧
      u.witness = some w ∧ u'.witness = some w' ∧ w'.secretKey = w.secretKey ∧
      w'.signature = w.signature ∧ u'.id = u.id ∧ u'.publicKeys = u.publicKeys ∧
      u'.epoch = u.epoch ∧ u'.accumulator = V ∧
      (u'.checkWitness E params V = .ok () ↔ Vi = Ve) := by
  have hI := invA_run params α sM v ops₁ ops₂ h₁ h₂ srv h
  have hk := (keys_run h).1
  have hlen := hI.length
  rw [Server.getEpoch] at he2
  rw [Server.getPublicKeys, hk] at hu
  obtain ⟨w, hw1, hw2, hw3⟩ := (C23_check_witness E params hP hK α sM u hu Vi).1.1 hw
  have hcore := update_core seed hseed u w hw1 srv hlen _ hI.last servers hs t ht hn hc he1 he2 rand
  rw [if_neg hid] at hcore
  refine ⟨_, _, w, _, by rw [Server.getAccumulator, hI.last]; rfl, hcore, hw1, rfl, rfl, rfl, rfl, rfl,
    rfl, rfl, ?_⟩
  rw [(C23_check_witness E params hP hK α sM _ (by exact hu) _).1]
  have hi : u.epoch - 1 ≤ srv.deletions.length := by omega
  rw [hI.get _ hi] at hVe
  have hVe := Option.some.inj hVe
  have hch := chain_published hI (u.epoch - 1) hi
  rw [hVe, show srv.deletions.length - (u.epoch - 1) = srv.accumulators.length - u.epoch by omega] at hch
  have hfst : (srv.published (srv.accumulators.length - u.epoch)).map (·.1)
      = srv.deletions.drop (u.epoch - 1) := by
    rw [published_fst srv hlen]
    congr 1; omega
  have haff := followLog_affine α u.id _ _ _ w.witness hch (by rw [hfst]; exact hid)
  have hne : (prodMinus u.id ((srv.published (srv.accumulators.length - u.epoch)).map (·.1)))⁻¹ ≠ 0 := by
    rw [hfst]
    exact inv_ne_zero (fun e => hid (prodMinus_eq_zero.1 e))
  rw [hw2] at haff
  constructor
  · rintro ⟨w', e, h1, h2⟩
    injection e with e
    subst e
    unfold IsWitness at h1
    simp only at h1
    rw [haff] at h1
    have := add_eq_left.1 h1
    rw [smul_eq_zero] at this
    exact sub_eq_zero.1 (this.resolve_left hne)
  · intro e
    refine ⟨_, rfl, ?_, hw3⟩
    unfold IsWitness
    simp only
    rw [haff, e, sub_self, smul_zero, add_zero]

/-! ## C25 -/

/-- C25: for every history of `add`/`delete` calls followed by `add`/`quick_delete` calls (either part may
be empty), any `n ≥ t ≥ 2` servers that have the current log, any user whose witness is valid at its
recorded epoch, with at least one deletion since and its id not among the deletions since: `update`
returns `Ok`, and afterwards `check_witness` passes against the current accumulator, which the user has
recorded. For every sharing randomness. (`hc`: the number of servers is below the field's characteristic.) -/
theorem C25_update (E : Pairing F G1 G2 GT) (params : AccParams G1 G2) (hP : params.p2 ≠ 0)
    (hK : params.k2 ≠ 0) (α sM v : F) (ops₁ ops₂ : List (Server.Op F))
    (h₁ : ∀ op ∈ ops₁, op.isQuick = false) (h₂ : ∀ op ∈ ops₂, op.isDelete = false)
    (srv : Server F G1 G2) (h : (Server.new params α sM v).run (ops₁ ++ ops₂) = .ok srv)
    (servers : List (Server F G1 G2))
    (hs : ∀ s' ∈ servers, s'.accumulators = srv.accumulators ∧ s'.deletions = srv.deletions)
    (t : Nat) (ht : 2 ≤ t)
    (hn : t ≤ servers.length) (hc : ∀ i, 0 < i → i ≤ servers.length → (i : F) ≠ 0)
    (seed : Nat → Nat) (hseed : ∀ d, 1 ≤ d → 1 ≤ seed d) (u : User F G1 G2)
    (hu : u.publicKeys = srv.getPublicKeys) (he1 : 1 ≤ u.epoch) (he2 : u.epoch < srv.getEpoch)
    (Ve : G1) (hVe : srv.accumulators[u.epoch - 1]? = some Ve)
    (hw : u.checkWitness E params Ve = .ok ())
    (hid : u.id ∉ srv.deletions.drop (u.epoch - 1)) (rand : Nat → Nat → F) :
    ∃ u' V, srv.getAccumulator = .ok V ∧ u.update seed servers t rand = .ok (u', .ok ()) ∧
      u'.checkWitness E params V = .ok () ∧ u'.accumulator = V ∧ u'.id = u.id ∧
      u'.publicKeys = u.publicKeys := by
  obtain ⟨u', V, w, w', a1, a2, a3, a4, a5, a6, a7, a8, a9, a10, a11⟩ :=
    update_general E params hP hK α sM v ops₁ ops₂ h₁ h₂ srv h servers hs t ht hn hc seed hseed u hu he1
      he2 Ve Ve hVe hw hid rand
  exact ⟨u', V, a1, a2, a11.2 rfl, a10, a7, a8⟩

/-! ## C26 -/

/-- C26: if the user's id is among the deletions since its recorded epoch (and `1 ≤ epoch < current`),
`update` returns `Err("user has been deleted")` and the user is unchanged, whatever witness it holds. -/
theorem C26_deleted (params : AccParams G1 G2) (α sM v : F) (ops : List (Server.Op F))
    (srv : Server F G1 G2) (h : (Server.new params α sM v).run ops = .ok srv)
    (servers : List (Server F G1 G2))
    (hs : ∀ s' ∈ servers, s'.accumulators = srv.accumulators ∧ s'.deletions = srv.deletions)
    (t : Nat) (ht : 2 ≤ t)
    (hn : t ≤ servers.length) (hc : ∀ i, 0 < i → i ≤ servers.length → (i : F) ≠ 0)
    (seed : Nat → Nat) (hseed : ∀ d, 1 ≤ d → 1 ≤ seed d) (u : User F G1 G2) (hw : u.witness ≠ none)
    (he1 : 1 ≤ u.epoch) (hid : u.id ∈ srv.deletions.drop (u.epoch - 1)) (rand : Nat → Nat → F) :
    u.update seed servers t rand = .ok (u, .error "user has been deleted") := by
  have hlen := accs_length_run params α sM v ops srv h
  obtain ⟨w, hw⟩ := Option.ne_none_iff_exists'.1 hw
  have hlt : u.epoch < srv.accumulators.length := by
    have : u.epoch - 1 < srv.deletions.length := by
      by_contra hcon
      rw [List.drop_eq_nil_of_le (by omega)] at hid
      simp at hid
    omega
  obtain ⟨V, hV⟩ : ∃ V, srv.accumulators.getLast? = some V := by
    cases e : srv.accumulators.getLast? with
    | none => rw [List.getLast?_eq_none_iff] at e; rw [e] at hlen; simp at hlen
    | some V => exact ⟨V, rfl⟩
  rw [update_core seed hseed u w hw srv hlen V hV servers hs t ht hn hc he1 hlt rand, if_pos hid]

/-! ## C28: recorded epoch 0 -/

/-- A user that claims epoch 0 (`User::random` accepts any epoch) makes `update` panic: every up-to-date
server answers with empty vectors. -/
theorem C28_epoch_zero_panics (params : AccParams G1 G2) (α sM v : F) (ops : List (Server.Op F))
    (srv : Server F G1 G2) (h : (Server.new params α sM v).run ops = .ok srv)
    (servers : List (Server F G1 G2))
    (hs : ∀ s' ∈ servers, s'.accumulators = srv.accumulators ∧ s'.deletions = srv.deletions)
    (t : Nat) (ht : 2 ≤ t) (hn : t ≤ servers.length) (seed : Nat → Nat)
    (hseed : ∀ d, 1 ≤ d → 1 ≤ seed d) (u : User F G1 G2) (hw : u.witness ≠ none)
    (he : u.epoch = 0) (rand : Nat → Nat → F) :
    u.update seed servers t rand = .error .index := by
  have hlen := accs_length_run params α sM v ops srv h
  obtain ⟨w, hw⟩ := Option.ne_none_iff_exists'.1 hw
  obtain ⟨s0, rest, rfl⟩ : ∃ s0 rest, servers = s0 :: rest := by
    cases servers with
    | nil => simp at hn; omega
    | cons a b => exact ⟨a, b, rfl⟩
  obtain ⟨h01, h02⟩ := hs s0 (by simp)
  have hep : s0.getEpoch = srv.accumulators.length := by rw [Server.getEpoch, h01]
  obtain ⟨k, upd, hk, hk3, hprep, hed, hyv, hyl, _, hys, _⟩ := prepareForUpdate_ok seed hseed u s0.getEpoch
    (s0 :: rest).length t ht hn (by omega) rand
  rw [hep, he] at hed
  unfold User.update
  rw [hw]
  simp only [bind, Except.bind]
  rw [idx_lt (show 0 < (s0 :: rest).length by simp)]
  simp only [List.getElem_cons_zero, hprep, hys, hed]
  have hans : (List.range (s0 :: rest).length).mapM (fun i => do
        let sv ← idx (s0 :: rest) i
        let ys ← idx ((List.range (s0 :: rest).length).map
          (fun i => shVec t (k - 1) u.id rand ((i + 1 : Nat) : F))) i
        sv.update (srv.accumulators.length - 0) ys)
      = .ok ((List.range (s0 :: rest).length).map (fun _ => (([] : List F), ([] : List G1)))) := by
    apply mapM_ok
    intro i hi
    rw [List.mem_range] at hi
    rw [idx_lt hi, idx_lt (by simpa using hi)]
    simp only [bind, Except.bind]
    obtain ⟨h1, h2⟩ := hs _ (List.getElem_mem hi)
    unfold Server.update Server.updateFuel
    rw [if_pos (by rw [h2]; omega)]
    rfl
  simp only [bind, Except.bind] at hans
  rw [hans]
  simp only
  unfold User.postUpdate
  have hcol := collect_eq upd.yValues
    ((List.range (s0 :: rest).length).map (fun _ => (([] : List F), ([] : List G1)))) (by rw [hyv]; simp)
  have hf1 : firstLen (((List.range (s0 :: rest).length).map
      (fun _ => (([] : List F), ([] : List G1)))).map (·.1)) = 0 := by
    rw [firstLen_zero]; intro a ha; simp at ha; exact ha
  have hf2 : firstLen (((List.range (s0 :: rest).length).map
      (fun _ => (([] : List F), ([] : List G1)))).map (·.2)) = 0 := by
    rw [firstLen_zero]; intro a ha; simp at ha; exact ha
  rw [List.length_map, List.length_range, hf1, hf2, if_pos] at hcol
  · rw [List.length_map, List.length_range, hcol]
    simp [bind, Except.bind, idx]
  · constructor <;> intro p hp <;> obtain ⟨i, _, rfl⟩ := List.mem_map.1 hp <;> simp

/-! ## C27: a second update -/

theorem run_extends (ops : List (Server.Op F)) (s s' : Server F G1 G2) (h : s.run ops = .ok s') :
    s.accumulators <+: s'.accumulators ∧ s.deletions <+: s'.deletions ∧ s'.publicKeys = s.publicKeys := by
  refine Server.run_inv (fun s' => s.accumulators <+: s'.accumulators ∧ s.deletions <+: s'.deletions ∧
    s'.publicKeys = s.publicKeys) (fun _ => True) ?_ ops (fun _ _ => trivial) h
    ⟨List.prefix_refl _, List.prefix_refl _, rfl⟩
  intro a op b r _ hI hst
  rcases Server.step_cases hst with ⟨rfl, -, -⟩ | ⟨y, V, rfl, hy, hV, h0, -, rfl⟩ |
    ⟨y, C, rfl, hC, -, rfl⟩ | ⟨y, V, rfl, hy, hV, h0, -, rfl⟩
  · exact hI
  · exact hI
  · exact ⟨hI.1.trans (List.prefix_append _ _), hI.2.1.trans (List.prefix_append _ _), hI.2.2⟩
  · exact ⟨hI.1.trans (List.prefix_append _ _), hI.2.1.trans (List.prefix_append _ _), hI.2.2⟩

/-- a prefix of a well-formed history is well-formed -/
theorem split_prefix {T : Type} (pre post a b : List T) (h : pre ++ post = a ++ b) :
    ∃ a' b', pre = a' ++ b' ∧ a' <+: a ∧ b' <+: b := by
  rcases List.append_eq_append_iff.1 h with ⟨c, h1, h2⟩ | ⟨c, h1, h2⟩
  · exact ⟨pre, [], by simp, ⟨c, h1.symm⟩, List.nil_prefix⟩
  · exact ⟨a, c, h1, List.prefix_refl _, ⟨post, h2.symm⟩⟩

theorem acc_eq_iff (params : AccParams G1 G2) (α sM v : F) (ops₁ ops₂ : List (Server.Op F))
    (h₁ : ∀ op ∈ ops₁, op.isQuick = false) (h₂ : ∀ op ∈ ops₂, op.isDelete = false)
    (srv : Server F G1 G2) (h : (Server.new params α sM v).run (ops₁ ++ ops₂) = .ok srv)
    (i j : Nat) (hij : i ≤ j) (Vi Vj : G1) (hi : srv.accumulators[i]? = some Vi)
    (hj : srv.accumulators[j]? = some Vj) :
    Vi = Vj ↔ (((srv.deletions.take j).drop i).map (fun d => d + α)).prod = 1 ∨ v • params.p1 = 0 := by
  have hI := invA_run params α sM v ops₁ ops₂ h₁ h₂ srv h
  have hjl : j ≤ srv.deletions.length := by
    have := hI.length
    obtain ⟨hj', -⟩ := List.getElem?_eq_some_iff.1 hj
    omega
  rw [hI.get i (by omega)] at hi
  rw [hI.get j hjl] at hj
  have hi := Option.some.inj hi
  have hj := Option.some.inj hj
  have hsplit : srv.deletions.take j = srv.deletions.take i ++ (srv.deletions.take j).drop i := by
    conv_lhs => rw [← List.take_append_drop i (srv.deletions.take j), List.take_take,
      Nat.min_eq_left hij]
  have hn1 : prodPlus α (srv.deletions.take i) ≠ 0 := by
    rw [Ne, prodPlus_eq_zero]
    exact fun hm => hI.noneg (List.mem_of_mem_take hm)
  rw [← hj, show accAfter α (v • params.p1) (srv.deletions.take j) = _ from
    congrArg (accAfter α (v • params.p1)) hsplit, Server.accAfter_append, hi]
  change Vi = (prodPlus α _)⁻¹ • Vi ↔ prodPlus α _ = 1 ∨ _
  have hVi : Vi = 0 ↔ v • params.p1 = 0 := by
    rw [← hi, accAfter, smul_eq_zero]
    simp [hn1]
  rw [← hVi, eq_comm, ← sub_eq_zero]
  have : (prodPlus α ((srv.deletions.take j).drop i))⁻¹ • Vi - Vi
    = ((prodPlus α ((srv.deletions.take j).drop i))⁻¹ - 1) • Vi := by module
  rw [this, smul_eq_zero, sub_eq_zero, inv_eq_one]

/-- C27: the whole history is `pre ++ post`. A user updates after `pre` and again after `post` (which may be
empty). The first update succeeds and its witness checks. The second one also returns `Ok`, but the
resulting witness checks against the current accumulator exactly when the product of `(d + α)` over the
deletions handled by the first update is 1 or the accumulators are the identity; and the recorded epoch
is still the one before the first update. -/
theorem C27_second_update (E : Pairing F G1 G2 GT) (params : AccParams G1 G2) (hP : params.p2 ≠ 0)
    (hK : params.k2 ≠ 0) (α sM v : F) (pre post ops₁ ops₂ : List (Server.Op F))
    (hsplit : pre ++ post = ops₁ ++ ops₂)
    (h₁ : ∀ op ∈ ops₁, op.isQuick = false) (h₂ : ∀ op ∈ ops₂, op.isDelete = false)
    (srv srv' : Server F G1 G2) (h : (Server.new params α sM v).run pre = .ok srv)
    (h' : srv.run post = .ok srv')
    (servers servers' : List (Server F G1 G2))
    (hs : ∀ s' ∈ servers, s'.accumulators = srv.accumulators ∧ s'.deletions = srv.deletions)
    (hs' : ∀ s' ∈ servers', s'.accumulators = srv'.accumulators ∧ s'.deletions = srv'.deletions)
    (t t' : Nat) (ht : 2 ≤ t) (hn : t ≤ servers.length) (ht' : 2 ≤ t') (hn' : t' ≤ servers'.length)
    (hc : ∀ i, 0 < i → i ≤ max servers.length servers'.length → (i : F) ≠ 0)
    (seed : Nat → Nat) (hseed : ∀ d, 1 ≤ d → 1 ≤ seed d) (u : User F G1 G2)
    (hu : u.publicKeys = srv.getPublicKeys) (he1 : 1 ≤ u.epoch) (he2 : u.epoch < srv.getEpoch)
    (Ve : G1) (hVe : srv.accumulators[u.epoch - 1]? = some Ve)
    (hw : u.checkWitness E params Ve = .ok ())
    (hid : u.id ∉ srv'.deletions.drop (u.epoch - 1)) (rand rand' : Nat → Nat → F) :
    ∃ u₁ u₂ V V', srv.getAccumulator = .ok V ∧ srv'.getAccumulator = .ok V' ∧
      u.update seed servers t rand = .ok (u₁, .ok ()) ∧ u₁.checkWitness E params V = .ok () ∧
      u₁.epoch = u.epoch ∧
      u₁.update seed servers' t' rand' = .ok (u₂, .ok ()) ∧ u₂.epoch = u.epoch ∧
      (u₂.checkWitness E params V' = .ok () ↔
        ((srv.deletions.drop (u.epoch - 1)).map (fun d => d + α)).prod = 1 ∨ v • params.p1 = 0) := by
  obtain ⟨a, b, rfl, ⟨ca, ha⟩, ⟨cb, hb⟩⟩ := split_prefix pre post ops₁ ops₂ hsplit
  have hqa : ∀ op ∈ a, op.isQuick = false := fun op ho => h₁ op (by rw [← ha]; simp [ho])
  have hqb : ∀ op ∈ b, op.isDelete = false := fun op ho => h₂ op (by rw [← hb]; simp [ho])
  obtain ⟨hp1, hp2, hp3⟩ := run_extends post srv srv' h'
  have hfull : (Server.new params α sM v).run (ops₁ ++ ops₂) = .ok srv' := by
    rw [← hsplit]; exact Server.run_append.2 ⟨srv, h, h'⟩
  have hI := invA_run params α sM v a b hqa hqb srv h
  have hI' := invA_run params α sM v ops₁ ops₂ h₁ h₂ srv' hfull
  have hlen := hI.length
  have hlen' := hI'.length
  have hle := hp2.length_le
  have hid1 : u.id ∉ srv.deletions.drop (u.epoch - 1) := by
    intro hm
    apply hid
    obtain ⟨c, hc⟩ := hp2
    rw [← hc, List.drop_append_of_le_length (by rw [Server.getEpoch] at he2; omega)]
    exact List.mem_append_left _ hm
  obtain ⟨u₁, V, w, w', a1, a2, a3, a4, a5, a6, a7, a8, a9, a10, a11⟩ :=
    update_general E params hP hK α sM v a b hqa hqb srv h servers hs t ht hn
      (fun i h0 hi => hc i h0 (le_trans hi (le_max_left _ _))) seed hseed u hu he1
      he2 Ve Ve hVe hw hid1 rand
  have hck := a11.2 rfl
  have hVe' : srv'.accumulators[u₁.epoch - 1]? = some Ve := by
    rw [a9]
    obtain ⟨c, hc⟩ := hp1
    rw [Server.getEpoch] at he2
    rw [← hc, List.getElem?_append_left (by omega)]; exact hVe
  obtain ⟨u₂, V', x, x', b1, b2, b3, b4, b5, b6, b7, b8, b9, b10, b11⟩ :=
    update_general E params hP hK α sM v ops₁ ops₂ h₁ h₂ srv' hfull servers' hs' t' ht' hn'
      (fun i h0 hi => hc i h0 (le_trans hi (le_max_right _ _))) seed hseed u₁
      (by rw [a8, hu, Server.getPublicKeys, Server.getPublicKeys, hp3]) (by rw [a9]; exact he1)
      (by rw [a9]; rw [Server.getEpoch] at he2 ⊢; have := hp1.length_le; omega) Ve V hVe' hck
      (by rw [a7, a9]; exact hid) rand'
  refine ⟨u₁, u₂, V, V', a1, b1, a2, hck, a9, b2, by rw [b9, a9], ?_⟩
  rw [b11, eq_comm]
  have hV : srv.accumulators[srv.deletions.length]? = some V := by
    rw [hI.get _ le_rfl, List.take_length]
    rw [Server.getAccumulator, hI.last] at a1
    simpa [unwrap] using a1
  have := acc_eq_iff params α sM v a b hqa hqb srv h (u.epoch - 1) srv.deletions.length
    (by rw [Server.getEpoch] at he2; omega) Ve V hVe hV
  rwa [List.take_length] at this

/-- C27, the repair a caller can make by hand (`epoch` is a public field): after setting the epoch to the
servers' epoch of the first update, a later update works, whenever there was a deletion in between. -/
theorem C27_with_epoch_set (E : Pairing F G1 G2 GT) (params : AccParams G1 G2) (hP : params.p2 ≠ 0)
    (hK : params.k2 ≠ 0) (α sM v : F) (pre post ops₁ ops₂ : List (Server.Op F))
    (hsplit : pre ++ post = ops₁ ++ ops₂)
    (h₁ : ∀ op ∈ ops₁, op.isQuick = false) (h₂ : ∀ op ∈ ops₂, op.isDelete = false)
    (srv srv' : Server F G1 G2) (h : (Server.new params α sM v).run pre = .ok srv)
    (h' : srv.run post = .ok srv') (hnew : srv.getEpoch < srv'.getEpoch)
    (servers servers' : List (Server F G1 G2))
    (hs : ∀ s' ∈ servers, s'.accumulators = srv.accumulators ∧ s'.deletions = srv.deletions)
    (hs' : ∀ s' ∈ servers', s'.accumulators = srv'.accumulators ∧ s'.deletions = srv'.deletions)
    (t t' : Nat) (ht : 2 ≤ t) (hn : t ≤ servers.length) (ht' : 2 ≤ t') (hn' : t' ≤ servers'.length)
    (hc : ∀ i, 0 < i → i ≤ max servers.length servers'.length → (i : F) ≠ 0)
    (seed : Nat → Nat) (hseed : ∀ d, 1 ≤ d → 1 ≤ seed d) (u : User F G1 G2)
    (hu : u.publicKeys = srv.getPublicKeys) (he1 : 1 ≤ u.epoch) (he2 : u.epoch < srv.getEpoch)
    (Ve : G1) (hVe : srv.accumulators[u.epoch - 1]? = some Ve)
    (hw : u.checkWitness E params Ve = .ok ())
    (hid : u.id ∉ srv'.deletions.drop (u.epoch - 1)) (rand rand' : Nat → Nat → F) :
    ∃ u₁ u₂ V', srv'.getAccumulator = .ok V' ∧
      u.update seed servers t rand = .ok (u₁, .ok ()) ∧
      ({ u₁ with epoch := srv.getEpoch } : User F G1 G2).update seed servers' t' rand' = .ok (u₂, .ok ()) ∧
      u₂.checkWitness E params V' = .ok () := by
  obtain ⟨a, b, rfl, ⟨ca, ha⟩, ⟨cb, hb⟩⟩ := split_prefix pre post ops₁ ops₂ hsplit
  have hqa : ∀ op ∈ a, op.isQuick = false := fun op ho => h₁ op (by rw [← ha]; simp [ho])
  have hqb : ∀ op ∈ b, op.isDelete = false := fun op ho => h₂ op (by rw [← hb]; simp [ho])
  obtain ⟨hp1, hp2, hp3⟩ := run_extends post srv srv' h'
  have hfull : (Server.new params α sM v).run (ops₁ ++ ops₂) = .ok srv' := by
    rw [← hsplit]; exact Server.run_append.2 ⟨srv, h, h'⟩
  have hI := invA_run params α sM v a b hqa hqb srv h
  have hlen := hI.length
  rw [Server.getEpoch] at he2
  have hid1 : u.id ∉ srv.deletions.drop (u.epoch - 1) := by
    intro hm
    apply hid
    obtain ⟨c, hc⟩ := hp2
    rw [← hc, List.drop_append_of_le_length (by omega)]
    exact List.mem_append_left _ hm
  obtain ⟨u₁, V, a1, a2, a3, a4, a5, a6⟩ :=
    C25_update E params hP hK α sM v a b hqa hqb srv h servers hs t ht hn
      (fun i h0 hi => hc i h0 (le_trans hi (le_max_left _ _))) seed hseed u hu he1
      he2 Ve hVe hw hid1 rand
  have hV : srv'.accumulators[srv.getEpoch - 1]? = some V := by
    obtain ⟨c, hc⟩ := hp1
    rw [Server.getEpoch, ← hc, List.getElem?_append_left (by omega),
      show srv.accumulators.length - 1 = srv.deletions.length by omega, hI.get _ le_rfl, List.take_length]
    rw [Server.getAccumulator, hI.last] at a1
    simpa [unwrap] using a1
  obtain ⟨u₂, V', b1, b2, b3, -⟩ :=
    C25_update E params hP hK α sM v ops₁ ops₂ h₁ h₂ srv' hfull servers' hs' t' ht' hn'
      (fun i h0 hi => hc i h0 (le_trans hi (le_max_right _ _))) seed hseed
      { u₁ with epoch := srv.getEpoch }
      (by simp only; rw [a6, hu, Server.getPublicKeys, Server.getPublicKeys, hp3])
      (by simp only; rw [Server.getEpoch]; omega) hnew V hV a3
      (by
        simp only
        rw [a5]
        intro hm
        apply hid
        have : u.epoch - 1 + (srv.getEpoch - u.epoch) = srv.getEpoch - 1 := by
          rw [Server.getEpoch]; omega
        rw [← this, ← List.drop_drop] at hm
        exact List.mem_of_mem_drop hm) rand'
  exact ⟨u₁, u₂, V', b1, a2, b2, b3⟩

/-! ### a concrete history and user meeting the hypotheses -/

/-- four enrolments, one deletion (`pre`), two more deletions (`post`) -/
def exPre : List (Server.Op ℚ) := [.add 1, .add 2, .add 3, .add 5, .delete 2]
def exPost : List (Server.Op ℚ) := [.delete 1, .add 8, .delete 5]

/-- user 3 with its witness from before the deletions -/
def exUser : User ℚ ℚ ℚ :=
  ⟨3, some { signature := (10 * exParams.k1 + exParams.k0) / 12, witness := 6 / 7, secretKey := 10 }, 6,
    ⟨4, 9 * exParams.k2⟩, 1⟩

theorem exUpdateRun : ∃ srv srv', (Server.new exParams 4 9 6).run exPre = .ok srv ∧
    srv.run exPost = .ok srv' ∧ srv.accumulators = [6, 1] ∧ srv.deletions = [2] ∧
    srv'.deletions = [2, 1, 5] ∧ srv'.accumulators.length = 4 := by
  have h : (match (Server.new exParams 4 9 6).run exPre with
      | .ok s => (match s.run exPost with
        | .ok s' => decide (s.accumulators = [6, 1] ∧ s.deletions = [2] ∧ s'.deletions = [2, 1, 5] ∧
            s'.accumulators.length = 4)
        | .error _ => false)
      | .error _ => false) = true := by decide +kernel
  split at h
  · next s hs =>
    split at h
    · next s' hs' => exact ⟨s, s', hs, hs', of_decide_eq_true h⟩
    · simp at h
  · simp at h

theorem exUser_ok : exUser.checkWitness (Pairing.field ℚ) exParams 6 = .ok () := by
  rw [(C23_check_witness (Pairing.field ℚ) exParams (by norm_num [exParams]) (by norm_num [exParams]) 4 9
    exUser (by norm_num [exUser, exParams]) 6).1]
  exact ⟨_, rfl, by norm_num [IsWitness, exUser], by norm_num [exUser, exParams]⟩

/-- C25 and C27 on it: the first update with 3 servers and threshold 2 gives a valid witness; the
second one returns `Ok` with an invalid witness. -/
example (rand rand' : Nat → Nat → ℚ) (seed : Nat → Nat) (hseed : ∀ d, 1 ≤ d → 1 ≤ seed d) :
    ∃ srv srv' u₁ u₂ V V', (Server.new exParams 4 9 6).run exPre = .ok srv ∧
      srv.run exPost = .ok srv' ∧ srv.getAccumulator = .ok V ∧ srv'.getAccumulator = .ok V' ∧
      exUser.update seed [srv, srv, srv] 2 rand = .ok (u₁, .ok ()) ∧
      u₁.checkWitness (Pairing.field ℚ) exParams V = .ok () ∧
      u₁.update seed [srv', srv', srv'] 2 rand' = .ok (u₂, .ok ()) ∧
      u₂.checkWitness (Pairing.field ℚ) exParams V' ≠ .ok () := by
  obtain ⟨srv, srv', h1, h2, h3, h4, h5, h6⟩ := exUpdateRun
  have hkeys := (keys_run h1).1
  obtain ⟨u₁, u₂, V, V', a1, a2, a3, a4, a5, a6, a7, a8⟩ := C27_second_update (Pairing.field ℚ) exParams
    (by norm_num [exParams]) (by norm_num [exParams]) 4 9 6 exPre exPost (exPre ++ exPost) [] (by simp)
    (by decide) (by simp) srv srv' h1 h2 [srv, srv, srv] [srv', srv', srv'] (by simp) (by simp) 2 2
    (by norm_num) (by simp) (by norm_num) (by simp)
    (fun i h0 _ => by exact_mod_cast (Nat.pos_iff_ne_zero.1 h0)) seed hseed exUser
    (by rw [Server.getPublicKeys, hkeys]; norm_num [exUser, exParams]) (by norm_num [exUser])
    (by simp [Server.getEpoch, h3, exUser]) 6 (by simp [h3, exUser]) exUser_ok
    (by simp [h5, exUser]) rand rand'
  refine ⟨srv, srv', u₁, u₂, V, V', h1, h2, a1, a2, a3, a4, a6, ?_⟩
  rw [Ne, a8]
  simp [h4, exUser, exParams]
  norm_num

/-- C26: user 2 was deleted -/
example : ∃ srv, (Server.new exParams 4 9 6).run exPre = .ok srv ∧
    (2 : ℚ) ∈ srv.deletions.drop (1 - 1) := by
  obtain ⟨srv, _, h1, _, _, h4, _⟩ := exUpdateRun
  exact ⟨srv, h1, by simp [h4]⟩

end
end Allo
