import Verif.Props.Recovery
import Verif.Props.Replicas

/-!
# C103: deletions between the two messages of an update

`prepare_for_update` fixes the number of epochs to ask for; `Server::update(num_epochs, ..)` answers for the
last `num_epochs` deletions at the moment of the answer. Here the servers may have gone on in between.
-/

set_option linter.unusedSectionVars false
set_option linter.unusedVariables false
namespace Allo
open Spec Finset User Server

section
variable {F G1 G2 GT : Type} [Field F] [DecidableEq F] [AddCommGroup G1] [Module F G1]
  [DecidableEq G1] [AddCommGroup G2] [Module F G2] [AddCommGroup GT] [Module F GT] [DecidableEq GT]

/-- `ans` are the answers of `servers`, one each, to `Server::update(m, shares)` with the shares of `upd`. -/
def AnsweredBy (servers : List (Server F G1 G2)) (m : Nat) (upd : UserUpdate F)
    (ans : List (List F × List G1)) : Prop :=
  ans.length = servers.length ∧ ∀ (i : Nat) (s' : Server F G1 G2), servers[i]? = some s' → ∃ ys a, upd.yShares[i]? = some ys ∧
    ans[i]? = some a ∧ s'.update m ys = .ok a

/-- The witness that following the last `m` entries of a server's log, `C ← (C - V')/(y' - y)` for each
deletion `y'` with the accumulator `V'` after it, makes of `C`. -/
def followLast (y : F) (s : Server F G1 G2) (m : Nat) (C : G1) : G1 :=
  ((s.deletions.drop (s.deletions.length - m)).zip
    (s.accumulators.drop (s.accumulators.length - m))).foldl (fun C p => (p.1 - y)⁻¹ • (C - p.2)) C

theorem followLast_published (y : F) (s : Server F G1 G2) (m : Nat)
    (hlen : s.accumulators.length = s.deletions.length + 1) (hm : m ≤ s.deletions.length) (C : G1) :
    followLast y s m C = followLog y (s.published m) C := by
  have hpub : s.published m = (s.deletions.drop (s.deletions.length - m)).zip
        (s.accumulators.drop (s.accumulators.length - m)) := by
    unfold Server.published
    rw [List.zip_eq_zipWith, List.zip_eq_zipWith, List.drop_zipWith, List.drop_drop]
    congr 2; omega
  rw [hpub]
  rfl

/-- the answers in closed form -/
theorem answered_closed (seed : Nat → Nat) (hseed : ∀ d, 1 ≤ d → 1 ≤ seed d) (u : User F G1 G2)
    (e : Nat) (he : u.epoch < e) (s : Server F G1 G2)
    (hlen : s.accumulators.length = s.deletions.length + 1) (servers : List (Server F G1 G2))
    (hs : Synced servers s) (t : Nat) (ht : 2 ≤ t) (hn : t ≤ servers.length) (rand : Nat → Nat → F)
    (upd : UserUpdate F) (hp : u.prepareForUpdate seed e servers.length t rand = .ok (.ok upd)) (m : Nat)
    (hm1 : 1 ≤ m) (hm : m ≤ s.deletions.length) :
    ∃ k, 2 ≤ k ∧ upd.yShares.length = servers.length ∧ upd.yValues = (List.range servers.length).map (xOf F) ∧
      chunkSize (e - u.epoch) (seed (e - u.epoch)) = .ok (k + 1) ∧
      (∀ i < servers.length, upd.yShares[i]? = some (shVec t k u.id rand (xOf F i))) ∧
      ∀ ans, AnsweredBy servers m upd ans ↔ ans = answers servers.length (nChunks k m) (fun _ => true)
        (fun i j => dAns (shVec t k u.id rand (xOf F i)) (chunkAt k (s.published m) j))
        (fun i j => vAnsP (shVec t k u.id rand (xOf F i)) (chunkAt k (s.published m) j)) := by
  obtain ⟨k', upd', hk', hk3, hprep, hed, hyv, hyl, _, hys, _⟩ := prepareForUpdate_ok seed hseed u e
    servers.length t ht hn he rand
  rw [hp] at hprep
  injection hprep with hprep
  injection hprep with hprep
  subst hprep
  set k := k' - 1 with hk
  have hget : ∀ i < servers.length, upd.yShares[i]? = some (shVec t k u.id rand (xOf F i)) := by
    intro i hi
    rw [hys, List.getElem?_map, List.getElem?_range hi]; rfl
  refine ⟨k, by omega, hyl, hyv, by rw [hk', show k + 1 = k' by omega], hget, fun ans => ?_⟩
  have hupd : ∀ (i : Nat) (s' : Server F G1 G2), servers[i]? = some s' → s'.update m (shVec t k u.id rand (xOf F i)) =
        .ok ((List.range (nChunks k m)).map (fun j =>
            dAns (shVec t k u.id rand (xOf F i)) (chunkAt k (s.published m) j)),
          (List.range (nChunks k m)).map (fun j =>
            vAnsP (shVec t k u.id rand (xOf F i)) (chunkAt k (s.published m) j))) := by
    intro i s' hs'
    obtain ⟨h1, h2⟩ := hs _ (List.mem_of_getElem? hs')
    have hpub : s'.published m = s.published m := by unfold Server.published; rw [h1, h2]
    have := update_published s' (by rw [h1, h2]; exact hlen) m (by rw [h2]; exact hm)
      (shVec t k u.id rand (xOf F i))
      (by intro e; have := congrArg List.length e; simp at this; omega)
      (s'.deletions.length + 1) (by rw [h2]; omega)
    unfold Server.update
    rw [this, shVec_length, hpub]
  constructor
  · rintro ⟨hl, h⟩
    apply List.ext_getElem
    · simp [answers, hl]
    · intro i h1 h2
      have hi : i < servers.length := by omega
      obtain ⟨ys, a, e1, e2, e3⟩ := h i servers[i] (List.getElem?_eq_getElem hi)
      rw [hget i hi] at e1
      cases e1
      rw [hupd i _ (List.getElem?_eq_getElem hi)] at e3
      injection e3 with e3
      rw [List.getElem?_eq_getElem h1] at e2
      injection e2 with e2
      rw [e2, ← e3]
      simp [answers]
  · rintro rfl
    refine ⟨by simp [answers], fun i s' hi => ?_⟩
    have hlt := (List.getElem?_eq_some_iff.1 hi).1
    exact ⟨_, _, hget i hlt, by simp [answers, hlt], hupd i s' hi⟩

/-- **C103**. Shares prepared for any epoch `e`, and answers of `n ≥ t ≥ 2` servers that show one log of any length
to a request for any number `m` of epochs from 1 to that length: the answers exist, and `post_update` returns
"user has been deleted" if the user's id is among the last `m` deletions at the time of the answers, and
otherwise `Ok` with the witness that follows these last `m` deletions — never `"malicious server"`. -/
theorem C103_result (seed : Nat → Nat) (hseed : ∀ d, 1 ≤ d → 1 ≤ seed d) (u : User F G1 G2)
    (e : Nat) (he : u.epoch < e) (s : Server F G1 G2)
    (hlen : s.accumulators.length = s.deletions.length + 1) (servers : List (Server F G1 G2))
    (hs : ∀ s' ∈ servers, s'.accumulators = s.accumulators ∧ s'.deletions = s.deletions)
    (t : Nat) (ht : 2 ≤ t) (hn : t ≤ servers.length)
    (hc : ∀ i : Nat, 0 < i → i ≤ servers.length → (i : F) ≠ 0) (rand : Nat → Nat → F) (upd : UserUpdate F)
    (hp : u.prepareForUpdate seed e servers.length t rand = .ok (.ok upd)) (m : Nat)
    (hm1 : 1 ≤ m) (hm : m ≤ s.deletions.length) (w : G1) :
    (∃ ans, AnsweredBy servers m upd ans) ∧ ∀ ans, AnsweredBy servers m upd ans →
      postUpdate w t upd.yShares upd.yValues ans
        = .ok (if u.id ∈ s.deletions.drop (s.deletions.length - m) then .error "user has been deleted"
          else .ok (followLast u.id s m w)) := by
  obtain ⟨k, hk, hyl, hyv, -, -, hh⟩ := answered_closed seed hseed u e he s hlen servers hs t ht hn rand upd hp m hm1 hm
  refine ⟨⟨_, (hh _).2 rfl⟩, fun ans ha => ?_⟩
  rw [(hh ans).1 ha, hyv,
    postUpdate_honest w t servers.length _ (by omega) (nChunks_pos _ _ (by omega) hm1) hc (fun _ => true) _ _
      (fun j => dAns_polyFn t k (by omega) u.id rand _) (fun j => vAnsP_polyFn t k (by omega) u.id rand _)
      (by rw [List.filter_true, List.length_range]; exact hn) (Or.inl rfl) upd.yShares hyl,
    loop_closed s hlen m hm t k (by omega), followLast_published _ _ _ hlen hm]

/-- **C103**. When the id is not among the last `m` deletions: the new witness passes `check_witness` for the
servers' accumulator exactly if the old one passed for the accumulator `m` deletions before. Only the number of
epochs asked for matters, not the epoch the shares were prepared for. -/
theorem C103_valid_iff (E : Pairing F G1 G2 GT) (params : AccParams G1 G2) (hP : params.p2 ≠ 0)
    (hK : params.k2 ≠ 0) (α sM v : F) (ops : List (Op F)) (hun : Unmixed ops) (s : Server F G1 G2)
    (h : (Server.new params α sM v).run ops = .ok s) (servers : List (Server F G1 G2))
    (hs : ∀ s' ∈ servers, s'.accumulators = s.accumulators ∧ s'.deletions = s.deletions)
    (seed : Nat → Nat) (hseed : ∀ d, 1 ≤ d → 1 ≤ seed d) (u : User F G1 G2)
    (hu : u.publicKeys = s.getPublicKeys) (e : Nat) (he : u.epoch < e)
    (t : Nat) (ht : 2 ≤ t) (hn : t ≤ servers.length)
    (hc : ∀ i : Nat, 0 < i → i ≤ servers.length → (i : F) ≠ 0) (rand : Nat → Nat → F) (upd : UserUpdate F)
    (hp : u.prepareForUpdate seed e servers.length t rand = .ok (.ok upd)) (m : Nat)
    (hm1 : 1 ≤ m) (hm : m ≤ s.deletions.length) (w : Witness F G1) (hw : u.witness = some w)
    (hid : u.id ∉ s.deletions.drop (s.deletions.length - m)) (Vm : G1)
    (hVm : s.accumulators[s.deletions.length - m]? = some Vm) (ans : List (List F × List G1))
    (ha : AnsweredBy servers m upd ans) :
    ∃ W V, postUpdate w.witness t upd.yShares upd.yValues ans = .ok (.ok W) ∧ s.getAccumulator = .ok V ∧
      (({ u with witness := some { w with witness := W } } : User F G1 G2).checkWitness E params V = .ok ()
        ↔ u.checkWitness E params Vm = .ok ()) := by
  obtain ⟨o1, o2, rfl, a1, a2⟩ := hun
  have hI := invA_run params α sM v o1 o2 a1 a2 s h
  have hlen := hI.length
  have hk := (keys_run h).1
  rw [Server.getPublicKeys, hk] at hu
  have hres := (C103_result seed hseed u e he s hlen servers hs t ht hn hc rand upd hp m hm1 hm w.witness).2 ans ha
  rw [if_neg hid] at hres
  refine ⟨_, accAfter α (v • params.p1) s.deletions, hres, by rw [Server.getAccumulator, hI.last]; rfl, ?_⟩
  rw [followLast_published _ _ _ hlen hm]
  rw [(C23_check_witness E params hP hK α sM u hu Vm).1,
    (C23_check_witness E params hP hK α sM _ (by exact hu) _).1]
  have hi : s.deletions.length - m ≤ s.deletions.length := by omega
  rw [hI.get _ hi] at hVm
  have hVm := Option.some.inj hVm
  have hch := chain_published hI (s.deletions.length - m) hi
  rw [hVm, show s.deletions.length - (s.deletions.length - m) = m by omega] at hch
  have hfst := published_fst s hlen m
  have haff := followLog_affine α u.id _ _ _ w.witness hch (by rw [hfst]; exact hid)
  have hne : (prodMinus u.id ((s.published m).map (·.1)))⁻¹ ≠ 0 := by
    rw [hfst]
    exact inv_ne_zero (fun e => hid (prodMinus_eq_zero.1 e))
  rw [hw]
  constructor
  · rintro ⟨w', e, h1, h2⟩
    injection e with e
    subst e
    refine ⟨w, rfl, ?_, h2⟩
    unfold IsWitness at h1 ⊢
    simp only at h1
    rw [haff] at h1
    have := add_eq_left.1 h1
    rw [smul_eq_zero] at this
    exact sub_eq_zero.1 (this.resolve_left hne)
  · rintro ⟨w', e, h1, h2⟩
    injection e with e
    subst e
    refine ⟨_, rfl, ?_, h2⟩
    unfold IsWitness at h1 ⊢
    simp only
    rw [haff, h1, sub_self, smul_zero, add_zero]

/-- **C103** (the race). The user prepares its request when the servers are at `s₁`; they go on to `s₂` before they
answer. The request is for `epoch(s₁) - epoch` deletions, so the answers skip the first `j` deletions after the
user's epoch, `j` being the number of deletions in between. For a user valid at its epoch and not among the last
ones, `post_update` returns `Ok` — also if the user is among the skipped ones — and what it returns is valid for
the accumulator of `s₂` exactly if the product of `d + α` over the skipped deletions is 1 or the accumulators are
the identity: that is, without in-between deletions, and otherwise by coincidence only. -/
theorem C103_race (E : Pairing F G1 G2 GT) (params : AccParams G1 G2) (hP : params.p2 ≠ 0)
    (hK : params.k2 ≠ 0) (α sM v : F) (pre post : List (Op F)) (hun : Unmixed (pre ++ post))
    (s₁ s₂ : Server F G1 G2) (h₁ : (Server.new params α sM v).run pre = .ok s₁) (h₂ : s₁.run post = .ok s₂)
    (servers : List (Server F G1 G2))
    (hs : ∀ s' ∈ servers, s'.accumulators = s₂.accumulators ∧ s'.deletions = s₂.deletions)
    (seed : Nat → Nat) (hseed : ∀ d, 1 ≤ d → 1 ≤ seed d) (u : User F G1 G2)
    (hu : u.publicKeys = s₁.getPublicKeys) (he1 : 1 ≤ u.epoch) (he : u.epoch < s₁.getEpoch) (Ve : G1)
    (hVe : s₁.accumulators[u.epoch - 1]? = some Ve) (hw : u.checkWitness E params Ve = .ok ())
    (t : Nat) (ht : 2 ≤ t) (hn : t ≤ servers.length)
    (hc : ∀ i : Nat, 0 < i → i ≤ servers.length → (i : F) ≠ 0) (rand : Nat → Nat → F) (upd : UserUpdate F)
    (hp : u.prepareForUpdate seed s₁.getEpoch servers.length t rand = .ok (.ok upd))
    (hid : u.id ∉ s₂.deletions.drop (u.epoch - 1 + (s₂.getEpoch - s₁.getEpoch)))
    (w : Witness F G1) (hww : u.witness = some w) (ans : List (List F × List G1))
    (ha : AnsweredBy servers upd.epochDiff upd ans) :
    ∃ W V, postUpdate w.witness t upd.yShares upd.yValues ans = .ok (.ok W) ∧ s₂.getAccumulator = .ok V ∧
      (({ u with witness := some { w with witness := W } } : User F G1 G2).checkWitness E params V = .ok ()
        ↔ (((s₂.deletions.drop (u.epoch - 1)).take (s₂.getEpoch - s₁.getEpoch)).map (fun d => d + α)).prod = 1
          ∨ v • params.p1 = 0) := by
  have hfull : (Server.new params α sM v).run (pre ++ post) = .ok s₂ := run_append.2 ⟨s₁, h₁, h₂⟩
  obtain ⟨hpa, hpd, hpk⟩ := run_extends post s₁ s₂ h₂
  have hl₁ := accs_length_run params α sM v _ s₁ h₁
  have hl₂ := accs_length_run params α sM v _ s₂ hfull
  have hle := hpd.length_le
  obtain ⟨k', upd', -, -, hprep, hed, -⟩ := prepareForUpdate_ok seed hseed u s₁.getEpoch
    servers.length t ht hn he rand
  rw [hp] at hprep
  injection hprep with hprep
  injection hprep with hprep
  subst hprep
  rw [Server.getEpoch] at he
  have hm : upd.epochDiff = s₁.accumulators.length - u.epoch := hed
  have hidx : s₂.deletions.length - upd.epochDiff = u.epoch - 1 + (s₂.getEpoch - s₁.getEpoch) := by
    rw [hm, Server.getEpoch, Server.getEpoch]; omega
  have hlt : s₂.deletions.length - upd.epochDiff < s₂.accumulators.length := by omega
  obtain ⟨W, V, r1, r2, r3⟩ := C103_valid_iff E params hP hK α sM v _ hun s₂ hfull servers hs seed hseed u
    (by rw [hu, Server.getPublicKeys, Server.getPublicKeys, hpk]) s₁.getEpoch (by rw [Server.getEpoch]; exact he)
    t ht hn hc rand upd hp upd.epochDiff (by omega) (by omega) w hww (by rw [hidx]; exact hid)
    s₂.accumulators[s₂.deletions.length - upd.epochDiff] (List.getElem?_eq_getElem hlt) ans ha
  refine ⟨W, V, r1, r2, r3.trans ?_⟩
  have hVe₂ : s₂.accumulators[u.epoch - 1]? = some Ve := by
    obtain ⟨c, hc⟩ := hpa
    rw [← hc, List.getElem?_append_left (by omega)]
    exact hVe
  obtain ⟨o1, o2, hoo, a1, a2⟩ := hun
  rw [hoo] at hfull
  have hacc := acc_eq_iff params α sM v o1 o2 a1 a2 s₂ hfull (u.epoch - 1) (s₂.deletions.length - upd.epochDiff)
    (by omega) _ _ hVe₂ (List.getElem?_eq_getElem hlt)
  rw [List.drop_take, show s₂.deletions.length - upd.epochDiff - (u.epoch - 1) = s₂.getEpoch - s₁.getEpoch by omega]
    at hacc
  rw [← hacc]
  have hu' : u.publicKeys = ⟨α • params.p2, sM • params.k2⟩ := by
    rw [hu, Server.getPublicKeys, (keys_run h₁).1]
  rw [(C23_check_witness E params hP hK α sM u hu' _).1] at hw ⊢
  obtain ⟨w', e, b1, b2⟩ := hw
  constructor
  · rintro ⟨w'', e', c1, -⟩
    rw [e] at e'
    cases e'
    unfold IsWitness at b1 c1
    rw [← b1, ← c1]
  · intro hV
    rw [← hV]
    exact ⟨w', e, b1, b2⟩

/-- **C103** (the remedy). If the servers are asked for the number of epochs between the user's and their own at the
time of the answer, the same shares, prepared for any other epoch, do: the witness is valid for the accumulator at
the time of the answer, however many deletions there were in between. -/
theorem C103_same_shares (E : Pairing F G1 G2 GT) (params : AccParams G1 G2) (hP : params.p2 ≠ 0)
    (hK : params.k2 ≠ 0) (α sM v : F) (ops : List (Op F)) (hun : Unmixed ops) (s : Server F G1 G2)
    (h : (Server.new params α sM v).run ops = .ok s) (servers : List (Server F G1 G2))
    (hs : ∀ s' ∈ servers, s'.accumulators = s.accumulators ∧ s'.deletions = s.deletions)
    (seed : Nat → Nat) (hseed : ∀ d, 1 ≤ d → 1 ≤ seed d) (u : User F G1 G2)
    (hu : u.publicKeys = s.getPublicKeys) (he1 : 1 ≤ u.epoch) (he2 : u.epoch < s.getEpoch) (Ve : G1)
    (hVe : s.accumulators[u.epoch - 1]? = some Ve) (hw : u.checkWitness E params Ve = .ok ())
    (e : Nat) (he : u.epoch < e) (t : Nat) (ht : 2 ≤ t) (hn : t ≤ servers.length)
    (hc : ∀ i : Nat, 0 < i → i ≤ servers.length → (i : F) ≠ 0) (rand : Nat → Nat → F) (upd : UserUpdate F)
    (hp : u.prepareForUpdate seed e servers.length t rand = .ok (.ok upd))
    (hid : u.id ∉ s.deletions.drop (u.epoch - 1)) (w : Witness F G1) (hww : u.witness = some w) :
    ∃ ans W V, AnsweredBy servers (s.getEpoch - u.epoch) upd ans ∧
      postUpdate w.witness t upd.yShares upd.yValues ans = .ok (.ok W) ∧ s.getAccumulator = .ok V ∧
      ({ u with witness := some { w with witness := W } } : User F G1 G2).checkWitness E params V = .ok () := by
  have hlen := accs_length_run params α sM v _ s h
  rw [Server.getEpoch] at he2
  have hidx : s.deletions.length - (s.getEpoch - u.epoch) = u.epoch - 1 := by rw [Server.getEpoch]; omega
  have hm : s.getEpoch - u.epoch ≤ s.deletions.length := by rw [Server.getEpoch]; omega
  have hm1 : 1 ≤ s.getEpoch - u.epoch := by rw [Server.getEpoch]; omega
  obtain ⟨ans, ha⟩ := (C103_result seed hseed u e he s hlen servers hs t ht hn hc rand upd hp _ hm1 hm w.witness).1
  obtain ⟨W, V, r1, r2, r3⟩ := C103_valid_iff E params hP hK α sM v ops hun s h servers hs seed hseed u hu e he t ht hn
    hc rand upd hp _ hm1 hm w hww (by rw [hidx]; exact hid) Ve (by rw [hidx]; exact hVe) ans ha
  exact ⟨ans, W, V, ha, r1, r2, r3.2 hw⟩

end

/-! ### the hypotheses are met -/

/-- `exUser` (id 3, epoch 1) prepares at epoch 2 (log `[2]`); the servers answer with the log `[2, 1, 5]`:
`post_update` returns `Ok` with a witness that does not verify. Asked for 3 epochs with the same shares, it
returns a valid one. -/
example (rand : Nat → Nat → ℚ) : ∃ (s₁ s₂ : Server ℚ ℚ ℚ) (upd : UserUpdate ℚ) (w : Witness ℚ ℚ)
    (V W W' : ℚ) (ans ans' : List (List ℚ × List ℚ)),
    (Server.new exParams 4 9 6).run exPre = .ok s₁ ∧ s₁.run exPost = .ok s₂ ∧ exUser.witness = some w ∧
    exUser.prepareForUpdate (fun _ => 1) s₁.getEpoch 3 2 rand = .ok (.ok upd) ∧ upd.epochDiff = 1 ∧
    s₂.getAccumulator = .ok V ∧
    AnsweredBy [s₂, s₂, s₂] 1 upd ans ∧ AnsweredBy [s₂, s₂, s₂] 3 upd ans' ∧
    postUpdate w.witness 2 upd.yShares upd.yValues ans = .ok (.ok W) ∧
    ({ exUser with witness := some { w with witness := W } } : User ℚ ℚ ℚ).checkWitness (Pairing.field ℚ)
      exParams V ≠ .ok () ∧
    postUpdate w.witness 2 upd.yShares upd.yValues ans' = .ok (.ok W') ∧
    ({ exUser with witness := some { w with witness := W' } } : User ℚ ℚ ℚ).checkWitness (Pairing.field ℚ)
      exParams V = .ok () := by
  obtain ⟨s₁, s₂, g1, g2, g3, g4, g5, g6⟩ := exUpdateRun
  have hfull : (Server.new exParams 4 9 6).run (exPre ++ exPost) = .ok s₂ := run_append.2 ⟨s₁, g1, g2⟩
  have hlen := accs_length_run exParams 4 9 6 _ s₂ hfull
  have hkeys := (keys_run g1).1
  have hkeys₂ := (keys_run hfull).1
  have he₁ : s₁.getEpoch = 2 := by rw [Server.getEpoch, g3]; rfl
  have he₂ : s₂.getEpoch = 4 := by rw [Server.getEpoch, g6]
  have hep : exUser.epoch = 1 := rfl
  have hun : Unmixed (exPre ++ exPost) := ⟨exPre ++ exPost, [], by simp, by decide, by simp⟩
  obtain ⟨k, upd, -, -, hp, hed, -⟩ := prepareForUpdate_ok (fun _ => 1) (fun _ _ => le_refl _) exUser s₁.getEpoch
    3 2 le_rfl (by norm_num) (by rw [he₁, hep]; norm_num) rand
  have hed : upd.epochDiff = 1 := by rw [hed, he₁, hep]
  have hs : ∀ s' ∈ [s₂, s₂, s₂], s'.accumulators = s₂.accumulators ∧ s'.deletions = s₂.deletions := by simp
  obtain ⟨⟨ans, ha⟩, -⟩ := C103_result (fun _ => 1) (fun _ _ => le_refl _) exUser s₁.getEpoch
    (by rw [he₁, hep]; norm_num) s₂ hlen [s₂, s₂, s₂] hs 2 le_rfl (by norm_num) (cast_ne_zero_of_pos 3) rand upd hp
    1 le_rfl (by rw [g5]; norm_num) (6 / 7)
  obtain ⟨W, V, r1, r2, r3⟩ := C103_race (Pairing.field ℚ) exParams (by norm_num [exParams])
    (by norm_num [exParams]) 4 9 6 exPre exPost hun s₁ s₂ g1 g2 [s₂, s₂, s₂] hs (fun _ => 1) (fun _ _ => le_refl _)
    exUser (by rw [Server.getPublicKeys, hkeys]; norm_num [exUser, exParams]) (by norm_num [exUser])
    (by rw [he₁, hep]; norm_num) 6 (by rw [g3]; rfl) exUser_ok 2 le_rfl (by norm_num) (cast_ne_zero_of_pos 3) rand upd
    hp (by rw [he₁, he₂, g5, hep]; norm_num [exUser]) _ rfl ans (by rw [hed]; exact ha)
  obtain ⟨ans', W', V', q1, q2, q3, q4⟩ := C103_same_shares (Pairing.field ℚ) exParams (by norm_num [exParams])
    (by norm_num [exParams]) 4 9 6 (exPre ++ exPost) hun s₂ hfull [s₂, s₂, s₂] hs (fun _ => 1) (fun _ _ => le_refl _)
    exUser (by rw [Server.getPublicKeys, hkeys₂]; norm_num [exUser, exParams]) (by norm_num [exUser])
    (by rw [he₂, hep]; norm_num) 6 (by
      obtain ⟨c, hc⟩ := (run_extends exPost s₁ s₂ g2).1
      rw [← hc, g3]; rfl) exUser_ok s₁.getEpoch (by rw [he₁, hep]; norm_num) 2 le_rfl (by norm_num)
    (cast_ne_zero_of_pos 3) rand upd hp (by rw [g5, hep]; norm_num [exUser]) _ rfl
  rw [r2] at q3
  cases q3
  rw [he₂, hep] at q1
  refine ⟨s₁, s₂, upd, _, V, W, W', ans, ans', g1, g2, rfl, hp, hed, r2, ha, q1, r1, ?_, q2, q4⟩
  rw [Ne, r3, he₁, he₂, g5, hep]
  norm_num [exParams]

/-- `C103_valid_iff` on the same run: a request for the last two deletions `[1, 5]` succeeds and is valid exactly
for a start valid at the accumulator 1 of epoch 2. -/
example (rand : Nat → Nat → ℚ) (upd : UserUpdate ℚ) (s₁ s₂ : Server ℚ ℚ ℚ) (w : Witness ℚ ℚ)
    (hw : exUser.witness = some w) (g1 : (Server.new exParams 4 9 6).run exPre = .ok s₁)
    (g2 : s₁.run exPost = .ok s₂) (g3 : s₁.accumulators = [6, 1]) (g5 : s₂.deletions = [2, 1, 5])
    (hp : exUser.prepareForUpdate (fun _ => 1) 2 3 2 rand = .ok (.ok upd)) (ans : List (List ℚ × List ℚ))
    (ha : AnsweredBy [s₂, s₂, s₂] 2 upd ans) :
    ∃ W V, postUpdate w.witness 2 upd.yShares upd.yValues ans = .ok (.ok W) ∧ s₂.getAccumulator = .ok V ∧
      (({ exUser with witness := some { w with witness := W } } : User ℚ ℚ ℚ).checkWitness (Pairing.field ℚ)
        exParams V = .ok () ↔ exUser.checkWitness (Pairing.field ℚ) exParams 1 = .ok ()) := by
  have hfull : (Server.new exParams 4 9 6).run (exPre ++ exPost) = .ok s₂ := run_append.2 ⟨s₁, g1, g2⟩
  have hkeys₂ := (keys_run hfull).1
  refine C103_valid_iff (Pairing.field ℚ) exParams (by norm_num [exParams]) (by norm_num [exParams]) 4 9 6
    (exPre ++ exPost) ⟨exPre ++ exPost, [], by simp, by decide, by simp⟩ s₂ hfull [s₂, s₂, s₂] (by simp) (fun _ => 1)
    (fun _ _ => le_refl _) exUser (by rw [Server.getPublicKeys, hkeys₂]; norm_num [exUser, exParams]) 2
    (by norm_num [exUser]) 2 le_rfl (by norm_num) (cast_ne_zero_of_pos 3) rand upd hp 2 (by norm_num)
    (by rw [g5]; norm_num) w hw (by rw [g5]; norm_num [exUser]) 1 ?_ ans ha
  obtain ⟨c, hc⟩ := (run_extends exPost s₁ s₂ g2).1
  rw [← hc, g3, g5]; rfl

end Allo
