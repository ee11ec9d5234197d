import Verif.Props.Replicas
import Verif.Props.EndToEnd
import Verif.Props.SplitView
import Verif.Props.Keys

/-!
# C110: who can read the log of deletions, and what it gives away
-/

set_option linter.unusedSectionVars false
set_option linter.unusedVariables false
namespace Allo
open Spec Server

section
variable {F G1 G2 GT : Type} [Field F] [DecidableEq F] [AddCommGroup G1] [Module F G1]
  [DecidableEq G1] [AddCommGroup G2] [Module F G2] [AddCommGroup GT] [Module F GT] [DecidableEq GT]

theorem chunkAt_one {α : Type} (l : List α) (d : α) (j : Nat) (hj : j < l.length) :
    chunkAt 1 l j = [l.getD j d] := by
  unfold chunkAt
  rw [Nat.mul_one, List.drop_eq_getElem_cons hj, show l.getD j d = l[j] by simp [hj]]
  rfl

theorem update_zero (s : Server F G1 G2) (hlen : s.accumulators.length = s.deletions.length + 1) (n : Nat)
    (hn : n ≤ s.deletions.length) :
    s.update n [0] = .ok ((s.published n).map (·.1), (s.published n).map (·.2)) := by
  have h := update_published s hlen n hn [0] (by simp) (s.deletions.length + 1) (by omega)
  have hc : nChunks ([0] : List F).length n = n := by simp [nChunks]
  have hl := published_length s hlen n hn
  rw [hc] at h
  refine Eq.trans h (congrArg Except.ok (Prod.ext ?_ ?_))
  · refine List.ext_getElem (by simp [hl]) (fun i h1 h2 => ?_)
    simp only [List.length_map, List.length_range] at h1
    simp only [List.getElem_map, List.getElem_range, List.length_singleton]
    rw [chunkAt_one _ (0, 0) i (by omega), show (s.published n).getD i (0, 0) = (s.published n)[i]'(by omega) by simp [hl, h1]]
    have := dAns_powers (M := G1) 0 1 [(s.published n)[i]'(by omega)] (by simp)
    simpa [prodMinus] using this
  · refine List.ext_getElem (by simp [hl]) (fun i h1 h2 => ?_)
    simp only [List.length_map, List.length_range] at h1
    simp only [List.getElem_map, List.getElem_range, List.length_singleton]
    rw [chunkAt_one _ (0, 0) i (by omega), show (s.published n).getD i (0, 0) = (s.published n)[i]'(by omega) by simp [hl, h1]]
    have := vAnsP_powers (M := G1) 0 1 [(s.published n)[i]'(by omega)] (by simp)
    simpa [prodMinus] using this

/-- **C110** (anybody can read the log). The request `update(n, [0])`, one share with the value 0, returns the last `n` deleted
ids and the accumulators published after each of them, in order; with `n` the number of all deletions, the whole
log. -/
theorem C110_download (params : AccParams G1 G2) (α sM v : F) (ops : List (Op F)) (s : Server F G1 G2)
    (h : (Server.new params α sM v).run ops = .ok s) (n : Nat) (hn : n ≤ s.deletions.length) :
    s.update n [0] = .ok (s.deletions.drop (s.deletions.length - n), s.accumulators.drop (s.accumulators.length - n)) := by
  have hlen := accs_length_run params α sM v ops s h
  rw [update_zero s hlen n hn, published_fst s hlen, published_snd s hlen]
  rw [show 1 + (s.deletions.length - n) = s.accumulators.length - n by omega]

/-- **C110** (and nothing else). All answers to requests for `n` epochs can be computed from the answer to the single
request `update(n, [0])`, by one function that knows nothing of the server. -/
theorem C110_nothing_else : ∃ f : List F × List G1 → List F → List F × List G1,
    ∀ (params : AccParams G1 G2) (α sM v : F) (ops : List (Op F)) (s : Server F G1 G2),
      (Server.new params α sM v).run ops = .ok s → ∀ n ≤ s.deletions.length, ∀ ys, ys ≠ [] →
      ∃ log, s.update n [0] = .ok log ∧ s.update n ys = .ok (f log ys) := by
  refine ⟨fun log ys =>
    ((List.range (nChunks ys.length log.1.length)).map (fun j => dAns ys (chunkAt ys.length (log.1.zip log.2) j)),
     (List.range (nChunks ys.length log.1.length)).map (fun j => vAnsP ys (chunkAt ys.length (log.1.zip log.2) j))), ?_⟩
  intro params α sM v ops s h n hn ys hys
  have hlen := accs_length_run params α sM v ops s h
  refine ⟨_, update_zero s hlen n hn, ?_⟩
  have := update_published s hlen n hn ys hys (s.deletions.length + 1) (by omega)
  have hz : ((s.published n).map (·.1)).zip ((s.published n).map (·.2)) = s.published n := by
    rw [List.zip_map']; simp
  simp only [List.length_map, published_length s hlen n hn, hz]
  exact this

/-- What anybody can compute for the id `y` from a log of deleted ids with the accumulators published after them. -/
def recoverWitness (y : F) (log : List (F × G1)) : G1 :=
  log.foldr (fun p C => p.2 + (p.1 - y) • C) 0

theorem recoverWitness_spec (α y : F) : ∀ (log : List (F × G1)) (V : G1),
    (∀ i, (hi : i < log.length) → (log[i].1 + α) • log[i].2 = (V :: log.map (·.2)).getD i 0) →
    (y + α) • recoverWitness y log = V - (log.map (fun p => p.1 - y)).prod • (log.map (·.2)).getLastD V := by
  intro log
  induction log with
  | nil => intro V _; simp [recoverWitness]
  | cons p log ih =>
    intro V h
    have h0 := h 0 (by simp)
    simp only [List.getElem_cons_zero, List.getD_cons_zero] at h0
    have h1 := ih p.2 (fun i hi => by
      have := h (i + 1) (by simpa using hi)
      simpa only [List.getElem_cons_succ, List.map_cons, List.getD_cons_succ] using this)
    have e : recoverWitness y (p :: log) = p.2 + (p.1 - y) • recoverWitness y log := rfl
    rw [e, smul_add, smul_comm, h1]
    simp only [List.map_cons, List.prod_cons, List.getLastD_cons]
    rw [← h0]
    module

/-- the accumulators of the log are consecutive: each, times `d + α`, is the one before -/
theorem published_chain (params : AccParams G1 G2) (α sM v : F) (ops : List (Op F)) (hu : Unmixed ops) (s : Server F G1 G2)
    (h : (Server.new params α sM v).run ops = .ok s) (i : Nat) (hi : i < s.deletions.length) :
    ∃ V V' : G1, s.accumulators[i]? = some V ∧ s.accumulators[i + 1]? = some V' ∧ (s.deletions[i] + α) • V' = V := by
  obtain ⟨o1, o2, rfl, h1, h2⟩ := hu
  have hI := invA_run params α sM v o1 o2 h1 h2 s h
  refine ⟨_, _, hI.get i (by omega), hI.get (i + 1) (by omega), ?_⟩
  have hne : s.deletions[i] + α ≠ 0 := fun e =>
    hI.noneg (eq_neg_of_add_eq_zero_left e ▸ List.getElem_mem hi)
  rw [List.take_add_one, List.getElem?_eq_getElem hi, Option.toList_some, accAfter_snoc, smul_smul,
    mul_inv_cancel₀ hne, one_smul]

/-- **C110** (the published accumulators are witnesses). Each deletion publishes the membership witness of the deleted id for the
accumulator before: the next accumulator is that witness. -/
theorem C110_published_witness (E : Pairing F G1 G2 GT) (params : AccParams G1 G2) (α sM v : F) (ops : List (Op F))
    (hu : Unmixed ops) (s : Server F G1 G2) (h : (Server.new params α sM v).run ops = .ok s) (i : Nat) (y : F)
    (hi : s.deletions[i]? = some y) :
    ∃ V V', s.accumulators[i]? = some V ∧ s.accumulators[i + 1]? = some V' ∧
      mwVerify E V' y (publicKey E α) V = true := by
  obtain ⟨hi', rfl⟩ := List.getElem?_eq_some_iff.1 hi
  obtain ⟨V, V', h1, h2, h3⟩ := published_chain params α sM v ops hu s h i hi'
  exact ⟨V, V', h1, h2, (mwVerify_iff E _ _ _ _).2 h3⟩

/-- **C110** (what the log gives away). Whoever reads the last `n` entries of the log can compute, without any secret, for every
id deleted in them the membership witness for the accumulator before these `n` deletions. For ids not deleted in them this
gives no witness (unless all accumulators are the identity). -/
theorem C110_recover (E : Pairing F G1 G2 GT) (params : AccParams G1 G2) (α sM v : F) (ops : List (Op F)) (hu : Unmixed ops)
    (s : Server F G1 G2) (h : (Server.new params α sM v).run ops = .ok s) (n : Nat) (hn : n ≤ s.deletions.length)
    (V : G1) (hV : s.accumulators[s.deletions.length - n]? = some V) (ds : List F) (vs : List G1)
    (hlog : s.update n [0] = .ok (ds, vs)) (y : F) :
    (y ∈ ds → mwVerify E (recoverWitness y (ds.zip vs)) y (publicKey E α) V = true) ∧
    (y ∉ ds → (mwVerify E (recoverWitness y (ds.zip vs)) y (publicKey E α) V = true ↔ v • params.p1 = 0)) := by
  have hlen := accs_length_run params α sM v ops s h
  rw [update_zero s hlen n hn] at hlog
  obtain ⟨rfl, rfl⟩ := Prod.mk.inj (Except.ok.inj hlog)
  have hz : ((s.published n).map (·.1)).zip ((s.published n).map (·.2)) = s.published n := by
    rw [List.zip_map']; simp
  have hpl := published_length s hlen n hn
  have h1 : V :: (s.published n).map (·.2) = s.accumulators.drop (s.deletions.length - n) := by
    obtain ⟨hlt, rfl⟩ := List.getElem?_eq_some_iff.1 hV
    rw [published_snd s hlen, Nat.add_comm 1, List.drop_eq_getElem_cons hlt]
  have hspec := recoverWitness_spec α y (s.published n) V (by
    intro i hi
    rw [hpl] at hi
    rw [h1]
    have hi' : s.deletions.length - n + i < s.deletions.length := by omega
    obtain ⟨W, W', a1, a2, a3⟩ := published_chain params α sM v ops hu s h _ hi'
    have e1 : ((s.published n)[i]'(by omega)).1 = s.deletions[s.deletions.length - n + i] := by
      have : ((s.published n).map (·.1))[i]? = some (s.deletions[s.deletions.length - n + i]) := by
        rw [published_fst s hlen, List.getElem?_drop, List.getElem?_eq_getElem hi']
      rw [List.getElem?_map, List.getElem?_eq_getElem (by omega)] at this
      exact Option.some.inj this
    have e2 : ((s.published n)[i]'(by omega)).2 = W' := by
      have : ((s.published n).map (·.2))[i]? = some W' := by
        rw [published_snd s hlen, List.getElem?_drop, ← a2]
        congr 1; omega
      rw [List.getElem?_map, List.getElem?_eq_getElem (by omega)] at this
      exact Option.some.inj this
    rw [e1, e2, a3, List.getD_eq_getElem?_getD, List.getElem?_drop, a1]
    rfl)
  have hlast : ((s.published n).map (·.2)).getLastD V = accAfter α (v • params.p1) s.deletions := by
    obtain ⟨o1, o2, rfl, g1, g2⟩ := hu
    have hI := invA_run params α sM v o1 o2 g1 g2 s h
    have : (V :: (s.published n).map (·.2)).getLast? = some (accAfter α (v • params.p1) s.deletions) := by
      rw [h1, List.getLast?_drop, if_neg (by omega)]
      exact hI.last
    rw [List.getLast?_cons, ← List.getLastD_eq_getLast?] at this
    exact Option.some.inj this
  rw [mwVerify_iff, hz, hspec, hlast, sub_eq_self, smul_eq_zero]
  have hprod : ((s.published n).map (fun p => p.1 - y)).prod = 0 ↔ y ∈ (s.published n).map (·.1) := by
    rw [List.prod_eq_zero_iff]
    simp only [List.mem_map, sub_eq_zero]
  have hacc : accAfter α (v • params.p1) s.deletions = 0 ↔ v • params.p1 = 0 := by
    obtain ⟨o1, o2, rfl, g1, g2⟩ := hu
    have hI := invA_run params α sM v o1 o2 g1 g2 s h
    unfold accAfter
    rw [smul_eq_zero, or_iff_right]
    rw [inv_eq_zero, prodPlus_eq_zero]
    exact hI.noneg
  rw [hprod, hacc]
  exact ⟨fun hy => .inl hy, fun hy => or_iff_right hy⟩

/-- **C110** (consequence). So everybody who can call `update` can make accepted accumulator membership proofs for ids that
have been deleted, for all accumulators from before the deletion, whatever is hashed before and whatever the hash function; and
presentations too, given the signature and secret key of a credential of that id. -/
theorem C110_proofs (E : Pairing F G1 G2 GT) (H : Oracle F) (enc : Enc G1 G2 GT) (params : AccParams G1 G2)
    (hP : params.p2 ≠ 0) (hK : params.k2 ≠ 0) (α sM v : F) (ops : List (Op F)) (hu : Unmixed ops)
    (s : Server F G1 G2) (h : (Server.new params α sM v).run ops = .ok s) (n : Nat) (hn : n ≤ s.deletions.length)
    (V : G1) (hV : s.accumulators[s.deletions.length - n]? = some V) (ds : List F) (vs : List G1)
    (hlog : s.update n [0] = .ok (ds, vs)) (y : F) (hy : y ∈ ds) :
    (∀ (pp : ProofParams G1) (msg : ProofMessage F) (rand : MemRand F) (t : Transcript) (label : String),
      msg.getMessage = y →
      let mpc := MemCommitting.new E msg (recoverWitness y (ds.zip vs)) pp (publicKey E α) rand
      let challenge := H (mpc.getBytesForChallenge enc t) label
      H (((mpc.genProof challenge).finalize E V pp (publicKey E α) challenge).getBytesForChallenge enc t) label
        = challenge) ∧
    ∀ (w : Witness F G1) (V₀ : G1), credVerify E V₀ s.getPublicKeys params y w = .ok () →
      ∀ (eph : Bytes) (rand : ProofRand F), ∃ p,
        makeProof E H enc { w with witness := recoverWitness y (ds.zip vs) } y V params s.getPublicKeys eph rand = some p ∧
        checkProof E H enc p params s.getPublicKeys V eph = true := by
  have hv := (C110_recover E params α sM v ops hu s h n hn V hV ds vs hlog y).1 hy
  refine ⟨fun pp msg rand t label hm => ?_, fun w V₀ hw eph rand => ?_⟩
  · exact C46_complete E H enc msg _ V pp (publicKey E α) (by rw [hm]; exact hv) rand t label
  · have hk : s.getPublicKeys = ⟨α • params.p2, sM • params.k2⟩ := (keys_run h).1
    rw [hk] at hw ⊢
    have h1 : credVerify E V ⟨α • params.p2, sM • params.k2⟩ params y { w with witness := recoverWitness y (ds.zip vs) }
        = .ok () := (credVerify_iff E params hP hK α sM V y _).2
      ⟨(mwVerify_iff E _ _ _ _).1 hv, ((credVerify_iff E params hP hK α sM V₀ y w).1 hw).2⟩
    obtain ⟨c1, c2⟩ := C42_complete E H enc { w with witness := recoverWitness y (ds.zip vs) } y V params
      ⟨α • params.p2, sM • params.k2⟩ eph rand
    obtain ⟨p, hp⟩ := c1.2 h1
    exact ⟨p, hp, c2 p hp⟩

end

section

/-- Members 1, 2, 3, then 1 and 2 deleted: deletions 1, 2; accumulators 2, 1, 5. -/
def leakSrv : Server (ZMod 7) (ZMod 7) (ZMod 7) := ⟨[2, 1, 5], 1, ⟨1, 1⟩, 1, [3, 2, 1], [(3, 3)], [1, 2]⟩

def leakOps : List (Op (ZMod 7)) := [.add 1, .add 2, .add 3, .delete 1, .delete 2]

theorem leakSrv_run : (Server.new (F := ZMod 7) onePar 1 1 2).run leakOps = .ok leakSrv := by with_unfolding_all rfl

/-- C110_download, C110_nothing_else: the log of this server. -/
example : leakSrv.update 2 [0] = .ok ([1, 2], [1, 5]) ∧
    ∃ f : List (ZMod 7) × List (ZMod 7) → List (ZMod 7) → List (ZMod 7) × List (ZMod 7),
      leakSrv.update 2 [3, 4] = .ok (f ([1, 2], [1, 5]) [3, 4]) := by
  have h := C110_download onePar 1 1 2 leakOps leakSrv leakSrv_run 2 (by decide)
  obtain ⟨f, hf⟩ := C110_nothing_else (F := ZMod 7) (G1 := ZMod 7) (G2 := ZMod 7)
  obtain ⟨log, h1, h2⟩ := hf onePar 1 1 2 leakOps leakSrv leakSrv_run 2 (by decide) [3, 4] (by simp)
  rw [h] at h1
  obtain rfl := Except.ok.inj h1
  exact ⟨h, f, h2⟩

/-- C110_published_witness, C110_recover: the witness of the deleted id 2 for the accumulator 2 of epoch 1 is
`1 + (1 - 2) (5 + 0) = 3`; for the member 3 nothing valid comes out. -/
example : recoverWitness (2 : ZMod 7) [(1, 1), (2, 5)] = (3 : ZMod 7) ∧
    mwVerify (Pairing.field (ZMod 7)) (3 : ZMod 7) 2 (publicKey (Pairing.field (ZMod 7)) 1) 2 = true ∧
    mwVerify (Pairing.field (ZMod 7)) (1 : ZMod 7) 1 (publicKey (Pairing.field (ZMod 7)) 1) 2 = true ∧
    ¬ mwVerify (Pairing.field (ZMod 7)) (recoverWitness (3 : ZMod 7) [(1, 1), (2, 5)]) 3
      (publicKey (Pairing.field (ZMod 7)) 1) 2 = true := by
  have hu : Unmixed leakOps := ⟨leakOps, [], by simp, by decide, by simp⟩
  have hd := C110_download onePar 1 1 2 leakOps leakSrv leakSrv_run 2 (by decide)
  have e : recoverWitness (2 : ZMod 7) [(1, 1), (2, 5)] = (3 : ZMod 7) := by decide
  have h2 := (C110_recover (Pairing.field (ZMod 7)) onePar 1 1 2 leakOps hu leakSrv leakSrv_run 2 (by decide) 2 rfl
    _ _ hd 2).1 (by decide)
  have h3 := (C110_recover (Pairing.field (ZMod 7)) onePar 1 1 2 leakOps hu leakSrv leakSrv_run 2 (by decide) 2 rfl
    _ _ hd 3).2 (by decide)
  obtain ⟨V, V', g1, g2, g3⟩ := C110_published_witness (Pairing.field (ZMod 7)) onePar 1 1 2 leakOps hu leakSrv leakSrv_run
    0 1 rfl
  obtain rfl := Option.some.inj g1
  obtain rfl := Option.some.inj g2
  refine ⟨e, e ▸ h2, g3, fun h => ?_⟩
  exact absurd (h3.1 h) (by decide)

/-- C110_proofs: a presentation for id 2 and the accumulator 2 after the deletion, with the credential
`(0, 1, 3⁻¹)` that was accepted for the accumulator 3. -/
example (H : Oracle (ZMod 7)) (rand : ProofRand (ZMod 7)) : ∃ p,
    makeProof (Pairing.field (ZMod 7)) H enc7 ⟨0, 3, 5⟩ 2 2 onePar ⟨1, 1⟩ [] rand = some p ∧
    checkProof (Pairing.field (ZMod 7)) H enc7 p onePar ⟨1, 1⟩ 2 [] = true := by
  have hu : Unmixed leakOps := ⟨leakOps, [], by simp, by decide, by simp⟩
  have hd := C110_download onePar 1 1 2 leakOps leakSrv leakSrv_run 2 (by decide)
  have := (C110_proofs (Pairing.field (ZMod 7)) H enc7 onePar (by decide) (by decide) 1 1 2 leakOps hu leakSrv leakSrv_run 2
    (by decide) 2 rfl _ _ hd 2 (by decide)).2 ⟨0, 1, 5⟩ 3 (by decide +kernel) [] rand
  exact this

end
end Allo
