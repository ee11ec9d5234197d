import Verif.Model.Serde
import Verif.Lemmas.Server
import Verif.Props.Crash
import Mathlib.Data.List.Perm.Basic
import Mathlib.Data.List.Nodup
import Mathlib.Data.ZMod.Basic
import Mathlib.Tactic.NormNum
import Mathlib.Tactic.NormNum.Prime
import Mathlib.Algebra.Field.ZMod

/-!
# C69: saving and restoring with serde

Every type of the crate that derives `Serialize`/`Deserialize` is read back as it was written, and a server
that is saved and restored any number of times, at any points of its history, answers every call as if it
had never been saved.
-/

set_option linter.unusedSectionVars false
set_option linter.unusedVariables false

namespace Allo
open Spec Server

namespace Bare
variable {α β : Type}

theorem toNat_ofNat_lt {n : Nat} (h : n < 256) : (UInt8.ofNat n).toNat = n := by
  simp [UInt8.toNat_ofNat', Nat.mod_eq_of_lt h]

theorem uint_reads (n : Nat) (r : Bytes) : uintDec (uintEnc n ++ r) = some (n, r) := by
  induction n using Nat.strongRecOn with
  | ind n ih =>
    rw [uintEnc]
    split
    · next h =>
      simp only [List.cons_append, List.nil_append, uintDec]
      rw [toNat_ofNat_lt (by omega), if_pos h]
    · next h =>
      simp only [List.cons_append, uintDec]
      rw [toNat_ofNat_lt (by omega), if_neg (by omega), ih (n / 128) (by omega)]
      simp only [Option.some.injEq, Prod.mk.injEq, and_true]
      omega

theorem le_reads (k : Nat) (r : Bytes) : ∀ n, n < 256 ^ k → leDec k (leEnc k n ++ r) = some (n, r) := by
  induction k with
  | zero => intro n h; simp at h; subst h; rfl
  | succ k ih =>
    intro n h
    simp only [leEnc, List.cons_append, leDec]
    rw [ih (n / 256) (by rw [Nat.div_lt_iff_lt_mul (by norm_num)]; rwa [pow_succ] at h)]
    simp only [Option.some.injEq, Prod.mk.injEq, and_true]
    rw [toNat_ofNat_lt (Nat.mod_lt _ (by norm_num))]
    omega

theorem usize_reads {n : Nat} (h : n < 2 ^ 64) : usize.Reads n := by
  intro r
  exact le_reads 8 r n (by norm_num at h ⊢; exact h)

theorem option_reads {b : Bare α} {x : Option α} (h : ∀ v ∈ x, b.Reads v) : (option b).Reads x := by
  intro r
  cases x with
  | none => rfl
  | some v =>
    have := h v rfl r
    simp only [option, List.cons_append]
    rw [if_neg (by decide), this]; rfl

theorem seq_reads {b : Bare α} {l : List α} (h : ∀ v ∈ l, b.Reads v) (r : Bytes) :
    seqDec b l.length (seqEnc b l ++ r) = some (l, r) := by
  induction l with
  | nil => rfl
  | cons x l ih =>
    simp only [List.length_cons, seqDec, seqEnc, List.append_assoc]
    rw [h x (by simp)]
    simp only []
    rw [ih (fun v hv => h v (by simp [hv]))]

theorem vec_reads {b : Bare α} {l : List α} (h : ∀ v ∈ l, b.Reads v) : (vec b).Reads l := by
  intro r
  simp only [vec, List.append_assoc, uint_reads]
  exact seq_reads h r

theorem both_reads {a : Bare α} {b : Bare β} {p : α × β} (h1 : a.Reads p.1) (h2 : b.Reads p.2) :
    (both a b).Reads p := by
  intro r
  simp only [both, List.append_assoc]
  rw [h1]; simp only []
  rw [h2]

theorem iso_reads {b : Bare α} {f : β → α} {g : α → β} {x : β} (hg : g (f x) = x) (h : b.Reads (f x)) :
    (b.iso f g).Reads x := by
  intro r
  simp only [iso]
  rw [h]
  simp [hg]

/-- A codec that reads back everything it writes. -/
def Lawful (b : Bare α) : Prop := ∀ x, b.Reads x

theorem both_lawful {a : Bare α} {b : Bare β} (h1 : a.Lawful) (h2 : b.Lawful) : (both a b).Lawful :=
  fun p => both_reads (h1 p.1) (h2 p.2)

end Bare

open Bare

section
variable {F G1 G2 GT : Type}

theorem publicKeys_lawful {g2 : Bare G2} (h : g2.Lawful) : (barePublicKeys g2).Lawful :=
  fun _ => iso_reads rfl (both_lawful h h _)

theorem witness_lawful {f : Bare F} {g1 : Bare G1} (hf : f.Lawful) (h1 : g1.Lawful) :
    (bareWitness f g1).Lawful :=
  fun _ => iso_reads rfl (both_lawful hf (both_lawful h1 h1) _)

/-- C69: whatever is written is read back by `from_slice`, for every type of the crate that derives
`Serialize` and `Deserialize` (scalars and points are assumed to be read back by the dependency). For a
`User` the epoch must be a `usize`. -/
theorem C69_types (f : Bare F) (g1 : Bare G1) (g2 : Bare G2) (hf : f.Lawful) (h1 : g1.Lawful) (h2 : g2.Lawful) :
    (∀ x, fromSlice (barePublicKeys g2).dec ((barePublicKeys g2).enc x) = some x) ∧
    (∀ x, fromSlice (bareAccParams g1 g2).dec ((bareAccParams g1 g2).enc x) = some x) ∧
    (∀ x, fromSlice (bareWitness f g1).dec ((bareWitness f g1).enc x) = some x) ∧
    (∀ x, fromSlice (bareCredProof f g1).dec ((bareCredProof f g1).enc x) = some x) ∧
    (∀ x, fromSlice (bareMemProof f g1).dec ((bareMemProof f g1).enc x) = some x) ∧
    (∀ x, fromSlice (bareProofParams g1).dec ((bareProofParams g1).enc x) = some x) ∧
    (∀ x, fromSlice (bareNonMembershipWitness f g1).dec ((bareNonMembershipWitness f g1).enc x) = some x) ∧
    (∀ x, fromSlice (bareDelta f g1).dec ((bareDelta f g1).enc x) = some x) ∧
    (∀ x : User F G1 G2, x.epoch < 2 ^ 64 →
      fromSlice (bareUser f g1 g2).dec ((bareUser f g1 g2).enc x) = some x) := by
  have key : ∀ {α : Type} {b : Bare α} {x : α}, b.Reads x → fromSlice b.dec (b.enc x) = some x := by
    intro α b x h
    have := h []
    rw [List.append_nil] at this
    simp [fromSlice, this]
  refine ⟨fun x => key (publicKeys_lawful h2 x), fun x => key ?_, fun x => key (witness_lawful hf h1 x),
    fun x => key ?_, fun x => key ?_, fun x => key ?_, fun x => key ?_, fun x => key ?_, fun x hx => key ?_⟩
  · exact iso_reads rfl (both_lawful h1 (both_lawful h2 (both_lawful h1 (both_lawful h1 (both_lawful h2
      (both_lawful h1 (both_lawful h1 h1)))))) _)
  · exact iso_reads rfl (both_lawful h1 (both_lawful h1 (both_lawful h1 (both_lawful hf (both_lawful hf
      (both_lawful hf (both_lawful hf (both_lawful hf (both_lawful hf (both_lawful hf
      (both_lawful hf hf)))))))))) _)
  · exact iso_reads rfl (both_lawful h1 (both_lawful h1 (both_lawful h1 (both_lawful hf (both_lawful hf
      (both_lawful hf (both_lawful hf hf)))))) _)
  · exact iso_reads rfl (both_lawful h1 (both_lawful h1 (both_lawful h1 h1)) _)
  · exact iso_reads rfl (both_lawful h1 hf _)
  · exact iso_reads rfl (both_lawful hf h1 _)
  · exact iso_reads rfl (both_reads (hf _) (both_reads (option_reads (fun v _ => witness_lawful hf h1 v))
      (both_reads (h1 _) (both_reads (publicKeys_lawful h2 _) (usize_reads hx)))))

end

section
variable {F G1 G2 GT : Type} [Field F] [DecidableEq F] [AddCommGroup G1] [Module F G1]
  [AddCommGroup G2] [Module F G2] [AddCommGroup GT] [Module F GT]

/-- Two servers with the same content: the set and the map may be stored in another order. -/
structure SameContent (s t : Server F G1 G2) : Prop where
  accumulators : s.accumulators = t.accumulators
  witnessSecretKey : s.witnessSecretKey = t.witnessSecretKey
  publicKeys : s.publicKeys = t.publicKeys
  signSecretKey : s.signSecretKey = t.signSecretKey
  deletions : s.deletions = t.deletions
  users : s.allUsers.Perm t.allUsers
  wits : s.allWitnesses.Perm t.allWitnesses

/-- What the Rust types guarantee: a set and a map hold no key twice. -/
structure WF (s : Server F G1 G2) : Prop where
  users : s.allUsers.Nodup
  ids : s.ids.Nodup

theorem wf_new (params : AccParams G1 G2) (α sM v : F) : WF (Server.new params α sM v) :=
  ⟨by simp [Server.new], by simp [Server.new, Server.ids]⟩

theorem nodup_setInsert {l : List F} (h : l.Nodup) (y : F) : (setInsert l y).Nodup := by
  unfold setInsert
  split
  · exact h
  · next hy => exact List.nodup_cons.2 ⟨hy, h⟩

theorem nodup_mapErase {m : List (F × G1)} (h : (m.map (·.1)).Nodup) (y : F) :
    ((mapErase m y).map (·.1)).Nodup := by
  rw [mapErase_keys]; exact h.filter _

theorem nodup_mapInsert {m : List (F × G1)} (h : (m.map (·.1)).Nodup) (y : F) (c : G1) :
    ((mapInsert m y c).map (·.1)).Nodup := by
  simp only [mapInsert, List.map_cons, List.nodup_cons]
  refine ⟨?_, nodup_mapErase h y⟩
  rw [mapErase_keys]; simp

theorem wf_step {s s' : Server F G1 G2} {op : Op F} {r : Option G1} (hs : WF s)
    (h : s.step op = .ok (s', r)) : WF s' := by
  rcases step_cases h with ⟨rfl, -, -⟩ | ⟨y, V, rfl, hy, hV, h0, -, rfl⟩ |
    ⟨y, C, rfl, hC, -, rfl⟩ | ⟨y, V, rfl, hy, hV, h0, -, rfl⟩
  · exact hs
  · exact ⟨nodup_setInsert hs.users y, nodup_mapInsert hs.ids y _⟩
  · refine ⟨hs.users, ?_⟩
    have := nodup_mapErase hs.ids y
    simpa [Server.ids, List.map_map, Function.comp_def] using this
  · exact ⟨hs.users, nodup_mapErase hs.ids y⟩

theorem mapContains_perm {m m' : List (F × G1)} (h : m.Perm m') (k : F) :
    mapContains m k = mapContains m' k := by
  rw [Bool.eq_iff_iff, mapContains_iff, mapContains_iff]
  exact (h.map _).mem_iff

theorem mapGet_perm {m m' : List (F × G1)} (h : m.Perm m') (hn : (m.map (·.1)).Nodup) (k : F) :
    mapGet m k = mapGet m' k := by
  have hn' : (m'.map (·.1)).Nodup := (h.map _).nodup_iff.1 hn
  cases hg : mapGet m k with
  | none =>
    symm
    rw [mapGet_none] at hg ⊢
    rwa [← (h.map (·.1)).mem_iff]
  | some c =>
    have hm := h.mem_iff.1 (mapGet_mem hg)
    obtain ⟨c', hc'⟩ := mapGet_some_of_mem (List.mem_map.2 ⟨_, hm, rfl⟩)
    have hpq := List.inj_on_of_nodup_map hn' (mapGet_mem hc') hm rfl
    rw [hc', (Prod.mk.inj hpq).2]

theorem setInsert_perm {l l' : List F} (h : l.Perm l') (y : F) : (setInsert l y).Perm (setInsert l' y) := by
  unfold setInsert
  by_cases hy : y ∈ l
  · rw [if_pos hy, if_pos (h.mem_iff.1 hy)]; exact h
  · rw [if_neg hy, if_neg (fun h' => hy (h.mem_iff.2 h'))]; exact h.cons y

theorem mapErase_perm {m m' : List (F × G1)} (h : m.Perm m') (y : F) : (mapErase m y).Perm (mapErase m' y) :=
  h.filter _

/-- the two outcomes of a call agree -/
def Agree {α : Type} (R : Server F G1 G2 → Server F G1 G2 → Prop) :
    Rust (Server F G1 G2 × α) → Rust (Server F G1 G2 × α) → Prop
  | .ok (s, a), .ok (t, b) => R s t ∧ a = b
  | .error e, .error e' => e = e'
  | _, _ => False

theorem same_step {s t : Server F G1 G2} (hst : SameContent s t) (hs : WF s) (op : Op F) :
    Agree SameContent (s.step op) (t.step op) := by
  have hids : ∀ y, y ∈ s.ids ↔ y ∈ t.ids := fun y => (hst.wits.map _).mem_iff
  have hacc := hst.accumulators
  have hk := hst.witnessSecretKey
  cases op with
  | add y =>
    simp only [step]
    by_cases hy : y ∈ s.ids
    · rw [add_member hy, add_member ((hids y).1 hy)]; exact ⟨hst, rfl⟩
    · have hy' : y ∉ t.ids := fun h => hy ((hids y).2 h)
      cases hV : s.accumulators.getLast? with
      | none =>
        rw [Server.add, if_neg (by rwa [mapContains_iff]), hV, Server.add, if_neg (by rwa [mapContains_iff]),
          ← hacc, hV]
        exact rfl
      | some V =>
        by_cases h0 : y + s.witnessSecretKey = 0
        · rw [add_panic hy hV h0, add_panic hy' (hacc ▸ hV) (hk ▸ h0)]; exact rfl
        · rw [add_new hy hV h0, add_new hy' (hacc ▸ hV) (hk ▸ h0)]
          refine ⟨⟨hacc, hk, hst.publicKeys, hst.signSecretKey, hst.deletions,
            setInsert_perm hst.users y, ?_⟩, by rw [hk]⟩
          simp only [mapInsert, hk]
          exact (mapErase_perm hst.wits y).cons _
  | delete y =>
    simp only [step]
    by_cases hy : y ∈ s.ids
    · obtain ⟨C, hC⟩ := mapGet_some_of_mem hy
      have hC' : mapGet t.allWitnesses y = some C := by rw [← mapGet_perm hst.wits hs.ids, hC]
      rw [delete_member hC, delete_member hC']
      exact ⟨⟨by simp [hacc], hk, hst.publicKeys, hst.signSecretKey, by simp [hst.deletions], hst.users,
        (mapErase_perm hst.wits y).map _⟩, rfl⟩
    · rw [delete_nonmember hy, delete_nonmember (fun h => hy ((hids y).2 h))]; exact ⟨hst, rfl⟩
  | quickDelete y =>
    simp only [step]
    by_cases hy : y ∈ s.ids
    · have hy' := (hids y).1 hy
      cases hV : s.accumulators.getLast? with
      | none =>
        rw [Server.quickDelete, mapContains_iff.2 hy, hV, Server.quickDelete, mapContains_iff.2 hy', ← hacc, hV]
        exact rfl
      | some V =>
        by_cases h0 : y + s.witnessSecretKey = 0
        · rw [quickDelete_panic hy hV h0, quickDelete_panic hy' (hacc ▸ hV) (hk ▸ h0)]; exact rfl
        · rw [quickDelete_member hy hV h0, quickDelete_member hy' (hacc ▸ hV) (hk ▸ h0)]
          exact ⟨⟨by simp [hacc, hk], hk, hst.publicKeys, hst.signSecretKey, by simp [hst.deletions],
            hst.users, mapErase_perm hst.wits y⟩, by rw [hk]⟩
    · rw [quickDelete_nonmember hy, quickDelete_nonmember (fun h => hy ((hids y).2 h))]; exact ⟨hst, rfl⟩

/-! ## what a restored server contains -/

theorem foldl_setInsert {l acc : List F} (h : (l.reverse ++ acc).Nodup) :
    l.foldl setInsert acc = l.reverse ++ acc := by
  induction l generalizing acc with
  | nil => rfl
  | cons x l ih =>
    simp only [List.reverse_cons, List.append_assoc, List.singleton_append] at h ⊢
    have hx : x ∉ acc := by
      have := (List.nodup_append.1 h).2.1
      exact (List.nodup_cons.1 this).1
    rw [List.foldl_cons, show setInsert acc x = x :: acc by simp [setInsert, hx]]
    rw [ih h]

theorem foldl_mapInsert {l acc : List (F × G1)} (h : ((l.reverse ++ acc).map (·.1)).Nodup) :
    l.foldl (fun m p => mapInsert m p.1 p.2) acc = l.reverse ++ acc := by
  induction l generalizing acc with
  | nil => rfl
  | cons x l ih =>
    simp only [List.reverse_cons, List.append_assoc, List.singleton_append] at h ⊢
    have hx : x.1 ∉ acc.map (·.1) := by
      rw [List.map_append] at h
      have := (List.nodup_append.1 h).2.1
      exact (List.nodup_cons.1 this).1
    have he : mapErase acc x.1 = acc := by
      rw [mapErase, List.filter_eq_self]
      intro p hp
      simp only [ne_eq, decide_not, Bool.not_eq_eq_eq_not, Bool.not_true, decide_eq_false_iff_not]
      intro e
      exact hx (List.mem_map.2 ⟨p, hp, e⟩)
    rw [List.foldl_cons, mapInsert, he]
    rw [ih h]

/-- C69: a server that is written and read back is the same server: all fields are the same, the set and
the map have the same entries, whatever the order in which they are iterated. -/
theorem C69_restore (f : Bare F) (g1 : Bare G1) (g2 : Bare G2) (hf : f.Lawful) (h1 : g1.Lawful)
    (h2 : g2.Lawful) (s : Server F G1 G2) (hs : WF s) (users : List F) (wits : List (F × G1))
    (hu : users.Perm s.allUsers) (hw : wits.Perm s.allWitnesses) :
    ∃ s', fromSlice (serverDec f g1 g2) (serverEnc f g1 g2 (fun _ => users) (fun _ => wits) s) = some s' ∧
      SameContent s s' ∧ WF s' := by
  have hun : users.Nodup := hu.nodup_iff.2 hs.users
  have hwn : (wits.map (·.1)).Nodup := (hw.map _).nodup_iff.2 hs.ids
  have eu : users.foldl setInsert [] = users.reverse := by
    rw [foldl_setInsert] <;> simp [hun]
  have ew : wits.foldl (fun m p => mapInsert m p.1 p.2) [] = wits.reverse := by
    rw [foldl_mapInsert]
    · simp
    · simpa [List.map_reverse] using hwn
  have r1 := fun r => vec_reads (b := g1) (l := s.accumulators) (fun v _ => h1 v) r
  have r2 := fun r => hf s.witnessSecretKey r
  have r3 := fun r => publicKeys_lawful h2 s.publicKeys r
  have r4 := fun r => hf s.signSecretKey r
  have r5 := fun r => vec_reads (b := f) (l := users) (fun v _ => hf v) r
  have r6 := fun r => vec_reads (b := both f g1) (l := wits) (fun v _ => both_lawful hf h1 v) r
  have r7 := vec_reads (b := f) (l := s.deletions) (fun v _ => hf v) []
  rw [List.append_nil] at r7
  refine ⟨{ s with allUsers := users.reverse, allWitnesses := wits.reverse }, ?_, ?_, ?_⟩
  · simp only [fromSlice, serverEnc, serverDec, bind, Option.bind, pure]
    rw [r1]; simp only []
    rw [r2]; simp only []
    rw [r3]; simp only []
    rw [r4]; simp only []
    rw [r5]; simp only []
    rw [r6]; simp only []
    rw [r7]; simp only [eu, ew]
  · exact ⟨rfl, rfl, rfl, rfl, rfl, (hu.symm.trans (List.reverse_perm users).symm),
      (hw.symm.trans (List.reverse_perm wits).symm)⟩
  · refine ⟨List.nodup_reverse.2 hun, ?_⟩
    simpa [Server.ids, List.map_reverse] using hwn

/-! ## conversations -/

/-- The calls of `Server`'s interface. -/
inductive Call (F G1 : Type)
  | change (op : Op F)
  | witness (y challenge response : F) (userPubKey : G1)
  | update (numEpochs : Nat) (yShares : List F)
  | epoch
  | accumulator
  | publicKeys

/-- The answers. -/
inductive Ans (F G1 G2 : Type)
  | change (r : Option G1)
  | witness (r : Option (G1 × G1))
  | update (r : List F × List G1)
  | epoch (n : Nat)
  | accumulator (V : G1)
  | publicKeys (k : PublicKeys G2)

/-- One call to a server. -/
def Server.call (H : Oracle F) (enc : Enc G1 G2 GT) (params : AccParams G1 G2) (s : Server F G1 G2) :
    Call F G1 → Rust (Server F G1 G2 × Ans F G1 G2)
  | .change op => do
    let (s', r) ← s.step op
    pure (s', .change r)
  | .witness y c r k => do
    let a ← s.witness H enc params y c r k
    pure (s, .witness a)
  | .update n ys => do
    let a ← s.update n ys
    pure (s, .update a)
  | .epoch => pure (s, .epoch s.getEpoch)
  | .accumulator => do
    let a ← s.getAccumulator
    pure (s, .accumulator a)
  | .publicKeys => pure (s, .publicKeys s.getPublicKeys)

/-- What can happen to a server: a call, or it is written to a file, stopped, and started again from the
file (the set and the map were iterated in the given orders). -/
inductive Event (F G1 : Type)
  | call (c : Call F G1)
  | restart (ordU : List F → List F) (ordW : List (F × G1) → List (F × G1))

/-- An iteration order visits every entry once. -/
def Event.Ok : Event F G1 → Prop
  | .call _ => True
  | .restart ordU ordW => (∀ l, (ordU l).Perm l) ∧ (∀ l, (ordW l).Perm l)

def Event.isCall : Event F G1 → Bool
  | .call _ => true
  | .restart _ _ => false

/-- The answers given in a history; it ends at the first panic, or when a file cannot be read. -/
def talk (H : Oracle F) (enc : Enc G1 G2 GT) (params : AccParams G1 G2) (f : Bare F) (g1 : Bare G1)
    (g2 : Bare G2) : Server F G1 G2 → List (Event F G1) → List (Option (Rust (Ans F G1 G2)))
  | _, [] => []
  | s, .call c :: es =>
    match s.call H enc params c with
    | .ok (s', a) => some (.ok a) :: talk H enc params f g1 g2 s' es
    | .error e => [some (.error e)]
  | s, .restart ordU ordW :: es =>
    match fromSlice (serverDec f g1 g2) (serverEnc f g1 g2 ordU ordW s) with
    | some s' => talk H enc params f g1 g2 s' es
    | none => [none]

theorem same_call (H : Oracle F) (enc : Enc G1 G2 GT) (params : AccParams G1 G2) {s t : Server F G1 G2}
    (hst : SameContent s t) (hs : WF s) (c : Call F G1) :
    Agree SameContent (s.call H enc params c) (t.call H enc params c) := by
  cases c with
  | change op =>
    have := same_step hst hs op
    simp only [Server.call, bind, Except.bind, pure, Except.pure]
    cases h1 : s.step op <;> cases h2 : t.step op <;> rw [h1, h2] at this
    · exact this
    · exact this.elim
    · exact this.elim
    · exact ⟨this.1, by rw [this.2]⟩
  | witness y c r k =>
    have : s.witness H enc params y c r k = t.witness H enc params y c r k := by
      simp only [Server.witness, mapContains_perm hst.wits, mapGet_perm hst.wits hs.ids, hst.signSecretKey]
    simp only [Server.call, this, bind, Except.bind, pure, Except.pure]
    cases t.witness H enc params y c r k
    · rfl
    · exact ⟨hst, rfl⟩
  | update n ys =>
    have hb : updateBody s ys = updateBody t ys := by
      funext st
      simp only [updateBody, hst.deletions, hst.accumulators]
    have : s.update n ys = t.update n ys := by
      simp only [Server.update, updateFuel, hb, hst.deletions, hst.accumulators]
    simp only [Server.call, this, bind, Except.bind, pure, Except.pure]
    cases t.update n ys
    · rfl
    · exact ⟨hst, rfl⟩
  | epoch => exact ⟨hst, by simp [getEpoch, hst.accumulators]⟩
  | accumulator =>
    have : s.getAccumulator = t.getAccumulator := by simp [getAccumulator, hst.accumulators]
    simp only [Server.call, this, bind, Except.bind, pure, Except.pure]
    cases t.getAccumulator
    · rfl
    · exact ⟨hst, rfl⟩
  | publicKeys => exact ⟨hst, by simp [getPublicKeys, hst.publicKeys]⟩

theorem wf_call (H : Oracle F) (enc : Enc G1 G2 GT) (params : AccParams G1 G2) {s s' : Server F G1 G2}
    (hs : WF s) {c : Call F G1} {a : Ans F G1 G2} (h : s.call H enc params c = .ok (s', a)) : WF s' := by
  cases c with
  | change op =>
    simp only [Server.call, bind, Except.bind, pure, Except.pure] at h
    cases h1 : s.step op <;> rw [h1] at h
    · simp at h
    · simp only [Except.ok.injEq, Prod.mk.injEq] at h
      next p => exact h.1 ▸ wf_step hs (s' := p.1) (r := p.2) h1
  | witness y c r k =>
    simp only [Server.call, bind, Except.bind, pure, Except.pure] at h
    split at h
    · simp at h
    · simp only [Except.ok.injEq, Prod.mk.injEq] at h; exact h.1 ▸ hs
  | update n ys =>
    simp only [Server.call, bind, Except.bind, pure, Except.pure] at h
    split at h
    · simp at h
    · simp only [Except.ok.injEq, Prod.mk.injEq] at h; exact h.1 ▸ hs
  | epoch =>
    simp only [Server.call, pure, Except.pure, Except.ok.injEq, Prod.mk.injEq] at h; exact h.1 ▸ hs
  | accumulator =>
    simp only [Server.call, bind, Except.bind, pure, Except.pure] at h
    split at h
    · simp at h
    · simp only [Except.ok.injEq, Prod.mk.injEq] at h; exact h.1 ▸ hs
  | publicKeys =>
    simp only [Server.call, pure, Except.pure, Except.ok.injEq, Prod.mk.injEq] at h; exact h.1 ▸ hs

theorem talk_same (H : Oracle F) (enc : Enc G1 G2 GT) (params : AccParams G1 G2) (f : Bare F) (g1 : Bare G1)
    (g2 : Bare G2) (hf : f.Lawful) (h1 : g1.Lawful) (h2 : g2.Lawful) (es : List (Event F G1))
    (ho : ∀ e ∈ es, e.Ok) (s t : Server F G1 G2) (hs : WF s) (ht : WF t) (hst : SameContent s t) :
    talk H enc params f g1 g2 s es = talk H enc params f g1 g2 t (es.filter Event.isCall) := by
  induction es generalizing s t with
  | nil => rfl
  | cons e es ih =>
    have ih := fun s t => ih (fun e he => ho e (by simp [he])) s t
    cases e with
    | call c =>
      have hc := same_call H enc params hst hs c
      rw [List.filter_cons_of_pos (by rfl)]
      simp only [talk]
      cases e1 : s.call H enc params c <;> cases e2 : t.call H enc params c <;> rw [e1, e2] at hc
      · next e1' e2' =>
        have : e1' = e2' := hc
        simp [talk, e2, this, Event.isCall]
      · exact hc.elim
      · exact hc.elim
      · next p q =>
        obtain ⟨hR, ha⟩ := (hc : SameContent p.1 q.1 ∧ p.2 = q.2)
        simp only [ha, e1, e2]
        rw [ih p.1 q.1 (wf_call H enc params hs (a := p.2) e1) (wf_call H enc params ht (a := q.2) e2) hR]
    | restart ordU ordW =>
      have hok : Event.Ok (.restart ordU ordW) := ho _ (by simp)
      obtain ⟨pU, pW⟩ := hok
      obtain ⟨s', hd, hss, hs'⟩ := C69_restore f g1 g2 hf h1 h2 s hs (ordU s.allUsers) (ordW s.allWitnesses)
        (pU _) (pW _)
      have he : serverEnc f g1 g2 ordU ordW s =
        serverEnc f g1 g2 (fun _ => ordU s.allUsers) (fun _ => ordW s.allWitnesses) s := rfl
      have hst' : SameContent s' t :=
        ⟨hss.accumulators.symm.trans hst.accumulators, hss.witnessSecretKey.symm.trans hst.witnessSecretKey,
          hss.publicKeys.symm.trans hst.publicKeys, hss.signSecretKey.symm.trans hst.signSecretKey,
          hss.deletions.symm.trans hst.deletions, hss.users.symm.trans hst.users, hss.wits.symm.trans hst.wits⟩
      simp only [talk, he, hd, Event.isCall]
      rw [ih s' t hs' ht hst']
      rfl

/-- C69: a server started with `Server::new`, used by any sequence of calls and saved and restored any
number of times in between, gives exactly the answers it gives without being saved and restored. -/
theorem C69_transparent (H : Oracle F) (enc : Enc G1 G2 GT) (params : AccParams G1 G2) (f : Bare F)
    (g1 : Bare G1) (g2 : Bare G2) (hf : f.Lawful) (h1 : g1.Lawful) (h2 : g2.Lawful) (α sM v : F)
    (events : List (Event F G1)) (ho : ∀ e ∈ events, e.Ok) :
    talk H enc params f g1 g2 (Server.new params α sM v) events
      = talk H enc params f g1 g2 (Server.new params α sM v) (events.filter Event.isCall) :=
  talk_same H enc params f g1 g2 hf h1 h2 events ho _ _ (wf_new params α sM v) (wf_new params α sM v)
    ⟨rfl, rfl, rfl, rfl, rfl, List.Perm.refl _, List.Perm.refl _⟩

/-- C69: every server that is read, from any bytes (with or without bytes left over), is well formed: no
key occurs twice, even if the file says so. -/
theorem C69_read_wf (f : Bare F) (g1 : Bare G1) (g2 : Bare G2) (b r : Bytes) (s : Server F G1 G2)
    (hd : serverDec f g1 g2 b = some (s, r)) : WF s := by
  have hU : ∀ (l acc : List F), acc.Nodup → (l.foldl setInsert acc).Nodup := by
    intro l
    induction l with
    | nil => exact fun _ h => h
    | cons x l ih => exact fun acc h => ih _ (nodup_setInsert h x)
  have hW : ∀ (l acc : List (F × G1)), (acc.map (·.1)).Nodup →
      ((l.foldl (fun m p => mapInsert m p.1 p.2) acc).map (·.1)).Nodup := by
    intro l
    induction l with
    | nil => exact fun _ h => h
    | cons x l ih => exact fun acc h => ih _ (nodup_mapInsert h x.1 x.2)
  simp only [serverDec, Option.bind_eq_bind, Option.bind_eq_some_iff] at hd
  obtain ⟨_, -, _, -, _, -, _, -, _, -, _, -, _, -, hd⟩ := hd
  simp only [Option.pure_def, Option.some.injEq, Prod.mk.injEq] at hd
  rw [← hd.1]
  exact ⟨hU _ _ List.nodup_nil, hW _ _ List.nodup_nil⟩

/-! ## sizes -/

/-- every value takes `n` bytes -/
def Bare.Size {α : Type} (b : Bare α) (n : Nat) : Prop := ∀ x, (b.enc x).length = n

theorem seqEnc_length {α : Type} {b : Bare α} {n : Nat} (h : b.Size n) (l : List α) :
    (seqEnc b l).length = n * l.length := by
  induction l with
  | nil => simp [seqEnc]
  | cons x l ih => simp [seqEnc, ih, h x]; ring

/-- number of bytes of a length: one per seven bits -/
theorem uintEnc_length (n k : Nat) (h1 : n < 128 ^ (k + 1)) (h0 : k = 0 ∨ 128 ^ k ≤ n) :
    (uintEnc n).length = k + 1 := by
  induction k generalizing n with
  | zero => rw [uintEnc, if_pos (by simpa using h1)]; rfl
  | succ k ih =>
    have h0 : 128 ^ (k + 1) ≤ n := by simpa using h0
    have hk : 128 ≤ 128 ^ (k + 1) := Nat.le_self_pow (by omega) 128
    rw [uintEnc, if_neg (by omega), List.length_cons, ih (n / 128)]
    · rw [Nat.div_lt_iff_lt_mul (by norm_num)]; rwa [pow_succ] at h1
    · by_cases hk0 : k = 0
      · exact Or.inl hk0
      · right
        rw [Nat.le_div_iff_mul_le (by norm_num), ← pow_succ]; exact h0

/-- C69: the bytes of the two messages of an update, with 32 bytes for a scalar and 48 for a point, written
by the derived implementations (C102 has the messages of benches/updates.rs): a request (the number of epochs and `L` shares) has
`8 + ℓ(L) + 32 L`, an
answer (`c` scalars and `c` points) `2 ℓ(c) + 80 c`, where `ℓ(n)` is 1 below 128 and 2 below 16384. -/
theorem C69_message_bytes (f : Bare F) (g1 : Bare G1) (hf : f.Size 32) (h1 : g1.Size 48) (d : Nat)
    (shares ds : List F) (vs : List G1) (hc : ds.length = vs.length) :
    ((both usize (vec f)).enc (d, shares)).length = 8 + (uintEnc shares.length).length + 32 * shares.length ∧
    ((both (vec f) (vec g1)).enc (ds, vs)).length = 2 * (uintEnc ds.length).length + 80 * ds.length ∧
    (∀ n, n < 128 → (uintEnc n).length = 1) ∧ (∀ n, 128 ≤ n → n < 16384 → (uintEnc n).length = 2) := by
  refine ⟨?_, ?_, fun n h => uintEnc_length n 0 (by simpa using h) (Or.inl rfl),
    fun n h h' => uintEnc_length n 1 (by simpa using h') (Or.inr (by simpa using h))⟩
  · simp only [both, vec, List.length_append, seqEnc_length hf]
    rw [show (usize.enc d).length = 8 from rfl]; ring
  · simp only [both, vec, List.length_append, seqEnc_length hf, seqEnc_length h1, hc]; ring

/-- C69: a `ProofParams` is written as its four points, 192 bytes (the literal in the crate's test at
src/accumulator/proof.rs:909 has this size), a credential proof as 432 and a membership proof as 304. -/
theorem C69_sizes (f : Bare F) (g1 : Bare G1) (hf : f.Size 32) (h1 : g1.Size 48) :
    (bareProofParams g1).Size 192 ∧ (bareCredProof f g1).Size 432 ∧ (bareMemProof f g1).Size 304 := by
  refine ⟨fun x => ?_, fun x => ?_, fun x => ?_⟩ <;>
    simp [bareProofParams, bareCredProof, bareMemProof, iso, both, hf _, h1 _]

end

/-! ## a concrete case -/

namespace SerdeExample

/-- one byte per element of the field with 251 elements -/
def byte : Bare (ZMod 251) := ⟨fun x => [UInt8.ofNat x.val], fun r =>
  match r with
  | [] => none
  | b :: r => some ((b.toNat : ZMod 251), r)⟩

theorem byte_lawful : byte.Lawful := by
  intro x r
  have : x.val < 256 := lt_trans (ZMod.val_lt x) (by norm_num)
  simp only [byte, List.cons_append, List.nil_append, toNat_ofNat_lt this]
  simp

instance : Fact (Nat.Prime 251) := ⟨by norm_num⟩

/-- a server is saved after two additions and a deletion; the file holds both users, although one was
deleted, and the remaining witness -/
def exampleServer : Server (ZMod 251) (ZMod 251) (ZMod 251) :=
  { accumulators := [10, 5], witnessSecretKey := 3, publicKeys := ⟨3, 4⟩, signSecretKey := 4,
    allUsers := [1, 7], allWitnesses := [(7, 126)], deletions := [1] }

example : WF exampleServer := ⟨by decide +kernel, by decide +kernel⟩

/-- the file, with the set iterated in the opposite order -/
example : serverEnc byte byte byte List.reverse id exampleServer
    = [2, 10, 5, 3, 3, 4, 4, 2, 7, 1, 1, 7, 126, 1, 1] := by decide +kernel

/-- and the restored server still refuses to add 7, and adds 1 again -/
example : ∃ s', fromSlice (serverDec byte byte byte) [2, 10, 5, 3, 3, 4, 4, 2, 7, 1, 1, 7, 126, 1, 1] = some s' ∧
    s'.deletions = [1] ∧ s'.allUsers = [1, 7] := by
  refine ⟨{ exampleServer with allUsers := [1, 7] }, ?_, rfl, rfl⟩
  rfl

/-- bytes that stop early are not accepted -/
example : fromSlice (serverDec byte byte byte) [2, 10, 5, 3, 3, 4, 4, 2, 7, 1, 1, 7, 126, 1] = none := by rfl

/-- the hypotheses of `C69_transparent` hold for a history with a restart -/
example : ∀ e ∈ [Event.call (.change (.add (1 : ZMod 251))), .restart List.reverse List.reverse,
    (.call (.update 1 [2, 3]) : Event (ZMod 251) (ZMod 251))], e.Ok := by
  intro e he
  simp only [List.mem_cons, List.not_mem_nil, or_false] at he
  rcases he with rfl | rfl | rfl
  · trivial
  · exact ⟨List.reverse_perm, List.reverse_perm⟩
  · trivial

end SerdeExample
end Allo
