import Verif.Model.HashTable
import Verif.Props.Serde
import Verif.Props.Examples

/-!
# C80: hashing of the ids does not matter
-/

set_option linter.unusedSectionVars false
set_option linter.unusedVariables false
set_option linter.unusedSimpArgs false
namespace Allo
open Spec Server

namespace Table
section
variable {F V : Type} [DecidableEq F] (hash : F → Nat)

/-- What the table maintains. -/
structure WF (t : Table F V) : Prop where
  pos : 0 < t.buckets.length
  placed : ∀ i b, t.buckets[i]? = some b → ∀ p ∈ b, hash p.1 % t.buckets.length = i
  nodup : (t.entries.map (·.1)).Nodup

variable {hash}

/-- The bucket of a key, and the others, which do not contain it. -/
theorem WF.split {t : Table F V} (h : t.WF hash) (y : F) :
    ∃ a b c, t.buckets = a ++ b :: c ∧ a.length = t.slot hash y ∧
      (∀ p ∈ a.flatten, p.1 ≠ y) ∧ (∀ p ∈ c.flatten, p.1 ≠ y) := by
  have hi : t.slot hash y < t.buckets.length := Nat.mod_lt _ h.pos
  refine ⟨t.buckets.take (t.slot hash y), t.buckets[t.slot hash y], t.buckets.drop (t.slot hash y + 1), ?_, ?_, ?_, ?_⟩
  · rw [List.getElem_cons_drop]; exact (List.take_append_drop _ _).symm
  · rw [List.length_take]; omega
  · intro p hp hpy
    obtain ⟨b, hb, hpb⟩ := List.mem_flatten.1 hp
    obtain ⟨i, hi', hbi⟩ := List.getElem_of_mem hb
    rw [List.length_take] at hi'
    have := h.placed i b (by rw [← hbi, List.getElem_take, List.getElem?_eq_getElem]) p hpb
    rw [hpy] at this
    have e : t.slot hash y = i := this
    omega
  · intro p hp hpy
    obtain ⟨b, hb, hpb⟩ := List.mem_flatten.1 hp
    obtain ⟨i, hi', hbi⟩ := List.getElem_of_mem hb
    rw [List.length_drop] at hi'
    have := h.placed (t.slot hash y + 1 + i) b
      (by rw [← hbi, List.getElem_drop, List.getElem?_eq_getElem]) p hpb
    rw [hpy] at this
    have e : t.slot hash y = t.slot hash y + 1 + i := this
    omega

theorem modify_split {α : Type} (a c : List α) (b : α) (f : α → α) :
    (a ++ b :: c).modify a.length f = a ++ f b :: c := by
  rw [List.modify_eq_take_cons_drop (by simp)]
  simp

theorem get_split {t : Table F V} {a b c} (h : t.buckets = a ++ b :: c) (n : Nat) (hn : a.length = n) :
    t.buckets.getD n [] = b := by
  subst hn
  rw [h]; simp

theorem erase_split {a b c : List (F × V)} {y : F} (ha : ∀ p ∈ a, p.1 ≠ y) (hc : ∀ p ∈ c, p.1 ≠ y) :
    mapErase (a ++ (b ++ c)) y = a ++ (mapErase b y ++ c) := by
  unfold mapErase
  have e1 : a.filter (fun p => decide (p.1 ≠ y)) = a := List.filter_eq_self.2 (fun p hp => by simpa using ha p hp)
  have e2 : c.filter (fun p => decide (p.1 ≠ y)) = c := List.filter_eq_self.2 (fun p hp => by simpa using hc p hp)
  rw [List.filter_append, List.filter_append, e1, e2]

theorem get_eq {t : Table F V} (h : t.WF hash) (y : F) : t.get hash y = mapGet t.entries y := by
  obtain ⟨a, b, c, e, hl, ha, hc⟩ := h.split y
  have na : a.flatten.find? (fun p => decide (p.1 = y)) = none := by
    rw [List.find?_eq_none]; intro p hp; simpa using ha p hp
  have nc : c.flatten.find? (fun p => decide (p.1 = y)) = none := by
    rw [List.find?_eq_none]; intro p hp; simpa using hc p hp
  rw [get, get_split e _ hl, entries, e, mapGet, mapGet]
  simp only [List.flatten_append, List.flatten_cons, List.find?_append, na, nc, Option.none_or, Option.or_none]

theorem contains_eq {t : Table F V} (h : t.WF hash) (y : F) : t.contains hash y = mapContains t.entries y := by
  obtain ⟨a, b, c, e, hl, ha, hc⟩ := h.split y
  have na : a.flatten.any (fun p => decide (p.1 = y)) = false := by
    rw [List.any_eq_false]; intro p hp; simpa using ha p hp
  have nc : c.flatten.any (fun p => decide (p.1 = y)) = false := by
    rw [List.any_eq_false]; intro p hp; simpa using hc p hp
  rw [contains, get_split e _ hl, entries, e, mapContains, mapContains]
  simp only [List.flatten_append, List.flatten_cons, List.any_append, na, nc, Bool.false_or, Bool.or_false]

theorem entries_remove {t : Table F V} (h : t.WF hash) (y : F) : (t.remove hash y).entries = mapErase t.entries y := by
  obtain ⟨a, b, c, e, hl, ha, hc⟩ := h.split y
  simp only [remove, entries, ← hl]
  rw [e, modify_split]
  simp only [List.flatten_append, List.flatten_cons]
  rw [erase_split ha hc]

theorem entries_insert {t : Table F V} (h : t.WF hash) (y : F) (v : V) :
    (t.insert hash y v).entries.Perm (mapInsert t.entries y v) := by
  obtain ⟨a, b, c, e, hl, ha, hc⟩ := h.split y
  simp only [insert, entries, ← hl]
  rw [e, modify_split]
  simp only [List.flatten_append, List.flatten_cons]
  simp only [mapInsert]
  rw [erase_split ha hc]
  exact List.perm_middle

theorem placed_modify {t : Table F V} (h : t.WF hash) (y : F) (f : List (F × V) → List (F × V))
    (hf : ∀ b, ∀ p ∈ f b, p ∈ b ∨ p.1 = y) :
    ∀ i b, (t.buckets.modify (t.slot hash y) f)[i]? = some b → ∀ p ∈ b, hash p.1 % t.buckets.length = i := by
  intro i b hb p hp
  rw [List.getElem?_modify] at hb
  by_cases hi : t.slot hash y = i
  · subst hi
    cases hg : t.buckets[t.slot hash y]? with
    | none => rw [hg] at hb; simp at hb
    | some b' =>
      rw [hg] at hb
      simp only [if_true, Option.map_eq_map, Option.map_some, Option.some.injEq] at hb
      subst hb
      rcases hf b' p hp with hp | hp
      · exact h.placed _ b' hg p hp
      · rw [hp]; rfl
  · cases hg : t.buckets[i]? with
    | none => rw [hg] at hb; simp at hb
    | some b' =>
      rw [hg] at hb
      simp only [hi, if_false, Option.map_eq_map, Option.map_some, Option.some.injEq, id] at hb
      subst hb
      exact h.placed _ b' hg p hp

theorem wf_remove {t : Table F V} (h : t.WF hash) (y : F) : (t.remove hash y).WF hash where
  pos := by simpa [remove] using h.pos
  placed := by
    simp only [remove, List.length_modify]
    exact placed_modify h y _ (fun b p hp => .inl (List.mem_of_mem_filter hp))
  nodup := by
    rw [entries_remove h, mapErase_keys]
    exact h.nodup.filter _

theorem wf_insert {t : Table F V} (h : t.WF hash) (y : F) (v : V) : (t.insert hash y v).WF hash where
  pos := by simpa [insert] using h.pos
  placed := by
    simp only [insert, List.length_modify]
    refine placed_modify h y _ (fun b p hp => ?_)
    rcases List.mem_cons.1 hp with hp | hp
    · right; rw [hp]
    · exact .inl (List.mem_of_mem_filter hp)
  nodup := by
    rw [((entries_insert h y v).map _).nodup_iff]
    simp only [mapInsert, List.map_cons, List.nodup_cons]
    rw [mapErase_keys]
    exact ⟨by simp, h.nodup.filter _⟩

theorem entries_empty (n : Nat) : (empty n : Table F V).entries = [] := by
  simp [empty, entries]

theorem wf_empty {n : Nat} (hn : 0 < n) : (empty n : Table F V).WF hash where
  pos := by simpa [empty] using hn
  placed := by
    intro i b hb p hp
    simp only [empty, List.getElem?_replicate] at hb
    split at hb
    · simp only [Option.some.injEq] at hb; subst hb; simp at hp
    · simp at hb
  nodup := by simp [entries_empty]

theorem resize_spec {t : Table F V} (h : t.WF hash) {n : Nat} (hn : 0 < n) :
    (t.resize hash n).WF hash ∧ (t.resize hash n).entries.Perm t.entries := by
  have key : ∀ (l : List (F × V)) (t' : Table F V), t'.WF hash → ((l ++ t'.entries).map (·.1)).Nodup →
      (l.foldl (fun t p => t.insert hash p.1 p.2) t').WF hash ∧
      (l.foldl (fun t p => t.insert hash p.1 p.2) t').entries.Perm (l ++ t'.entries) := by
    intro l
    induction l with
    | nil => intro t' h' _; exact ⟨h', List.Perm.refl _⟩
    | cons p l ih =>
      intro t' h' hnd
      have hp : p.1 ∉ (l ++ t'.entries).map (·.1) := by
        simp only [List.cons_append, List.map_cons, List.nodup_cons] at hnd; exact hnd.1
      have hnd' : ((l ++ t'.entries).map (·.1)).Nodup := by
        simp only [List.cons_append, List.map_cons, List.nodup_cons] at hnd; exact hnd.2
      have he : mapErase t'.entries p.1 = t'.entries := by
        rw [mapErase, List.filter_eq_self]
        intro q hq
        simp only [ne_eq, decide_not, Bool.not_eq_eq_eq_not, Bool.not_true, decide_eq_false_iff_not]
        intro e
        apply hp
        rw [List.map_append]
        exact List.mem_append_right _ (List.mem_map.2 ⟨q, hq, e⟩)
      have hperm : (t'.insert hash p.1 p.2).entries.Perm (p :: t'.entries) := by
        have := entries_insert h' p.1 p.2
        rwa [mapInsert, he] at this
      have hl : (l ++ (t'.insert hash p.1 p.2).entries).Perm (p :: (l ++ t'.entries)) :=
        (List.Perm.append_left l hperm).trans List.perm_middle
      obtain ⟨w, hw⟩ := ih (t'.insert hash p.1 p.2) (wf_insert h' _ _) (by
        rw [(hl.map _).nodup_iff]; exact hnd)
      exact ⟨w, hw.trans hl⟩
  have := key t.entries (empty n) (wf_empty hn) (by rw [entries_empty, List.append_nil]; exact h.nodup)
  rw [entries_empty, List.append_nil] at this
  exact this

theorem iterMut_spec {t : Table F V} (h : t.WF hash) (f : F × V → Rust (F × V)) (g : F × V → F × V)
    (hf : ∀ p ∈ t.entries, f p = .ok (g p)) (hg : ∀ p, (g p).1 = p.1) :
    ∃ t', t.iterMut f = .ok t' ∧ t'.WF hash ∧ t'.entries = t.entries.map g := by
  have m1 : ∀ (b : List (F × V)), (∀ p ∈ b, f p = .ok (g p)) → b.mapM f = .ok (b.map g) := by
    intro b
    induction b with
    | nil => intro _; rfl
    | cons p b ih =>
      intro hb
      rw [List.mapM_cons, hb p (by simp), ih (fun q hq => hb q (by simp [hq]))]
      rfl
  have m2 : ∀ (bs : List (List (F × V))), (∀ b ∈ bs, ∀ p ∈ b, f p = .ok (g p)) →
      bs.mapM (fun b => b.mapM f) = .ok (bs.map (List.map g)) := by
    intro bs
    induction bs with
    | nil => intro _; rfl
    | cons b bs ih =>
      intro hb
      rw [List.mapM_cons, m1 b (hb b (by simp)), ih (fun q hq => hb q (by simp [hq]))]
      rfl
  refine ⟨⟨t.buckets.map (List.map g)⟩, ?_, ⟨?_, ?_, ?_⟩, ?_⟩
  · rw [iterMut, m2 t.buckets (fun b hb p hp => hf p (List.mem_flatten.2 ⟨b, hb, hp⟩))]
    rfl
  · simpa using h.pos
  · intro i b hb p hp
    rw [List.length_map]
    rw [List.getElem?_map] at hb
    cases hg' : t.buckets[i]? with
    | none => rw [hg'] at hb; simp at hb
    | some b' =>
      rw [hg'] at hb
      simp only [Option.map_some, Option.some.injEq] at hb
      subst hb
      obtain ⟨q, hq, rfl⟩ := List.mem_map.1 hp
      rw [hg]
      exact h.placed i b' hg' q hq
  · have : (t.entries.map g).map (·.1) = t.entries.map (·.1) := by
      rw [List.map_map]; exact List.map_congr_left (fun p _ => hg p)
    have e : (⟨t.buckets.map (List.map g)⟩ : Table F V).entries = t.entries.map g := by
      simp [entries, List.map_flatten]
    rw [e, this]
    exact h.nodup
  · simp [entries, List.map_flatten]

end
end Table

section
variable {F G1 G2 GT : Type} [Field F] [DecidableEq F] [AddCommGroup G1] [Module F G1]
  [AddCommGroup G2] [Module F G2] [AddCommGroup GT] [Module F GT]

/-- Both tables of a server are well formed. -/
structure HServer.WF (hash : F → Nat) (s : HServer F G1 G2) : Prop where
  users : s.allUsers.WF hash
  wits : s.allWitnesses.WF hash

/-- The two outcomes of a call agree: the same result (or the same panic), and states with the same content. -/
def HAgree (hash : F → Nat) {α : Type} : Rust (HServer F G1 G2 × α) → Rust (Server F G1 G2 × α) → Prop
  | .ok (s, a), .ok (t, b) => s.WF hash ∧ SameContent s.toServer t ∧ a = b
  | .error e, .error e' => e = e'
  | _, _ => False

theorem hstep_self (hash : F → Nat) (s : HServer F G1 G2) (hs : s.WF hash) (op : Op F) :
    HAgree hash (s.step hash op) (s.toServer.step op) := by
  have hc := fun y => Table.contains_eq hs.wits y
  have hg := fun y => Table.get_eq hs.wits y
  have refl : SameContent s.toServer s.toServer := ⟨rfl, rfl, rfl, rfl, rfl, List.Perm.refl _, List.Perm.refl _⟩
  cases op with
  | add y =>
    simp only [HServer.step, HServer.add, Server.step, Server.add, hc]
    simp only [HServer.toServer]
    by_cases hy : mapContains s.allWitnesses.entries y = true
    · simp only [hy, if_true]; exact ⟨hs, refl, rfl⟩
    · simp only [hy, if_false]
      cases s.accumulators.getLast? with
      | none => exact rfl
      | some V =>
        by_cases h0 : y + s.witnessSecretKey = 0
        · simp only [unwrap, inv!, invert?, h0, if_true, bind, Except.bind, pure, Except.pure]; exact rfl
        · simp only [unwrap, inv!, invert?, h0, if_false, bind, Except.bind, pure, Except.pure]
          refine ⟨⟨?_, Table.wf_insert hs.wits _ _⟩, ⟨rfl, rfl, rfl, rfl, rfl, ?_, Table.entries_insert hs.wits _ _⟩, rfl⟩
          · split
            · exact hs.users
            · exact Table.wf_insert hs.users _ _
          · simp only [HServer.toServer, Table.contains_eq hs.users]
            by_cases hu : mapContains s.allUsers.entries y = true
            · rw [if_pos hu]
              rw [mapContains_iff] at hu
              rw [setInsert, if_pos hu]
            · rw [if_neg hu]
              rw [mapContains_iff] at hu
              rw [setInsert, if_neg hu]
              have := (Table.entries_insert hs.users y ()).map (·.1)
              refine this.trans ?_
              rw [mapInsert, List.map_cons, mapErase_keys]
              rw [List.filter_eq_self.2 (fun x hx => by
                simp only [ne_eq, decide_not, Bool.not_eq_eq_eq_not, Bool.not_true, decide_eq_false_iff_not]
                rintro rfl; exact hu hx)]
  | delete y =>
    simp only [HServer.step, HServer.delete, Server.step, Server.delete, hg]
    simp only [HServer.toServer]
    cases hm : mapGet s.allWitnesses.entries y with
    | none => exact ⟨hs, refl, rfl⟩
    | some C =>
      have hd : Server.delete s.toServer y = _ := delete_member (s := s.toServer) (y := y) (C := C) hm
      simp only [Server.delete, HServer.toServer, hm] at hd
      simp only []
      rw [hd]
      obtain ⟨t', e1, e2, e3⟩ := Table.iterMut_spec (Table.wf_remove hs.wits y)
        (fun p => do
          let i ← inv! (y - p.1)
          let t := i • (p.2 - C)
          pure (p.1, t)) (fun p => (p.1, (y - p.1)⁻¹ • (p.2 - C))) (by
          intro p hp
          rw [Table.entries_remove hs.wits, mem_mapErase] at hp
          have : y - p.1 ≠ 0 := fun h => hp.2 (sub_eq_zero.1 h).symm
          simp only [inv!, invert?, this, if_false, unwrap, bind, Except.bind, pure, Except.pure]) (fun _ => rfl)
      rw [e1]
      refine ⟨⟨hs.users, e2⟩, ⟨rfl, rfl, rfl, rfl, rfl, List.Perm.refl _, ?_⟩, rfl⟩
      simp only [HServer.toServer, e3, Table.entries_remove hs.wits]
      exact List.Perm.refl _
  | quickDelete y =>
    simp only [HServer.step, HServer.quickDelete, Server.step, Server.quickDelete, hc]
    simp only [HServer.toServer]
    by_cases hy : mapContains s.allWitnesses.entries y = true
    · simp only [hy, Bool.not_true, if_false]
      cases s.accumulators.getLast? with
      | none => exact rfl
      | some V =>
        by_cases h0 : y + s.witnessSecretKey = 0
        · simp only [unwrap, inv!, invert?, h0, if_true, bind, Except.bind, pure, Except.pure]; exact rfl
        · simp only [unwrap, inv!, invert?, h0, if_false, bind, Except.bind, pure, Except.pure]
          refine ⟨⟨hs.users, Table.wf_remove hs.wits _⟩, ⟨rfl, rfl, rfl, rfl, rfl, List.Perm.refl _, ?_⟩, rfl⟩
          simp only [HServer.toServer, Table.entries_remove hs.wits]
          exact List.Perm.refl _
    · simp only [hy, Bool.not_false, if_true]; exact ⟨hs, refl, rfl⟩

/-- What happens to a server: a call, or its tables are moved. -/
inductive HEvent (F : Type)
  | call (op : Op F)
  | resize (n m : Nat)

/-- The answers of the server with hash tables. -/
def htalk (hash : F → Nat) : HServer F G1 G2 → List (HEvent F) → List (Rust (Option G1)) × HServer F G1 G2
  | s, [] => ([], s)
  | s, .call op :: es =>
    match s.step hash op with
    | .ok (s', a) => ((.ok a) :: (htalk hash s' es).1, (htalk hash s' es).2)
    | .error e => ([.error e], s)
  | s, .resize n m :: es => htalk hash (s.resize hash n m) es

/-- The answers of the server with association lists; the tables have no meaning there. -/
def ltalk : Server F G1 G2 → List (HEvent F) → List (Rust (Option G1)) × Server F G1 G2
  | s, [] => ([], s)
  | s, .call op :: es =>
    match s.step op with
    | .ok (s', a) => ((.ok a) :: (ltalk s' es).1, (ltalk s' es).2)
    | .error e => ([.error e], s)
  | s, .resize _ _ :: es => ltalk s es

theorem same_trans {a b c : Server F G1 G2} (h : SameContent a b) (h' : SameContent b c) : SameContent a c :=
  ⟨h.1.trans h'.1, h.2.trans h'.2, h.3.trans h'.3, h.4.trans h'.4, h.5.trans h'.5, h.6.trans h'.6, h.7.trans h'.7⟩

/-- **C80** (main statement). For every hash function, number of buckets, history of `add`, `delete` and
`quick_delete`, and however often and to whatever sizes the tables are moved in between: the server with hash tables
gives the answers (or the panic) of the model used in the other properties, and ends with the same content; its
answer to a request for a witness is the same too. -/
theorem C80_any_hash (hash : F → Nat) (n : Nat) (hn : 0 < n) (params : AccParams G1 G2) (α sM v : F)
    (es : List (HEvent F)) (hes : ∀ e ∈ es, ∀ a b, e = .resize a b → 0 < a ∧ 0 < b) :
    let hs := htalk hash (HServer.new n params α sM v) es
    let ls := ltalk (Server.new params α sM v) es
    hs.1 = ls.1 ∧ SameContent hs.2.toServer ls.2 ∧ hs.2.WF hash := by
  have key : ∀ (es : List (HEvent F)), (∀ e ∈ es, ∀ a b, e = .resize a b → 0 < a ∧ 0 < b) →
      ∀ (s : HServer F G1 G2) (t : Server F G1 G2), s.WF hash → SameContent s.toServer t →
      (htalk hash s es).1 = (ltalk t es).1 ∧ SameContent (htalk hash s es).2.toServer (ltalk t es).2 ∧
        (htalk hash s es).2.WF hash := by
    intro es
    induction es with
    | nil => intro _ s t hs hst; exact ⟨rfl, hst, hs⟩
    | cons e es ih =>
      intro hes s t hs hst
      have hes' : ∀ e ∈ es, ∀ a b, e = .resize a b → 0 < a ∧ 0 < b := fun e he => hes e (by simp [he])
      cases e with
      | call op =>
        have h1 := hstep_self hash s hs op
        have wf : WF s.toServer := ⟨hs.users.nodup, hs.wits.nodup⟩
        have h2 := same_step hst wf op
        simp only [htalk, ltalk]
        cases ha : s.step hash op with
        | error e1 =>
          cases hb : s.toServer.step op with
          | ok x => rw [ha, hb] at h1; exact h1.elim
          | error e2 =>
            cases hc : t.step op with
            | ok x => rw [hb, hc] at h2; exact h2.elim
            | error e3 =>
              rw [ha, hb] at h1
              rw [hb, hc] at h2
              have e12 : e1 = e2 := h1
              have e23 : e2 = e3 := h2
              subst e12 e23
              exact ⟨rfl, hst, hs⟩
        | ok x1 =>
          cases hb : s.toServer.step op with
          | error e2 => rw [ha, hb] at h1; exact h1.elim
          | ok x2 =>
            cases hc : t.step op with
            | error e3 => rw [hb, hc] at h2; exact h2.elim
            | ok x3 =>
              rw [ha, hb] at h1
              rw [hb, hc] at h2
              obtain ⟨s1, a1⟩ := x1
              obtain ⟨s2, a2⟩ := x2
              obtain ⟨s3, a3⟩ := x3
              obtain ⟨w, c1, e1⟩ := h1
              obtain ⟨c2, e2⟩ := h2
              subst e1 e2
              obtain ⟨k1, k2, k3⟩ := ih hes' s1 s3 w (same_trans c1 c2)
              exact ⟨by simp only [k1], k2, k3⟩
      | resize a b =>
        obtain ⟨pa, pb⟩ := hes (.resize a b) (by simp) a b rfl
        obtain ⟨w1, p1⟩ := Table.resize_spec hs.users pa
        obtain ⟨w2, p2⟩ := Table.resize_spec hs.wits pb
        refine ih hes' (s.resize hash a b) t ⟨w1, w2⟩ (same_trans (b := s.toServer) ⟨rfl, rfl, rfl, rfl, rfl, p1.map _, p2⟩ hst)
  refine key es hes _ _ ⟨Table.wf_empty hn, Table.wf_empty hn⟩ ⟨rfl, rfl, rfl, rfl, rfl, ?_, ?_⟩
  · simp [HServer.toServer, HServer.new, Table.entries_empty, Server.new]
  · simp [HServer.toServer, HServer.new, Table.entries_empty, Server.new]

/-- **C80** (witnesses). Requests for witnesses are answered alike, too. -/
theorem C80_witness (hash : F → Nat) (s : HServer F G1 G2) (hs : s.WF hash) (t : Server F G1 G2)
    (hst : SameContent s.toServer t) (H : Oracle F) (enc : Enc G1 G2 GT) (params : AccParams G1 G2)
    (y c r : F) (pk : G1) : s.witness hash H enc params y c r pk = t.witness H enc params y c r pk := by
  have hc := Table.contains_eq hs.wits y
  have hg := Table.get_eq hs.wits y
  have e1 : mapContains s.allWitnesses.entries y = mapContains t.allWitnesses y := mapContains_perm hst.wits y
  have e2 : mapGet s.allWitnesses.entries y = mapGet t.allWitnesses y := mapGet_perm hst.wits hs.wits.nodup y
  have e3 : s.signSecretKey = t.signSecretKey := hst.signSecretKey
  simp only [HServer.witness, Server.witness, hc, hg, e1, e2, e3]

/-- **C80** (`impl Hash for Element`). The hash is a function of the element, as `HashMap` requires (equal elements
have equal hashes): `C80_any_hash` holds for the crate's `Hash` with every hasher and every encoding of scalars.
If the encoding is injective, elements with different bytes only collide when the hasher does. -/
theorem C80_element_hash (h : List UInt8 → Nat) (bytes : F → List UInt8) (n : Nat) (hn : 0 < n)
    (params : AccParams G1 G2) (α sM v : F) (ops : List (Op F)) :
    (htalk (elementHash h bytes) (HServer.new n params α sM v) (ops.map .call)).1
      = (ltalk (Server.new params α sM v) (ops.map .call)).1 := by
  refine (C80_any_hash (elementHash h bytes) n hn params α sM v (ops.map .call) ?_).1
  intro e he a b hab
  subst hab
  simp at he

/-- **C80** is about real histories: `ltalk` without panics is `Server.run`. -/
theorem C80_run (params : AccParams G1 G2) (α sM v : F) (ops : List (Op F)) (s : Server F G1 G2)
    (h : (Server.new params α sM v).run ops = .ok s) :
    (ltalk (Server.new params α sM v) (ops.map .call)).2 = s := by
  have key : ∀ (ops : List (Op F)) (s₀ s : Server F G1 G2), s₀.run ops = .ok s →
      (ltalk s₀ (ops.map .call)).2 = s := by
    intro ops
    induction ops with
    | nil => intro s₀ s h; simp only [Server.run, List.foldlM_nil, pure, Except.pure, Except.ok.injEq] at h; exact h
    | cons op ops ih =>
      intro s₀ s h
      simp only [Server.run, List.foldlM_cons, bind, Except.bind] at h
      cases hst : s₀.step op with
      | error e => rw [hst] at h; simp at h
      | ok x =>
        rw [hst] at h
        simp only [pure, Except.pure] at h
        simp only [List.map_cons, ltalk, hst]
        exact ih x.1 s h
  exact key ops _ _ h

end

/-- Everything in one bucket, then moved to three: two users are added and one is deleted. -/
example : ((htalk (fun y : ℚ => y.num.natAbs) (HServer.new 1 exParams 4 9 6 : HServer ℚ ℚ ℚ)
    [.call (.add 3), .resize 2 3, .call (.add 5), .call (.add 5), .call (.delete 3), .resize 1 1,
      .call (.delete 3)]).1.map (fun r => match r with | .ok (some _) => 1 | .ok none => 0 | .error _ => 2))
    = [1, 1, 0, 1, 0] := by decide +kernel

end Allo
