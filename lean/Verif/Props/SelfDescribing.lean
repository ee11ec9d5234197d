import Verif.Model.SelfDescribing
import Verif.Props.Serde

/-!
# C112: saving and restoring in a format with field names (JSON)

Every type that derives `Serialize`/`Deserialize` is read back as it was written; the order of the fields and
unknown fields do not matter; a missing or repeated field is an error — except that a user's document without
`witness` is silently read as a user without credential. A server restored from such a document any number of
times answers as if it had never been saved.
-/

set_option linter.unusedSectionVars false
set_option linter.unusedVariables false

namespace Allo
open Spec Server

/-! ## vocabulary -/

namespace Fmt
variable {α : Type}

/-- `x` is read back from what is written for it. -/
def Reads (b : Fmt α) (x : α) : Prop := b.dec (b.enc x) = .ok x

/-- Everything is read back. -/
def Lawful (b : Fmt α) : Prop := ∀ x, b.Reads x

/-- What users rely on for a struct whose fields are named `ks`, those in `req` not being optional. -/
structure StructLike (b : Fmt α) (ks req : List String) : Prop where
  /-- it is written as an object with exactly these names, in this order -/
  names : ∀ x, ∃ es, b.enc x = .obj es ∧ es.map (·.1) = ks
  /-- reading does not depend on the order of the entries, nor on entries with other names -/
  order : ∀ es es' x, (es.filter (fun e => e.1 ∈ ks)).Perm (es'.filter (fun e => e.1 ∈ ks)) →
    b.dec (.obj es) = .ok x → b.dec (.obj es') = .ok x
  /-- a document without a required field is rejected -/
  needs : ∀ es k x, k ∈ req → k ∉ es.map (·.1) → b.dec (.obj es) ≠ .ok x
  /-- a document with a field twice is rejected -/
  once : ∀ es k x, k ∈ ks → 2 ≤ (es.map (·.1)).count k → b.dec (.obj es) ≠ .ok x
  /-- an array is accepted only if it has as many entries as there are fields -/
  length : ∀ l x, b.dec (.arr l) = .ok x → l.length = ks.length
  /-- nothing else is accepted -/
  other : ∀ v x, b.dec v = .ok x → (∃ es, v = .obj es) ∨ (∃ l, v = .arr l)

/-- The values alone, in order of declaration, are read like the object. -/
def Positional (b : Fmt α) (x : α) : Prop := ∀ es, b.enc x = .obj es → b.dec (.arr (es.map (·.2))) = .ok x

end Fmt

/-- The dependency reads back the texts it writes. -/
def Txt.Lawful {α : Type} (t : Txt α) : Prop := ∀ x, t.dec (t.enc x) = .ok x

/-! ## lookups -/

section lookup
variable {K V : Type} [DecidableEq K]

theorem vGet_cons (e : K × V) (l : List (K × V)) (k : K) :
    mapGet (e :: l) k = if e.1 = k then some e.2 else mapGet l k := by
  unfold mapGet
  by_cases h : e.1 = k <;> simp [List.find?_cons, h]

theorem vGet_none {l : List (K × V)} {k : K} : mapGet l k = none ↔ k ∉ l.map (·.1) := by
  induction l with
  | nil => simp [mapGet]
  | cons e l ih =>
    rw [vGet_cons]
    by_cases h : e.1 = k
    · simp [h]
    · rw [if_neg h, ih]; simp [Ne.symm h]

theorem vGet_some_mem {l : List (K × V)} {k : K} {v : V} (h : mapGet l k = some v) : (k, v) ∈ l := by
  induction l with
  | nil => simp [mapGet] at h
  | cons e l ih =>
    rw [vGet_cons] at h
    split at h
    · next hk => cases h; subst hk; exact List.mem_cons_self
    · exact List.mem_cons_of_mem _ (ih h)

theorem vGet_of_mem {l : List (K × V)} (hn : (l.map (·.1)).Nodup) {e : K × V} (h : e ∈ l) :
    mapGet l e.1 = some e.2 := by
  induction l with
  | nil => simp at h
  | cons a l ih =>
    rw [List.map_cons, List.nodup_cons] at hn
    rw [vGet_cons]
    rcases List.mem_cons.1 h with rfl | h
    · simp
    · rw [if_neg, ih hn.2 h]
      intro he
      exact hn.1 (he ▸ List.mem_map_of_mem h)

theorem vGet_perm {l l' : List (K × V)} (h : l.Perm l') (hn : (l.map (·.1)).Nodup) (k : K) :
    mapGet l k = mapGet l' k := by
  cases hg : mapGet l k with
  | none =>
    symm
    rw [vGet_none] at hg ⊢
    rwa [← (h.map (·.1)).mem_iff]
  | some v =>
    exact (vGet_of_mem ((h.map _).nodup_iff.1 hn) (h.mem_iff.1 (vGet_some_mem hg))).symm

theorem vContains_iff {l : List (K × V)} {k : K} : mapContains l k = true ↔ k ∈ l.map (·.1) := by
  simp [mapContains]

end lookup

/-! ## reading -/

namespace Fmt
variable {α β : Type}

theorem text_lawful {t : Txt α} (h : t.Lawful) : (text t).Lawful := fun x => h x

theorem usize_readsV {n : Nat} (h : n < 2 ^ 64) : Fmt.usize.Reads n := by
  show (if n < 2 ^ 64 then _ else _) = _
  rw [if_pos h]

theorem decList_enc {b : Fmt α} (h : b.Lawful) (l : List α) : decList b (l.map b.enc) = .ok l := by
  induction l with
  | nil => rfl
  | cons x l ih =>
    have := h x
    unfold Reads at this
    simp [decList, this, ih, bind, Except.bind, pure, Except.pure]

theorem vec_lawful {b : Fmt α} (h : b.Lawful) : (vec b).Lawful := fun l => decList_enc h l

theorem map_lawful {k : Txt α} {b : Fmt β} (hk : k.Lawful) (h : b.Lawful) : (Fmt.map k b).Lawful := by
  intro l
  show decEntries k b _ = _
  induction l with
  | nil => rfl
  | cons p l ih =>
    have h1 := hk p.1
    have h2 := h p.2
    unfold Reads at h2
    simp [decEntries, h1, h2, ih, bind, Except.bind, pure, Except.pure]

theorem check_reads {b : Fmt α} {x : α} (h : b.Reads x) : b.check (b.enc x) = .ok () := by
  unfold Reads at h
  simp [check, h, Except.map]

end Fmt

namespace Fields
variable {α β : Type}

/-- the names of the fields -/
def keys (fs : Fields α) : List String := fs.names.map (·.1)

/-- What is proved of a list of fields. -/
structure Good (fs : Fields α) (req : List String) (P : α → Prop) : Prop where
  nodup : fs.keys.Nodup
  sub : ∀ k ∈ req, k ∈ fs.keys
  congr : ∀ s s', (∀ k ∈ fs.keys, mapGet s k = mapGet s' k) → fs.take s = fs.take s'
  keysEnc : ∀ x, (fs.enc x).map (·.1) = fs.keys
  read : ∀ x, P x → ∀ s, (∀ e ∈ fs.enc x, mapGet s e.1 = some e.2) → fs.take s = .ok x
  chk : ∀ x, P x → ∀ e ∈ fs.enc x, ∀ c, mapGet fs.names e.1 = some c → c e.2 = .ok ()
  seq : ∀ x, P x → fs.seq ((fs.enc x).map (·.2)) = .ok x
  len : ∀ l x, fs.seq l = .ok x → l.length = fs.keys.length
  need : ∀ k ∈ req, ∀ s x, mapGet s k = none → fs.take s ≠ .ok x

theorem good_last {b : Fmt α} (name : String) (h : b.absent = none) :
    (last name b).Good [name] b.Reads where
  nodup := by simp [keys, last]
  sub := by simp [keys, last]
  congr s s' he := by
    have := he name (by simp [keys, last])
    simp only [last, Fmt.slot, this]
  keysEnc x := rfl
  read x hx s he := by
    have := he (name, b.enc x) (by simp [last])
    simp only [last, Fmt.slot, this]
    exact hx
  chk x hx e he c hc := by
    simp only [last, List.mem_singleton] at he
    subst he
    simp only [last, vGet_cons, if_true, Option.some.injEq] at hc
    rw [← hc]; exact Fmt.check_reads hx
  seq x hx := hx
  len l x hl := by
    match l, hl with
    | [], hl => simp [last] at hl
    | [v], hl => rfl
    | v :: w :: l, hl =>
      exfalso
      simp only [last, bind, Except.bind] at hl
      split at hl <;> cases hl
  need k hk s x hs := by
    simp only [List.mem_singleton] at hk
    subst hk
    simp [last, Fmt.slot, hs, h]

theorem good_cons' {b : Fmt α} {r : Fields β} {req : List String} {P : β → Prop} (name : String)
    (hr : r.Good req P) (hn : name ∉ r.keys) (Q : α → Prop) (hQ : ∀ x, Q x → b.Reads x) :
    (cons name b r).Good req (fun p => Q p.1 ∧ P p.2) where
  nodup := by
    have := hr.nodup
    simp only [keys, cons, List.map_cons, List.nodup_cons]
    exact ⟨hn, this⟩
  sub k hk := by
    simp only [keys, cons, List.map_cons, List.mem_cons]
    exact Or.inr (hr.sub k hk)
  congr s s' he := by
    have h1 := he name (by simp [keys, cons])
    have h2 := hr.congr s s' (fun k hk => he k (by simp only [keys, cons, List.map_cons, List.mem_cons]; exact Or.inr hk))
    simp only [cons, Fmt.slot, h1, h2]
  keysEnc x := by
    simp only [cons, List.map_cons, keys]
    rw [hr.keysEnc]; rfl
  read x hx s he := by
    have h1 := he (name, b.enc x.1) (by simp [cons])
    have h2 := hr.read x.2 hx.2 s (fun e h => he e (by simp [cons, h]))
    have h3 := hQ _ hx.1
    unfold Fmt.Reads at h3
    simp only [cons, Fmt.slot, h1, h2, h3, bind, Except.bind, pure, Except.pure]
  chk x hx e he c hc := by
    simp only [cons, List.mem_cons] at he
    simp only [cons, vGet_cons] at hc
    rcases he with rfl | he
    · simp only [if_true, Option.some.injEq] at hc
      rw [← hc]; exact Fmt.check_reads (hQ _ hx.1)
    · rw [if_neg] at hc
      · exact hr.chk _ hx.2 e he c hc
      · rintro rfl
        apply hn
        rw [← hr.keysEnc x.2]
        exact List.mem_map_of_mem he
  seq x hx := by
    have h3 := hQ _ hx.1
    unfold Fmt.Reads at h3
    have h4 := hr.seq x.2 hx.2
    simp only [cons, List.map_cons, h3, h4, bind, Except.bind, pure, Except.pure]
  len l x hl := by
    match l, hl with
    | [], hl => simp [cons] at hl
    | v :: l, hl =>
      simp only [cons, bind, Except.bind, pure, Except.pure] at hl
      split at hl
      · cases hl
      · split at hl
        · cases hl
        · next h => simp only [keys, cons, List.map_cons, List.length_cons, hr.len _ _ h]
  need k hk s x hs := by
    have := fun y => hr.need k hk s y hs
    simp only [cons, bind, Except.bind, pure, Except.pure]
    split
    · simp
    · split
      · simp
      · next h => exact absurd h (this _)

theorem good_cons {b : Fmt α} {r : Fields β} {req : List String} {P : β → Prop} (name : String)
    (ha : b.absent = none) (hb : b.Lawful) (hr : r.Good req P) (hn : name ∉ r.keys) :
    (cons name b r).Good (name :: req) (fun p => P p.2) := by
  have h := good_cons' name hr hn (fun _ => True) (fun x _ => hb x)
  exact { h with
    sub := by
      intro k hk
      rcases List.mem_cons.1 hk with rfl | hk
      · simp [keys, cons]
      · exact h.sub k hk
    read := fun x hx => h.read x ⟨trivial, hx⟩
    chk := fun x hx => h.chk x ⟨trivial, hx⟩
    seq := fun x hx => h.seq x ⟨trivial, hx⟩
    need := by
      intro k hk s x hs
      rcases List.mem_cons.1 hk with rfl | hk
      · simp [cons, Fmt.slot, hs, ha, bind, Except.bind]
      · exact h.need k hk s x hs }

/-! ### the loop over the entries -/

theorem visit_ok {names : List (String × (Val → Except String Unit))} :
    ∀ {es seen out}, visit names es seen = .ok out ↔
      out = seen ++ es.filter (fun e => e.1 ∈ names.map (·.1)) ∧
      ((es.filter (fun e => e.1 ∈ names.map (·.1))).map (·.1)).Nodup ∧
      (∀ e ∈ es.filter (fun e => e.1 ∈ names.map (·.1)), e.1 ∉ seen.map (·.1)) ∧
      (∀ e ∈ es, ∀ c, mapGet names e.1 = some c → c e.2 = .ok ())
  | [], seen, out => by simp [visit, eq_comm]
  | e :: es, seen, out => by
    rw [visit]
    cases hg : mapGet names e.1 with
    | none =>
      have hk : e.1 ∉ names.map (·.1) := vGet_none.1 hg
      simp only []
      rw [visit_ok, List.filter_cons_of_neg (by simpa using hk)]
      refine and_congr_right fun _ => and_congr_right fun _ => and_congr_right fun _ => ?_
      constructor
      · intro h e' he' c hc
        rcases List.mem_cons.1 he' with rfl | he'
        · rw [hg] at hc; cases hc
        · exact h e' he' c hc
      · exact fun h e' he' => h e' (List.mem_cons_of_mem _ he')
    | some chk =>
      have hk : e.1 ∈ names.map (·.1) := by
        by_contra h; rw [vGet_none.2 h] at hg; cases hg
      simp only []
      rw [List.filter_cons_of_pos (by simpa using hk)]
      by_cases hc : mapContains seen e.1 = true
      · rw [if_pos hc]
        constructor
        · intro h; cases h
        · rintro ⟨-, -, h, -⟩
          exact absurd (vContains_iff.1 hc) (h e List.mem_cons_self)
      · rw [if_neg hc]
        have hc' : e.1 ∉ seen.map (·.1) := fun h => hc (vContains_iff.2 h)
        cases hv : chk e.2 with
        | error m =>
          simp only [bind, Except.bind]
          constructor
          · intro h; cases h
          · rintro ⟨-, -, -, h⟩
            have := h e List.mem_cons_self chk hg
            rw [hv] at this; cases this
        | ok u =>
          simp only [bind, Except.bind]
          rw [visit_ok]
          constructor
          · rintro ⟨h1, h2, h3, h4⟩
            refine ⟨by rw [h1]; simp, ?_, ?_, ?_⟩
            · rw [List.map_cons, List.nodup_cons]
              refine ⟨?_, h2⟩
              intro hm
              obtain ⟨e', he', hee⟩ := List.mem_map.1 hm
              have := h3 e' he'
              rw [hee] at this
              exact this (by simp)
            · intro e' he'
              rcases List.mem_cons.1 he' with rfl | he'
              · exact hc'
              · have := h3 e' he'
                simp only [List.map_append, List.mem_append, not_or] at this
                exact this.1
            · intro e' he' c hcc
              rcases List.mem_cons.1 he' with rfl | he'
              · rw [hg] at hcc; cases hcc; exact hv
              · exact h4 e' he' c hcc
          · rintro ⟨h1, h2, h3, h4⟩
            rw [List.map_cons, List.nodup_cons] at h2
            refine ⟨by rw [h1]; simp, h2.2, ?_, fun e' he' => h4 e' (List.mem_cons_of_mem _ he')⟩
            intro e' he'
            simp only [List.map_append, List.map_cons, List.map_nil, List.mem_append, List.mem_singleton, not_or]
            refine ⟨h3 e' (List.mem_cons_of_mem _ he'), ?_⟩
            intro hee
            exact h2.1 (hee ▸ List.mem_map_of_mem he')

theorem struct_obj {fs : Fields α} {f : β → α} {g : α → β} {es : List (String × Val)} {x : β} :
    (fs.struct f g).dec (.obj es) = .ok x ↔ ∃ y,
      ((es.filter (fun e => e.1 ∈ fs.keys)).map (·.1)).Nodup ∧
      (∀ e ∈ es, ∀ c, mapGet fs.names e.1 = some c → c e.2 = .ok ()) ∧
      fs.take (es.filter (fun e => e.1 ∈ fs.keys)) = .ok y ∧ x = g y := by
  simp only [struct, bind, Except.bind, pure, Except.pure]
  constructor
  · intro h
    split at h
    · cases h
    · next sl hv =>
      obtain ⟨h1, h2, -, h4⟩ := visit_ok.1 hv
      rw [List.nil_append] at h1
      split at h
      · cases h
      · next y hy =>
        cases h
        refine ⟨y, h2, h4, ?_, rfl⟩
        rw [← hy, h1]; rfl
  · rintro ⟨y, h1, h2, h3, rfl⟩
    have : visit fs.names es [] = .ok (es.filter (fun e => e.1 ∈ fs.keys)) :=
      visit_ok.2 ⟨by rw [List.nil_append]; rfl, h1, by simp, h2⟩
    rw [this]
    simp only []
    rw [h3]

theorem struct_like {fs : Fields α} {req : List String} {P : α → Prop} (h : fs.Good req P) (f : β → α)
    (g : α → β) : (fs.struct f g).StructLike fs.keys req where
  names x := ⟨_, rfl, h.keysEnc _⟩
  order es es' x hp hx := by
    rw [struct_obj] at hx ⊢
    obtain ⟨y, h1, h2, h3, h4⟩ := hx
    refine ⟨y, ((hp.map _).nodup_iff).1 h1, ?_, ?_, h4⟩
    · intro e he c hc
      have hk : e.1 ∈ fs.keys := by
        by_contra hk; rw [vGet_none.2 hk] at hc; cases hc
      have : e ∈ es.filter (fun e => e.1 ∈ fs.keys) :=
        hp.mem_iff.2 (List.mem_filter.2 ⟨he, by simpa using hk⟩)
      exact h2 e (List.mem_filter.1 this).1 c hc
    · rw [← h3]
      exact h.congr _ _ (fun k _ => (vGet_perm hp h1 k).symm)
  needs es k x hk hn := by
    rw [Ne, struct_obj]
    rintro ⟨y, -, -, h3, -⟩
    refine h.need k hk _ y (vGet_none.2 ?_) h3
    intro hm
    obtain ⟨e, he, rfl⟩ := List.mem_map.1 hm
    exact hn (List.mem_map_of_mem (List.mem_filter.1 he).1)
  once es k x hk hc := by
    rw [Ne, struct_obj]
    rintro ⟨y, h1, -, -, -⟩
    have : (es.map (·.1)).count k = ((es.filter (fun e => e.1 ∈ fs.keys)).map (·.1)).count k := by
      clear hc h1
      induction es with
      | nil => rfl
      | cons e es ih =>
        by_cases he : e.1 ∈ fs.keys
        · rw [List.filter_cons_of_pos (by simpa using he), List.map_cons, List.map_cons, List.count_cons,
            List.count_cons, ih]
        · rw [List.filter_cons_of_neg (by simpa using he), List.map_cons, List.count_cons, ih]
          have : e.1 ≠ k := fun h => he (h ▸ hk)
          simp [this]
    have h2 := List.nodup_iff_count_le_one.1 h1 k
    omega
  length l x hx := by
    simp only [struct, bind, Except.bind, pure, Except.pure] at hx
    split at hx
    · cases hx
    · next y hy => exact h.len l y hy
  other v x hx := by
    cases v with
    | obj es => exact Or.inl ⟨es, rfl⟩
    | arr l => exact Or.inr ⟨l, rfl⟩
    | null => cases hx
    | num n => cases hx
    | str s => cases hx

theorem struct_dec {fs : Fields α} {req : List String} {P : α → Prop} (h : fs.Good req P) {f : β → α}
    {g : α → β} {x : β} (hx : P (f x)) :
    (fs.struct f g).dec ((fs.struct f g).enc x) = .ok (g (f x)) ∧
    (fs.struct f g).dec (.arr ((fs.enc (f x)).map (·.2))) = .ok (g (f x)) := by
  constructor
  · show (fs.struct f g).dec (.obj (fs.enc (f x))) = _
    have hf : (fs.enc (f x)).filter (fun e => e.1 ∈ fs.keys) = fs.enc (f x) := by
      rw [List.filter_eq_self]
      intro e he
      rw [← h.keysEnc (f x)]
      exact decide_eq_true (List.mem_map_of_mem he)
    have hnd : ((fs.enc (f x)).map (·.1)).Nodup := by rw [h.keysEnc]; exact h.nodup
    rw [struct_obj]
    rw [hf]
    exact ⟨_, hnd, h.chk _ hx, h.read _ hx _ (fun e he => vGet_of_mem hnd he), rfl⟩
  · simp only [struct, h.seq _ hx, bind, Except.bind, pure, Except.pure]

theorem struct_reads {fs : Fields α} {req : List String} {P : α → Prop} (h : fs.Good req P) {f : β → α}
    {g : α → β} {x : β} (hx : P (f x)) (hg : g (f x) = x) :
    (fs.struct f g).Reads x ∧ (fs.struct f g).Positional x := by
  obtain ⟨h1, h2⟩ := struct_dec (g := g) h hx
  rw [hg] at h1 h2
  refine ⟨h1, ?_⟩
  intro es he
  cases he
  exact h2

end Fields

open Fields Fmt

section
variable {F G1 G2 GT : Type}

theorem good_publicKeys {g2 : Fmt G2} (a2 : g2.absent = none) (h2 : g2.Lawful) :
    (cons "witness_key" g2 (last "sign_key" g2)).Good ["witness_key", "sign_key"] (fun p => g2.Reads p.2) :=
  good_cons _ a2 h2 (good_last _ a2) (by simp [keys, last])

theorem valPublicKeys_lawful {g2 : Fmt G2} (a2 : g2.absent = none) (h2 : g2.Lawful) : (valPublicKeys g2).Lawful :=
  fun x => (struct_reads (good_publicKeys a2 h2) (h2 _) rfl).1

theorem good_witness {f : Txt F} {g1 : Fmt G1} (hf : f.Lawful) (a1 : g1.absent = none) (h1 : g1.Lawful) :
    (cons "secret_key" (text f) (cons "witness" g1 (last "signature" g1))).Good
      ["secret_key", "witness", "signature"] (fun p => g1.Reads p.2.2) :=
  good_cons _ rfl (text_lawful hf) (good_cons _ a1 h1 (good_last _ a1) (by simp [keys, last]))
    (by simp [keys, cons, last])

theorem valWitness_lawful {f : Txt F} {g1 : Fmt G1} (hf : f.Lawful) (a1 : g1.absent = none) (h1 : g1.Lawful) :
    (valWitness f g1).Lawful :=
  fun x => (struct_reads (good_witness hf a1 h1) (h1 _) rfl).1

theorem option_witness_lawful {f : Txt F} {g1 : Fmt G1} (hf : f.Lawful) (a1 : g1.absent = none)
    (h1 : g1.Lawful) : (option (valWitness f g1)).Lawful := by
  intro x
  cases x with
  | none => rfl
  | some w =>
    have := valWitness_lawful hf a1 h1 w
    unfold Reads at this
    show ((valWitness f g1).dec ((valWitness f g1).enc w)).map some = _
    rw [this]; rfl

theorem good_accParams {g1 : Fmt G1} {g2 : Fmt G2} (a1 : g1.absent = none) (h1 : g1.Lawful)
    (a2 : g2.absent = none) (h2 : g2.Lawful) :
    (cons "p1" g1 (cons "p2" g2 (cons "k0" g1 (cons "k1" g1 (cons "k2" g2 (cons "x1" g1 (cons "y1" g1
      (last "z1" g1)))))))).Good ["p1", "p2", "k0", "k1", "k2", "x1", "y1", "z1"]
      (fun p => g1.Reads p.2.2.2.2.2.2.2) :=
  good_cons _ a1 h1 (good_cons _ a2 h2 (good_cons _ a1 h1 (good_cons _ a1 h1 (good_cons _ a2 h2
    (good_cons _ a1 h1 (good_cons _ a1 h1 (good_last _ a1) (by simp [keys, last]))
    (by simp [keys, last, cons])) (by simp [keys, last, cons])) (by simp [keys, last, cons]))
    (by simp [keys, last, cons])) (by simp [keys, last, cons])) (by simp [keys, last, cons])

theorem good_credProof {f : Txt F} {g1 : Fmt G1} (hf : f.Lawful) (a1 : g1.absent = none) (h1 : g1.Lawful) :
    (cons "u_1" g1 (cons "u_2" g1 (cons "r" g1 (cons "challenge" (text f) (cons "s_0" (text f)
    (cons "s_1" (text f) (cons "s_2" (text f) (cons "s_3" (text f) (cons "s_4" (text f) (cons "s_5" (text f)
    (cons "s_6" (text f) (last "s_7" (text f))))))))))))).Good
      ["u_1", "u_2", "r", "challenge", "s_0", "s_1", "s_2", "s_3", "s_4", "s_5", "s_6", "s_7"]
      (fun p => (text f).Reads p.2.2.2.2.2.2.2.2.2.2.2) := by
  have ht := text_lawful hf
  refine good_cons _ a1 h1 (good_cons _ a1 h1 (good_cons _ a1 h1 (good_cons _ rfl ht (good_cons _ rfl ht
    (good_cons _ rfl ht (good_cons _ rfl ht (good_cons _ rfl ht (good_cons _ rfl ht (good_cons _ rfl ht
    (good_cons _ rfl ht (good_last _ rfl) ?_) ?_) ?_) ?_) ?_) ?_) ?_) ?_) ?_) ?_) ?_ <;>
    simp [keys, last, cons]

theorem good_memProof {f : Txt F} {g1 : Fmt G1} (hf : f.Lawful) (a1 : g1.absent = none) (h1 : g1.Lawful) :
    (cons "e_c" g1 (cons "t_sigma" g1 (cons "t_rho" g1 (cons "s_sigma" (text f) (cons "s_rho" (text f)
    (cons "s_delta_sigma" (text f) (cons "s_delta_rho" (text f) (last "s_y" (text f))))))))).Good
      ["e_c", "t_sigma", "t_rho", "s_sigma", "s_rho", "s_delta_sigma", "s_delta_rho", "s_y"]
      (fun p => (text f).Reads p.2.2.2.2.2.2.2) := by
  have ht := text_lawful hf
  refine good_cons _ a1 h1 (good_cons _ a1 h1 (good_cons _ a1 h1 (good_cons _ rfl ht (good_cons _ rfl ht
    (good_cons _ rfl ht (good_cons _ rfl ht (good_last _ rfl) ?_) ?_) ?_) ?_) ?_) ?_) ?_ <;>
    simp [keys, last, cons]

theorem good_proofParams {g1 : Fmt G1} (a1 : g1.absent = none) (h1 : g1.Lawful) :
    (cons "x" g1 (cons "y" g1 (cons "z" g1 (last "k" g1)))).Good ["x", "y", "z", "k"]
      (fun p => g1.Reads p.2.2.2) := by
  refine good_cons _ a1 h1 (good_cons _ a1 h1 (good_cons _ a1 h1 (good_last _ a1) ?_) ?_) ?_ <;>
    simp [keys, last, cons]

theorem good_nonMembershipWitness {f : Txt F} {g1 : Fmt G1} (a1 : g1.absent = none) (h1 : g1.Lawful) :
    (cons "c" g1 (last "d" (text f))).Good ["c", "d"] (fun p => (text f).Reads p.2) :=
  good_cons _ a1 h1 (good_last _ rfl) (by simp [keys, last])

theorem good_delta {f : Txt F} {g1 : Fmt G1} (hf : f.Lawful) (a1 : g1.absent = none) :
    (cons "d" (text f) (last "p" g1)).Good ["d", "p"] (fun p => g1.Reads p.2) :=
  good_cons _ rfl (text_lawful hf) (good_last _ a1) (by simp [keys, last])

theorem good_user {f : Txt F} {g1 : Fmt G1} {g2 : Fmt G2} (hf : f.Lawful) (a1 : g1.absent = none)
    (h1 : g1.Lawful) (a2 : g2.absent = none) (h2 : g2.Lawful) :
    (cons "id" (text f) (cons "witness" (option (valWitness f g1)) (cons "accumulator" g1
      (cons "public_keys" (valPublicKeys g2) (last "epoch" Fmt.usize))))).Good
      ["id", "accumulator", "public_keys", "epoch"]
      (fun p => True ∧ Fmt.usize.Reads p.2.2.2.2) :=
  good_cons _ rfl (text_lawful hf) (good_cons' _ (good_cons _ a1 h1 (good_cons _ rfl
    (valPublicKeys_lawful a2 h2) (good_last _ rfl) (by simp [keys, last])) (by simp [keys, last, cons]))
    (by simp [keys, last, cons]) (fun _ => True) (fun x _ => option_witness_lawful hf a1 h1 x))
    (by simp [keys, last, cons])

theorem good_server {f : Txt F} {g1 : Fmt G1} {g2 : Fmt G2} (hf : f.Lawful) (a1 : g1.absent = none)
    (h1 : g1.Lawful) (a2 : g2.absent = none) (h2 : g2.Lawful) :
    (cons "accumulators" (vec g1) (cons "witness_secret_key" (text f) (cons "public_keys" (valPublicKeys g2)
    (cons "sign_secret_key" (text f) (cons "all_users" (vec (text f)) (cons "all_witnesses" (Fmt.map f g1)
    (last "deletions" (vec (text f))))))))).Good
      ["accumulators", "witness_secret_key", "public_keys", "sign_secret_key", "all_users", "all_witnesses",
        "deletions"] (fun p => (vec (text f)).Reads p.2.2.2.2.2.2) := by
  have ht := text_lawful hf
  refine good_cons _ rfl (vec_lawful h1) (good_cons _ rfl ht (good_cons _ rfl (valPublicKeys_lawful a2 h2)
    (good_cons _ rfl ht (good_cons _ rfl (vec_lawful ht) (good_cons _ rfl (map_lawful hf h1)
    (good_last _ rfl) ?_) ?_) ?_) ?_) ?_) ?_ <;> simp [keys, last, cons]

/-- C112: every type is read back as it was written, from the object and from the array of its values
(scalars and points are assumed to be read back by the dependency, and not to be optional). For a `User` the
epoch must be a `usize`. -/
theorem C112_types (f : Txt F) (g1 : Fmt G1) (g2 : Fmt G2) (hf : f.Lawful) (h1 : g1.Lawful) (h2 : g2.Lawful)
    (a1 : g1.absent = none) (a2 : g2.absent = none) :
    (∀ x, (valPublicKeys g2).Reads x ∧ (valPublicKeys g2).Positional x) ∧
    (∀ x, (valAccParams g1 g2).Reads x ∧ (valAccParams g1 g2).Positional x) ∧
    (∀ x, (valWitness f g1).Reads x ∧ (valWitness f g1).Positional x) ∧
    (∀ x, (valCredProof f g1).Reads x ∧ (valCredProof f g1).Positional x) ∧
    (∀ x, (valMemProof f g1).Reads x ∧ (valMemProof f g1).Positional x) ∧
    (∀ x, (valProofParams g1).Reads x ∧ (valProofParams g1).Positional x) ∧
    (∀ x, (valNonMembershipWitness f g1).Reads x ∧ (valNonMembershipWitness f g1).Positional x) ∧
    (∀ x, (valDelta f g1).Reads x ∧ (valDelta f g1).Positional x) ∧
    (∀ x : User F G1 G2, x.epoch < 2 ^ 64 →
      (valUser f g1 g2).Reads x ∧ (valUser f g1 g2).Positional x) :=
  ⟨fun x => struct_reads (good_publicKeys a2 h2) (h2 _) rfl,
    fun x => struct_reads (good_accParams a1 h1 a2 h2) (h1 _) rfl,
    fun x => struct_reads (good_witness hf a1 h1) (h1 _) rfl,
    fun x => struct_reads (good_credProof hf a1 h1) (text_lawful hf _) rfl,
    fun x => struct_reads (good_memProof hf a1 h1) (text_lawful hf _) rfl,
    fun x => struct_reads (good_proofParams a1 h1) (h1 _) rfl,
    fun x => struct_reads (good_nonMembershipWitness a1 h1) (text_lawful hf _) rfl,
    fun x => struct_reads (good_delta hf a1) (h1 _) rfl,
    fun x hx => struct_reads (good_user hf a1 h1 a2 h2) ⟨trivial, usize_readsV hx⟩ rfl⟩

/-- C112: the names under which the fields are written, that order and unknown entries do not matter, that
missing and repeated fields are rejected — all fields are required but the `witness` of a `User`. -/
theorem C112_documents [DecidableEq F] (f : Txt F) (g1 : Fmt G1) (g2 : Fmt G2) (hf : f.Lawful) (h1 : g1.Lawful)
    (h2 : g2.Lawful) (a1 : g1.absent = none) (a2 : g2.absent = none) (ordU : List F → List F)
    (ordW : List (F × G1) → List (F × G1)) :
    (valPublicKeys g2).StructLike ["witness_key", "sign_key"] ["witness_key", "sign_key"] ∧
    (valAccParams g1 g2).StructLike ["p1", "p2", "k0", "k1", "k2", "x1", "y1", "z1"]
      ["p1", "p2", "k0", "k1", "k2", "x1", "y1", "z1"] ∧
    (valWitness f g1).StructLike ["secret_key", "witness", "signature"] ["secret_key", "witness", "signature"] ∧
    (valCredProof f g1).StructLike
      ["u_1", "u_2", "r", "challenge", "s_0", "s_1", "s_2", "s_3", "s_4", "s_5", "s_6", "s_7"]
      ["u_1", "u_2", "r", "challenge", "s_0", "s_1", "s_2", "s_3", "s_4", "s_5", "s_6", "s_7"] ∧
    (valMemProof f g1).StructLike
      ["e_c", "t_sigma", "t_rho", "s_sigma", "s_rho", "s_delta_sigma", "s_delta_rho", "s_y"]
      ["e_c", "t_sigma", "t_rho", "s_sigma", "s_rho", "s_delta_sigma", "s_delta_rho", "s_y"] ∧
    (valProofParams g1).StructLike ["x", "y", "z", "k"] ["x", "y", "z", "k"] ∧
    (valNonMembershipWitness f g1).StructLike ["c", "d"] ["c", "d"] ∧
    (valDelta f g1).StructLike ["d", "p"] ["d", "p"] ∧
    (valUser f g1 g2).StructLike ["id", "witness", "accumulator", "public_keys", "epoch"]
      ["id", "accumulator", "public_keys", "epoch"] ∧
    (valServer f g1 g2 ordU ordW).StructLike
      ["accumulators", "witness_secret_key", "public_keys", "sign_secret_key", "all_users", "all_witnesses",
        "deletions"]
      ["accumulators", "witness_secret_key", "public_keys", "sign_secret_key", "all_users", "all_witnesses",
        "deletions"] :=
  ⟨struct_like (good_publicKeys a2 h2) _ _, struct_like (good_accParams a1 h1 a2 h2) _ _,
    struct_like (good_witness hf a1 h1) _ _, struct_like (good_credProof hf a1 h1) _ _,
    struct_like (good_memProof hf a1 h1) _ _, struct_like (good_proofParams a1 h1) _ _,
    struct_like (good_nonMembershipWitness a1 h1) _ _, struct_like (good_delta hf a1) _ _,
    struct_like (good_user hf a1 h1 a2 h2) _ _, struct_like (good_server hf a1 h1 a2 h2) _ _⟩

/-- the fields of `User` -/
def userFields (f : Txt F) (g1 : Fmt G1) (g2 : Fmt G2) :=
  cons "id" (text f) (cons "witness" (option (valWitness f g1)) (cons "accumulator" g1
    (cons "public_keys" (valPublicKeys g2) (last "epoch" Fmt.usize))))

theorem user_slot {f : Txt F} {g1 : Fmt G1} {s : List (String × Val)} (h : mapGet s "witness" = none) :
    (option (valWitness f g1)).slot "witness" s = .ok none := by
  simp [slot, h, option]

theorem user_take_none {f : Txt F} {g1 : Fmt G1} {g2 : Fmt G2} {s : List (String × Val)}
    (h : mapGet s "witness" = none) {y} (hy : (userFields f g1 g2).take s = .ok y) : y.2.1 = none := by
  simp only [userFields, cons, user_slot h, bind, Except.bind, pure, Except.pure] at hy
  split at hy
  · cases hy
  · split at hy
    · cases hy
    · next h =>
      cases hy
      split at h
      · cases h
      · cases h; rfl

theorem user_take {f : Txt F} {g1 : Fmt G1} {g2 : Fmt G2} {s : List (String × Val)}
    (h : mapGet s "witness" = none) :
    (userFields f g1 g2).take s = (userFields f g1 g2).take (s ++ [("witness", .null)]) := by
  have hk : ∀ k, k ≠ "witness" → mapGet (s ++ [("witness", Val.null)]) k = mapGet s k := by
    intro k hk
    induction s with
    | nil => simp [mapGet, hk.symm]
    | cons e s ih =>
      rw [List.cons_append, vGet_cons, vGet_cons]
      rw [vGet_cons] at h
      split
      · rfl
      · refine ih ?_
        split at h
        · cases h
        · exact h
  have hw : mapGet (s ++ [("witness", Val.null)]) "witness" = some .null := by
    clear hk
    induction s with
    | nil => simp [mapGet]
    | cons e s ih =>
      rw [List.cons_append, vGet_cons]
      rw [vGet_cons] at h
      split at h
      · cases h
      · next hne => rw [if_neg hne]; exact ih h
  have e1 : (option (valWitness f g1)).slot "witness" (s ++ [("witness", .null)]) = .ok none := by
    simp [slot, hw, option]
  have e2 : ∀ {α : Type} (b : Fmt α) k, k ≠ "witness" → b.slot k (s ++ [("witness", .null)]) = b.slot k s := by
    intro α b k hk'
    simp only [slot, hk k hk']
  simp only [userFields, cons, last, user_slot h, e1]
  rw [e2 _ "id" (by decide), e2 _ "accumulator" (by decide), e2 _ "public_keys" (by decide),
    e2 _ "epoch" (by decide)]

/-- C112: a user's document without an entry called `witness` is accepted, whatever else is wrong with the
name of that entry: it is read as a user without credential. -/
theorem C112_user_without_witness (f : Txt F) (g1 : Fmt G1) (g2 : Fmt G2) (hf : f.Lawful) (h1 : g1.Lawful)
    (h2 : g2.Lawful) (a1 : g1.absent = none) (a2 : g2.absent = none) :
    (∀ es (u : User F G1 G2), "witness" ∉ es.map (·.1) → (valUser f g1 g2).dec (.obj es) = .ok u →
      u.witness = none) ∧
    (∀ (u : User F G1 G2) es es', u.epoch < 2 ^ 64 → (valUser f g1 g2).enc u = .obj es →
      "witness" ∉ es'.map (·.1) →
      (es'.filter (fun e => e.1 ∈ ["id", "accumulator", "public_keys", "epoch"])).Perm
        (es.filter (fun e => e.1 ∈ ["id", "accumulator", "public_keys", "epoch"])) →
      (valUser f g1 g2).dec (.obj es') = .ok { u with witness := none }) := by
  have hnone : ∀ es : List (String × Val), "witness" ∉ es.map (·.1) →
      mapGet (es.filter (fun e => e.1 ∈ (userFields f g1 g2).keys)) "witness" = none := by
    intro es hw
    rw [vGet_none]
    intro hm
    obtain ⟨e, he, h⟩ := List.mem_map.1 hm
    exact hw (List.mem_map.2 ⟨e, (List.mem_filter.1 he).1, h⟩)
  constructor
  · intro es u hw hd
    obtain ⟨y, -, -, h3, rfl⟩ := struct_obj (fs := userFields f g1 g2).1 hd
    exact user_take_none (hnone es hw) h3
  · intro u es es' hu he hw hp
    have hr : (valUser f g1 g2).dec ((valUser f g1 g2).enc { u with witness := none }) =
        .ok { u with witness := none } :=
      ((C112_types f g1 g2 hf h1 h2 a1 a2).2.2.2.2.2.2.2.2 { u with witness := none } hu).1
    have h0 : (valUser f g1 g2).dec (.obj (es' ++ [("witness", .null)])) = .ok { u with witness := none } := by
      refine (struct_like (good_user hf a1 h1 a2 h2) _ _).order _ _ _ ?_ hr
      cases he
      have e1 : es'.filter (fun e => e.1 ∈ (userFields f g1 g2).keys) =
          es'.filter (fun e => e.1 ∈ ["id", "accumulator", "public_keys", "epoch"]) := by
        refine List.filter_congr fun e he => ?_
        have : e.1 ≠ "witness" := fun h => hw (h ▸ List.mem_map_of_mem he)
        simp [userFields, keys, cons, last, this]
      show List.Perm ((_ : List (String × Val)).filter (fun e => e.1 ∈ (userFields f g1 g2).keys))
        ((es' ++ [("witness", Val.null)]).filter (fun e => e.1 ∈ (userFields f g1 g2).keys))
      rw [List.filter_append, e1]
      refine List.Perm.trans ?_ (hp.symm.append_right _)
      simp only [userFields, keys, cons, last, option, List.map_cons, List.map_nil, List.filter_cons,
        List.filter_nil, List.mem_cons, List.not_mem_nil]
      simp only [String.reduceEq, or_true, true_or, or_false, false_or, decide_true, decide_false, if_true,
        Bool.false_eq_true, if_false]
      refine List.Perm.cons _ ?_
      exact (List.perm_append_comm (l₁ := [_]) (l₂ := [_, _, _]))
    obtain ⟨y, n1, n2, n3, n4⟩ := struct_obj (fs := userFields f g1 g2).1 h0
    refine struct_obj (fs := userFields f g1 g2).2 ⟨y, ?_, fun e he => n2 e (by simp [he]), ?_, n4⟩
    · rw [List.filter_append, List.map_append] at n1
      exact (List.nodup_append.1 n1).1
    · rw [← n3, user_take (hnone es' hw), List.filter_append]
      congr 2

end

section
variable {F G1 G2 GT : Type} [Field F] [DecidableEq F] [AddCommGroup G1] [Module F G1]
  [AddCommGroup G2] [Module F G2] [AddCommGroup GT] [Module F GT]

/-- C112: a server that is written and read back, in whatever order its set and map are iterated, is the same
server: all fields are the same, the set and the map have the same entries. -/
theorem C112_restore (f : Txt F) (g1 : Fmt G1) (g2 : Fmt G2) (hf : f.Lawful) (h1 : g1.Lawful) (h2 : g2.Lawful)
    (a1 : g1.absent = none) (a2 : g2.absent = none) (ordU : List F → List F)
    (ordW : List (F × G1) → List (F × G1)) (s : Server F G1 G2) (hs : WF s)
    (hu : (ordU s.allUsers).Perm s.allUsers) (hw : (ordW s.allWitnesses).Perm s.allWitnesses) :
    ∃ s', (valServer f g1 g2 ordU ordW).dec ((valServer f g1 g2 ordU ordW).enc s) = .ok s' ∧
      SameContent s s' ∧ WF s' := by
  have hun : (ordU s.allUsers).Nodup := hu.nodup_iff.2 hs.users
  have hwn : ((ordW s.allWitnesses).map (·.1)).Nodup := (hw.map _).nodup_iff.2 hs.ids
  have eu : (ordU s.allUsers).foldl setInsert [] = (ordU s.allUsers).reverse := by
    rw [foldl_setInsert] <;> simp [hun]
  have ew : (ordW s.allWitnesses).foldl (fun m p => mapInsert m p.1 p.2) [] = (ordW s.allWitnesses).reverse := by
    rw [foldl_mapInsert]
    · simp
    · simpa [List.map_reverse] using hwn
  have hd := (struct_dec (good_server hf a1 h1 a2 h2)
    (f := fun s : Server F G1 G2 => (s.accumulators, s.witnessSecretKey, s.publicKeys, s.signSecretKey,
      ordU s.allUsers, ordW s.allWitnesses, s.deletions))
    (g := fun p => ({ accumulators := p.1, witnessSecretKey := p.2.1, publicKeys := p.2.2.1
                      signSecretKey := p.2.2.2.1, allUsers := p.2.2.2.2.1.foldl setInsert []
                      allWitnesses := p.2.2.2.2.2.1.foldl (fun m q => mapInsert m q.1 q.2) []
                      deletions := p.2.2.2.2.2.2 } : Server F G1 G2)) (x := s)
    (vec_lawful (text_lawful hf) _)).1
  refine ⟨_, hd, ?_, ?_⟩
  · refine ⟨rfl, rfl, rfl, rfl, rfl, ?_, ?_⟩
    · simp only [eu]; exact (hu.symm).trans (List.reverse_perm _).symm
    · simp only [ew]; exact (hw.symm).trans (List.reverse_perm _).symm
  · refine ⟨?_, ?_⟩
    · simp only [eu]; exact List.nodup_reverse.2 hun
    · simp only [Server.ids, ew, List.map_reverse]; exact List.nodup_reverse.2 hwn

/-- C112: every server that is read, from any document, is well formed: no key occurs twice, even if the
document says so. -/
theorem C112_read_wf (f : Txt F) (g1 : Fmt G1) (g2 : Fmt G2) (ordU : List F → List F)
    (ordW : List (F × G1) → List (F × G1)) (v : Val) (s : Server F G1 G2)
    (hd : (valServer f g1 g2 ordU ordW).dec v = .ok s) : WF s := by
  have hU : ∀ (l acc : List F), acc.Nodup → (l.foldl setInsert acc).Nodup := by
    intro l
    induction l with
    | nil => exact fun _ h => h
    | cons x l ih => exact fun acc h => ih _ (nodup_setInsert h x)
  have hW : ∀ (l acc : List (F × G1)), (acc.map (·.1)).Nodup →
      ((l.foldl (fun m p => mapInsert m p.1 p.2) acc).map (·.1)).Nodup := by
    intro l
    induction l with
    | nil => exact fun _ h => h
    | cons x l ih => exact fun acc h => ih _ (nodup_mapInsert h x.1 x.2)
  have key : ∃ y : List G1 × F × PublicKeys G2 × F × List F × List (F × G1) × List F,
      s = { accumulators := y.1, witnessSecretKey := y.2.1, publicKeys := y.2.2.1, signSecretKey := y.2.2.2.1
            allUsers := y.2.2.2.2.1.foldl setInsert []
            allWitnesses := y.2.2.2.2.2.1.foldl (fun m q => mapInsert m q.1 q.2) []
            deletions := y.2.2.2.2.2.2 } := by
    unfold valServer struct at hd
    cases v with
    | obj es =>
      simp only [bind, Except.bind, pure, Except.pure] at hd
      split at hd
      · cases hd
      · split at hd
        · cases hd
        · next y _ => cases hd; exact ⟨y, rfl⟩
    | arr l =>
      simp only [bind, Except.bind, pure, Except.pure] at hd
      split at hd
      · cases hd
      · next y _ => cases hd; exact ⟨y, rfl⟩
    | null => cases hd
    | num n => cases hd
    | str t => cases hd
  obtain ⟨y, rfl⟩ := key
  exact ⟨hU _ _ List.nodup_nil, hW _ _ List.nodup_nil⟩

/-- The answers given in a history with restarts from documents; it ends at the first panic, or when a
document cannot be read. -/
def talkV (H : Oracle F) (enc : Enc G1 G2 GT) (params : AccParams G1 G2) (f : Txt F) (g1 : Fmt G1)
    (g2 : Fmt G2) : Server F G1 G2 → List (Event F G1) → List (Option (Rust (Ans F G1 G2)))
  | _, [] => []
  | s, .call c :: es =>
    match s.call H enc params c with
    | .ok (s', a) => some (.ok a) :: talkV H enc params f g1 g2 s' es
    | .error e => [some (.error e)]
  | s, .restart ordU ordW :: es =>
    match (valServer f g1 g2 ordU ordW).dec ((valServer f g1 g2 ordU ordW).enc s) with
    | .ok s' => talkV H enc params f g1 g2 s' es
    | .error _ => [none]

theorem talkV_same (H : Oracle F) (enc : Enc G1 G2 GT) (params : AccParams G1 G2) (f : Txt F) (g1 : Fmt G1)
    (g2 : Fmt G2) (hf : f.Lawful) (h1 : g1.Lawful) (h2 : g2.Lawful) (a1 : g1.absent = none)
    (a2 : g2.absent = none) (es : List (Event F G1))
    (ho : ∀ e ∈ es, e.Ok) (s t : Server F G1 G2) (hs : WF s) (ht : WF t) (hst : SameContent s t) :
    talkV H enc params f g1 g2 s es = talkV H enc params f g1 g2 t (es.filter Event.isCall) := by
  induction es generalizing s t with
  | nil => rfl
  | cons e es ih =>
    have ih := fun s t => ih (fun e he => ho e (by simp [he])) s t
    cases e with
    | call c =>
      have hc := same_call H enc params hst hs c
      rw [List.filter_cons_of_pos (by rfl)]
      simp only [talkV]
      cases e1 : s.call H enc params c <;> cases e2 : t.call H enc params c <;> rw [e1, e2] at hc
      · next e1' e2' =>
        have : e1' = e2' := hc
        simp [this]
      · exact hc.elim
      · exact hc.elim
      · next p q =>
        obtain ⟨hR, ha⟩ := (hc : SameContent p.1 q.1 ∧ p.2 = q.2)
        simp only [ha]
        rw [ih p.1 q.1 (wf_call H enc params hs (a := p.2) e1) (wf_call H enc params ht (a := q.2) e2) hR]
    | restart ordU ordW =>
      have hok : Event.Ok (.restart ordU ordW) := ho _ (by simp)
      obtain ⟨pU, pW⟩ := hok
      obtain ⟨s', hd, hss, hs'⟩ := C112_restore f g1 g2 hf h1 h2 a1 a2 ordU ordW s hs (pU _) (pW _)
      have hst' : SameContent s' t :=
        ⟨hss.accumulators.symm.trans hst.accumulators, hss.witnessSecretKey.symm.trans hst.witnessSecretKey,
          hss.publicKeys.symm.trans hst.publicKeys, hss.signSecretKey.symm.trans hst.signSecretKey,
          hss.deletions.symm.trans hst.deletions, hss.users.symm.trans hst.users, hss.wits.symm.trans hst.wits⟩
      rw [List.filter_cons_of_neg (by simp [Event.isCall])]
      simp only [talkV, hd]
      exact ih s' t hs' ht hst'

/-- C112: a server started with `Server::new`, used by any sequence of calls and saved to and restored from
documents any number of times in between, gives exactly the answers it gives without. -/
theorem C112_transparent (H : Oracle F) (enc : Enc G1 G2 GT) (params : AccParams G1 G2) (f : Txt F)
    (g1 : Fmt G1) (g2 : Fmt G2) (hf : f.Lawful) (h1 : g1.Lawful) (h2 : g2.Lawful) (a1 : g1.absent = none)
    (a2 : g2.absent = none) (α sM v : F) (events : List (Event F G1)) (ho : ∀ e ∈ events, e.Ok) :
    talkV H enc params f g1 g2 (Server.new params α sM v) events
      = talkV H enc params f g1 g2 (Server.new params α sM v) (events.filter Event.isCall) :=
  talkV_same H enc params f g1 g2 hf h1 h2 a1 a2 events ho _ _ (wf_new params α sM v) (wf_new params α sM v)
    ⟨rfl, rfl, rfl, rfl, rfl, List.Perm.refl _, List.Perm.refl _⟩

end

/-! ## a concrete case -/

namespace SelfDescribingExample

local instance sd_prime7 : Fact (Nat.Prime 7) := ⟨by norm_num⟩

/-- elements of the field with 7 elements, written as one character -/
def digit : Txt (ZMod 7) where
  enc x := String.singleton (Char.ofNat (48 + x.val))
  dec s := match s.toList with
    | [c] => .ok ((c.toNat - 48 : Nat) : ZMod 7)
    | _ => .error "invalid value"

theorem digit_lawful : digit.Lawful := by unfold Txt.Lawful; decide

/-- a user with a credential -/
def exU : User (ZMod 7) (ZMod 7) (ZMod 7) := ⟨3, some ⟨2, 5, 1⟩, 4, ⟨6, 0⟩, 12⟩

/-- Its document with the fields in another order, an unknown field, and `Witness` written for `witness`. -/
def doc : List (String × Val) :=
  [("epoch", .num 12), ("Witness", .null), ("public_keys", .arr [.str "6", .str "0"]), ("id", .str "3"),
    ("accumulator", .str "4")]

/-- C112: the document is accepted and gives a user without credential; with `id` twice it is rejected, and so
it is without `epoch`. -/
example : (valUser digit (Fmt.text digit) (Fmt.text digit)).dec (.obj doc) = .ok { exU with witness := none } ∧
    (∀ u, (valUser digit (Fmt.text digit) (Fmt.text digit)).dec (.obj (doc ++ [("id", .str "3")])) ≠ .ok u) ∧
    (∀ u, (valUser digit (Fmt.text digit) (Fmt.text digit)).dec (.obj (doc.drop 1)) ≠ .ok u) ∧
    (valUser digit (Fmt.text digit) (Fmt.text digit)).dec
      ((valUser digit (Fmt.text digit) (Fmt.text digit)).enc exU) = .ok exU := by
  have hl := Fmt.text_lawful digit_lawful
  have hS := (C112_documents digit (Fmt.text digit) (Fmt.text digit) digit_lawful hl hl rfl rfl id id).2.2.2.2.2.2.2.2.1
  refine ⟨?_, ?_, ?_, ((C112_types digit (Fmt.text digit) (Fmt.text digit) digit_lawful hl hl rfl
    rfl).2.2.2.2.2.2.2.2 exU (by decide)).1⟩
  · rfl
  · exact fun u => hS.once _ "id" u (by decide) (by decide)
  · exact fun u => hS.needs _ "epoch" u (by decide) (by decide)

/-- C112: a history with restarts. -/
example (H : Oracle (ZMod 7)) (enc : Enc (ZMod 7) (ZMod 7) (ZMod 7)) (params : AccParams (ZMod 7) (ZMod 7)) :
    talkV H enc params digit (Fmt.text digit) (Fmt.text digit) (Server.new params 2 3 4)
      [.call (.change (.add 1)), .restart List.reverse List.reverse, .call (.change (.add 3)),
        .restart id List.reverse, .call (.change (.delete 1)), .call .accumulator]
    = talkV H enc params digit (Fmt.text digit) (Fmt.text digit) (Server.new params 2 3 4)
      [.call (.change (.add 1)), .call (.change (.add 3)), .call (.change (.delete 1)), .call .accumulator] :=
  C112_transparent H enc params digit (Fmt.text digit) (Fmt.text digit) digit_lawful
    (Fmt.text_lawful digit_lawful) (Fmt.text_lawful digit_lawful) rfl rfl 2 3 4 _ (by
      intro e he
      simp only [List.mem_cons, List.not_mem_nil, or_false] at he
      rcases he with rfl | rfl | rfl | rfl | rfl | rfl
      · trivial
      · exact ⟨fun l => List.reverse_perm l, fun l => List.reverse_perm l⟩
      · trivial
      · exact ⟨fun l => List.Perm.refl l, fun l => List.reverse_perm l⟩
      · trivial
      · trivial)

/-- The same with the keys as an object. -/
def doc' : List (String × Val) :=
  [("epoch", .num 12), ("public_keys", .obj [("witness_key", .str "6"), ("sign_key", .str "0")]), ("id", .str "3"),
    ("note", .str "restored by hand"), ("accumulator", .str "4")]

/-- C112: the entry `witness` is dropped from what was written, the others are reordered. -/
example : (valUser digit (Fmt.text digit) (Fmt.text digit)).dec (.obj doc') = .ok { exU with witness := none } := by
  have hl := Fmt.text_lawful digit_lawful
  refine (C112_user_without_witness digit (Fmt.text digit) (Fmt.text digit) digit_lawful hl hl rfl rfl).2 exU _ _
    (by decide) rfl (by decide) ?_
  show List.Perm [_, _, _, _] [_, _, _, _]
  exact (List.perm_append_comm (l₁ := [_, _]) (l₂ := [_, _])).trans
    (List.Perm.cons _ (List.Perm.cons _ (List.Perm.swap _ _ _)))

/-- C112: a server with two members, saved with its tables iterated backwards. -/
def exSrv : Server (ZMod 7) (ZMod 7) (ZMod 7) :=
  ⟨[1, 5], 2, ⟨2, 3⟩, 3, [4, 1, 6], [(4, 2), (1, 3)], [6]⟩

theorem exSrv_wf : WF exSrv := ⟨by decide, by decide⟩

example : ∃ s', (valServer digit (Fmt.text digit) (Fmt.text digit) List.reverse List.reverse).dec
    ((valServer digit (Fmt.text digit) (Fmt.text digit) List.reverse List.reverse).enc exSrv) = .ok s' ∧
    SameContent exSrv s' ∧ WF s' :=
  have hl := Fmt.text_lawful digit_lawful
  C112_restore digit (Fmt.text digit) (Fmt.text digit) digit_lawful hl hl rfl rfl List.reverse List.reverse exSrv
    exSrv_wf (List.reverse_perm _) (List.reverse_perm _)

/-- C112: an array of values with the user 4 twice in the set and in the map (the later entry counts). -/
example : WF (⟨[1], 2, ⟨2, 3⟩, 3, [4], [(4, 6)], []⟩ : Server (ZMod 7) (ZMod 7) (ZMod 7)) :=
  C112_read_wf digit (Fmt.text digit) (Fmt.text digit) id id
    (.arr [.arr [.str "1"], .str "2", .arr [.str "2", .str "3"], .str "3", .arr [.str "4", .str "4"],
      .obj [("4", .str "5"), ("4", .str "6")], .arr []]) _ rfl

end SelfDescribingExample

end Allo
