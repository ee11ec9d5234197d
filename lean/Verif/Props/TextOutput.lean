import Verif.Model.TextOutput
import Mathlib.Data.ZMod.Basic
import Mathlib.Data.List.Infix

/-!
# C113: what is printed

The `Display` texts of the crate's types show every field after its name and determine the value; the two proof
types that print the same name are told apart. The derived `Debug` of the types that hold secrets is not
redacted: the text contains the secret keys and determines everything.
-/

set_option linter.unusedVariables false

namespace Allo
open Prints

/-! ## vocabulary -/

namespace Prints
variable {α β : Type}

/-- Texts of the dependency: where one ends can be told without looking at what follows (texts of a fixed
length, or in brackets), and different values have different texts. -/
def SelfDelim (p : Prints α) : Prop := ∀ a b u v s t, p a u → p b v → u ++ s = v ++ t → a = b ∧ u = v

/-- The text determines the value. -/
def Tells (p : Prints α) : Prop := ∀ a b w, p a w → p b w → a = b

end Prints

/-- The text `w` contains `label` followed by a text of `x`. -/
def Shows {α : Type} (w : List Char) (label : String) (p : Prints α) (x : α) : Prop :=
  ∃ u, p x u ∧ (label.toList ++ u) <:+: w

/-! ## lemmas -/

namespace Prints
variable {α β : Type}

theorem SelfDelim.tells {p : Prints α} (h : p.SelfDelim) : p.Tells := by
  intro a b w ha hb
  exact (h a b w w [] [] ha hb rfl).1

theorem SelfDelim.last {p : Prints α} (h : p.SelfDelim) (s e : String) : (last s p e).SelfDelim := by
  rintro a b w w' t t' ⟨u, hu, rfl⟩ ⟨v, hv, rfl⟩ he
  simp only [List.append_assoc] at he
  have he := List.append_cancel_left he
  obtain ⟨rfl, rfl⟩ := h a b u v _ _ hu hv he
  exact ⟨rfl, rfl⟩

theorem SelfDelim.piece {p : Prints α} {r : Prints β} (h : p.SelfDelim) (hr : r.SelfDelim) (s : String) :
    (piece s p r).SelfDelim := by
  rintro ⟨a, a'⟩ ⟨b, b'⟩ w w' t t' ⟨u, v, hu, hv, rfl⟩ ⟨u', v', hu', hv', rfl⟩ he
  simp only [List.append_assoc] at he
  have he := List.append_cancel_left he
  obtain ⟨h1, rfl⟩ := h _ _ _ _ _ _ hu hu' he
  have he := List.append_cancel_left he
  obtain ⟨h2, rfl⟩ := hr _ _ _ _ _ _ hv hv' he
  simp only at h1 h2
  exact ⟨by rw [h1, h2], rfl⟩

theorem SelfDelim.of {r : Prints α} (h : r.SelfDelim) {f : β → α} (hf : ∀ x y, f x = f y → x = y) :
    (r.of f).SelfDelim := by
  intro a b u v s t ha hb he
  obtain ⟨h1, h2⟩ := h _ _ _ _ _ _ ha hb he
  exact ⟨hf _ _ h1, h2⟩

theorem digits_cancel {u v s t : List Char} {c d : Char} (hu : ∀ x ∈ u, x.isDigit = true)
    (hv : ∀ x ∈ v, x.isDigit = true) (hc : c.isDigit = false) (hd : d.isDigit = false)
    (h : u ++ c :: s = v ++ d :: t) : u = v := by
  induction u generalizing v with
  | nil =>
    cases v with
    | nil => rfl
    | cons y v =>
      simp only [List.nil_append, List.cons_append, List.cons.injEq] at h
      have := hv y (by simp)
      rw [← h.1, hc] at this
      cases this
  | cons x u ih =>
    cases v with
    | nil =>
      simp only [List.nil_append, List.cons_append, List.cons.injEq] at h
      have := hu x (by simp)
      rw [h.1, hd] at this
      cases this
    | cons y v =>
      simp only [List.cons_append, List.cons.injEq] at h
      rw [h.1, ih (fun x hx => hu x (by simp [hx])) (fun x hx => hv x (by simp [hx])) h.2]

theorem decimal_last (s : String) : (last s decimal " }").SelfDelim := by
  rintro a b w w' t t' ⟨u, ⟨-, hu, hua⟩, rfl⟩ ⟨v, ⟨-, hv, hvb⟩, rfl⟩ he
  simp only [List.append_assoc] at he
  have he := List.append_cancel_left he
  have : u = v := digits_cancel hu hv (c := ' ') (d := ' ') rfl rfl (s := '}' :: t) (t := '}' :: t') he
  subst this
  exact ⟨hua.symm.trans hvb, rfl⟩

theorem more_delim {p : Prints α} (h : p.SelfDelim) {c : Char} (hc : c ≠ ',') :
    ∀ (a b : List α) u v s t, more p c a u → more p c b v → u ++ s = v ++ t → a = b ∧ u = v
  | [], [], u, v, s, t, ha, hb, _ => ⟨rfl, ha.trans hb.symm⟩
  | [], y :: b, u, v, s, t, ha, hb, he => by
    obtain ⟨_, _, _, _, rfl⟩ := hb
    subst ha
    exact absurd (List.cons.inj he).1 hc
  | x :: a, [], u, v, s, t, ha, hb, he => by
    obtain ⟨_, _, _, _, rfl⟩ := ha
    subst hb
    exact absurd (List.cons.inj he).1.symm hc
  | x :: a, y :: b, _, _, s, t, ⟨u, v, hu, hv, rfl⟩, ⟨u', v', hu', hv', rfl⟩, he => by
    simp only [List.append_assoc] at he
    have he := List.append_cancel_left he
    obtain ⟨rfl, rfl⟩ := h _ _ _ _ _ _ hu hu' he
    have he := List.append_cancel_left he
    obtain ⟨rfl, rfl⟩ := more_delim h hc a b _ _ _ _ hv hv' he
    exact ⟨rfl, rfl⟩

/-- no text starts with the character -/
def NotStart (p : Prints α) (c : Char) : Prop := ∀ x u t, p x u → ∀ r, u ++ t ≠ c :: r

theorem notStart_last {p : Prints α} {s e : String} {c d : Char} {l : List Char} (hs : s.toList = d :: l)
    (hd : d ≠ c) : (last s p e).NotStart c := by
  rintro x w t ⟨u, -, rfl⟩ r he
  rw [hs] at he
  exact hd (List.cons.inj he).1

theorem list_delim {p : Prints α} (h : p.SelfDelim) {o c : Char} (hc : c ≠ ',') (hn : p.NotStart c) :
    (list p o c).SelfDelim := by
  intro a b u v s t ha hb he
  match a, b, ha, hb with
  | [], [], ha, hb => exact ⟨rfl, (show u = _ from ha).trans (show v = _ from hb).symm⟩
  | [], y :: b, ha, hb =>
    obtain ⟨u', v', hu', -, rfl⟩ := hb
    subst ha
    simp only [List.cons_append, List.append_assoc, List.cons.injEq, true_and, List.nil_append] at he
    exact absurd he.symm (hn _ _ _ hu' _)
  | x :: a, [], ha, hb =>
    obtain ⟨u', v', hu', -, rfl⟩ := ha
    subst hb
    simp only [List.cons_append, List.append_assoc, List.cons.injEq, true_and, List.nil_append] at he
    exact absurd he (hn _ _ _ hu' _)
  | x :: a, y :: b, ha, hb =>
    obtain ⟨u, v, hu, hv, rfl⟩ := ha
    obtain ⟨u', v', hu', hv', rfl⟩ := hb
    simp only [List.cons_append, List.append_assoc, List.cons.injEq, true_and] at he
    obtain ⟨rfl, rfl⟩ := h _ _ _ _ _ _ hu hu' he
    have he := List.append_cancel_left he
    obtain ⟨rfl, rfl⟩ := more_delim h hc a b _ _ _ _ hv hv' he
    exact ⟨rfl, rfl⟩

theorem option_delim {p : Prints α} (h : p.SelfDelim) : (option p).SelfDelim := by
  intro a b u v s t ha hb he
  match a, b, ha, hb with
  | none, none, ha, hb => exact ⟨rfl, (show u = _ from ha).trans (show v = _ from hb).symm⟩
  | none, some y, ha, hb =>
    obtain ⟨u', -, rfl⟩ := hb
    subst ha
    exact absurd (List.cons.inj he).1 (by decide)
  | some x, none, ha, hb =>
    obtain ⟨u', -, rfl⟩ := ha
    subst hb
    exact absurd (List.cons.inj he).1 (by decide)
  | some x, some y, ha, hb =>
    obtain ⟨u, hu, rfl⟩ := ha
    obtain ⟨u', hu', rfl⟩ := hb
    simp only [List.append_assoc] at he
    have he := List.append_cancel_left he
    obtain ⟨rfl, rfl⟩ := h _ _ _ _ _ _ hu hu' he
    exact ⟨rfl, rfl⟩

end Prints

section
variable {F G1 G2 : Type}

/-- C113: the `Display` text of every type determines the value. -/
theorem C113_display (f : Prints F) (g1 : Prints G1) (g2 : Prints G2) (b : Prints G1) (hf : f.SelfDelim)
    (h1 : g1.SelfDelim) (h2 : g2.SelfDelim) (hb : b.SelfDelim) :
    (showElement f).Tells ∧ (showCoefficient g1).Tells ∧ (showAccumulator g1).Tells ∧
    (showPublicKey g2).Tells ∧ (showMembershipWitness g1).Tells ∧ (showNonMembershipWitness f g1).Tells ∧
    (showProofParams b).Tells ∧ (showMemProof f g1).Tells ∧ (showNonProof f g1).Tells ∧
    (showCredProof f g1).Tells := by
  refine ⟨(hf.last _ _).tells, (h1.last _ _).tells, (h1.last _ _).tells, (h2.last _ _).tells,
    (h1.last _ _).tells, ((h1.piece (hf.last _ _) _).of ?_).tells,
    ((hb.piece (hb.piece (hb.piece (hb.last _ _) _) _) _).of ?_).tells,
    ((h1.piece (h1.piece (h1.piece (hf.piece (hf.piece (hf.piece (hf.piece (hf.last _ _) _) _) _) _) _) _) _).of
      ?_).tells,
    ((h1.piece (h1.piece (h1.piece (h1.piece (h1.piece (hf.piece (hf.piece (hf.piece (hf.piece (hf.piece
      (hf.piece (hf.piece (hf.last _ _) _) _) _) _) _) _) _) _) _) _) _) _).of ?_).tells,
    ((h1.piece (h1.piece (h1.piece (hf.piece (hf.piece (hf.piece (hf.piece (hf.piece (hf.piece (hf.piece
      (hf.piece (hf.last _ _) _) _) _) _) _) _) _) _) _) _) _).of ?_).tells⟩
  all_goals
    rintro ⟨⟩ ⟨⟩ h
    simpa using h

/-- C113: the two proofs that are both called `MembershipProof` never print the same text. -/
theorem C113_same_name (f : Prints F) (g : Prints G1) (p : MemProof F G1) (q : CredProof F G1) (w : List Char) :
    showMemProof f g p w → ¬ showCredProof f g q w := by
  rintro ⟨u, v, -, -, rfl⟩ ⟨u', v', -, -, h⟩
  simp only [List.append_assoc] at h
  have := congrArg (fun l => l[18]?) h
  simp at this

theorem shows_piece {α β : Type} {p : Prints α} {r : Prints β} {s : String} {x : α × β} {w : List Char}
    (h : piece s p r x w) : (∀ l : String, l.toList <:+ s.toList → Shows w l p x.1) ∧
      ∃ v, r x.2 v ∧ ∀ {γ : Type} (l : String) (q : Prints γ) (y : γ), Shows v l q y → Shows w l q y := by
  obtain ⟨u, v, hu, hv, rfl⟩ := h
  refine ⟨fun l ⟨k, hk⟩ => ⟨u, hu, k, v, ?_⟩, v, hv, ?_⟩
  · rw [← hk]; simp only [List.append_assoc]
  · rintro γ l q y ⟨u', hu', hi⟩
    exact ⟨u', hu', hi.trans ⟨s.toList ++ u, [], by simp⟩⟩

theorem shows_last {α : Type} {p : Prints α} {s e : String} {x : α} {w : List Char} (h : last s p e x w)
    (l : String) (hl : l.toList <:+ s.toList) : Shows w l p x := by
  obtain ⟨u, hu, rfl⟩ := h
  obtain ⟨k, hk⟩ := hl
  refine ⟨u, hu, k, e.toList, ?_⟩
  rw [← hk]; simp only [List.append_assoc]

/-- what an argument that is itself a struct shows, the whole shows -/
theorem Shows.inner {α β : Type} {w : List Char} {l m : String} {p : Prints α} {x : α} {q : Prints β} {y : β}
    (h : Shows w l p x) (hi : ∀ u, p x u → ∃ v, q y v ∧ ∃ r, u = m.toList ++ v ++ r) (n : String)
    (hn : n.toList = l.toList ++ m.toList) : Shows w n q y := by
  obtain ⟨u, hu, hw⟩ := h
  obtain ⟨v, hv, r, rfl⟩ := hi u hu
  refine ⟨v, hv, List.IsInfix.trans ⟨[], r, ?_⟩ hw⟩
  rw [hn]; simp

theorem last_inner {α : Type} {p : Prints α} {s e : String} {x : α} :
    ∀ u, last s p e x u → ∃ v, p x v ∧ ∃ r, u = s.toList ++ v ++ r := by
  rintro u ⟨v, hv, rfl⟩
  exact ⟨v, hv, _, rfl⟩

/-- C113: every `Display` text shows the name of the type and every field after its own name (in the credential
proof, `challenge` has no colon). -/
theorem C113_labels (f : Prints F) (g : Prints G1) (g2 : Prints G2) (b : Prints G1) (w : List Char) :
    (∀ x, showElement f x w → Shows w "Element { " f x) ∧
    (∀ x, showCoefficient g x w → Shows w "Coefficient { " g x) ∧
    (∀ x, showAccumulator g x w → Shows w "Accumulator { " g x) ∧
    (∀ x, showPublicKey g2 x w → Shows w "PublicKey { " g2 x) ∧
    (∀ x, showMembershipWitness g x w → Shows w "MembershipWitness { " g x) ∧
    (∀ x, showNonMembershipWitness f g x w →
      "NonMembershipWitness {".toList <+: w ∧ Shows w " c: " g x.c ∧ Shows w " d: " f x.d) ∧
    (∀ p, showProofParams b p w → "ProofParams {".toList <+: w ∧
      Shows w " x: " b p.x ∧ Shows w " y: " b p.y ∧ Shows w " z: " b p.z ∧ Shows w " k: " b p.k) ∧
    (∀ p, showMemProof f g p w → "MembershipProof {".toList <+: w ∧
      Shows w " e_c: " g p.eC ∧ Shows w " t_sigma: " g p.tSigma ∧ Shows w " t_rho: " g p.tRho ∧
      Shows w " s_sigma: " f p.sSigma ∧ Shows w " s_rho: " f p.sRho ∧
      Shows w " s_delta_sigma: " f p.sDeltaSigma ∧ Shows w " s_delta_rho: " f p.sDeltaRho ∧
      Shows w " s_y: " f p.sY) ∧
    (∀ p, showNonProof f g p w → "NonMembershipProof {".toList <+: w ∧
      Shows w " e_c: " g p.eC ∧ Shows w " e_d: " g p.eD ∧ Shows w " e_dm1: " g p.eDm1 ∧
      Shows w " t_sigma: " g p.tSigma ∧ Shows w " t_rho: " g p.tRho ∧
      Shows w " s_sigma: " f p.sSigma ∧ Shows w " s_rho: " f p.sRho ∧
      Shows w " s_delta_sigma: " f p.sDeltaSigma ∧ Shows w " s_delta_rho: " f p.sDeltaRho ∧
      Shows w " s_u: " f p.sU ∧ Shows w " s_v: " f p.sV ∧ Shows w " s_w: " f p.sW ∧ Shows w " s_y: " f p.sY) ∧
    (∀ p, showCredProof f g p w → "MembershipProof {".toList <+: w ∧
      Shows w " u_1: " g p.u1 ∧ Shows w " u_2: " g p.u2 ∧ Shows w " r: " g p.r ∧
      Shows w " challenge " f p.challenge ∧ Shows w " s_0: " f p.s0 ∧ Shows w " s_1: " f p.s1 ∧
      Shows w " s_2: " f p.s2 ∧ Shows w " s_3: " f p.s3 ∧ Shows w " s_4: " f p.s4 ∧ Shows w " s_5: " f p.s5 ∧
      Shows w " s_6: " f p.s6 ∧ Shows w " s_7: " f p.s7) := by
  refine ⟨fun x h => shows_last h _ (List.suffix_refl _), fun x h => shows_last h _ (List.suffix_refl _),
    fun x h => shows_last h _ (List.suffix_refl _), fun x h => shows_last h _ (List.suffix_refl _),
    fun x h => shows_last h _ (List.suffix_refl _), ?_, ?_, ?_, ?_, ?_⟩
  · intro x h
    obtain ⟨a1, v1, h1, l1⟩ := shows_piece h
    refine ⟨?_, a1 _ (by decide), l1 _ _ _ (shows_last h1 _ (by decide))⟩
    obtain ⟨u, v, -, -, rfl⟩ := h
    exact ⟨" c: ".toList ++ (u ++ v), rfl⟩
  · intro p h
    obtain ⟨a1, v1, h1, l1⟩ := shows_piece h
    obtain ⟨a2, v2, h2, l2⟩ := shows_piece h1
    obtain ⟨a3, v3, h3, l3⟩ := shows_piece h2
    refine ⟨?_, a1 _ (by decide), l1 _ _ _ (a2 _ (by decide)), l1 _ _ _ (l2 _ _ _ (a3 _ (by decide))),
      l1 _ _ _ (l2 _ _ _ (l3 _ _ _ (shows_last h3 _ (by decide))))⟩
    obtain ⟨u, v, -, -, rfl⟩ := h
    exact ⟨" x: ".toList ++ (u ++ v), rfl⟩
  · intro p h
    obtain ⟨a1, v1, h1, l1⟩ := shows_piece h
    obtain ⟨a2, v2, h2, l2⟩ := shows_piece h1
    obtain ⟨a3, v3, h3, l3⟩ := shows_piece h2
    obtain ⟨a4, v4, h4, l4⟩ := shows_piece h3
    obtain ⟨a5, v5, h5, l5⟩ := shows_piece h4
    obtain ⟨a6, v6, h6, l6⟩ := shows_piece h5
    obtain ⟨a7, v7, h7, l7⟩ := shows_piece h6
    refine ⟨?_, a1 _ (by decide), l1 _ _ _ (a2 _ (by decide)), l1 _ _ _ (l2 _ _ _ (a3 _ (by decide))),
      l1 _ _ _ (l2 _ _ _ (l3 _ _ _ (a4 _ (by decide)))),
      l1 _ _ _ (l2 _ _ _ (l3 _ _ _ (l4 _ _ _ (a5 _ (by decide))))),
      l1 _ _ _ (l2 _ _ _ (l3 _ _ _ (l4 _ _ _ (l5 _ _ _ (a6 _ (by decide)))))),
      l1 _ _ _ (l2 _ _ _ (l3 _ _ _ (l4 _ _ _ (l5 _ _ _ (l6 _ _ _ (a7 _ (by decide))))))),
      l1 _ _ _ (l2 _ _ _ (l3 _ _ _ (l4 _ _ _ (l5 _ _ _ (l6 _ _ _ (l7 _ _ _ (shows_last h7 _ (by decide))))))))⟩
    obtain ⟨u, v, -, -, rfl⟩ := h
    exact ⟨" e_c: ".toList ++ (u ++ v), rfl⟩
  · intro p h
    obtain ⟨a1, v1, h1, l1⟩ := shows_piece h
    obtain ⟨a2, v2, h2, l2⟩ := shows_piece h1
    obtain ⟨a3, v3, h3, l3⟩ := shows_piece h2
    obtain ⟨a4, v4, h4, l4⟩ := shows_piece h3
    obtain ⟨a5, v5, h5, l5⟩ := shows_piece h4
    obtain ⟨a6, v6, h6, l6⟩ := shows_piece h5
    obtain ⟨a7, v7, h7, l7⟩ := shows_piece h6
    obtain ⟨a8, v8, h8, l8⟩ := shows_piece h7
    obtain ⟨a9, v9, h9, l9⟩ := shows_piece h8
    obtain ⟨a10, v10, h10, l10⟩ := shows_piece h9
    obtain ⟨a11, v11, h11, l11⟩ := shows_piece h10
    obtain ⟨a12, v12, h12, l12⟩ := shows_piece h11
    refine ⟨?_, a1 _ (by decide), l1 _ _ _ (a2 _ (by decide)), l1 _ _ _ (l2 _ _ _ (a3 _ (by decide))),
      l1 _ _ _ (l2 _ _ _ (l3 _ _ _ (a4 _ (by decide)))),
      l1 _ _ _ (l2 _ _ _ (l3 _ _ _ (l4 _ _ _ (a5 _ (by decide))))),
      l1 _ _ _ (l2 _ _ _ (l3 _ _ _ (l4 _ _ _ (l5 _ _ _ (a6 _ (by decide)))))),
      l1 _ _ _ (l2 _ _ _ (l3 _ _ _ (l4 _ _ _ (l5 _ _ _ (l6 _ _ _ (a7 _ (by decide))))))),
      l1 _ _ _ (l2 _ _ _ (l3 _ _ _ (l4 _ _ _ (l5 _ _ _ (l6 _ _ _ (l7 _ _ _ (a8 _ (by decide)))))))),
      l1 _ _ _ (l2 _ _ _ (l3 _ _ _ (l4 _ _ _ (l5 _ _ _ (l6 _ _ _ (l7 _ _ _ (l8 _ _ _ (a9 _ (by decide))))))))),
      l1 _ _ _ (l2 _ _ _ (l3 _ _ _ (l4 _ _ _ (l5 _ _ _ (l6 _ _ _ (l7 _ _ _ (l8 _ _ _ (l9 _ _ _ (a10 _ (by decide)))))))))),
      l1 _ _ _ (l2 _ _ _ (l3 _ _ _ (l4 _ _ _ (l5 _ _ _ (l6 _ _ _ (l7 _ _ _ (l8 _ _ _ (l9 _ _ _ (l10 _ _ _ (a11 _ (by decide))))))))))),
      l1 _ _ _ (l2 _ _ _ (l3 _ _ _ (l4 _ _ _ (l5 _ _ _ (l6 _ _ _ (l7 _ _ _ (l8 _ _ _ (l9 _ _ _ (l10 _ _ _ (l11 _ _ _ (a12 _ (by decide)))))))))))),
      l1 _ _ _ (l2 _ _ _ (l3 _ _ _ (l4 _ _ _ (l5 _ _ _ (l6 _ _ _ (l7 _ _ _ (l8 _ _ _ (l9 _ _ _ (l10 _ _ _ (l11 _ _ _ (l12 _ _ _ (shows_last h12 _ (by decide)))))))))))))⟩
    obtain ⟨u, v, -, -, rfl⟩ := h
    exact ⟨" e_c: ".toList ++ (u ++ v), rfl⟩
  · intro p h
    obtain ⟨a1, v1, h1, l1⟩ := shows_piece h
    obtain ⟨a2, v2, h2, l2⟩ := shows_piece h1
    obtain ⟨a3, v3, h3, l3⟩ := shows_piece h2
    obtain ⟨a4, v4, h4, l4⟩ := shows_piece h3
    obtain ⟨a5, v5, h5, l5⟩ := shows_piece h4
    obtain ⟨a6, v6, h6, l6⟩ := shows_piece h5
    obtain ⟨a7, v7, h7, l7⟩ := shows_piece h6
    obtain ⟨a8, v8, h8, l8⟩ := shows_piece h7
    obtain ⟨a9, v9, h9, l9⟩ := shows_piece h8
    obtain ⟨a10, v10, h10, l10⟩ := shows_piece h9
    obtain ⟨a11, v11, h11, l11⟩ := shows_piece h10
    refine ⟨?_, a1 _ (by decide), l1 _ _ _ (a2 _ (by decide)), l1 _ _ _ (l2 _ _ _ (a3 _ (by decide))),
      l1 _ _ _ (l2 _ _ _ (l3 _ _ _ (a4 _ (by decide)))),
      l1 _ _ _ (l2 _ _ _ (l3 _ _ _ (l4 _ _ _ (a5 _ (by decide))))),
      l1 _ _ _ (l2 _ _ _ (l3 _ _ _ (l4 _ _ _ (l5 _ _ _ (a6 _ (by decide)))))),
      l1 _ _ _ (l2 _ _ _ (l3 _ _ _ (l4 _ _ _ (l5 _ _ _ (l6 _ _ _ (a7 _ (by decide))))))),
      l1 _ _ _ (l2 _ _ _ (l3 _ _ _ (l4 _ _ _ (l5 _ _ _ (l6 _ _ _ (l7 _ _ _ (a8 _ (by decide)))))))),
      l1 _ _ _ (l2 _ _ _ (l3 _ _ _ (l4 _ _ _ (l5 _ _ _ (l6 _ _ _ (l7 _ _ _ (l8 _ _ _ (a9 _ (by decide))))))))),
      l1 _ _ _ (l2 _ _ _ (l3 _ _ _ (l4 _ _ _ (l5 _ _ _ (l6 _ _ _ (l7 _ _ _ (l8 _ _ _ (l9 _ _ _ (a10 _ (by decide)))))))))),
      l1 _ _ _ (l2 _ _ _ (l3 _ _ _ (l4 _ _ _ (l5 _ _ _ (l6 _ _ _ (l7 _ _ _ (l8 _ _ _ (l9 _ _ _ (l10 _ _ _ (a11 _ (by decide))))))))))),
      l1 _ _ _ (l2 _ _ _ (l3 _ _ _ (l4 _ _ _ (l5 _ _ _ (l6 _ _ _ (l7 _ _ _ (l8 _ _ _ (l9 _ _ _ (l10 _ _ _ (l11 _ _ _ (shows_last h11 _ (by decide))))))))))))⟩
    obtain ⟨u, v, -, -, rfl⟩ := h
    exact ⟨" u_1: ".toList ++ (u ++ v), rfl⟩

/-- C113: what `{:?}` of a secret-holding value prints contains the secrets as they are. -/
theorem C113_debug_leaks (f : Prints F) (g1 : Prints G1) (g2 : Prints G2) (ordU : List F → List F)
    (ordW : List (F × G1) → List (F × G1)) (w : List Char) :
    (∀ x, debugSecretKey f x w → Shows w "SecretKey(" f x) ∧
    (∀ m, debugProofMessage f (.hidden m) w → Shows w "Hidden { message: " f m) ∧
    (∀ m b, debugProofMessage f (.sharedBlinding m b) w →
      Shows w "SharedBlinding { message: " f m ∧ Shows w ", blinder: " f b) ∧
    (∀ x, debugWitness f g1 x w → Shows w "secret_key: SecretKey(" f x.secretKey ∧
      Shows w "witness: MembershipWitness(" g1 x.witness ∧ Shows w "signature: " g1 x.signature) ∧
    (∀ s, debugServer f g1 g2 ordU ordW s w →
      Shows w "witness_secret_key: SecretKey(" f s.witnessSecretKey ∧
      Shows w "sign_secret_key: SecretKey(" f s.signSecretKey) := by
  refine ⟨fun x h => shows_last h _ (List.suffix_refl _), fun m h => shows_last h _ (List.suffix_refl _), ?_, ?_, ?_⟩
  · intro m b h
    obtain ⟨a1, v1, h1, l1⟩ := shows_piece (show piece _ f _ (m, b) w from h)
    exact ⟨a1 _ (List.suffix_refl _), l1 _ _ _ (shows_last h1 _ (List.suffix_refl _))⟩
  · intro x h
    obtain ⟨a1, v1, h1, l1⟩ := shows_piece h
    obtain ⟨a2, v2, h2, l2⟩ := shows_piece h1
    exact ⟨(a1 "secret_key: " (by decide)).inner last_inner _ (by decide),
      l1 _ _ _ ((a2 "witness: " (by decide)).inner last_inner _ (by decide)),
      l1 _ _ _ (l2 _ _ _ (shows_last h2 _ (by decide)))⟩
  · intro s h
    obtain ⟨a1, v1, h1, l1⟩ := shows_piece h
    obtain ⟨a2, v2, h2, l2⟩ := shows_piece h1
    obtain ⟨a3, v3, h3, l3⟩ := shows_piece h2
    obtain ⟨a4, v4, h4, l4⟩ := shows_piece h3
    exact ⟨l1 _ _ _ ((a2 "witness_secret_key: " (by decide)).inner last_inner _ (by decide)),
      l1 _ _ _ (l2 _ _ _ (l3 _ _ _ ((a4 "sign_secret_key: " (by decide)).inner last_inner _ (by decide))))⟩

theorem debugWitness_delim {f : Prints F} {g1 : Prints G1} (hf : f.SelfDelim) (h1 : g1.SelfDelim) :
    (debugWitness f g1).SelfDelim := by
  refine ((hf.last _ _).piece ((h1.last _ _).piece (h1.last _ _) _) _).of ?_
  rintro ⟨⟩ ⟨⟩ h
  simpa using h

theorem debugPublicKeys_delim {g2 : Prints G2} (h2 : g2.SelfDelim) : (debugPublicKeys g2).SelfDelim := by
  refine ((h2.last _ _).piece ((h2.last _ _).last _ _) _).of ?_
  rintro ⟨⟩ ⟨⟩ h
  simpa using h

/-- C113: what `{:?}` prints for a user, or for a server, determines all of it (the set of users and the
witnesses up to the order in which the tables are iterated). -/
theorem C113_debug (f : Prints F) (g1 : Prints G1) (g2 : Prints G2) (hf : f.SelfDelim) (h1 : g1.SelfDelim)
    (h2 : g2.SelfDelim) (ordU : List F → List F) (ordW : List (F × G1) → List (F × G1))
    (hU : ∀ l, (ordU l).Perm l) (hW : ∀ l, (ordW l).Perm l) :
    (debugSecretKey f).Tells ∧ (debugProofMessage f).Tells ∧ (debugWitness f g1).Tells ∧
    (debugUser f g1 g2).Tells ∧
    (∀ s t w, debugServer f g1 g2 ordU ordW s w → debugServer f g1 g2 ordU ordW t w →
      s.accumulators = t.accumulators ∧ s.witnessSecretKey = t.witnessSecretKey ∧
      s.publicKeys = t.publicKeys ∧ s.signSecretKey = t.signSecretKey ∧ s.allUsers.Perm t.allUsers ∧
      s.allWitnesses.Perm t.allWitnesses ∧ s.deletions = t.deletions) := by
  refine ⟨(hf.last _ _).tells, ?_, (debugWitness_delim hf h1).tells, ?_, ?_⟩
  · intro a b w ha hb
    match a, b, ha, hb with
    | .hidden m, .hidden n, ha, hb => rw [(hf.last _ _).tells m n w ha hb]
    | .hidden m, .sharedBlinding n c, ha, hb =>
      obtain ⟨u, -, rfl⟩ := ha
      obtain ⟨u', v', -, -, h⟩ := hb
      exact absurd (List.cons.inj h).1 (by decide)
    | .sharedBlinding n c, .hidden m, ha, hb =>
      obtain ⟨u, -, rfl⟩ := hb
      obtain ⟨u', v', -, -, h⟩ := ha
      exact absurd (List.cons.inj h).1 (by decide)
    | .sharedBlinding n c, .sharedBlinding n' c', ha, hb =>
      have := (hf.piece (hf.last _ _) _).tells (n, c) (n', c') w ha hb
      cases this
      rfl
  · have : (debugUser f g1 g2).SelfDelim := by
      refine ((hf.last _ _).piece ((option_delim (debugWitness_delim hf h1)).piece ((h1.last _ _).piece
        ((debugPublicKeys_delim h2).piece (decimal_last _) _) _) _) _).of ?_
      rintro ⟨⟩ ⟨⟩ h
      simpa using h
    exact this.tells
  · intro s t w hs ht
    have hE : (list (debugElement f) '{' '}').SelfDelim :=
      list_delim (hf.last _ _) (by decide) (notStart_last (d := 'E') rfl (by decide))
    have hD : (list (debugElement f) '[' ']').SelfDelim :=
      list_delim (hf.last _ _) (by decide) (notStart_last (d := 'E') rfl (by decide))
    have hA : (list (debugAccumulator g1) '[' ']').SelfDelim :=
      list_delim (h1.last _ _) (by decide) (notStart_last (d := 'A') rfl (by decide))
    have hM : (list (piece "" (debugElement f) (last ": " (debugMembershipWitness g1) "")) '{' '}').SelfDelim := by
      refine list_delim ((hf.last _ _).piece ((h1.last _ _).last _ _) _) (by decide) ?_
      rintro x w t ⟨u, v, ⟨u', -, rfl⟩, -, rfl⟩ r he
      exact absurd (List.cons.inj he).1 (by decide)
    have := (hA.piece ((hf.last _ _).piece ((debugPublicKeys_delim h2).piece ((hf.last _ _).piece (hE.piece
      (hM.piece (hD.last _ _) _) _) _) _) _) _).tells _ _ w hs ht
    simp only [Prod.mk.injEq] at this
    obtain ⟨e1, e2, e3, e4, e5, e6, e7⟩ := this
    exact ⟨e1, e2, e3, e4, (hU _).symm.trans (e5 ▸ hU _), (hW _).symm.trans (e6 ▸ hW _), e7⟩

end

namespace TextExample

set_option maxRecDepth 8000

/-- one digit for every number modulo 7 -/
def digit7 : Prints (ZMod 7) := fun x w => w = [Char.ofNat (48 + x.val)]

theorem digit7_delim : digit7.SelfDelim := by
  rintro a b u v s t rfl rfl h
  have : Char.ofNat (48 + a.val) = Char.ofNat (48 + b.val) := (List.cons.inj h).1
  have : a = b := by
    clear h
    revert a b
    decide
  subst this
  exact ⟨rfl, rfl⟩

example : showNonMembershipWitness digit7 digit7 ⟨(3 : ZMod 7), (5 : ZMod 7)⟩
    "NonMembershipWitness { c: 3, d: 5 }".toList := by
  refine ⟨['3'], ", d: 5 }".toList, rfl, ⟨['5'], rfl, rfl⟩, rfl⟩

example : debugWitness digit7 digit7 ⟨(3 : ZMod 7), (5 : ZMod 7), (6 : ZMod 7)⟩
    "Witness { secret_key: SecretKey(3), witness: MembershipWitness(5), signature: 6 }".toList := by
  refine ⟨"SecretKey(3)".toList, ", witness: MembershipWitness(5), signature: 6 }".toList, ⟨['3'], rfl, rfl⟩,
    ⟨"MembershipWitness(5)".toList, ", signature: 6 }".toList, ⟨['5'], rfl, rfl⟩, ⟨['6'], rfl, rfl⟩, rfl⟩, rfl⟩

example : debugUser digit7 digit7 digit7
    { id := (1 : ZMod 7), witness := none, accumulator := (2 : ZMod 7), publicKeys := ⟨(3 : ZMod 7), 4⟩, epoch := 15 }
    ("User { id: Element(1), witness: None, accumulator: Accumulator(2), public_keys: " ++
      "PublicKeys { witness_key: PublicKey(3), sign_key: PublicKey(4) }, epoch: 15 }").toList := by
  refine ⟨"Element(1)".toList, _, ⟨['1'], rfl, rfl⟩, ⟨"None".toList, _, rfl, ⟨"Accumulator(2)".toList, _,
    ⟨['2'], rfl, rfl⟩, ⟨"PublicKeys { witness_key: PublicKey(3), sign_key: PublicKey(4) }".toList, _,
    ⟨"PublicKey(3)".toList, ", sign_key: PublicKey(4) }".toList, ⟨['3'], rfl, rfl⟩,
      ⟨"PublicKey(4)".toList, ⟨['4'], rfl, rfl⟩, rfl⟩, rfl⟩, ⟨"15".toList, ⟨by decide, by decide, rfl⟩, rfl⟩, rfl⟩,
    rfl⟩, rfl⟩, rfl⟩

/-- a server with one member, one of whose keys the printed text gives away -/
example : Shows (("Server { accumulators: [Accumulator(2)], witness_secret_key: SecretKey(3), public_keys: " ++
      "PublicKeys { witness_key: PublicKey(3), sign_key: PublicKey(4) }, sign_secret_key: SecretKey(4), " ++
      "all_users: {Element(1)}, all_witnesses: {Element(1): MembershipWitness(6)}, deletions: [] }").toList)
    "sign_secret_key: SecretKey(" digit7 (4 : ZMod 7) := by
  refine ((C113_debug_leaks digit7 digit7 digit7 id id _).2.2.2.2 { accumulators := [(2 : ZMod 7)], witnessSecretKey := (3 : ZMod 7), publicKeys := ⟨(3 : ZMod 7), 4⟩, signSecretKey := 4, allUsers := [1], allWitnesses := [(1, 6)], deletions := [] } ?_).2
  refine ⟨"[Accumulator(2)]".toList, _, ⟨"Accumulator(2)".toList, [']'], ⟨['2'], rfl, rfl⟩, rfl, rfl⟩,
    ⟨"SecretKey(3)".toList, _, ⟨['3'], rfl, rfl⟩,
    ⟨"PublicKeys { witness_key: PublicKey(3), sign_key: PublicKey(4) }".toList, _,
      ⟨"PublicKey(3)".toList, ", sign_key: PublicKey(4) }".toList, ⟨['3'], rfl, rfl⟩,
        ⟨"PublicKey(4)".toList, ⟨['4'], rfl, rfl⟩, rfl⟩, rfl⟩,
    ⟨"SecretKey(4)".toList, _, ⟨['4'], rfl, rfl⟩,
    ⟨"{Element(1)}".toList, _, ⟨"Element(1)".toList, ['}'], ⟨['1'], rfl, rfl⟩, rfl, rfl⟩,
    ⟨"{Element(1): MembershipWitness(6)}".toList, _,
      ⟨"Element(1): MembershipWitness(6)".toList, ['}'],
        ⟨"Element(1)".toList, ": MembershipWitness(6)".toList, ⟨['1'], rfl, rfl⟩,
          ⟨"MembershipWitness(6)".toList, ⟨['6'], rfl, rfl⟩, rfl⟩, rfl⟩, rfl, rfl⟩,
    ⟨"[]".toList, rfl, rfl⟩, rfl⟩, rfl⟩, rfl⟩, rfl⟩, rfl⟩, rfl⟩

/-- the theorems apply to this way of printing -/
example : (debugUser digit7 digit7 digit7).Tells ∧ (showCredProof digit7 digit7).Tells :=
  ⟨(C113_debug _ _ _ digit7_delim digit7_delim digit7_delim id id (fun _ => .rfl) (fun _ => .rfl)).2.2.2.1,
    (C113_display digit7 digit7 digit7 digit7 digit7_delim digit7_delim digit7_delim digit7_delim).2.2.2.2.2.2.2.2.2⟩

end TextExample

end Allo
