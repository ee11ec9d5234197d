import Verif.Model.Bench
import Verif.Props.Serde
import Verif.Props.Communication
import Verif.Props.Accumulator

/-!
# C102: the single-server update of the benchmark, and the sizes of all messages
-/

set_option linter.unusedSectionVars false
namespace Allo
open Spec Bare

namespace Bench

/-! ## the messages -/

/-- at most one byte per seven bits -/
theorem uintEnc_le : ∀ (k n : Nat), n < 128 ^ (k + 1) → (uintEnc n).length ≤ k + 1
  | 0, n, h => by rw [uintEnc, if_pos (by simpa using h)]; simp
  | k + 1, n, h => by
    rw [uintEnc]
    split
    · simp
    · rw [List.length_cons]
      have := uintEnc_le k (n / 128) (by rw [Nat.div_lt_iff_lt_mul (by norm_num)]; rwa [pow_succ] at h)
      omega

theorem uintEnc_pos (n : Nat) : 1 ≤ (uintEnc n).length := by
  rw [uintEnc]; split <;> simp

theorem uintEnc_inj {n m : Nat} {r s : Bytes} (h : uintEnc n ++ r = uintEnc m ++ s) : n = m ∧ r = s := by
  have h1 := uint_reads n r
  rw [h, uint_reads m s] at h1
  simp only [Option.some.injEq, Prod.mk.injEq] at h1
  exact ⟨h1.1.symm, h1.2.symm⟩

theorem frame_inj {b c : Bytes} (h : frame b = frame c) : b = c := (uintEnc_inj h).2

theorem seqEnc_inj {α : Type} {b : Bare α} {n : Nat} (hs : b.Size n) (hi : Function.Injective b.enc) :
    ∀ {l l' : List α} {r s : Bytes}, l.length = l'.length → seqEnc b l ++ r = seqEnc b l' ++ s → l = l' ∧ r = s
  | [], [], r, s, _, h => ⟨rfl, h⟩
  | [], _ :: _, _, _, hl, _ => by simp at hl
  | _ :: _, [], _, _, hl, _ => by simp at hl
  | x :: l, y :: l', r, s, hl, h => by
    simp only [seqEnc, List.append_assoc] at h
    obtain ⟨h1, h2⟩ := List.append_inj h (by rw [hs x, hs y])
    obtain ⟨h3, h4⟩ := seqEnc_inj hs hi (by simpa using hl) h2
    exact ⟨by rw [hi h1, h3], h4⟩

section
variable {F G1 : Type} (f : Bare F) (g : Bare G1)

/-- C102: the messages determine what was sent. -/
theorem C102_messages (hf : f.Size 32) (hg : g.Size 48) (hfi : Function.Injective f.enc)
    (hgi : Function.Injective g.enc) :
    (∀ e e' s s', userMessage f e s = userMessage f e' s' → e = e' ∧ s = s') ∧
    (∀ d d' v v', serverMessage f g d v = serverMessage f g d' v' → d = d' ∧ v = v') ∧
    (∀ a a' d d' c c', vbMessage f g a d c = vbMessage f g a' d' c' → a = a' ∧ d = d' ∧ c = c') := by
  refine ⟨fun e e' s s' h => ?_, fun d d' v v' h => ?_, fun a a' d d' c c' h => ?_⟩
  · have h := frame_inj h
    simp only [List.append_assoc] at h
    obtain ⟨h1, h⟩ := uintEnc_inj h
    obtain ⟨h2, h⟩ := uintEnc_inj h
    have h3 := seqEnc_inj hf hfi (r := []) (s := []) h2 (by simpa using h)
    exact ⟨h1, h3.1⟩
  · have h := frame_inj h
    simp only [List.append_assoc] at h
    obtain ⟨h1, h⟩ := uintEnc_inj h
    obtain ⟨h2, h⟩ := seqEnc_inj hf hfi h1 h
    obtain ⟨h3, h⟩ := uintEnc_inj h
    have h4 := seqEnc_inj hg hgi (r := []) (s := []) h3 (by simpa using h)
    exact ⟨h2, h4.1⟩
  · have h := frame_inj h
    simp only [List.append_assoc] at h
    obtain ⟨h1, h⟩ := uintEnc_inj h
    obtain ⟨h2, h⟩ := seqEnc_inj hf hfi h1 h
    obtain ⟨h3, h⟩ := uintEnc_inj h
    obtain ⟨h4, h⟩ := seqEnc_inj hf hfi h3 h
    obtain ⟨h5, h⟩ := uintEnc_inj h
    have h6 := seqEnc_inj hg hgi (r := []) (s := []) h5 (by simpa using h)
    exact ⟨h2, h4, h6.1⟩

/-- the length of a framed byte string below `2^49` bytes -/
theorem frame_le {b : Bytes} (h : b.length < 2 ^ 49) : (frame b).length ≤ b.length + 7 := by
  have := uintEnc_le 6 b.length (by rw [show (128 : Nat) ^ (6 + 1) = 2 ^ 49 by norm_num]; exact h)
  simp only [frame, List.length_append]; omega

theorem frame_gt (b : Bytes) : b.length < (frame b).length := by
  have := uintEnc_pos b.length
  simp only [frame, List.length_append]; omega

end
end Bench

section
variable {F G1 G2 GT : Type} [Field F] [DecidableEq F] [AddCommGroup G1] [Module F G1] [DecidableEq G1]
  [AddCommGroup G2] [Module F G2] [AddCommGroup GT] [Module F GT] [DecidableEq GT]
open Bench

/-! ## the messages of an update with several servers -/

/-- C102: the bytes of an update with `n` servers. A user that is `d` epochs behind (`1 ≤ d < 2^64`) and the servers (in any
reachable states with enough deletions) exchange, per server, at most `64 L + 118` bytes, where `2 (L - 1)² + 2 < 5 d`; with
`n` servers at most `n` times as much. -/
theorem C102_allosaur (f : Bare F) (g : Bare G1) (hf : f.Size 32) (hg : g.Size 48) (u : User F G1 G2)
    (newEpoch n t : Nat) (ht : 2 ≤ t) (hn : t ≤ n) (he : u.epoch < newEpoch) (hb : newEpoch - u.epoch < 2 ^ 64)
    (rand : Nat → Nat → F) :
    ∃ upd L, u.prepareForUpdate seedF64 newEpoch n t rand = .ok (.ok upd) ∧ upd.yShares.length = n ∧
      2 * (L - 1) ^ 2 + 2 < 5 * (newEpoch - u.epoch) ∧
      ∀ (params : AccParams G1 G2) (α sM v : F) (ops : List (Server.Op F)) (s : Server F G1 G2),
        (Server.new params α sM v).run ops = .ok s → newEpoch - u.epoch ≤ s.deletions.length →
        ∀ ys ∈ upd.yShares, ∃ ds vs, s.update upd.epochDiff ys = .ok (ds, vs) ∧
          (userMessage f upd.epochDiff ys).length + (serverMessage f g ds vs).length ≤ 64 * L + 118 := by
  obtain ⟨upd, L, hp, hl, hls, hL, hlo, hhi, hsrv⟩ := C64_communication u newEpoch n t ht hn he hb rand
  obtain ⟨k, upd', hk, hk3, hp', hd, -⟩ := prepareForUpdate_ok seedF64 C64_seed_pos.1 u newEpoch n t ht hn he rand
  rw [hp] at hp'
  cases hp'
  refine ⟨upd, L, hp, hl, hlo, ?_⟩
  intro params α sM v ops s hs hds ys hys
  obtain ⟨ds, vs, h1, h2, h3, h4, h5⟩ := hsrv params α sM v ops s hs hds ys hys
  refine ⟨ds, vs, h1, ?_⟩
  have hL33 : L < 2 ^ 33 := by
    by_contra hc
    push Not at hc
    have : 2 ^ 33 - 1 ≤ L - 1 := by omega
    have := Nat.pow_le_pow_left this 2
    omega
  have e1 : (uintEnc upd.epochDiff).length ≤ 10 := by
    refine uintEnc_le 9 _ ?_
    rw [hd]
    exact hb.trans (by norm_num)
  have e2 : (uintEnc ys.length).length ≤ 5 := uintEnc_le 4 _ (by rw [hls ys hys]; exact hL33.trans (by norm_num))
  have e3 : (uintEnc ds.length).length ≤ 5 := uintEnc_le 4 _ (by omega)
  have e4 : (uintEnc vs.length).length ≤ 5 := uintEnc_le 4 _ (by omega)
  have b1 : (uintEnc upd.epochDiff ++ uintEnc ys.length ++ seqEnc f ys).length ≤ 32 * L + 15 := by
    simp only [List.length_append, seqEnc_length hf, hls ys hys] at e2 ⊢; omega
  have b2 : (uintEnc ds.length ++ seqEnc f ds ++ uintEnc vs.length ++ seqEnc g vs).length ≤ 32 * L + 89 := by
    simp only [List.length_append, seqEnc_length hf, seqEnc_length hg]; omega
  have c1 := frame_le (b := _) (lt_of_le_of_lt b1 (by omega))
  have c2 := frame_le (b := _) (lt_of_le_of_lt b2 (by omega))
  unfold userMessage serverMessage
  omega

/-! ## the single-server update -/

theorem chunks_go_flatten {α : Type} (k : Nat) : ∀ (n : Nat) (l : List α), l.length ≤ n → (chunks.go k l).flatten = l
  | _, [], _ => by rw [chunks.go]; rfl
  | 0, a :: l, h => by simp at h
  | n + 1, a :: l, h => by
    rw [chunks.go]
    have := chunks_go_flatten k n (l.drop (k - 1)) (by simp at h ⊢; omega)
    simp [this]

/-- the slices of a list: all of it, none empty, none longer than `k` -/
theorem chunks_ok {α : Type} {k : Nat} (hk : k ≠ 0) (l : List α) :
    ∃ cs, chunks k l = .ok cs ∧ cs.flatten = l ∧ ∀ c ∈ cs, 1 ≤ c.length ∧ c.length ≤ k := by
  refine ⟨chunks.go k l, by simp [chunks, hk], chunks_go_flatten k _ l le_rfl, ?_⟩
  have : ∀ (n : Nat) (l : List α), l.length ≤ n → ∀ c ∈ chunks.go k l, 1 ≤ c.length ∧ c.length ≤ k := by
    intro n
    induction n with
    | zero =>
      intro l hl
      have : l = [] := List.length_eq_zero_iff.1 (by omega)
      subst this
      rw [chunks.go]; simp
    | succ n ih =>
      intro l hl
      cases l with
      | nil => rw [chunks.go]; simp
      | cons a l =>
        rw [chunks.go]
        intro c hc
        rcases List.mem_cons.1 hc with rfl | hc
        · simp; omega
        · exact ih _ (by simp at hl ⊢; omega) c hc
  exact this _ l le_rfl

theorem serverUpdates_aux (sk : F) : ∀ (split : List (List F)) (V : G1) (pre : List (List G1)),
    (∀ d ∈ split, -sk ∉ d) → ∃ V' cs,
      split.foldlM (fun (st : G1 × List (List G1)) deletion => (do
        let (acc, cs) ← accUpdateAssign st.1 sk [] deletion
        pure (acc, st.2 ++ [cs]) : Rust _)) (V, pre) = .ok (V', pre ++ cs) ∧
      accRemoveElements V sk split.flatten = .ok V' ∧ List.Forall₂ (fun d c => c.length = d.length) split cs ∧
      ∀ (E : Pairing F G1 G2 GT) (y : F) (w : G1), mwVerify E w y (publicKey E sk) V = true → (∀ d ∈ split, y ∉ d) →
        mwVerify E (userUpdates y w split cs) y (publicKey E sk) V' = true
  | [], V, pre, _ => by
    refine ⟨V, [], by simp [pure, Except.pure], ?_, .nil, fun E y w hw _ => hw⟩
    rw [C03_remove_elements]; rfl
  | d :: split, V, pre, h => by
    obtain ⟨cs, h1, h2, -⟩ := accUpdate_ok V sk [] d (h d (by simp))
    have h1' := h1
    unfold accUpdate at h1'
    have h3 := C03_update_acc V sk [] d
    have h0 : accAddElements V sk [] = V := by simp [accAddElements, batchAdditions]
    rw [h1, h0] at h3
    generalize (prodPlus sk ([] : List F) * (prodPlus sk d)⁻¹) • V = V1 at h1 h1' h3
    obtain ⟨V', cs', k1, k2, k3, k4⟩ := serverUpdates_aux sk split V1 (pre ++ [cs]) (fun d hd => h d (by simp [hd]))
    refine ⟨V', cs :: cs', ?_, ?_, .cons (by simpa using h2) k3, ?_⟩
    · rw [List.foldlM_cons]
      simp only [h1', bind, Except.bind, pure, Except.pure] at k1 ⊢
      rw [k1]; simp
    · rw [C03_remove_elements, List.flatten_cons, List.foldlM_append, ← C03_remove_elements, ← h3]
      rw [C03_remove_elements] at k2
      exact k2
    · intro E y w hw hy
      have := C04_batch_update E w V V1 sk y [] d cs hw h1 (hy d (by simp))
      exact k4 E y _ this (fun d hd => hy d (by simp [hd]))

/-- C102: the single-server update of the benchmark works for every size of the slices: the server's accumulator at the end
is the one without the deleted elements, and the user's witness at the end verifies against it (unless the user was
deleted). It panics only for slices of size 0. -/
theorem C102_single_server (E : Pairing F G1 G2 GT) (sk y : F) (V w : G1) (deletions : List F) (k : Nat) (hk : k ≠ 0)
    (hw : mwVerify E w y (publicKey E sk) V = true) (hsk : -sk ∉ deletions) (hy : y ∉ deletions) :
    ∃ split V' deltas, chunks k deletions = .ok split ∧ serverUpdates sk V split = .ok (V', deltas) ∧
      accRemoveElements V sk deletions = .ok V' ∧
      mwVerify E (userUpdates y w split deltas) y (publicKey E sk) V' = true := by
  obtain ⟨split, h1, h2, -⟩ := chunks_ok hk deletions
  have hm : ∀ d ∈ split, ∀ a ∈ d, a ∈ deletions := fun d hd a ha => by
    rw [← h2]; exact List.mem_flatten.2 ⟨d, hd, ha⟩
  obtain ⟨V', cs, k1, k2, -, k4⟩ := serverUpdates_aux (G2 := G2) (GT := GT) sk split V []
    (fun d hd h => hsk (hm d hd _ h))
  refine ⟨split, V', cs, h1, by simpa [serverUpdates] using k1, by rw [← h2]; exact k2,
    k4 E y w hw (fun d hd h => hy (hm d hd _ h))⟩

/-- C102: the size of the slices does not matter for the result. -/
theorem C102_slices (E : Pairing F G1 G2 GT) (sk y : F) (V w : G1) (deletions : List F) (k k' : Nat) (hk : k ≠ 0)
    (hk' : k' ≠ 0) (hw : mwVerify E w y (publicKey E sk) V = true) (hsk : -sk ∉ deletions) (hy : y ∉ deletions)
    (hys : y ≠ -sk) (split split' : List (List F)) (V₁ V₂ : G1) (c c' : List (List G1))
    (h1 : chunks k deletions = .ok split) (h2 : chunks k' deletions = .ok split')
    (h3 : serverUpdates sk V split = .ok (V₁, c)) (h4 : serverUpdates sk V split' = .ok (V₂, c')) :
    V₁ = V₂ ∧ userUpdates y w split c = userUpdates y w split' c' := by
  obtain ⟨s1, W1, d1, a1, a2, a3, a4⟩ := C102_single_server E sk y V w deletions k hk hw hsk hy
  obtain ⟨s2, W2, d2, b1, b2, b3, b4⟩ := C102_single_server E sk y V w deletions k' hk' hw hsk hy
  rw [h1] at a1; cases a1
  rw [h2] at b1; cases b1
  rw [h3] at a2; cases a2
  rw [h4] at b2; cases b2
  rw [a3] at b3; cases b3
  exact ⟨rfl, (C01_unique E V₁ y sk hys).unique a4 b4⟩

theorem foldl_add_sum {α : Type} (f : α → Nat) (l : List α) : ∀ n, l.foldl (fun n p => n + f p) n = n + (l.map f).sum := by
  induction l with
  | nil => intro n; simp
  | cons a l ih => intro n; simp [ih]; omega

theorem vbMessage_length (f : Bare F) (g : Bare G1) (hf : f.Size 32) (hg : g.Size 48) (a d : List F) (c : List G1) :
    32 * (a.length + d.length) + 48 * c.length + 4 ≤ (vbMessage f g a d c).length := by
  have h := frame_gt (uintEnc a.length ++ seqEnc f a ++ uintEnc d.length ++ seqEnc f d ++ uintEnc c.length ++ seqEnc g c)
  have e1 := uintEnc_pos a.length
  have e2 := uintEnc_pos d.length
  have e3 := uintEnc_pos c.length
  unfold vbMessage
  simp only [List.length_append, seqEnc_length hf, seqEnc_length hg] at h
  omega

/-- C102: the messages of the single-server update have, for `d` deletions, at least `80 d` and, in slices of fewer than 128
elements, at most `80 d + 6 s` bytes, where `s` is the number of slices. -/
theorem C102_single_server_bytes (f : Bare F) (g : Bare G1) (hf : f.Size 32) (hg : g.Size 48) (sk : F) (V V' : G1)
    (deletions : List F) (k : Nat) (hsk : -sk ∉ deletions) (split : List (List F)) (deltas : List (List G1))
    (h1 : chunks k deletions = .ok split) (h2 : serverUpdates sk V split = .ok (V', deltas)) :
    80 * deletions.length ≤ messageLength f g split deltas ∧
    (k < 128 → messageLength f g split deltas ≤ 80 * deletions.length + 6 * split.length) := by
  have hk : k ≠ 0 := by rintro rfl; simp [chunks] at h1
  obtain ⟨split', c1, c2, c3⟩ := chunks_ok hk deletions
  rw [h1] at c1; cases c1
  have hm : ∀ d ∈ split, -sk ∉ d := fun d hd h => hsk (by rw [← c2]; exact List.mem_flatten.2 ⟨d, hd, h⟩)
  obtain ⟨V'', cs, k1, -, k3, -⟩ := serverUpdates_aux (G2 := G1) (GT := G1) sk split V [] hm
  have e : (V', deltas) = (V'', [] ++ cs) := Except.ok.inj (h2.symm.trans k1)
  simp only [List.nil_append, Prod.mk.injEq] at e
  obtain ⟨rfl, rfl⟩ := e
  unfold messageLength
  rw [foldl_add_sum, ← c2, List.length_flatten]
  clear h1 h2 k1 c2 hm
  induction k3 with
  | nil => simp
  | @cons d c split cs hdc _ ih =>
    obtain ⟨i1, i2⟩ := ih (fun c hc => c3 c (by simp [hc]))
    have l1 := vbMessage_length f g hf hg [] d c
    have hk' := (c3 d (by simp)).2
    simp only [List.zip_cons_cons, List.map_cons, List.sum_cons, List.length_cons, List.length_nil] at i1 i2 l1 ⊢
    refine ⟨by omega, fun hk => ?_⟩
    have i2 := i2 hk
    have u1 : (uintEnc d.length).length = 1 := uintEnc_length d.length 0 (by simp; omega) (Or.inl rfl)
    have l2 : (vbMessage f g [] d c).length ≤ 80 * d.length + 3 + 3 := by
      have hb : (uintEnc ([] : List F).length ++ seqEnc f [] ++ uintEnc d.length ++ seqEnc f d ++ uintEnc c.length
          ++ seqEnc g c).length = 80 * d.length + 3 := by
        rw [hdc]
        simp only [List.length_append, seqEnc_length hf, seqEnc_length hg, u1, hdc, List.length_nil]
        rw [show (uintEnc 0).length = 1 from uintEnc_length 0 0 (by norm_num) (Or.inl rfl)]
        omega
      have := uintEnc_le 2 _ (lt_of_le_of_lt hb.le (show 80 * d.length + 3 < 128 ^ (2 + 1) by norm_num; omega))
      unfold vbMessage frame
      rw [List.length_append]
      rw [hb] at this ⊢
      omega
    omega

/-- C102: what the benchmark is to show. With the benchmark's five servers and threshold three, a user that is `d ≥ 100` epochs
behind exchanges fewer bytes with all servers together than the messages of the single-server update for as many deletions
have, in slices of any size (so also in one piece, as in the batch update). -/
theorem C102_fewer_bytes (f : Bare F) (g : Bare G1) (hf : f.Size 32) (hg : g.Size 48) (u : User F G1 G2) (newEpoch : Nat)
    (he : u.epoch + 100 ≤ newEpoch) (hb : newEpoch - u.epoch < 2 ^ 64) (rand : Nat → Nat → F) :
    ∃ upd, u.prepareForUpdate seedF64 newEpoch 5 3 rand = .ok (.ok upd) ∧ upd.yShares.length = 5 ∧
      ∀ (params : AccParams G1 G2) (α sM v : F) (ops : List (Server.Op F)) (s : Server F G1 G2),
        (Server.new params α sM v).run ops = .ok s → newEpoch - u.epoch ≤ s.deletions.length →
        ∀ (sk : F) (V V' : G1) (dels : List F) (k : Nat) (split : List (List F)) (deltas : List (List G1)),
          dels.length = newEpoch - u.epoch → -sk ∉ dels → chunks k dels = .ok split →
          serverUpdates sk V split = .ok (V', deltas) →
          ∃ answers : List (List F × List G1), upd.yShares.mapM (fun ys => s.update upd.epochDiff ys) = .ok answers ∧
            ((upd.yShares.map (fun ys => (userMessage f upd.epochDiff ys).length)).sum
              + (answers.map (fun a => (serverMessage f g a.1 a.2).length)).sum) < messageLength f g split deltas := by
  obtain ⟨upd, L, hp, hl, hlo, hsrv⟩ := C102_allosaur f g hf hg u newEpoch 5 3 (by norm_num) (by norm_num) (by omega) hb rand
  refine ⟨upd, hp, hl, ?_⟩
  intro params α sM v ops s hs hds sk V V' dels k split deltas hdl hsk h1 h2
  have hsize := (C102_single_server_bytes f g hf hg sk V V' dels k hsk split deltas h1 h2).1
  have key : ∀ l : List (List F), (∀ ys ∈ l, ys ∈ upd.yShares) → ∃ answers : List (List F × List G1),
      l.mapM (fun ys => s.update upd.epochDiff ys) = .ok answers ∧
      (l.map (fun ys => (userMessage f upd.epochDiff ys).length)).sum
        + (answers.map (fun a => (serverMessage f g a.1 a.2).length)).sum ≤ l.length * (64 * L + 118) := by
    intro l
    induction l with
    | nil => intro _; exact ⟨[], rfl, by simp⟩
    | cons ys l ih =>
      intro hm
      obtain ⟨as, g1, g2⟩ := ih (fun z hz => hm z (by simp [hz]))
      obtain ⟨ds, vs, e1, e2⟩ := hsrv params α sM v ops s hs hds ys (hm ys (by simp))
      refine ⟨(ds, vs) :: as, ?_, ?_⟩
      · simp only [List.mapM_cons, bind, Except.bind, e1, g1]; rfl
      · simp only [List.map_cons, List.sum_cons, List.length_cons]
        rw [Nat.add_mul]
        omega
  obtain ⟨answers, a1, a2⟩ := key upd.yShares (fun _ h => h)
  refine ⟨answers, a1, ?_⟩
  rw [hl] at a2
  rw [hdl] at hsize
  have hd : 100 ≤ newEpoch - u.epoch := by omega
  generalize newEpoch - u.epoch = d at *
  have : 5 * (64 * L + 118) < 80 * d := by
    by_contra hc
    push Not at hc
    obtain ⟨M, rfl⟩ : ∃ M, L = M + 1 := ⟨L - 1, by omega⟩
    simp only [Nat.add_sub_cancel] at hlo
    nlinarith
  omega

/-- C102: and for few deletions it is the other way round: a user that is at most 34 epochs behind (the benchmark has a case with
10) exchanges more bytes with the five servers than the single-server update (in slices of fewer than 128 elements) needs. -/
theorem C102_more_bytes (f : Bare F) (g : Bare G1) (hf : f.Size 32) (hg : g.Size 48) (u : User F G1 G2) (newEpoch : Nat)
    (he : u.epoch < newEpoch) (hb : newEpoch ≤ u.epoch + 34) (rand : Nat → Nat → F) :
    ∃ upd, u.prepareForUpdate seedF64 newEpoch 5 3 rand = .ok (.ok upd) ∧ upd.yShares.length = 5 ∧
      ∀ (params : AccParams G1 G2) (α sM v : F) (ops : List (Server.Op F)) (s : Server F G1 G2),
        (Server.new params α sM v).run ops = .ok s → newEpoch - u.epoch ≤ s.deletions.length →
        ∀ (sk : F) (V V' : G1) (dels : List F) (k : Nat) (split : List (List F)) (deltas : List (List G1)), k < 128 →
          dels.length = newEpoch - u.epoch → -sk ∉ dels → chunks k dels = .ok split →
          serverUpdates sk V split = .ok (V', deltas) →
          ∃ answers : List (List F × List G1), upd.yShares.mapM (fun ys => s.update upd.epochDiff ys) = .ok answers ∧
            messageLength f g split deltas < ((upd.yShares.map (fun ys => (userMessage f upd.epochDiff ys).length)).sum
              + (answers.map (fun a => (serverMessage f g a.1 a.2).length)).sum) := by
  obtain ⟨upd, L, hp, hl, hls, hL, hlo, hhi, hsrv⟩ := C64_communication u newEpoch 5 3 (by norm_num) (by norm_num) he
    (by omega) rand
  refine ⟨upd, hp, hl, ?_⟩
  intro params α sM v ops s hs hds sk V V' dels k split deltas hk hdl hsk h1 h2
  have hsize := (C102_single_server_bytes f g hf hg sk V V' dels k hsk split deltas h1 h2).2 hk
  have hsl : split.length ≤ dels.length := by
    have hk0 : k ≠ 0 := by rintro rfl; simp [chunks] at h1
    obtain ⟨split', c1, c2, c3⟩ := chunks_ok hk0 dels
    rw [h1] at c1; cases c1
    rw [← c2, List.length_flatten]
    have : ∀ l : List (List F), (∀ c ∈ l, 1 ≤ c.length) → l.length ≤ (l.map List.length).sum := by
      intro l
      induction l with
      | nil => simp
      | cons a l ih =>
        intro h
        have := ih (fun c hc => h c (by simp [hc]))
        have := h a (by simp)
        simp only [List.length_cons, List.map_cons, List.sum_cons]; omega
    exact this split (fun c hc => (c3 c hc).1)
  obtain ⟨m, hm⟩ : ∃ m, m = (newEpoch - u.epoch + L - 1) / L := ⟨_, rfl⟩
  have key : ∀ l : List (List F), (∀ ys ∈ l, ys ∈ upd.yShares) → ∃ answers : List (List F × List G1),
      l.mapM (fun ys => s.update upd.epochDiff ys) = .ok answers ∧
      l.length * (32 * L + 80 * m) ≤ (l.map (fun ys => (userMessage f upd.epochDiff ys).length)).sum
        + (answers.map (fun a => (serverMessage f g a.1 a.2).length)).sum := by
    intro l
    induction l with
    | nil => intro _; exact ⟨[], rfl, by simp⟩
    | cons ys l ih =>
      intro hmem
      obtain ⟨as, g1, g2⟩ := ih (fun z hz => hmem z (by simp [hz]))
      obtain ⟨ds, vs, e1, e2, e3, -⟩ := hsrv params α sM v ops s hs hds ys (hmem ys (by simp))
      refine ⟨(ds, vs) :: as, ?_, ?_⟩
      · simp only [List.mapM_cons, bind, Except.bind, e1, g1]; rfl
      · have b1 := frame_gt (uintEnc upd.epochDiff ++ uintEnc ys.length ++ seqEnc f ys)
        have b2 := frame_gt (uintEnc ds.length ++ seqEnc f ds ++ uintEnc vs.length ++ seqEnc g vs)
        simp only [List.length_append, seqEnc_length hf, seqEnc_length hg, hls ys (hmem ys (by simp))] at b1 b2
        simp only [List.map_cons, List.sum_cons, List.length_cons]
        rw [Nat.add_mul]
        unfold userMessage serverMessage at *
        rw [hls ys (hmem ys (by simp))]
        omega
  obtain ⟨answers, a1, a2⟩ := key upd.yShares (fun _ h => h)
  refine ⟨answers, a1, ?_⟩
  rw [hl] at a2
  have hd1 : 1 ≤ newEpoch - u.epoch := by omega
  have hd2 : newEpoch - u.epoch ≤ 34 := by omega
  rw [hdl] at hsize hsl
  generalize newEpoch - u.epoch = d at *
  have hLm : d ≤ L * m := by
    have h := Nat.lt_div_mul_add (a := d + L - 1) (b := L) (by omega)
    rw [← hm] at h
    rw [Nat.mul_comm]
    omega
  have : 86 * d < 5 * (32 * L + 80 * m) := by
    by_contra hc
    push Not at hc
    nlinarith [sq_nonneg ((2 * L : ℤ) - 5 * m)]
  omega

end

/-! ## concrete cases -/

local instance bench_prime7 : Fact (Nat.Prime 7) := ⟨by decide⟩

/-- scalars in 32 bytes and points in 48, with scalars and points modulo 7 -/
def fixed7 (n : Nat) : Bare (ZMod 7) :=
  ⟨fun x => List.replicate (n - 1) 0 ++ [UInt8.ofNat x.val], fun _ => none⟩

theorem fixed7_ok (n : Nat) (hn : 1 ≤ n) : (fixed7 n).Size n ∧ Function.Injective (fixed7 n).enc := by
  constructor
  · intro x; simp [fixed7]; omega
  · intro x y h
    simp only [fixed7, List.append_cancel_left_eq, List.cons.injEq, and_true] at h
    revert x y
    decide

example := Bench.C102_messages (fixed7 32) (fixed7 48) (fixed7_ok 32 (by norm_num)).1 (fixed7_ok 48 (by norm_num)).1
  (fixed7_ok 32 (by norm_num)).2 (fixed7_ok 48 (by norm_num)).2
/-- a message with three shares -/
example : (Bench.userMessage (fixed7 32) 2 [1, 2, 3]).length = 99 := by
  simp [Bench.userMessage, Bench.frame, uintEnc, seqEnc, fixed7]
/-- three deletions in slices of two: three elements, three coefficients and two times 5 and 4 bytes -/
example : Bench.chunks 2 [(1 : ZMod 7), 2, 3] = .ok [[1, 2], [3]] := by
  simp [Bench.chunks, Bench.chunks.go]
example : ∃ V' deltas, Bench.serverUpdates (1 : ZMod 7) (1 : ZMod 7) [[1, 2], [3]] = .ok (V', deltas) ∧
    deltas.map List.length = [2, 1] := ⟨_, _, by with_unfolding_all rfl, by with_unfolding_all rfl⟩
example (a b c : ZMod 7) : Bench.messageLength (fixed7 32) (fixed7 48) [[1, 2], [3]] [[a, b], [c]] = 249 := by
  have h1 : ∀ n, n < 128 → (uintEnc n).length = 1 := fun n h => uintEnc_length n 0 (by simpa using h) (Or.inl rfl)
  have h2 : (uintEnc 163).length = 2 := uintEnc_length 163 1 (by norm_num) (Or.inr (by norm_num))
  simp only [Bench.messageLength, Bench.vbMessage, Bench.frame, List.zip_cons_cons, List.zip_nil_right, List.foldl_cons,
    List.foldl_nil, List.length_append, seqEnc_length (fixed7_ok 32 (by norm_num)).1,
    seqEnc_length (fixed7_ok 48 (by norm_num)).1, List.length_cons, List.length_nil, h1 0 (by norm_num), Nat.zero_add,
    h1 1 (by norm_num), h1 (1 + 1) (by norm_num), Nat.reduceMul, Nat.reduceAdd, h2, h1 83 (by norm_num)]
example := C102_single_server (Pairing.field (ZMod 7)) 1 4 1 3 [1, 2, 3] 2 (by norm_num) (by with_unfolding_all decide) (by decide)
  (by decide)
example := C102_fewer_bytes (G2 := ZMod 7) (fixed7 32) (fixed7 48) (fixed7_ok 32 (by norm_num)).1
  (fixed7_ok 48 (by norm_num)).1 ⟨3, none, 1, ⟨1, 1⟩, 1⟩ 1001 (by norm_num) (by norm_num) (fun _ _ => 0)
example := C102_more_bytes (G2 := ZMod 7) (fixed7 32) (fixed7 48) (fixed7_ok 32 (by norm_num)).1
  (fixed7_ok 48 (by norm_num)).1 ⟨3, none, 1, ⟨1, 1⟩, 1⟩ 11 (by norm_num) (by norm_num) (fun _ _ => 0)

example := C102_allosaur (G2 := ZMod 7) (fixed7 32) (fixed7 48) (fixed7_ok 32 (by norm_num)).1
  (fixed7_ok 48 (by norm_num)).1 ⟨3, none, 1, ⟨1, 1⟩, 1⟩ 1001 7 4 (by norm_num) (by norm_num) (by norm_num) (by norm_num)
  (fun _ _ => 0)
example : ∃ V' deltas, Bench.serverUpdates (1 : ZMod 7) (1 : ZMod 7) [[1, 2], [3]] = .ok (V', deltas) ∧
    240 ≤ Bench.messageLength (fixed7 32) (fixed7 48) [[1, 2], [3]] deltas :=
  ⟨_, _, by with_unfolding_all rfl, (C102_single_server_bytes (fixed7 32) (fixed7 48) (fixed7_ok 32 (by norm_num)).1
    (fixed7_ok 48 (by norm_num)).1 1 1 _ [1, 2, 3] 2 (by decide) _ _ (by simp [Bench.chunks, Bench.chunks.go])
    (by with_unfolding_all rfl)).1⟩
/-- slices of two and of one -/
example (V₁ V₂ : ZMod 7) (c c' : List (List (ZMod 7)))
    (h3 : Bench.serverUpdates (1 : ZMod 7) (1 : ZMod 7) [[1, 2], [3]] = .ok (V₁, c))
    (h4 : Bench.serverUpdates (1 : ZMod 7) (1 : ZMod 7) [[1], [2], [3]] = .ok (V₂, c')) :=
  C102_slices (Pairing.field (ZMod 7)) 1 4 1 3 [1, 2, 3] 2 1 (by norm_num) (by norm_num) (by with_unfolding_all decide)
    (by decide) (by decide) (by decide) _ _ V₁ V₂ c c' (by simp [Bench.chunks, Bench.chunks.go])
    (by simp [Bench.chunks, Bench.chunks.go]) h3 h4

end Allo
