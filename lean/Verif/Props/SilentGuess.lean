import Verif.Props.SilentLiar
import Verif.Props.Retry
import Verif.Props.SelectiveFailure

/-!
# C124: how likely a single liar passes the mis-scaled check

The first server is silent, so the check is mis-scaled and a liar among the first `t` servers that answer has one answer
that passes (`C124_accepted_lie`). To find it, it must know the first value of the spare server.
-/

set_option linter.unusedSectionVars false
set_option linter.unusedVariables false
namespace Allo
open Spec Finset User Rom

section
variable {F G1 G2 : Type} [Field F] [DecidableEq F] [AddCommGroup G1] [Module F G1]
  [DecidableEq G1] [AddCommGroup G2] [Module F G2]

/-- on every line in direction `δ` at most one point satisfies `p` -/
theorem prob_line [Fintype F] {X : Type} [AddCommGroup X] [Module F X] [Finite X] (δ : X) (p : X → Prop)
    (h : ∀ (x : X) (c c' : F), p (x + c • δ) → p (x + c' • δ) → c = c') : prob p ≤ 1 / (Nat.card F : ℚ) := by
  have hinj : Function.Injective (fun a : {x // p x} × F => a.1.1 + a.2 • δ) := by
    rintro ⟨⟨x, hx⟩, c⟩ ⟨⟨y, hy⟩, c'⟩ e
    simp only at e
    have e1 : y = x + (c - c') • δ := by
      rw [sub_smul, ← add_sub_assoc, e, add_sub_cancel_right]
    have h0 := h x (c - c') 0 (by rw [← e1]; exact hy) (by rw [zero_smul, add_zero]; exact hx)
    have : c = c' := sub_eq_zero.1 h0
    subst this
    have : y = x := by rw [e1, h0, zero_smul, add_zero]
    subst this
    rfl
  have hc := Nat.card_le_card_of_injective _ hinj
  rw [Nat.card_prod] at hc
  have hF : (0 : ℚ) < Nat.card F := by exact_mod_cast Nat.card_pos
  have hX : (0 : ℚ) < Nat.card X := by exact_mod_cast Nat.card_pos
  unfold prob
  rw [div_le_div_iff₀ hX hF, one_mul]
  exact_mod_cast hc

/-- an accepted lie tells the first value of the spare server -/
theorem accepted_forces (params : AccParams G1 G2) (α sM v : F) (ops : List (Server.Op F))
    (srv : Server F G1 G2) (h : (Server.new params α sM v).run ops = .ok srv) (seed : Nat → Nat)
    (hseed : ∀ d, 1 ≤ d → 1 ≤ seed d) (u : User F G1 G2) (n t : Nat) (ht : 2 ≤ t)
    (hc : ∀ i, 0 < i → i ≤ n → (i : F) ≠ 0) (he1 : 1 ≤ u.epoch) (he2 : u.epoch < srv.getEpoch)
    (rand : Nat → Nat → F) (upd : UserUpdate F)
    (hp : u.prepareForUpdate seed srv.getEpoch n t rand = .ok (.ok upd)) (w : G1) (Q : Finset Nat)
    (r : List Nat) (hr : r = (List.range n).filter (fun i => decide (i ∉ Q))) (hrl : t < r.length)
    (honest ans : List (List F × List G1)) (hhon : HonestAnswers srv n upd honest)
    (p : Nat) (hpt : p < t) (hdiff : DiffersOn {r[p]} honest ans)
    (W : G1) (hok : postUpdate w t upd.yShares upd.yValues (silence Q ans) = .ok (.ok W)) :
    (ans.getD r[p] ([], [])).1.getD 0 0 = (honest.getD r[p] ([], [])).1.getD 0 0
      + (xOf F r[0] ^ 2 - 1) / lagr (range t) (fun i => xOf F (r.getD i 0)) (xOf F r[t]) p
        * (honest.getD r[t] ([], [])).1.getD 0 0 := by
  obtain ⟨c, D, V, hc1, pD, pV, hh, hres, hX, hall⟩ := silentLiar_setup params α sM v ops srv h seed hseed u n t ht hc
    he1 he2 rand upd hp w Q r hr hrl honest hhon
  obtain ⟨hlen, hn, hgood, hpost⟩ := hall _ ans hdiff
  have hnd : r.Nodup := by rw [hr]; exact List.nodup_range.filter _
  have hsub : ∀ i ∈ r, i < n := fun i hi => by
    rw [hr] at hi; exact List.mem_range.1 (List.mem_filter.1 hi).1
  have hmem : ∀ i (hi : i < r.length), r[i] < n := by
    intro i hi
    exact hsub _ (List.getElem_mem _)
  have hget : ∀ i (hi : i < r.length), r.getD i 0 = r[i] := by
    intro i hi
    rw [List.getD_eq_getElem?_getD, List.getElem?_eq_getElem hi, Option.getD_some]
  have hsame : ∀ i ≤ t, i ≠ p → r.getD i 0 < n ∧ r.getD i 0 ∉ ({r[p]} : Finset Nat) := by
    intro i hi hip
    rw [hget i (by omega)]
    refine ⟨hmem _ _, fun hm => hip ?_⟩
    exact (List.Nodup.getElem_inj_iff hnd).1 (Finset.mem_singleton.1 hm)
  rw [hpost] at hok
  obtain ⟨d, v', hdv, -⟩ := (loopSpec_ok_iff _ _ _ _ w).1 (Except.ok.inj hok)
  set X : Nat → F := fun i => xOf F (r.getD i 0) with hXd
  set κ : F := (X 0 ^ 2 - 1) / lagr (range t) X (X t) p with hκ
  have hl := chk_lie t X hX r (fun i => if i = r[p] then D 0 (X p) + κ • D 0 (X t) else D 0 (xOf F i)) (D 0) (pD 0) p hpt κ
    hκ (fun i hi hip => by
      have := (hsame i hi hip).2
      rw [if_neg (by simpa using this)]) (by rw [hget p (by omega), if_pos rfl])
  have := chk_unique t X hX r (fun i => (ans.getD i ([], [])).1.getD 0 0)
    (fun i => if i = r[p] then D 0 (X p) + κ • D 0 (X t) else D 0 (xOf F i)) p hpt
    (fun i hi hip => by
      obtain ⟨a, b⟩ := hsame i hi hip
      simp only [(hgood _ a b 0 (by omega)).1]
      rw [if_neg (by simpa using b)])
    (by rw [(hdv 0 (List.mem_range.2 (by omega))).1]; simp) (by rw [hl]; simp)
  simp only [hget p (by omega), if_true] at this
  rw [this]
  have hhg : ∀ i < n, (honest.getD i ([], [])).1.getD 0 0 = D 0 (xOf F i) := by
    intro i hi
    simp [hh, answers, hi, show 0 < c by omega]
  rw [hhg _ (hmem p (by omega)), hhg _ (hmem t hrl)]
  simp only [hκ, hXd, hget p (by omega), hget t hrl, hget 0 (by omega), smul_eq_mul]

/-- a sharing polynomial of 0 that vanishes at fewer than `t - 1` servers and is 1 at another one -/
theorem exists_separating (t n : Nat) (hc : ∀ i, 0 < i → i ≤ n → (i : F) ≠ 0) (I : Finset Nat)
    (hI : ∀ i ∈ I, i < n) (hcard : I.card + 1 < t) (l : Nat) (hl : l < n) (hlI : l ∉ I) :
    ∃ γ : Nat → F, (∀ i ∈ I, ∑ k ∈ range (t - 1), γ k * xOf F i ^ (k + 1) = 0) ∧
      ∑ k ∈ range (t - 1), γ k * xOf F l ^ (k + 1) = 1 := by
  have hinj := xOf_injOn (F := F) hc
  obtain ⟨A, hA, -, hAv⟩ := exists_polyVal (insert l I) (xOf F) (hinj.mono (by
    intro i hi
    rcases Finset.mem_insert.1 (Finset.mem_coe.1 hi) with rfl | hi
    · exact Finset.mem_coe.2 (Finset.mem_range.2 hl)
    · exact Finset.mem_coe.2 (Finset.mem_range.2 (hI i hi)))) (fun i => if i = l then (xOf F l)⁻¹ else 0)
  rw [Finset.card_insert_of_notMem hlI] at hA
  have key : ∀ z : F, ∑ k ∈ range (t - 1), A.getD k 0 * z ^ (k + 1) = z * polyVal z A := by
    intro z
    rw [polyVal_eq_finsum, Finset.mul_sum]
    have hsub : range A.length ⊆ range (t - 1) := Finset.range_subset_range.2 (by omega)
    rw [← Finset.sum_subset hsub]
    · exact Finset.sum_congr rfl (fun k _ => by rw [smul_eq_mul, pow_succ]; ring)
    · intro k _ hk
      have : A.length ≤ k := by simpa using hk
      simp [this]
  refine ⟨fun k => A.getD k 0, fun i hi => ?_, ?_⟩
  · rw [key, hAv i (by simp [hi]), if_neg (by rintro rfl; exact hlI hi), mul_zero]
  · rw [key, hAv l (by simp), if_pos rfl, mul_inv_cancel₀ (show xOf F l ≠ 0 from hc (l + 1) (by omega) (by omega))]

/-- moving one sharing polynomial -/
theorem shVec_line {t m : Nat} (k : Nat) (id : F) (x : Fin (t - 1) → Fin m → F) (rest : Nat → Nat → F) (γ : Nat → F)
    (j0 : Nat) (hj0 : j0 < m) (c z : F) :
    shVec t k id (withRows (x + c • fun (l : Fin (t - 1)) (j : Fin m) => if j.1 = j0 then γ l else 0) rest) z
      = (List.range k).map (fun j => polyVal z (sharePoly t (id ^ (j + 1)) (withRows x rest j))
          + if j = j0 then c * ∑ l ∈ range (t - 1), γ l * z ^ (l + 1) else 0) := by
  unfold shVec
  refine List.map_congr_left (fun j _ => ?_)
  rw [sharePoly_sum, sharePoly_sum, add_assoc]
  congr 1
  by_cases hj : j = j0
  · subst hj
    rw [if_pos rfl, Finset.mul_sum, ← Finset.sum_add_distrib]
    refine Finset.sum_congr rfl (fun l hl => ?_)
    have hl := Finset.mem_range.1 hl
    unfold withRows
    rw [dif_pos ⟨by omega, by omega, hj0⟩, dif_pos ⟨by omega, by omega, hj0⟩]
    simp only [Pi.add_apply, Pi.smul_apply, if_true, smul_eq_mul, Nat.add_sub_cancel]
    ring
  · rw [if_neg hj, add_zero]
    refine Finset.sum_congr rfl (fun l hl => ?_)
    congr 1
    unfold withRows
    split
    · simp [hj]
    · rfl

variable [Fintype F]

/-- **C124** (three or more: the lie must be guessed). The first server is silent (or more exactly: the square of the point
of the first server that answers is not 1), all others that answer are honest except one among the first `t` of them,
which sees what the servers in `I`, fewer than `t - 1`, were sent, and whose strategy `A` may depend on everything but the
user's randomness (so it may know the id). If the spare server is not in `I`, `post_update` returns `Ok` with
probability at most `1/|F|`. (`m`: at least the number of deletions asked for; the coefficients of the first `m` sharing
polynomials are drawn at random, those of the others are arbitrary.) -/
theorem C124_guess (params : AccParams G1 G2) (α sM v : F) (ops : List (Server.Op F))
    (srv : Server F G1 G2) (h : (Server.new params α sM v).run ops = .ok srv) (seed : Nat → Nat)
    (hseed : ∀ d, 1 ≤ d → 1 ≤ seed d) (u : User F G1 G2) (n t : Nat)
    (hc : ∀ i, 0 < i → i ≤ n → (i : F) ≠ 0) (he1 : 1 ≤ u.epoch) (he2 : u.epoch < srv.getEpoch) (w : G1) (Q : Finset Nat)
    (r : List Nat) (hr : r = (List.range n).filter (fun i => decide (i ∉ Q))) (hrl : t < r.length)
    (p : Nat) (hpt : p < t) (hx : ((r[0] + 1 : Nat) : F) ^ 2 ≠ 1) (I : Finset Nat) (hI : ∀ i ∈ I, i < n)
    (hpI : r[p] ∈ I) (htI : r[t] ∉ I) (hcard : I.card + 1 < t) (A : (Nat → Option (List F)) → List F × List G1)
    (m : Nat) (hm : srv.getEpoch - u.epoch ≤ m) (rest : Nat → Nat → F) :
    prob (fun x : Fin (t - 1) → Fin m → F => ∃ upd honest W,
      u.prepareForUpdate seed srv.getEpoch n t (withRows x rest) = .ok (.ok upd) ∧ HonestAnswers srv n upd honest ∧
      DiffersOn {r[p]} honest (honest.set r[p] (A (jointView I upd))) ∧
      postUpdate w t upd.yShares upd.yValues (silence Q (honest.set r[p] (A (jointView I upd)))) = .ok (.ok W))
      ≤ 1 / (Nat.card F : ℚ) := by
  classical
  have hIc : 0 < I.card := Finset.card_pos.2 ⟨_, hpI⟩
  have ht : 2 ≤ t := by omega
  have hlen := accs_length_run params α sM v ops srv h
  have hrn : r.length ≤ n := by
    rw [hr]; refine le_trans (List.length_filter_le _ _) (by simp)
  have hsub : ∀ i ∈ r, i < n := fun i hi => by
    rw [hr] at hi; exact List.mem_range.1 (List.mem_filter.1 hi).1
  have hmem : ∀ i (hi : i < r.length), r[i] < n := fun i hi => hsub _ (List.getElem_mem _)
  obtain ⟨γ, hγI, hγt⟩ := exists_separating t n hc I hI hcard r[t] (hmem t hrl) htI
  obtain ⟨k', -, hk', hk3, -⟩ := prepareForUpdate_ok seed hseed u srv.getEpoch n t ht (by omega) he2 (fun _ _ => 0)
  obtain ⟨k, rfl⟩ : ∃ k, k' = k + 1 := ⟨k' - 1, by omega⟩
  have hk2 : 2 ≤ k := by omega
  set P := chunkAt k (srv.published (srv.getEpoch - u.epoch)) 0 with hP
  have hdl : srv.getEpoch - u.epoch ≤ srv.deletions.length := by
    have : srv.getEpoch = srv.deletions.length + 1 := by simp [Server.getEpoch, hlen]
    omega
  have hPl : P.length = min k (srv.getEpoch - u.epoch) := by
    simp [hP, chunkAt, published_length srv hlen _ hdl]
  have hP1 : 1 ≤ P.length := by omega
  have hj0 : P.length - 1 < m := by omega
  apply prob_line (F := F) (fun (l : Fin (t - 1)) (j : Fin m) => if j.1 = P.length - 1 then γ l else 0)
  rintro x c c' ⟨upd, honest, W, hp, hhon, hdiff, hok⟩ ⟨upd', honest', W', hp', hhon', hdiff', hok'⟩
  obtain ⟨-, hed, hyl, hys, hyv, hc1, hh⟩ := honest_closed_k seed hseed u srv hlen n t ht (by omega) he1 he2 _ upd hp k hk'
  obtain ⟨-, hed', hyl', hys', hyv', hc1', hh'⟩ := honest_closed_k seed hseed u srv hlen n t ht (by omega) he1 he2 _ upd' hp' k hk'
  have hsh := fun (c z : F) => shVec_line k u.id x rest γ (P.length - 1) hj0 c z
  have hI0 : ∀ i ∈ I, ∀ c : F, shVec t k u.id (withRows (x + c • fun (l : Fin (t - 1)) (j : Fin m) =>
      if j.1 = P.length - 1 then γ l else 0) rest) (xOf F i) = shVec t k u.id (withRows x rest) (xOf F i) := by
    intro i hi c
    rw [hsh, hγI i hi]
    simp [shVec]
  have hview : jointView I upd' = jointView I upd := by
    funext i
    unfold jointView
    split
    · next hi => rw [hys, hys']; simp [hI i hi, hI0 i hi]
    · rfl
  have f1 := accepted_forces params α sM v ops srv h seed hseed u n t ht hc he1 he2 _ upd hp w Q r hr hrl honest _ hhon p
    hpt hdiff W hok
  have f2 := accepted_forces params α sM v ops srv h seed hseed u n t ht hc he1 he2 _ upd' hp' w Q r hr hrl honest' _ hhon' p
    hpt hdiff' W' hok'
  have hD : ∀ i < n, ∀ (c : F) (hon : List (List F × List G1)), hon = answers n (nChunks k (srv.getEpoch - u.epoch))
      (fun _ => true)
      (fun i j => dAns (shVec t k u.id (withRows (x + c • fun (l : Fin (t - 1)) (j : Fin m) =>
        if j.1 = P.length - 1 then γ l else 0) rest) (xOf F i)) (chunkAt k (srv.published (srv.getEpoch - u.epoch)) j))
      (fun i j => vAnsP (shVec t k u.id (withRows (x + c • fun (l : Fin (t - 1)) (j : Fin m) =>
        if j.1 = P.length - 1 then γ l else 0) rest) (xOf F i)) (chunkAt k (srv.published (srv.getEpoch - u.epoch)) j)) →
      hon.length = n ∧ (hon.getD i ([], [])).1.getD 0 0 = dAns (shVec t k u.id (withRows x rest) (xOf F i)) P
        + (-1) ^ P.length * (c * ∑ l ∈ range (t - 1), γ l * xOf F i ^ (l + 1)) := by
    rintro i hi c hon rfl
    refine ⟨by simp [answers], ?_⟩
    have : ((answers n (nChunks k (srv.getEpoch - u.epoch)) (fun _ => true)
      (fun i j => dAns (shVec t k u.id (withRows (x + c • fun (l : Fin (t - 1)) (j : Fin m) =>
        if j.1 = P.length - 1 then γ l else 0) rest) (xOf F i)) (chunkAt k (srv.published (srv.getEpoch - u.epoch)) j))
      (fun i j => vAnsP (shVec t k u.id (withRows (x + c • fun (l : Fin (t - 1)) (j : Fin m) =>
        if j.1 = P.length - 1 then γ l else 0) rest) (xOf F i)) (chunkAt k (srv.published (srv.getEpoch - u.epoch)) j))).getD
        i ([], [])).1.getD 0 0 = dAns (shVec t k u.id (withRows (x + c • fun (l : Fin (t - 1)) (j : Fin m) =>
        if j.1 = P.length - 1 then γ l else 0) rest) (xOf F i)) P := by
      simp [answers, hi, show 0 < nChunks k (srv.getEpoch - u.epoch) by omega, hP]
    rw [this, hsh]
    unfold dAns shVec
    rw [dot_fn _ P.length k (by rw [linProd_length, List.length_map]) (by omega),
      dot_fn _ P.length k (by rw [linProd_length, List.length_map]) (by omega), add_assoc]
    congr 1
    simp only [mul_add, Finset.sum_add_distrib]
    congr 1
    rw [Finset.sum_eq_single (P.length - 1)]
    · rw [if_pos rfl]
      congr 1
      have := linProd_top (P.map (·.1))
      rw [List.length_map] at this
      rw [← this]
      congr 1
      omega
    · intro j _ hj; rw [if_neg hj, mul_zero]
    · intro hn; exact absurd (Finset.mem_range.2 (by omega)) hn
  have g := fun i hi => hD i hi c honest ((hh _).1 hhon)
  have g' := fun i hi => hD i hi c' honest' ((hh' _).1 hhon')
  have hset : ∀ (hon : List (List F × List G1)) (l), hon.length = n → (hon.set r[p] l).getD r[p] ([], []) = l := by
    intro hon l hl
    have := hmem p (by omega)
    rw [List.getD_eq_getElem?_getD, List.getElem?_set_self (by omega), Option.getD_some]
  have hrp := hmem p (by omega)
  have hrt := hmem t hrl
  rw [hset _ _ (g _ hrp).1, (g _ hrp).2, (g _ hrt).2, hγI _ hpI, hγt] at f1
  rw [hset _ _ (g' _ hrp).1, (g' _ hrp).2, (g' _ hrt).2, hγI _ hpI, hγt, hview, f1] at f2
  have hX : GoodX t (fun i => xOf F (r.getD i 0)) := by
    have := (postUpdate_checked (F := F) (G1 := F) 0 t n 1 (by omega) le_rfl hc (fun i => decide (i ∉ Q))
      (by rw [← hr]; exact hrl) (fun _ _ => 0) (fun _ _ => 0) (List.replicate n []) (by simp)).1
    rw [← hr] at this
    exact this
  have hgt : r.getD t 0 = r[t] := by
    rw [List.getD_eq_getElem?_getD, List.getElem?_eq_getElem hrl, Option.getD_some]
  have hlag := hX.lagr_t p hpt
  simp only [hgt] at hlag
  have hκ : (xOf F r[0] ^ 2 - 1) / lagr (range t) (fun i => xOf F (r.getD i 0)) (xOf F r[t]) p ≠ 0 :=
    div_ne_zero (sub_ne_zero.2 hx) hlag
  have h1 : ((-1 : F) ^ P.length) ≠ 0 := pow_ne_zero _ (by simp)
  generalize (xOf F r[0] ^ 2 - 1) / lagr (range t) (fun i => xOf F (r.getD i 0)) (xOf F r[t]) p = κ at f2 hκ
  have e : κ * ((-1) ^ P.length * (c - c')) = 0 := by linear_combination f2
  exact sub_eq_zero.1 (((mul_eq_zero.1 e).resolve_left hκ |> mul_eq_zero.1).resolve_left h1)

end
end Allo
