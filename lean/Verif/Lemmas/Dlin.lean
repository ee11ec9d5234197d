import Verif.Lemmas.Simulation
import Mathlib.Algebra.Module.Basic

/-!
# Provers whose proofs contain a point hidden by a decision-linear triple

Nothing here is about the crate. `dlin_close`: if, apart from the triple `(σX, ρY, (σ+ρ)Z + C)`, the proofs of a prover
can be simulated perfectly for a given challenge, then whoever notices that `C` was replaced by a random point
distinguishes the triples of the decision linear problem (`dlin`) from random ones (`dlinRandom`).
-/

set_option linter.unusedSectionVars false
set_option linter.unusedVariables false
set_option linter.unusedSimpArgs false
namespace Rom

variable {Q R C P P' W α : Type}

namespace ProverProg

/-- The program without a prover: the `i`-th proof, for context `c`, is `ps i c`, and where a proof needs it the oracle's
answers are replaced by the entries of the table `T`. -/
def feed [DecidableEq Q] (query : C → P → Q) (challenge : P → R) :
    (T : List (Q × R)) → (ps : Nat → C → P) → ProverProg Q R C P α → OracleProg Q R α
  | _, _, done a => .done a
  | T, ps, hash q k =>
    match T.lookup q with
    | some r => feed query challenge T ps (k r)
    | none => .ask q (fun r => feed query challenge T ps (k r))
  | T, ps, prove c k =>
    feed query challenge ((query c (ps 0 c), challenge (ps 0 c)) :: T) (fun i => ps (i + 1)) (k (ps 0 c))

/-- The same program for a prover with other proofs, of which it sees only `g`. -/
def view (g : C → P' → P) : ProverProg Q R C P α → ProverProg Q R C P' α
  | done a => done a
  | hash q k => hash q (fun r => (k r).view g)
  | prove c k => prove c (fun p => (k (g c p)).view g)

theorem Bound.view (g : C → P' → P) : ∀ (prog : ProverProg Q R C P α) (m n : Nat), prog.Bound m n →
    (prog.view g).Bound m n
  | done _, _, _, _ => by simp [ProverProg.view, Bound]
  | hash _ _, 0, _, h => absurd h id
  | hash _ k, m + 1, n, h => fun r => (Bound.view g (k r) m n (h r))
  | prove _ _, 0, 0, h => absurd h id
  | prove _ _, m + 1, 0, h => absurd h id
  | prove _ k, 0, n + 1, h => fun p => (Bound.view g (k _) 0 n (h _))
  | prove _ k, m + 1, n + 1, h => fun p => (Bound.view g (k _) (m + 1) n (h _))

theorem QueriesIn.view {W' : Type} (g : C → P' → P) (pv : Prover Q R C P W) (pv' : Prover Q R C P' W') (S : Q → Prop)
    (h : ∀ c, (∀ w, S (pv.commit c w)) → ∀ w, S (pv'.commit c w)) :
    ∀ (prog : ProverProg Q R C P α), prog.QueriesIn pv S → (prog.view g).QueriesIn pv' S
  | done _, _ => trivial
  | hash _ k, hS => ⟨hS.1, fun r => QueriesIn.view g pv pv' S h (k r) (hS.2 r)⟩
  | prove c k, hS => ⟨h c hS.1, fun p => QueriesIn.view g pv pv' S h (k _) (hS.2 _)⟩

theorem real_view (g : C → P' → P) (pv : Prover Q R C P W) (pv' : Prover Q R C P' W)
    (hc : ∀ c w, pv'.commit c w = pv.commit c w) (hr : ∀ c w r, g c (pv'.respond c w r) = pv.respond c w r) (O : Q → R) :
    ∀ (prog : ProverProg Q R C P α) (ws : Nat → W) (l : List (C × P)) (l' : List (C × P')),
      ((prog.view g).real pv' O ws l').1 = (prog.real pv O ws l).1
  | done a, _, _, _ => rfl
  | hash q k, ws, l, l' => real_view g pv pv' hc hr O (k (O q)) ws l l'
  | prove c k, ws, l, l' => by
    simp only [ProverProg.view, real, hc, hr]
    exact real_view g pv pv' hc hr O (k _) _ _ _

theorem feed_view [DecidableEq Q] (g : C → P' → P) (query : C → P → Q) (challenge : P → R) (challenge' : P' → R)
    (hc : ∀ c p, challenge (g c p) = challenge' p) (O : Q → R) :
    ∀ (prog : ProverProg Q R C P α) (T : List (Q × R)) (ps : Nat → P') (l : List (C × P')),
      (prog.feed query challenge T (fun i c => g c (ps i))).eval O
        = (((prog.view g).simulate (fun c p => query c (g c p)) challenge' T ps l).eval O).1
  | done a, _, _, _ => rfl
  | hash q k, T, ps, l => by
    simp only [ProverProg.view, simulate, feed]
    cases T.lookup q with
    | some r => exact feed_view g query challenge challenge' hc O (k r) T ps l
    | none => exact feed_view g query challenge challenge' hc O (k (O q)) T ps l
  | prove c k, T, ps, l => by
    simp only [ProverProg.view, simulate, feed, hc]
    exact feed_view g query challenge challenge' hc O (k _) _ _ _

end ProverProg

open Classical

section
variable [DecidableEq Q] [Fintype R]

/-- The simulations of two programs that see the same are the same, if the proofs correspond bijectively. -/
theorem simV_view {P1 P2 W1 W2 : Type} [Fintype P1] [Fintype P2] (pv1 : Prover Q R C P1 W1) (pv2 : Prover Q R C P2 W2)
    (g1 : C → P1 → P) (g2 : C → P2 → P) (b : C → P1 → P2) (hb : ∀ c, Function.Bijective (b c))
    (hg : ∀ c p, g2 c (b c p) = g1 c p) (hq : ∀ c p, pv2.query c (b c p) = pv1.query c p)
    (hc : ∀ c p, pv2.challenge (b c p) = pv1.challenge p) (f : α → ℚ) :
    ∀ (prog : ProverProg Q R C P α) (T : List (Q × R)) (l1 : List (C × P1)) (l2 : List (C × P2)),
      simV pv1 (fun a _ => f a) T l1 (prog.view g1) = simV pv2 (fun a _ => f a) T l2 (prog.view g2) := by
  intro prog
  induction prog with
  | done a => intro T l1 l2; rfl
  | hash q k ih =>
    intro T l1 l2
    simp only [ProverProg.view, simV]
    cases T.lookup q with
    | some r => exact ih r T l1 l2
    | none => exact avg_congr (fun r => ih r _ l1 l2)
  | prove c k ih =>
    intro T l1 l2
    simp only [ProverProg.view, simV]
    rw [← avg_bij (b c) (hb c)]
    refine avg_congr (fun p => ?_)
    simp only [hg, hq, hc]
    exact ih _ _ _ _
end

section
variable {F G Resp : Type} [Field F] [Fintype F] [AddCommGroup G] [Module F G] [Fintype G]

/-- An instance of the decision linear problem for `X, Y, Z`: `(σX, ρY, (σ+ρ)Z)`. -/
def dlin (X Y Z : G) (s : F × F) : G × G × G := (s.1 • X, s.2 • Y, (s.1 + s.2) • Z)

/-- What it is to be told apart from: `(σX, ρY, W)`. -/
def dlinRandom (X Y : G) (s : (F × F) × G) : G × G × G := (s.1.1 • X, s.1.2 • Y, s.2)

/-- How well `D`, with random coins, tells `(σX, ρY, (σ+ρ)Z)` from `(σX, ρY, W)` for random `σ`, `ρ` and `W`. -/
noncomputable def dlinAdvantage (F : Type) [Field F] [Module F G] {Coins : Type} (X Y Z : G) (D : Coins → G × G × G → Prop) : ℚ :=
  |prob (fun x : Coins × (F × F) => D x.1 (dlin X Y Z x.2))
    - prob (fun x : Coins × ((F × F) × G) => D x.1 (dlinRandom X Y x.2))|

/-- `C` added to the third point. -/
def addTo (c : G) (t : G × G × G) : G × G × G := (t.1, t.2.1, t.2.2 + c)

/-- A sequence of triples: random ones before `j`, then `t`, then instances of the problem. -/
def hybrid (X Y Z : G) (samples : Nat → (F × F) × G) (j : Nat) (t : G × G × G) (i : Nat) : G × G × G :=
  if i < j then dlinRandom X Y (samples i) else if i = j then t else dlin X Y Z (samples i).1

end

section main
variable {F G Resp : Type} [Field F] [Fintype F] [AddCommGroup G] [Module F G] [Fintype G]
variable [DecidableEq Q] [Fintype W] [Inhabited W] [Fintype Resp] [Inhabited Resp]
variable {Ω : Type} [Fintype Ω]

/-- The value beyond the end of a sequence (never used) is 0. -/
scoped instance (priority := low) inhabitedOfZero {A : Type} [Zero A] : Inhabited A := ⟨0⟩

theorem pad_comp {X Y : Type} [Inhabited X] [Inhabited Y] {n : Nat} (h : X → Y) (hd : h default = default)
    (v : Fin n → X) (i : Nat) : h (pad v i) = pad (fun j => h (v j)) i := by
  unfold pad
  split
  · rfl
  · exact hd

theorem avg_pair {X Y : Type} [Fintype X] [Fintype Y] {n : Nat} (g : (Fin n → X) × (Fin n → Y) → ℚ) :
    avg g = avg (fun v : Fin n → X × Y => g (fun i => (v i).1, fun i => (v i).2)) :=
  (avg_bij (fun v : Fin n → X × Y => (fun i => (v i).1, fun i => (v i).2))
    (Equiv.arrowProdEquivProdArrow _ _ _).bijective g).symm

/-- A prover whose proofs are made (`make`) from a triple `(σX, ρY, (σ+ρ)Z + C)` and other data, such that `σ`, `ρ` and
the other data are in bijection with randomness and challenge. -/
structure TripleProver (pv : Prover Q F C P W) (X Y Z : G) (offset : C → G) (make : G × G × G → Resp → P) (δ : ℚ) where
  chal : Resp → F
  ext : C → W × F → (F × F) × Resp
  bij : ∀ c, Function.Bijective (ext c)
  respond : ∀ c w r, pv.respond c w r = make (addTo (offset c) (dlin X Y Z (ext c (w, r)).1)) (ext c (w, r)).2
  challenge : ∀ t s, pv.challenge (make t s) = chal s
  challenge_ext : ∀ c w r, chal (ext c (w, r)).2 = r
  query : ∀ c w r, pv.query c (pv.respond c w r) = pv.commit c w
  guess : ∀ c q, prob (fun p : (F × F) × Resp => pv.query c (make (addTo (offset c) (dlin X Y Z p.1)) p.2) = q) ≤ δ

/-- The distinguisher: it runs the adversary, with proofs made from the given triple (`j`-th proof), from random ones
(before) and from ones with known `σ`, `ρ` (after). -/
def distinguisher (query : C → P → Q) (challenge : P → F) (X Y Z : G) (offset : C → G) (make : G × G × G → Resp → P)
    (adv : Ω → ProverProg Q F C P α) (S : Finset Q) (ev : α → Prop) {n : Nat} (j : Nat)
    (coins : Ω × (S → F) × (Fin n → (F × F) × G) × (Fin n → Resp)) (t : G × G × G) : Prop :=
  ev (((adv coins.1).feed query challenge [] (fun i c =>
    make (addTo (offset c) (hybrid X Y Z (pad coins.2.2.1) j t i)) (pad coins.2.2.2 i))).eval (oracle S 0 coins.2.1))

/-- **Main lemma.** -/
theorem dlin_close [Nonempty Ω] (S : Finset Q) (pv : Prover Q F C P W) (X Y Z : G) (offset : C → G)
    (make : G × G × G → Resp → P) (δ : ℚ) (hδ : 0 ≤ δ) (tp : TripleProver pv X Y Z offset make δ)
    (adv : Ω → ProverProg Q F C P α) (m n : Nat) (hb : ∀ ω, (adv ω).Bound m n)
    (hS : ∀ ω, (adv ω).QueriesIn pv (· ∈ S)) (ev : α → Prop) :
    |prob (fun x : Ω × (S → F) × (Fin n → W) => ev ((adv x.1).real pv (oracle S 0 x.2.1) (pad x.2.2) []).1)
      - prob (fun x : Ω × (S → F) × (Fin n → (F × F) × G) × (Fin n → Resp) =>
        ev (((adv x.1).feed pv.query pv.challenge [] (fun i c =>
          make (dlinRandom X Y (pad x.2.2.1 i)) (pad x.2.2.2 i))).eval (oracle S 0 x.2.1)))|
      ≤ (∑ j : Fin n, dlinAdvantage F X Y Z (distinguisher pv.query pv.challenge X Y Z offset make adv S ev (n := n) j))
        + n * (m + n) * δ := by
  -- the hybrids
  set Coins := Ω × (S → F) × (Fin n → (F × F) × G) × (Fin n → Resp) with hCoins
  let ind : Prop → ℚ := fun p => if p then 1 else 0
  let run : Ω → (S → F) → (Nat → C → P) → ℚ := fun ω H ps =>
    ind (ev (((adv ω).feed pv.query pv.challenge [] ps).eval (oracle S 0 H)))
  let tr : Nat → (Nat → (F × F) × G) → Nat → G × G × G := fun k s i =>
    if i < k then dlinRandom X Y (s i) else dlin X Y Z (s i).1
  let hyb : Nat → ℚ := fun k => avg (fun x : Coins => run x.1 x.2.1 (fun i c =>
    make (addTo (offset c) (tr k (pad x.2.2.1) i)) (pad x.2.2.2 i)))
  -- step A
  let mk : C → (F × F) × Resp → P := fun c p => make (addTo (offset c) (dlin X Y Z p.1)) p.2
  let pvE : Prover Q F C ((F × F) × Resp) W :=
    { commit := pv.commit
      respond := fun c w r => tp.ext c (w, r)
      query := fun c p => pv.query c (mk c p)
      challenge := fun p => tp.chal p.2 }
  have hsim : pvE.Simulatable δ :=
    { bij := tp.bij
      query_respond := fun c w r => by
        show pv.query c (mk c (tp.ext c (w, r))) = pv.commit c w
        rw [← tp.query c w r, tp.respond]
      challenge_respond := fun c w r => tp.challenge_ext c w r
      guess := tp.guess }
  have hA : |prob (fun x : Ω × (S → F) × (Fin n → W) => ev ((adv x.1).real pv (oracle S 0 x.2.1) (pad x.2.2) []).1)
      - hyb 0| ≤ n * (m + n) * δ := by
    have k := sim_close (0 : F) S pvE δ hδ hsim (fun ω => (adv ω).view mk) m n
      (fun ω => ProverProg.Bound.view mk _ m n (hb ω))
      (fun ω => ProverProg.QueriesIn.view mk pv pvE _ (fun _ h => h) _ (hS ω)) (fun a _ => ev a)
    have e1 : prob (fun x : Ω × (S → F) × (Fin n → W) => ev ((adv x.1).real pv (oracle S 0 x.2.1) (pad x.2.2) []).1)
        = prob (fun x : Ω × (S → F) × (Fin n → W) =>
          ev (((adv x.1).view mk).real pvE (oracle S 0 x.2.1) (pad x.2.2) []).1) := by
      congr 1
      funext x
      rw [ProverProg.real_view mk pv pvE (fun _ _ => rfl) (fun c w r => (tp.respond c w r).symm)]
    have e2 : hyb 0 = prob (fun x : Ω × (S → F) × (Fin n → (F × F) × Resp) =>
          ev ((((adv x.1).view mk).simulate pvE.query pvE.challenge [] (pad x.2.2) []).eval (oracle S 0 x.2.1)).1) := by
      rw [prob_eq_avg]
      simp only [hyb]
      rw [avg_prod, avg_prod]
      refine avg_congr (fun ω => ?_)
      rw [avg_prod, avg_prod]
      refine avg_congr (fun H => ?_)
      rw [avg_prod, avg_comm]
      have e3 : ∀ r : Fin n → Resp, avg (fun s : Fin n → (F × F) × G => run ω H (fun i c =>
            make (addTo (offset c) (tr 0 (pad s) i)) (pad r i)))
          = avg (fun s : Fin n → F × F => run ω H (fun i c => mk c (pad s i, pad r i))) := by
        intro r
        rw [← (avg_pair (X := F × F) (Y := G) (n := n) (fun x => run ω H (fun i c => mk c (pad x.1 i, pad r i)))).trans
          (avg_congr (fun s => ?_)), avg_prod]
        · exact avg_congr (fun s => avg_const (X := Fin n → G) (run ω H (fun i c => mk c (pad s i, pad r i))))
        · congr 1
          funext i c
          simp only [tr, mk, Nat.not_lt_zero, if_false]
          rw [← pad_comp (Prod.fst : (F × F) × G → F × F) rfl]
      simp only [e3]
      rw [avg_comm]
      have e4 := avg_prod (fun x : (Fin n → F × F) × (Fin n → Resp) => run ω H (fun i c => mk c (pad x.1 i, pad x.2 i)))
      rw [← e4, avg_pair]
      refine avg_congr (fun v => ?_)
      simp only [run, ind]
      have e5 : (fun (i : Nat) (c : C) => mk c (pad (fun j => (v j).1) i, pad (fun j => (v j).2) i))
          = fun i c => mk c (pad v i) := by
        funext i c
        rw [← pad_comp (Prod.fst : (F × F) × Resp → F × F) rfl, ← pad_comp (Prod.snd : (F × F) × Resp → Resp) rfl]
      rw [e5, ProverProg.feed_view mk pv.query pv.challenge pvE.challenge (fun c p => tp.challenge _ _) _ _ _ _ []]
    rw [e1, e2]
    exact k
  -- step B
  have hB : ∀ j : Fin n, |hyb j - hyb (j + 1)|
      = dlinAdvantage F X Y Z (distinguisher pv.query pv.challenge X Y Z offset make adv S ev (n := n) j) := by
    intro j
    have resample : ∀ (k : Nat) (T : (F × F) × G → G × G × G),
        (∀ s : Nat → (F × F) × G, ∀ i, tr k s i = hybrid X Y Z s j (T (s j)) i) →
        hyb k = prob (fun x : Coins × ((F × F) × G) =>
          distinguisher pv.query pv.challenge X Y Z offset make adv S ev (n := n) j x.1 (T x.2)) := by
      intro k T hT
      rw [prob_eq_avg]
      simp only [hyb]
      rw [avg_prod (X := Coins), avg_prod, avg_prod]
      refine avg_congr (fun ω => ?_)
      rw [avg_prod, avg_prod]
      refine avg_congr (fun H => ?_)
      rw [avg_prod, avg_prod, avg_comm]
      conv_rhs => rw [avg_comm]
      refine avg_congr (fun r => ?_)
      rw [avg_update j]
      rw [avg_comm]
      refine avg_congr (fun s => avg_congr (fun x => ?_))
      simp only [run, ind, distinguisher]
      have : (fun (i : Nat) (c : C) => make (addTo (offset c) (tr k (pad (Function.update s j x)) i)) (pad r i))
          = fun i c => make (addTo (offset c) (hybrid X Y Z (pad s) j (T x) i)) (pad r i) := by
        funext i c
        rw [hT]
        have hj : pad (Function.update s j x) j = x := by simp [pad]
        have hi : i ≠ j → pad (Function.update s j x) i = pad s i := by
          intro h
          unfold pad
          split
          · rw [Function.update_of_ne]
            intro h'
            exact h (congrArg Fin.val h')
          · rfl
        rw [hj]
        by_cases h : i = j
        · simp [hybrid, h]
        · simp only [hybrid, hi h]
      rw [this]
      rfl
    have r1 := resample j (fun s => dlin X Y Z s.1) (by
      intro s i
      simp only [tr, hybrid]
      by_cases h : i < j
      · simp [h]
      · by_cases h' : i = j
        · simp [h']
        · simp [h, h'])
    have r2 := resample (j + 1) (fun s => dlinRandom X Y s) (by
      intro s i
      simp only [tr, hybrid]
      by_cases h : i < j
      · simp [h, Nat.lt_succ_of_lt h]
      · by_cases h' : i = j
        · simp [h']
        · have : ¬ i < j + 1 := by omega
          simp [h, h', this])
    rw [r1, r2, dlinAdvantage]
    congr 2
    rw [prob_eq_avg, prob_eq_avg, avg_prod (X := Coins) (Y := (F × F) × G), avg_prod (X := Coins) (Y := F × F)]
    refine avg_congr (X := Coins) (fun x => ?_)
    rw [avg_prod (X := F × F) (Y := G)]
    refine avg_congr (X := F × F) (fun s => ?_)
    exact avg_const (X := G) (if distinguisher pv.query pv.challenge X Y Z offset make adv S ev (n := n) j x (dlin X Y Z s)
      then (1 : ℚ) else 0)
  -- step C
  have hC : hyb n = prob (fun x : Coins =>
        ev (((adv x.1).feed pv.query pv.challenge [] (fun i c =>
          make (dlinRandom X Y (pad x.2.2.1 i)) (pad x.2.2.2 i))).eval (oracle S 0 x.2.1))) := by
    let g1 : C → ((F × F) × G) × Resp → P := fun c p => make (addTo (offset c) (dlinRandom X Y p.1)) p.2
    let g2 : C → ((F × F) × G) × Resp → P := fun c p => make (dlinRandom X Y p.1) p.2
    let pvx : (C → ((F × F) × G) × Resp → P) → Prover Q F C (((F × F) × G) × Resp) Empty := fun g =>
      { commit := fun _ w => w.elim
        respond := fun _ w _ => w.elim
        query := fun c p => pv.query c (g c p)
        challenge := fun p => tp.chal p.2 }
    have toV : ∀ g : C → ((F × F) × G) × Resp → P, (∀ c p, pv.challenge (g c p) = tp.chal p.2) →
        ∀ ω, avg (fun H : S → F => avg (fun x : (Fin n → (F × F) × G) × (Fin n → Resp) =>
          run ω H (fun i c => g c (pad x.1 i, pad x.2 i))))
        = simV (pvx g) (fun a _ => ind (ev a)) [] [] ((adv ω).view g) := by
      intro g hg ω
      rw [← sim_eager (0 : F) S (pvx g) (fun a _ => ind (ev a)) ((adv ω).view g) m n
        (ProverProg.Bound.view g _ m n (hb ω))
        (ProverProg.QueriesIn.view g pv (pvx g) _ (fun _ _ w => w.elim) _ (hS ω)) [] [] [] [] (fun _ => rfl)]
      refine avg_congr (fun H => ?_)
      rw [avg_pair]
      refine avg_congr (fun v => ?_)
      simp only [run]
      have e5 : (fun (i : Nat) (c : C) => g c (pad (fun j => (v j).1) i, pad (fun j => (v j).2) i))
          = fun i c => g c (pad v i) := by
        funext i c
        rw [← pad_comp (Prod.fst : ((F × F) × G) × Resp → (F × F) × G) rfl,
          ← pad_comp (Prod.snd : ((F × F) × G) × Resp → Resp) rfl]
      rw [e5, ProverProg.feed_view g pv.query pv.challenge (pvx g).challenge hg _ _ _ _ []]
      rfl
    have c1 : hyb n = avg (fun ω => simV (pvx g1) (fun a _ => ind (ev a)) [] [] ((adv ω).view g1)) := by
      simp only [hyb]
      rw [avg_prod]
      refine avg_congr (fun ω => ?_)
      rw [← toV g1 (fun c p => tp.challenge _ _) ω, avg_prod]
      refine avg_congr (fun H => avg_congr (fun x => ?_))
      congr 1
      funext i c
      have : tr n (pad x.1) i = dlinRandom X Y (pad x.1 i) := by
        simp only [tr]
        split
        · rfl
        · next h =>
          have : pad x.1 i = (((0 : F), (0 : F)), (0 : G)) := by
            unfold pad
            rw [dif_neg h]
            rfl
          simp [this, dlin, dlinRandom]
      rw [this]
    have c2 : prob (fun x : Coins =>
        ev (((adv x.1).feed pv.query pv.challenge [] (fun i c =>
          make (dlinRandom X Y (pad x.2.2.1 i)) (pad x.2.2.2 i))).eval (oracle S 0 x.2.1)))
        = avg (fun ω => simV (pvx g2) (fun a _ => ind (ev a)) [] [] ((adv ω).view g2)) := by
      rw [prob_eq_avg, avg_prod]
      refine avg_congr (fun ω => ?_)
      rw [← toV g2 (fun c p => tp.challenge _ _) ω, avg_prod]
    rw [c1, c2]
    refine avg_congr (fun ω => ?_)
    refine simV_view (pvx g1) (pvx g2) g1 g2 (fun c p => ((p.1.1, p.1.2 + offset c), p.2)) ?_ ?_ ?_ ?_
      (fun a => ind (ev a)) (adv ω) [] [] []
    · intro c
      refine Function.bijective_iff_has_inverse.2 ⟨fun p => ((p.1.1, p.1.2 - offset c), p.2), ?_, ?_⟩
      · rintro ⟨⟨a, b⟩, d⟩; simp
      · rintro ⟨⟨a, b⟩, d⟩; simp
    · intro c p; rfl
    · intro c p; rfl
    · intro c p; rfl
  have hT : ∀ k, k ≤ n → |hyb 0 - hyb k| ≤ ∑ j ∈ Finset.range k, |hyb j - hyb (j + 1)| := by
    intro k hk
    induction k with
    | zero => simp
    | succ k ih =>
      rw [Finset.sum_range_succ]
      have := ih (Nat.le_of_succ_le hk)
      calc |hyb 0 - hyb (k + 1)| ≤ |hyb 0 - hyb k| + |hyb k - hyb (k + 1)| := abs_sub_le _ _ _
        _ ≤ _ := by linarith
  have hT' := hT n le_rfl
  rw [← Fin.sum_univ_eq_sum_range (fun j => |hyb j - hyb (j + 1)|) n, Finset.sum_congr rfl (fun j _ => hB j)] at hT'
  rw [← hC]
  calc _ ≤ _ := abs_sub_le _ (hyb 0) _
    _ ≤ _ := by linarith

end main
end Rom
