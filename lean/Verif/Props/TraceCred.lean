import Verif.Model.CostCred
import Verif.Props.Enrol
import Mathlib.Algebra.Field.ZMod

/-!
# C107: what is done when a credential is issued, shown and checked does not depend on secrets

The recording programs of `Verif.Model.CostCred` compute what the programs of the model compute; the sequence of
operations they record is written down here explicitly.
-/

set_option linter.unusedSectionVars false
set_option linter.unusedVariables false
namespace Allo
open RecM

/-! ## specification: the sequences -/

/-- `l1`, `l2`, `lT` are the numbers of bytes of the encodings of the elements of the three groups. -/
structure EncLengths {G1 G2 GT : Type} (enc : Enc G1 G2 GT) (l1 l2 lT : Nat) : Prop where
  g1 : ∀ P, (enc.g1 P).length = l1
  g2 : ∀ P, (enc.g2 P).length = l2
  gt : ∀ P, (enc.gt P).length = lT

namespace CredOp

/-- checking a credential -/
def verifyOps : List CredOp :=
  [mul2, add2, neg2, pairing2, mul2, add2, mul1, add1, neg2, pairing2]

/-- a combination of three points -/
def lin3 : List CredOp := [mul1, mul1, add1, mul1, add1]

/-- the commitments of a presentation -/
def commitOps : List CredOp :=
  List.replicate 11 draw ++ [mul1, add1, mul1, add1] ++ lin3 ++ lin3 ++ lin3 ++ [mul1, add1]
    ++ [mul1, mul1, add1, pairing, mul2, mul2, add2, pairing, addT]
    ++ [mul1, mul1, add1, pairing, mul2, pairing, addT]

/-- what is put into the transcript before the commitments -/
def publicOps (l1 l2 : Nat) : List CredOp :=
  [append "Signature Public Key" l2, append "Witness Public Key" l2, append "Accumulator" l1,
    append "Proof Param K" l1, append "Proof Param X" l1, append "Proof Param Y" l1, append "Proof Param Z" l1]

/-- the commitments, the verifier's challenge, the hash -/
def hashOps (l1 lT le : Nat) : List CredOp :=
  [append "U_1" l1, append "U_2" l1, append "R" l1, append "T_1" l1, append "T_2" l1, append "Pi_1" lT,
    append "Pi_2" lT, append "Ephemeral challenge" le, challenge]

/-- the answers of a presentation -/
def answerOps : List CredOp := List.replicate 11 fmul

/-- a presentation -/
def showOps (l1 l2 lT le : Nat) : List CredOp :=
  verifyOps ++ commitOps ++ publicOps l1 l2 ++ hashOps l1 lT le ++ answerOps

/-- recomputing the commitments -/
def recomputeOps : List CredOp :=
  lin3 ++ [mul1, add1] ++ lin3 ++ [mul1, add1]
    ++ [mul1, mul1, add1, mul1, add1, mul1, add1, pairing, mul1, mul1, add1, pairing, addT]
    ++ [neg1, mul1, mul1, add1, mul1, add1, pairing, mul1, mul1, add1, pairing, addT]

/-- checking a presentation -/
def checkOps (l1 l2 lT le : Nat) : List CredOp :=
  publicOps l1 l2 ++ recomputeOps ++ hashOps l1 lT le

/-- the server checks the enrolment proof of a member -/
def enrolCheckOps (l1 : Nat) : List CredOp :=
  [append "user_pub_key" l1, mul1, mul1, add1, append "commitment" l1, challenge]

/-- the server signs -/
def enrolSignOps : List CredOp := [add1, finv, mul1]

/-- the user's part of enrolment -/
def enrolAskOps (l1 : Nat) : List CredOp :=
  [draw, mul1, draw, mul1, append "user_pub_key" l1, append "commitment" l1, challenge, fmul]

/-- a membership proof of Vitto and Biryukov: commitments; `hidden`: the blinding factor is drawn -/
def memCommitOps (hidden : Bool) : List CredOp :=
  [draw, draw, mul1, add1, mul1, mul1, fmul, fmul] ++ (if hidden then [draw] else []) ++ List.replicate 4 draw
    ++ [mul1, mul1, neg1, msm 2, neg1, msm 2, mul1, mul1, add1, pairing, mul1, pairing, addT]

/-- its verification -/
def memFinalOps : List CredOp :=
  [neg1, msm 2, neg1, msm 2, neg1, msm 2, neg1, msm 2, mul1, mul1, add1, mul1, add1, pairing, mul1, mul1, add1,
    pairing, addT]

/-- a non-membership proof -/
def nonCommitOps (hidden : Bool) : List CredOp :=
  [draw, draw, mul1, add1, mul1, mul1, fmul, fmul] ++ (if hidden then [draw] else []) ++ List.replicate 4 draw
    ++ [mul1, mul1, neg1, msm 2, neg1, msm 2, draw, draw, msm 2, finv, msm 2, draw, draw, draw, msm 2, msm 2,
      mul1, mul1, add1, mul1, add1, pairing, mul1, pairing, addT]

/-- its verification -/
def nonFinalOps : List CredOp :=
  [neg1, msm 2, neg1, msm 2, neg1, msm 2, neg1, msm 2, mul1, mul1, add1, mul1, add1, mul1, add1, mul1, add1, pairing,
    mul1, mul1, add1, pairing, addT, msm 3, msm 3]

end CredOp

/-! ## runs -/

/-- `x` records `ops` after what is there already and returns `a` -/
def Runs {α : Type} (x : RecM α) (a : α) (ops : List CredOp) : Prop := ∀ c, x c = .ok (a, c ++ ops)

namespace Runs
variable {α β : Type}

theorem pure (a : α) : Runs (Pure.pure a) a [] := fun c => by
  show Except.ok (a, c) = _; rw [List.append_nil]

theorem op (o : CredOp) (a : α) : Runs (RecM.op o a) a [o] := fun _ => rfl

theorem bind {x : RecM α} {f : α → RecM β} {a : α} {b : β} {o o' : List CredOp} (h : Runs x a o)
    (h' : Runs (f a) b o') : Runs (x >>= f) b (o ++ o') := by
  intro c
  show (StateT.bind x f) c = _
  simp only [StateT.bind]
  rw [h c]
  show f a (c ++ o) = _
  rw [h' (c ++ o), List.append_assoc]

theorem value {x : RecM α} {a : α} {o : List CredOp} (h : Runs x a o) : x.value = .ok a := by
  unfold RecM.value; rw [h []]; rfl

theorem trace {x : RecM α} {a : α} {o : List CredOp} (h : Runs x a o) : x.trace = .ok o := by
  unfold RecM.trace; rw [h []]; rfl

end Runs

section
variable {F G1 G2 GT : Type} [Field F] [DecidableEq F] [AddCommGroup G1] [Module F G1]
  [AddCommGroup G2] [Module F G2] [AddCommGroup GT] [Module F GT]

namespace Runs
variable {α β : Type}

theorem congr {x : RecM α} {a : α} {o o' : List CredOp} (h : Runs x a o) (e : o = o') : Runs x a o' := e ▸ h

theorem cons {o : CredOp} {a : α} {f : α → RecM β} {b : β} {o' : List CredOp} (h : Runs (f a) b o') :
    Runs (RecM.op o a >>= f) b (o :: o') := (op o a).bind h

theorem lin3 {a b c : G1} {s t u : F} {f : G1 → RecM β} {v : β} {o : List CredOp}
    (h : Runs (f (s • a + t • b + u • c)) v o) :
    Runs (lin3R a s b t c u >>= f) v (.mul1 :: .mul1 :: .add1 :: .mul1 :: .add1 :: o) :=
  bind (o := [.mul1, .mul1, .add1, .mul1, .add1]) (cons (cons (cons (cons (op _ _))))) h

theorem schnorr {r v c : F} {f : F → RecM β} {b : β} {o : List CredOp} (h : Runs (f (Allo.schnorr r v c)) b o) :
    Runs (schnorrR r v c >>= f) b (.fmul :: o) :=
  bind (o := [.fmul]) (cons (pure _)) h

theorem pairingExp {E : Pairing F G1 G2 GT} {P : G1} {Q : G2} {x : F} {f : GT → RecM β} {b : β} {o : List CredOp}
    (h : Runs (f (Allo.pairingExp E P Q x)) b o) :
    Runs (pairingExpR E P Q x >>= f) b (.mul1 :: .pairing :: o) :=
  bind (o := [.mul1, .pairing]) (cons (op _ _)) h

theorem append {t : Transcript} {l : String} {m : Bytes} {n : Nat} {f : Transcript → RecM β} {b : β}
    {o : List CredOp} (hm : m.length = n) (h : Runs (f (t.append l m)) b o) :
    Runs (appendR t l m >>= f) b (.append l n :: o) := by
  subst hm; exact cons h

theorem append_last {t : Transcript} {l : String} {m : Bytes} {n : Nat} (hm : m.length = n) :
    Runs (appendR t l m) (t.append l m) [.append l n] := by
  subst hm; exact op _ _

theorem free {a : α} : Runs (RecM.free (.ok a)) a [] := fun c => by
  show Except.ok (a, c) = _; rw [List.append_nil]

theorem finv {a : F} (h : a ≠ 0) {f : F → RecM β} {b : β} {o : List CredOp} (h' : Runs (f a⁻¹) b o) :
    Runs (finvR a >>= f) b (.finv :: o) := by
  refine bind (o := [.finv]) (cons ?_) h'
  have : inv! a = .ok a⁻¹ := by unfold inv! invert?; rw [if_neg h]; rfl
  rw [this]
  exact free

end Runs

theorem foldl_snoc (ops : List CredOp) : ∀ c : List CredOp, ops.foldl (fun c o => c ++ [o]) c = c ++ ops := by
  induction ops with
  | nil => intro c; simp
  | cons o ops ih => intro c; rw [List.foldl_cons, ih]; simp

theorem Runs.step {α : Type} {x : RecM α} {a : α} {ops : List CredOp}
    (h : ∀ c, x c = .ok (a, ops.foldl (fun c o => c ++ [o]) c)) : Runs x a ops := by
  intro c
  rw [h c, foldl_snoc]

section steps
variable {β : Type}

theorem mul1R_bind (P : G1) (s : F) (f : G1 → RecM β) (c : List CredOp) :
    (mul1R P s >>= f) c = f (s • P) (c ++ [.mul1]) := rfl
theorem mul1R_run (P : G1) (s : F) (c : List CredOp) : mul1R P s c = .ok (s • P, c ++ [.mul1]) := rfl
theorem add1R_bind (P Q : G1) (f : G1 → RecM β) (c : List CredOp) :
    (add1R P Q >>= f) c = f (P + Q) (c ++ [.add1]) := rfl
theorem add1R_run (P Q : G1) (c : List CredOp) : add1R P Q c = .ok (P + Q, c ++ [.add1]) := rfl
theorem sub1R_bind (P Q : G1) (f : G1 → RecM β) (c : List CredOp) :
    (sub1R P Q >>= f) c = f (P - Q) (c ++ [.add1]) := rfl
theorem sub1R_run (P Q : G1) (c : List CredOp) : sub1R P Q c = .ok (P - Q, c ++ [.add1]) := rfl
theorem neg1R_bind (P : G1) (f : G1 → RecM β) (c : List CredOp) :
    (neg1R P >>= f) c = f (-P) (c ++ [.neg1]) := rfl
theorem neg1R_run (P : G1) (c : List CredOp) : neg1R P c = .ok (-P, c ++ [.neg1]) := rfl
theorem mul2R_bind (P : G2) (s : F) (f : G2 → RecM β) (c : List CredOp) :
    (mul2R P s >>= f) c = f (s • P) (c ++ [.mul2]) := rfl
theorem mul2R_run (P : G2) (s : F) (c : List CredOp) : mul2R P s c = .ok (s • P, c ++ [.mul2]) := rfl
theorem add2R_bind (P Q : G2) (f : G2 → RecM β) (c : List CredOp) :
    (add2R P Q >>= f) c = f (P + Q) (c ++ [.add2]) := rfl
theorem add2R_run (P Q : G2) (c : List CredOp) : add2R P Q c = .ok (P + Q, c ++ [.add2]) := rfl
theorem neg2R_bind (P : G2) (f : G2 → RecM β) (c : List CredOp) :
    (neg2R P >>= f) c = f (-P) (c ++ [.neg2]) := rfl
theorem neg2R_run (P : G2) (c : List CredOp) : neg2R P c = .ok (-P, c ++ [.neg2]) := rfl
theorem addTR_bind (a b : GT) (f : GT → RecM β) (c : List CredOp) :
    (addTR a b >>= f) c = f (a + b) (c ++ [.addT]) := rfl
theorem addTR_run (a b : GT) (c : List CredOp) : addTR a b c = .ok (a + b, c ++ [.addT]) := rfl
theorem fmulR_bind (a b : F) (f : F → RecM β) (c : List CredOp) :
    (fmulR a b >>= f) c = f (a * b) (c ++ [.fmul]) := rfl
theorem fmulR_run (a b : F) (c : List CredOp) : fmulR a b c = .ok (a * b, c ++ [.fmul]) := rfl
theorem drawR_bind (a : F) (f : F → RecM β) (c : List CredOp) :
    (drawR a >>= f) c = f (a) (c ++ [.draw]) := rfl
theorem drawR_run (a : F) (c : List CredOp) : drawR a c = .ok (a, c ++ [.draw]) := rfl
theorem appendR_bind (t : Transcript) (l : String) (m : Bytes) (f : Transcript → RecM β) (c : List CredOp) :
    (appendR t l m >>= f) c = f (t.append l m) (c ++ [.append l m.length]) := rfl
theorem appendR_run (t : Transcript) (l : String) (m : Bytes) (c : List CredOp) : appendR t l m c = .ok (t.append l m, c ++ [.append l m.length]) := rfl
theorem challengeR_bind (H : Oracle F) (t : Transcript) (l : String) (f : F → RecM β) (c : List CredOp) :
    (challengeR H t l >>= f) c = f (H t l) (c ++ [.challenge]) := rfl
theorem challengeR_run (H : Oracle F) (t : Transcript) (l : String) (c : List CredOp) : challengeR H t l c = .ok (H t l, c ++ [.challenge]) := rfl
theorem pairR_bind (E : Pairing F G1 G2 GT) (P : G1) (Q : G2) (f : GT → RecM β) (c : List CredOp) :
    (pairR E P Q >>= f) c = f (E.e P Q) (c ++ [.pairing]) := rfl
theorem pairR_run (E : Pairing F G1 G2 GT) (P : G1) (Q : G2) (c : List CredOp) : pairR E P Q c = .ok (E.e P Q, c ++ [.pairing]) := rfl
theorem capRR_bind (bs : List G1) (ss : List F) (f : G1 → RecM β) (c : List CredOp) :
    (capRR bs ss >>= f) c = f (capR bs ss) (c ++ [.msm bs.length]) := rfl
theorem capRR_run (bs : List G1) (ss : List F) (c : List CredOp) : capRR bs ss c = .ok (capR bs ss, c ++ [.msm bs.length]) := rfl
theorem pairing2R_bind [DecidableEq GT] (E : Pairing F G1 G2 GT) (P : G1) (Q : G2) (P' : G1) (Q' : G2) (f : Bool → RecM β)
    (c : List CredOp) :
    (pairing2R E P Q P' Q' >>= f) c = f (decide (E.e P Q + E.e P' Q' = 0)) (c ++ [.pairing2]) := rfl
theorem lin3R_bind (P Q R : G1) (s t u : F) (f : G1 → RecM β) (c : List CredOp) :
    (lin3R P s Q t R u >>= f) c = f (s • P + t • Q + u • R) (c ++ [.mul1] ++ [.mul1] ++ [.add1] ++ [.mul1] ++ [.add1]) := rfl
theorem schnorrR_bind (r v ch : F) (f : F → RecM β) (c : List CredOp) :
    (schnorrR r v ch >>= f) c = f (schnorr r v ch) (c ++ [.fmul]) := rfl
theorem pairingExpR_bind (E : Pairing F G1 G2 GT) (P : G1) (Q : G2) (x : F) (f : GT → RecM β) (c : List CredOp) :
    (pairingExpR E P Q x >>= f) c = f (pairingExp E P Q x) (c ++ [.mul1] ++ [.pairing]) := rfl
theorem finvR_bind {a : F} (h : a ≠ 0) (f : F → RecM β) (c : List CredOp) :
    (finvR a >>= f) c = f a⁻¹ (c ++ [.finv]) := by
  have : inv! a = .ok a⁻¹ := by unfold inv! invert?; rw [if_neg h]; rfl
  show (StateT.bind (finvR a) f) c = _
  unfold finvR
  show (StateT.bind (StateT.bind (RecM.op .finv ()) _) f) c = _
  simp only [StateT.bind, this]
  rfl
theorem recPure_run (a : β) (c : List CredOp) : (pure a : RecM β) c = .ok (a, c) := rfl
theorem Runs.bind_eq {α : Type} {x : RecM α} {a : α} {o : List CredOp} (h : Runs x a o) (f : α → RecM β) (c : List CredOp) :
    (x >>= f) c = f a (c ++ o) := by
  show (StateT.bind x f) c = _
  simp only [StateT.bind]
  rw [h c]
  rfl

end steps

/-- follow the structure of a program -/
macro "runs" : tactic => `(tactic| (intro c; simp only [mul1R_bind, mul1R_run, add1R_bind, add1R_run, sub1R_bind, sub1R_run, neg1R_bind, neg1R_run, mul2R_bind,
    mul2R_run, add2R_bind, add2R_run, neg2R_bind, neg2R_run, addTR_bind, addTR_run, fmulR_bind, fmulR_run,
    drawR_bind, drawR_run, appendR_bind, appendR_run, challengeR_bind, challengeR_run, pairR_bind, pairR_run,
    capRR_bind, capRR_run, pairing2R_bind, lin3R_bind, schnorrR_bind, pairingExpR_bind, recPure_run,
    List.append_assoc, List.cons_append, List.nil_append]))

theorem credVerifyR_runs [DecidableEq GT] (E : Pairing F G1 G2 GT) (V : G1) (pk : PublicKeys G2) (params : AccParams G1 G2)
    (y : F) (w : Witness F G1) : Runs (credVerifyR E V pk params y w) (credVerify E V pk params y w) CredOp.verifyOps := by
  unfold credVerifyR
  runs
  unfold credVerify
  split
  · next h => rw [if_pos h]; rfl
  · next h => rw [if_neg h]; rfl

set_option maxRecDepth 8000 in
theorem newR_runs (E : Pairing F G1 G2 GT) (w : Witness F G1) (params : AccParams G1 G2) (pk : PublicKeys G2)
    (r : ProofRand F) : Runs (Committing.newR E w params pk r) (Committing.new E w params pk r) CredOp.commitOps := by
  exact Runs.step (fun c => rfl)

theorem appendCommitmentsR_runs (enc : Enc G1 G2 GT) {l1 l2 lT : Nat} (hl : EncLengths enc l1 l2 lT)
    (u1 u2 r t1 t2 : G1) (p1 p2 : GT) (t : Transcript) :
    Runs (appendCommitmentsR enc u1 u2 r t1 t2 p1 p2 t) (appendCommitments enc u1 u2 r t1 t2 p1 p2 t)
      [.append "U_1" l1, .append "U_2" l1, .append "R" l1, .append "T_1" l1, .append "T_2" l1, .append "Pi_1" lT,
        .append "Pi_2" lT] := by
  unfold appendCommitmentsR
  runs
  rw [hl.g1, hl.g1, hl.g1, hl.g1, hl.g1, hl.gt, hl.gt]
  rfl

theorem credTranscriptR_runs (enc : Enc G1 G2 GT) {l1 l2 lT : Nat} (hl : EncLengths enc l1 l2 lT)
    (params : AccParams G1 G2) (pk : PublicKeys G2) (V : G1) :
    Runs (credTranscriptR enc params pk V) (credTranscript enc params pk V) (CredOp.publicOps l1 l2) := by
  unfold credTranscriptR
  runs
  rw [hl.g1, hl.g1, hl.g1, hl.g1, hl.g1, hl.g2, hl.g2]
  rfl

theorem genProofR_runs (c : Committing F G1 GT) (w : Witness F G1) (y ch : F) :
    Runs (c.genProofR w y ch) (c.genProof w y ch) CredOp.answerOps := by
  exact Runs.step (fun c => rfl)

set_option maxRecDepth 8000 in
theorem getBytesR_runs (E : Pairing F G1 G2 GT) (enc : Enc G1 G2 GT) {l1 l2 lT : Nat} (hl : EncLengths enc l1 l2 lT)
    (p : CredProof F G1) (params : AccParams G1 G2) (pk : PublicKeys G2) (V : G1) (t : Transcript) :
    Runs (p.getBytesForChallengeR E enc params pk V t) (p.getBytesForChallenge E enc params pk V t)
      (CredOp.recomputeOps ++ [.append "U_1" l1, .append "U_2" l1, .append "R" l1, .append "T_1" l1, .append "T_2" l1,
        .append "Pi_1" lT, .append "Pi_2" lT]) := by
  have e : ∀ c, p.getBytesForChallengeR E enc params pk V t c = appendCommitmentsR enc p.u1 p.u2 p.r (p.t1 params)
      (p.t2 params) (p.pi1 E params pk) (p.pi2 E params pk V) t
      (CredOp.recomputeOps.foldl (fun c o => c ++ [o]) c) := fun c => rfl
  intro c
  rw [e c, appendCommitmentsR_runs enc hl, foldl_snoc, List.append_assoc]
  rfl

theorem makeProofR_runs [DecidableEq GT] (E : Pairing F G1 G2 GT) (H : Oracle F) (enc : Enc G1 G2 GT) {l1 l2 lT : Nat}
    (hl : EncLengths enc l1 l2 lT) (w : Witness F G1) (y : F) (V : G1) (params : AccParams G1 G2)
    (pk : PublicKeys G2) (eph : Bytes) (rand : ProofRand F) :
    Runs (makeProofR E H enc w y V params pk eph rand) (makeProof E H enc w y V params pk eph rand)
      (if credVerify E V pk params y w = .ok () then CredOp.showOps l1 l2 lT eph.length else CredOp.verifyOps) := by
  intro c
  unfold makeProofR makeProof
  rw [(credVerifyR_runs E V pk params y w).bind_eq]
  cases credVerify E V pk params y w with
  | error e => rw [if_neg (by simp)]; rfl
  | ok u =>
    rw [if_pos rfl]
    show (Committing.newR E w params pk rand >>= _) _ = _
    rw [(newR_runs E w params pk rand).bind_eq, (credTranscriptR_runs enc hl params pk V).bind_eq,
      (appendCommitmentsR_runs enc hl _ _ _ _ _ _ _ _).bind_eq, appendR_bind, challengeR_bind,
      (genProofR_runs _ _ _ _).bind_eq, recPure_run]
    simp only [CredOp.showOps, CredOp.hashOps, List.append_assoc, List.cons_append, List.nil_append]
    rfl

theorem checkProofR_runs (E : Pairing F G1 G2 GT) (H : Oracle F) (enc : Enc G1 G2 GT) {l1 l2 lT : Nat}
    (hl : EncLengths enc l1 l2 lT) (p : CredProof F G1) (params : AccParams G1 G2)
    (pk : PublicKeys G2) (V : G1) (eph : Bytes) :
    Runs (checkProofR E H enc p params pk V eph) (checkProof E H enc p params pk V eph)
      (CredOp.checkOps l1 l2 lT eph.length) := by
  intro c
  unfold checkProofR
  rw [(credTranscriptR_runs enc hl params pk V).bind_eq, (getBytesR_runs E enc hl p params pk V _).bind_eq,
    appendR_bind, challengeR_bind, recPure_run]
  simp only [CredOp.checkOps, CredOp.hashOps, List.append_assoc, List.cons_append, List.nil_append]
  rfl

set_option maxRecDepth 8000 in
theorem memNewR_runs (E : Pairing F G1 G2 GT) (y : ProofMessage F) (C : G1) (params : ProofParams G1) (pk : G2)
    (r : MemRand F) : Runs (MemCommitting.newR E y C params pk r) (MemCommitting.new E y C params pk r)
      (CredOp.memCommitOps (match y with | .hidden _ => true | .sharedBlinding _ _ => false)) := by
  cases y <;> exact Runs.step (fun c => rfl)

theorem memGenR_runs (m : MemCommitting F G1 GT) (ch : F) :
    Runs (m.genProofR ch) (m.genProof ch) (List.replicate 5 .fmul) :=
  Runs.step (fun c => rfl)

set_option maxRecDepth 8000 in
theorem memFinalR_runs (E : Pairing F G1 G2 GT) (p : MemProof F G1) (V : G1) (params : ProofParams G1) (pk : G2) (ch : F) :
    Runs (p.finalizeR E V params pk ch) (p.finalize E V params pk ch) CredOp.memFinalOps :=
  Runs.step (fun c => rfl)

theorem nonGenR_runs (m : NonCommitting F G1 GT) (ch : F) :
    Runs (m.genProofR ch) (m.genProof ch) (List.replicate 9 .fmul) :=
  Runs.step (fun c => rfl)

set_option maxRecDepth 8000 in
theorem nonFinalR_runs (E : Pairing F G1 G2 GT) (p : NonProof F G1) (V : G1) (params : ProofParams G1) (pk : G2) (ch : F) :
    Runs (p.finalizeR E V params pk ch) (p.finalize E V params pk ch) CredOp.nonFinalOps :=
  Runs.step (fun c => rfl)

/-- the recording program stops where the program stops -/
theorem RecM.value_error {α : Type} {x : RecM α} {e : Abort} (h : x [] = .error e) : x.value = .error e := by
  unfold RecM.value; rw [h]; rfl

set_option maxRecDepth 8000 in
theorem nonNewR_runs (E : Pairing F G1 G2 GT) (y : F) (w : NonMembershipWitness F G1) (hd : w.d ≠ 0)
    (params : ProofParams G1) (pk : G2) (bl : Option F) (r : NonRand F) :
    ∃ m, NonCommitting.new E y w params pk bl r = .ok m ∧
      Runs (NonCommitting.newR E y w params pk bl r) m (CredOp.nonCommitOps bl.isNone) := by
  have h : inv! w.d = .ok w.d⁻¹ := by unfold inv! invert?; rw [if_neg hd]; rfl
  cases bl with
  | none =>
    refine ⟨_, by unfold NonCommitting.new; rw [h]; rfl, Runs.step (fun c => ?_)⟩
    unfold NonCommitting.newR finvR
    rw [h]
    rfl
  | some b =>
    refine ⟨_, by unfold NonCommitting.new; rw [h]; rfl, Runs.step (fun c => ?_)⟩
    unfold NonCommitting.newR finvR
    rw [h]
    rfl

theorem nonNewR_value (E : Pairing F G1 G2 GT) (y : F) (w : NonMembershipWitness F G1)
    (params : ProofParams G1) (pk : G2) (bl : Option F) (r : NonRand F) :
    (NonCommitting.newR E y w params pk bl r).value = NonCommitting.new E y w params pk bl r := by
  by_cases hd : w.d = 0
  · have h : inv! w.d = .error .unwrapNone := by unfold inv! invert?; rw [if_pos hd]; rfl
    have e : NonCommitting.new E y w params pk bl r = .error .unwrapNone := by
      unfold NonCommitting.new; rw [h]; rfl
    rw [e]
    apply RecM.value_error
    unfold NonCommitting.newR finvR
    rw [h]
    cases bl <;> rfl
  · obtain ⟨m, e, hr⟩ := nonNewR_runs E y w hd params pk bl r
    rw [e, hr.value]

variable [DecidableEq G1]

theorem witnessR_absent (H : Oracle F) (enc : Enc G1 G2 GT) (srv : Server F G1 G2) (params : AccParams G1 G2)
    (y ch z : F) (pk : G1) (hy : y ∉ srv.ids) :
    srv.witness H enc params y ch z pk = .ok none ∧ Runs (srv.witnessR H enc params y ch z pk) none [] := by
  have hy : mapContains srv.allWitnesses y = false := by
    rw [Bool.eq_false_iff]; exact fun h => hy (mapContains_iff.1 h)
  unfold Server.witness Server.witnessR
  rw [hy]
  exact ⟨rfl, Runs.pure _⟩

theorem witnessR_rejected (H : Oracle F) (enc : Enc G1 G2 GT) {l1 l2 lT : Nat} (hl : EncLengths enc l1 l2 lT)
    (srv : Server F G1 G2) (params : AccParams G1 G2) (y ch z : F) (pk : G1) (hy : y ∈ srv.ids)
    (hc : enrolChallenge H enc pk (z • params.k1 + ch • pk) ≠ ch) :
    srv.witness H enc params y ch z pk = .ok none ∧
      Runs (srv.witnessR H enc params y ch z pk) none (CredOp.enrolCheckOps l1) := by
  refine ⟨(C21_witness H enc params srv y ch z pk).2.1 hc, ?_⟩
  have hy : mapContains srv.allWitnesses y = true := mapContains_iff.2 hy
  have hc' : H (((Transcript.new "user_signature_proof").append "user_pub_key" (enc.g1 pk)).append "commitment"
      (enc.g1 (z • params.k1 + ch • pk))) "challenge" ≠ ch := hc
  unfold Server.witnessR
  rw [hy]
  intro c
  simp only [Bool.not_true, Bool.false_eq_true, if_false]
  rw [appendR_bind, mul1R_bind, mul1R_bind, add1R_bind, appendR_bind, challengeR_bind, if_pos hc', recPure_run,
    hl.g1, hl.g1]
  simp [CredOp.enrolCheckOps]

theorem witnessR_accepted (H : Oracle F) (enc : Enc G1 G2 GT) {l1 l2 lT : Nat} (hl : EncLengths enc l1 l2 lT)
    (srv : Server F G1 G2) (params : AccParams G1 G2) (y ch z : F) (pk : G1) (hy : y ∈ srv.ids)
    (hc : enrolChallenge H enc pk (z • params.k1 + ch • pk) = ch) (hs : y + srv.signSecretKey ≠ 0) :
    ∃ r, srv.witness H enc params y ch z pk = .ok (some r) ∧
      Runs (srv.witnessR H enc params y ch z pk) (some r) (CredOp.enrolCheckOps l1 ++ CredOp.enrolSignOps) := by
  have h : inv! (y + srv.signSecretKey) = .ok (y + srv.signSecretKey)⁻¹ := by
    unfold inv! invert?; rw [if_neg hs]; rfl
  obtain ⟨C, hC⟩ : ∃ C, mapGet srv.allWitnesses y = some C := by
    obtain ⟨C, R, -, hC, -⟩ := ((C21_witness H enc params srv y ch z pk).2.2 hy hc).1 hs
    exact ⟨C, hC⟩
  have hy : mapContains srv.allWitnesses y = true := mapContains_iff.2 hy
  have hc' : H (((Transcript.new "user_signature_proof").append "user_pub_key" (enc.g1 pk)).append "commitment"
      (enc.g1 (z • params.k1 + ch • pk))) "challenge" = ch := hc
  refine ⟨(C, (y + srv.signSecretKey)⁻¹ • (pk + params.k0)), ?_, ?_⟩
  · unfold Server.witness
    rw [hy]
    simp only [Bool.not_true, Bool.false_eq_true, if_false]
    rw [if_neg (not_not.2 hc'), hC, h]
    rfl
  · intro c
    unfold Server.witnessR
    rw [hy]
    simp only [Bool.not_true, Bool.false_eq_true, if_false]
    rw [appendR_bind, mul1R_bind, mul1R_bind, add1R_bind, appendR_bind, challengeR_bind, if_neg (not_not.2 hc'), hC,
      (show unwrap (some C) = .ok C from rfl), (Runs.free (a := C)).bind_eq, add1R_bind, finvR_bind hs, mul1R_bind,
      recPure_run, hl.g1, hl.g1]
    simp [CredOp.enrolCheckOps, CredOp.enrolSignOps]

theorem finvR_zero {β : Type} {a : F} (h : a = 0) (f : F → RecM β) (c : List CredOp) :
    (finvR a >>= f) c = .error .unwrapNone := by
  have : inv! a = .error .unwrapNone := by unfold inv! invert?; rw [if_pos h]; rfl
  show (StateT.bind (finvR a) f) c = _
  unfold finvR
  show (StateT.bind (StateT.bind (RecM.op .finv ()) _) f) c = _
  simp only [StateT.bind, this]
  rfl

theorem witnessR_panic (H : Oracle F) (enc : Enc G1 G2 GT)
    (srv : Server F G1 G2) (params : AccParams G1 G2) (y ch z : F) (pk : G1) (hy : y ∈ srv.ids)
    (hc : enrolChallenge H enc pk (z • params.k1 + ch • pk) = ch) (hs : y + srv.signSecretKey = 0) :
    ∀ c, srv.witnessR H enc params y ch z pk c = .error .unwrapNone := by
  obtain ⟨C, hC⟩ : ∃ C, mapGet srv.allWitnesses y = some C := mapGet_some_of_mem hy
  have hy : mapContains srv.allWitnesses y = true := mapContains_iff.2 hy
  have hc' : H (((Transcript.new "user_signature_proof").append "user_pub_key" (enc.g1 pk)).append "commitment"
      (enc.g1 (z • params.k1 + ch • pk))) "challenge" = ch := hc
  intro c
  unfold Server.witnessR
  rw [hy]
  simp only [Bool.not_true, Bool.false_eq_true, if_false]
  rw [appendR_bind, mul1R_bind, mul1R_bind, add1R_bind, appendR_bind, challengeR_bind, if_neg (not_not.2 hc'), hC,
    (show unwrap (some C) = .ok C from rfl), (Runs.free (a := C)).bind_eq, add1R_bind, finvR_zero hs]

theorem witnessR_value (H : Oracle F) (enc : Enc G1 G2 GT) {l1 l2 lT : Nat} (hl : EncLengths enc l1 l2 lT)
    (srv : Server F G1 G2) (params : AccParams G1 G2) (y ch z : F) (pk : G1) :
    (∃ a o, srv.witness H enc params y ch z pk = .ok a ∧ Runs (srv.witnessR H enc params y ch z pk) a o) ∨
    (∃ e, srv.witness H enc params y ch z pk = .error e ∧ ∀ c, srv.witnessR H enc params y ch z pk c = .error e) := by
  by_cases hy : y ∈ srv.ids
  · by_cases hc : enrolChallenge H enc pk (z • params.k1 + ch • pk) = ch
    · by_cases hs : y + srv.signSecretKey = 0
      · exact .inr ⟨_, ((C21_witness H enc params srv y ch z pk).2.2 hy hc).2 hs,
          witnessR_panic H enc srv params y ch z pk hy hc hs⟩
      · obtain ⟨r, h1, h2⟩ := witnessR_accepted H enc hl srv params y ch z pk hy hc hs
        exact .inl ⟨_, _, h1, h2⟩
    · obtain ⟨h1, h2⟩ := witnessR_rejected H enc hl srv params y ch z pk hy hc
      exact .inl ⟨_, _, h1, h2⟩
  · obtain ⟨h1, h2⟩ := witnessR_absent H enc srv params y ch z pk hy
    exact .inl ⟨_, _, h1, h2⟩

/-- the first half of `create_witness` -/
theorem createWitnessR_ask (H : Oracle F) (enc : Enc G1 G2 GT) {l1 l2 lT : Nat} (hl : EncLengths enc l1 l2 lT)
    (u : User F G1 G2) (params : AccParams G1 G2) (srv : Server F G1 G2) (key k : F) (c : List CredOp) :
    u.createWitnessR H enc params srv key k c =
      (do
        match ← srv.witnessR H enc params u.id (enrolChallenge H enc (key • params.k1) (k • params.k1))
          (k - enrolChallenge H enc (key • params.k1) (k • params.k1) * key) (key • params.k1) with
        | some (witness, signature) =>
          let acc ← RecM.free srv.getAccumulator
          pure { u with
            witness := some { secretKey := key, witness := witness, signature := signature }
            epoch := srv.getEpoch
            accumulator := acc }
        | none => pure u : RecM (User F G1 G2)) (c ++ CredOp.enrolAskOps l1) := by
  unfold User.createWitnessR
  rw [drawR_bind, mul1R_bind, drawR_bind, mul1R_bind, appendR_bind, appendR_bind, challengeR_bind, fmulR_bind, hl.g1, hl.g1]
  simp only [CredOp.enrolAskOps, List.append_assoc, List.cons_append, List.nil_append]
  rfl

theorem createWitnessR_value (H : Oracle F) (enc : Enc G1 G2 GT) {l1 l2 lT : Nat} (hl : EncLengths enc l1 l2 lT)
    (u : User F G1 G2) (params : AccParams G1 G2) (srv : Server F G1 G2) (key k : F) :
    (u.createWitnessR H enc params srv key k).value = u.createWitness H enc params srv key k := by
  unfold RecM.value
  rw [createWitnessR_ask H enc hl]
  have e : u.createWitness H enc params srv key k = (do
        match ← srv.witness H enc params u.id (enrolChallenge H enc (key • params.k1) (k • params.k1))
          (k - enrolChallenge H enc (key • params.k1) (k • params.k1) * key) (key • params.k1) with
        | some (witness, signature) =>
          let acc ← srv.getAccumulator
          pure { u with
            witness := some { secretKey := key, witness := witness, signature := signature }
            epoch := srv.getEpoch
            accumulator := acc }
        | none => pure u : Rust (User F G1 G2)) := rfl
  rw [e]
  rcases witnessR_value H enc hl srv params u.id (enrolChallenge H enc (key • params.k1) (k • params.k1))
      (k - enrolChallenge H enc (key • params.k1) (k • params.k1) * key) (key • params.k1) with ⟨a, o, h1, h2⟩ | ⟨e', h1, h2⟩
  · rw [h2.bind_eq, h1]
    cases a with
    | none => rfl
    | some p =>
      obtain ⟨C, R⟩ := p
      cases hg : srv.getAccumulator <;> rfl
  · rw [h1]
    generalize srv.witnessR H enc params u.id _ _ _ = x at h2
    show Except.map Prod.fst ((StateT.bind x _) _) = _
    simp only [StateT.bind, h2]
    rfl

/-! ## C107 -/

/-- **C107** (the records are records of the programs): the recording programs return what the programs return, and
panic when they panic. -/
theorem C107_same [DecidableEq GT] (E : Pairing F G1 G2 GT) (H : Oracle F) (enc : Enc G1 G2 GT) {l1 l2 lT : Nat}
    (hl : EncLengths enc l1 l2 lT) (params : AccParams G1 G2) (pk : PublicKeys G2) :
    (∀ w y V eph rand, (makeProofR E H enc w y V params pk eph rand).value
      = .ok (makeProof E H enc w y V params pk eph rand)) ∧
    (∀ w y V, (credVerifyR E V pk params y w).value = .ok (credVerify E V pk params y w)) ∧
    (∀ p V eph, (checkProofR E H enc p params pk V eph).value = .ok (checkProof E H enc p params pk V eph)) ∧
    (∀ (srv : Server F G1 G2) y ch z P, (srv.witnessR H enc params y ch z P).value
      = srv.witness H enc params y ch z P) ∧
    (∀ (u : User F G1 G2) (srv : Server F G1 G2) key k, (u.createWitnessR H enc params srv key k).value
      = u.createWitness H enc params srv key k) ∧
    (∀ (pp : ProofParams G1) (q : G2),
      (∀ y C r, (MemCommitting.newR E y C pp q r).value = .ok (MemCommitting.new E y C pp q r)) ∧
      (∀ (m : MemCommitting F G1 GT) ch, (m.genProofR ch).value = .ok (m.genProof ch)) ∧
      (∀ (p : MemProof F G1) V ch, (p.finalizeR E V pp q ch).value = .ok (p.finalize E V pp q ch)) ∧
      (∀ y w bl r, (NonCommitting.newR E y w pp q bl r).value = NonCommitting.new E y w pp q bl r) ∧
      (∀ (m : NonCommitting F G1 GT) ch, (m.genProofR ch).value = .ok (m.genProof ch)) ∧
      (∀ (p : NonProof F G1) V ch, (p.finalizeR E V pp q ch).value = .ok (p.finalize E V pp q ch))) := by
  refine ⟨fun w y V eph rand => (makeProofR_runs E H enc hl w y V params pk eph rand).value,
    fun w y V => (credVerifyR_runs E V pk params y w).value,
    fun p V eph => (checkProofR_runs E H enc hl p params pk V eph).value, fun srv y ch z P => ?_,
    fun u srv key k => createWitnessR_value H enc hl u params srv key k, fun pp q =>
    ⟨fun y C r => (memNewR_runs E y C pp q r).value, fun m ch => (memGenR_runs m ch).value,
      fun p V ch => (memFinalR_runs E p V pp q ch).value, fun y w bl r => nonNewR_value E y w pp q bl r,
      fun m ch => (nonGenR_runs m ch).value, fun p V ch => (nonFinalR_runs E p V pp q ch).value⟩⟩
  rcases witnessR_value H enc hl srv params y ch z P with ⟨a, o, h1, h2⟩ | ⟨e, h1, h2⟩
  · rw [h1, h2.value]
  · rw [h1]; exact RecM.value_error (h2 [])

/-- **C107** (showing a credential). Whatever the credential, the identifier, the accumulator, the keys and the random
values are: showing a valid credential performs the operations of `showOps`, in this order; with an invalid one the call
stops after both pairing checks, whichever of them fails. -/
theorem C107_show [DecidableEq GT] (E : Pairing F G1 G2 GT) (H : Oracle F) (enc : Enc G1 G2 GT) {l1 l2 lT : Nat}
    (hl : EncLengths enc l1 l2 lT) (w : Witness F G1) (y : F) (V : G1) (params : AccParams G1 G2)
    (pk : PublicKeys G2) (eph : Bytes) (rand : ProofRand F) :
    (credVerifyR E V pk params y w).trace = .ok CredOp.verifyOps ∧
    (credVerify E V pk params y w = .ok () →
      (makeProofR E H enc w y V params pk eph rand).trace = .ok (CredOp.showOps l1 l2 lT eph.length)) ∧
    (credVerify E V pk params y w ≠ .ok () →
      (makeProofR E H enc w y V params pk eph rand).trace = .ok CredOp.verifyOps) := by
  have h := (makeProofR_runs E H enc hl w y V params pk eph rand).trace
  refine ⟨(credVerifyR_runs E V pk params y w).trace, fun hv => ?_, fun hv => ?_⟩
  · rw [h, if_pos hv]
  · rw [h, if_neg hv]

/-- **C107** (two users). Two presentations of valid credentials, of any two users, to any two verifiers, at any two
accumulators and under any keys and hash functions, cannot be told apart by the operations they perform. -/
theorem C107_alike [DecidableEq GT] (E : Pairing F G1 G2 GT) (H H' : Oracle F) (enc : Enc G1 G2 GT) {l1 l2 lT : Nat}
    (hl : EncLengths enc l1 l2 lT) (w w' : Witness F G1) (y y' : F) (V V' : G1) (params params' : AccParams G1 G2)
    (pk pk' : PublicKeys G2) (eph eph' : Bytes) (he : eph.length = eph'.length) (rand rand' : ProofRand F)
    (p p' : CredProof F G1) (h : makeProof E H enc w y V params pk eph rand = some p)
    (h' : makeProof E H' enc w' y' V' params' pk' eph' rand' = some p') :
    (makeProofR E H enc w y V params pk eph rand).trace = (makeProofR E H' enc w' y' V' params' pk' eph' rand').trace := by
  have ok : ∀ {H w y V params pk eph rand p}, makeProof E H enc w y V params pk eph rand = some p →
      credVerify E V pk params y w = .ok () := by
    intro H w y V params pk eph rand p h
    unfold makeProof at h
    cases hv : credVerify E V pk params y w with
    | error e => rw [hv] at h; exact absurd h (by simp)
    | ok u => rfl
  rw [(C107_show E H enc hl w y V params pk eph rand).2.1 (ok h),
    (C107_show E H' enc hl w' y' V' params' pk' eph' rand').2.1 (ok h'), he]

/-- **C107** (checking a presentation). The operations are the same for every proof, accepted or not. -/
theorem C107_check (E : Pairing F G1 G2 GT) (H : Oracle F) (enc : Enc G1 G2 GT) {l1 l2 lT : Nat}
    (hl : EncLengths enc l1 l2 lT) (p : CredProof F G1) (params : AccParams G1 G2)
    (pk : PublicKeys G2) (V : G1) (eph : Bytes) :
    (checkProofR E H enc p params pk V eph).trace = .ok (CredOp.checkOps l1 l2 lT eph.length) :=
  (checkProofR_runs E H enc hl p params pk V eph).trace

/-- **C107** (enrolment, the server). Nothing is computed for an identifier that is not a member; for a member the proof
is checked, and only an accepted proof is followed by the signature. -/
theorem C107_enrol (H : Oracle F) (enc : Enc G1 G2 GT) {l1 l2 lT : Nat} (hl : EncLengths enc l1 l2 lT)
    (srv : Server F G1 G2) (params : AccParams G1 G2) (y ch z : F) (pk : G1) :
    (y ∉ srv.ids → (srv.witnessR H enc params y ch z pk).trace = .ok []) ∧
    (y ∈ srv.ids → srv.witness H enc params y ch z pk = .ok none →
      (srv.witnessR H enc params y ch z pk).trace = .ok (CredOp.enrolCheckOps l1)) ∧
    (∀ r, srv.witness H enc params y ch z pk = .ok (some r) →
      (srv.witnessR H enc params y ch z pk).trace = .ok (CredOp.enrolCheckOps l1 ++ CredOp.enrolSignOps)) := by
  refine ⟨fun hy => (witnessR_absent H enc srv params y ch z pk hy).2.trace, fun hy hn => ?_, fun r hr => ?_⟩
  · by_cases hc : enrolChallenge H enc pk (z • params.k1 + ch • pk) = ch
    · exfalso
      by_cases hs : y + srv.signSecretKey = 0
      · have := ((C21_witness H enc params srv y ch z pk).2.2 hy hc).2 hs
        rw [hn] at this; exact absurd this (by simp)
      · obtain ⟨C, R, h, -, -⟩ := ((C21_witness H enc params srv y ch z pk).2.2 hy hc).1 hs
        rw [hn] at h; exact absurd h (by simp)
    · exact (witnessR_rejected H enc hl srv params y ch z pk hy hc).2.trace
  · have hy : y ∈ srv.ids := by
      by_contra hy
      have := (C21_witness H enc params srv y ch z pk).1 hy
      rw [hr] at this; exact absurd this (by simp)
    have hc : enrolChallenge H enc pk (z • params.k1 + ch • pk) = ch := by
      by_contra hc
      have := (C21_witness H enc params srv y ch z pk).2.1 hc
      rw [hr] at this; exact absurd this (by simp)
    have hs : y + srv.signSecretKey ≠ 0 := by
      intro hs
      have := ((C21_witness H enc params srv y ch z pk).2.2 hy hc).2 hs
      rw [hr] at this; exact absurd this (by simp)
    obtain ⟨r, -, h⟩ := witnessR_accepted H enc hl srv params y ch z pk hy hc hs
    exact h.trace

/-- **C107** (enrolment, both sides). What `create_witness` performs depends only on whether the server has the user as a
member. -/
theorem C107_create_witness (H : Oracle F) (enc : Enc G1 G2 GT) {l1 l2 lT : Nat} (hl : EncLengths enc l1 l2 lT)
    (u u' : User F G1 G2) (params : AccParams G1 G2) (srv : Server F G1 G2) (key k : F)
    (h : u.createWitness H enc params srv key k = .ok u') :
    (u.createWitnessR H enc params srv key k).trace = .ok (if u.id ∈ srv.ids
      then CredOp.enrolAskOps l1 ++ CredOp.enrolCheckOps l1 ++ CredOp.enrolSignOps else CredOp.enrolAskOps l1) := by
  have hv := createWitnessR_value H enc hl u params srv key k
  rw [h] at hv
  unfold RecM.value at hv
  unfold RecM.trace
  rw [createWitnessR_ask H enc hl] at hv ⊢
  generalize hc : enrolChallenge H enc (key • params.k1) (k • params.k1) = ch at hv ⊢
  have hcom : (k - ch * key) • params.k1 + ch • key • params.k1 = k • params.k1 := by module
  have hc' : enrolChallenge H enc (key • params.k1) ((k - ch * key) • params.k1 + ch • key • params.k1) = ch := by
    rw [hcom]; exact hc
  by_cases hy : u.id ∈ srv.ids
  · rw [if_pos hy]
    by_cases hs : u.id + srv.signSecretKey = 0
    · exfalso
      have := witnessR_panic H enc srv params u.id ch (k - ch * key) (key • params.k1) hy hc' hs
      generalize srv.witnessR H enc params u.id ch (k - ch * key) (key • params.k1) = x at hv this
      revert hv
      show Except.map Prod.fst ((StateT.bind x _) _) = _ → False
      simp only [StateT.bind, this]
      intro hv
      exact absurd hv (by intro h; cases h)
    · obtain ⟨r, -, hr⟩ := witnessR_accepted H enc hl srv params u.id ch (k - ch * key) (key • params.k1) hy hc' hs
      rw [hr.bind_eq] at hv ⊢
      obtain ⟨C, R⟩ := r
      cases hg : srv.getAccumulator with
      | error e =>
        exfalso
        rw [hg] at hv
        exact absurd hv (by intro h; cases h)
      | ok V =>
        show Except.ok _ = Except.ok _
        simp
  · rw [if_neg hy]
    obtain ⟨-, hr⟩ := witnessR_absent H enc srv params u.id ch (k - ch * key) (key • params.k1) hy
    rw [hr.bind_eq]
    show Except.ok _ = Except.ok _
    simp

/-- **C107** (the proofs of Vitto and Biryukov). Committing, answering and checking perform the same operations whatever
the values are; only drawing the blinding factor depends on whether it is given. -/
theorem C107_vb (E : Pairing F G1 G2 GT) (pp : ProofParams G1) (q : G2) :
    (∀ m C r, (MemCommitting.newR E (.hidden m) C pp q r).trace = .ok (CredOp.memCommitOps true)) ∧
    (∀ m b C r, (MemCommitting.newR E (.sharedBlinding m b) C pp q r).trace = .ok (CredOp.memCommitOps false)) ∧
    (∀ (m : MemCommitting F G1 GT) ch, (m.genProofR ch).trace = .ok (List.replicate 5 .fmul)) ∧
    (∀ (p : MemProof F G1) V ch, (p.finalizeR E V pp q ch).trace = .ok CredOp.memFinalOps) ∧
    (∀ y (w : NonMembershipWitness F G1) bl r, w.d ≠ 0 →
      (NonCommitting.newR E y w pp q bl r).trace = .ok (CredOp.nonCommitOps bl.isNone)) ∧
    (∀ (m : NonCommitting F G1 GT) ch, (m.genProofR ch).trace = .ok (List.replicate 9 .fmul)) ∧
    (∀ (p : NonProof F G1) V ch, (p.finalizeR E V pp q ch).trace = .ok CredOp.nonFinalOps) := by
  refine ⟨fun m C r => (memNewR_runs E (.hidden m) C pp q r).trace,
    fun m b C r => (memNewR_runs E (.sharedBlinding m b) C pp q r).trace, fun m ch => (memGenR_runs m ch).trace,
    fun p V ch => (memFinalR_runs E p V pp q ch).trace, fun y w bl r hd => ?_, fun m ch => (nonGenR_runs m ch).trace,
    fun p V ch => (nonFinalR_runs E p V pp q ch).trace⟩
  obtain ⟨m, -, h⟩ := nonNewR_runs E y w hd pp q bl r
  exact h.trace

/-- **C107** (how many): showing a valid credential costs 17 multiplications in `G1`, 5 in `G2`, 4 pairings and 2 double
pairings; checking costs 19 multiplications in `G1`, none in `G2` and 4 pairings. -/
theorem C107_counts (l1 l2 lT le : Nat) :
    ((CredOp.showOps l1 l2 lT le).count .mul1 = 17 ∧ (CredOp.showOps l1 l2 lT le).count .mul2 = 5 ∧
      (CredOp.showOps l1 l2 lT le).count .pairing = 4 ∧ (CredOp.showOps l1 l2 lT le).count .pairing2 = 2 ∧
      (CredOp.showOps l1 l2 lT le).count .draw = 11 ∧ (CredOp.showOps l1 l2 lT le).count .challenge = 1) ∧
    ((CredOp.checkOps l1 l2 lT le).count .mul1 = 19 ∧ (CredOp.checkOps l1 l2 lT le).count .mul2 = 0 ∧
      (CredOp.checkOps l1 l2 lT le).count .pairing = 4 ∧ (CredOp.checkOps l1 l2 lT le).count .pairing2 = 0 ∧
      (CredOp.checkOps l1 l2 lT le).count .draw = 0 ∧ (CredOp.checkOps l1 l2 lT le).count .challenge = 1) := by
  refine ⟨⟨rfl, rfl, rfl, rfl, rfl, rfl⟩, rfl, rfl, rfl, rfl, rfl, rfl⟩

end

/-! ## concrete cases -/

local instance traceCred_prime7 : Fact (Nat.Prime 7) := ⟨by decide⟩

/-- one byte per group element -/
def tcEnc : Enc (ZMod 7) (ZMod 7) (ZMod 7) :=
  ⟨fun a => [UInt8.ofNat a.val], fun a => [UInt8.ofNat a.val], fun a => [UInt8.ofNat a.val]⟩

theorem tcEnc_lengths : EncLengths tcEnc 1 1 1 := ⟨fun _ => rfl, fun _ => rfl, fun _ => rfl⟩

/-- parameters -/
def tcParams : AccParams (ZMod 7) (ZMod 7) := ⟨1, 1, 2, 3, 1, 5, 4, 6⟩

/-- a server with the member 2 -/
def tcServer : Server (ZMod 7) (ZMod 7) (ZMod 7) := ⟨[1], 1, ⟨1, 3⟩, 3, [2], [(2, 5)], []⟩

/-- two valid credentials of different users, at different accumulators, and an invalid one -/
example : credVerify (Pairing.field (ZMod 7)) (1 : ZMod 7) ⟨1, 3⟩ tcParams 2 ⟨1, 5, 1⟩ = .ok () ∧
    credVerify (Pairing.field (ZMod 7)) (6 : ZMod 7) ⟨1, 3⟩ tcParams 1 ⟨0, 3, 4⟩ = .ok () ∧
    credVerify (Pairing.field (ZMod 7)) (1 : ZMod 7) ⟨1, 3⟩ tcParams 2 ⟨1, 4, 1⟩ ≠ .ok () := by
  refine ⟨?_, ?_, ?_⟩ <;> decide

example (H H' : Oracle (ZMod 7)) (r r' : ProofRand (ZMod 7)) :
    (makeProofR (Pairing.field (ZMod 7)) H tcEnc ⟨1, 5, 1⟩ 2 1 tcParams ⟨1, 3⟩ [9, 8] r).trace
      = (makeProofR (Pairing.field (ZMod 7)) H' tcEnc ⟨0, 3, 4⟩ 1 6 tcParams ⟨1, 3⟩ [7, 7] r').trace := by
  have h : ∃ p, makeProof (Pairing.field (ZMod 7)) H tcEnc ⟨1, 5, 1⟩ 2 1 tcParams ⟨1, 3⟩ [9, 8] r = some p := by
    unfold makeProof
    rw [show credVerify (Pairing.field (ZMod 7)) (1 : ZMod 7) ⟨1, 3⟩ tcParams 2 ⟨1, 5, 1⟩ = .ok () by decide]
    exact ⟨_, rfl⟩
  have h' : ∃ p, makeProof (Pairing.field (ZMod 7)) H' tcEnc ⟨0, 3, 4⟩ 1 6 tcParams ⟨1, 3⟩ [7, 7] r' = some p := by
    unfold makeProof
    rw [show credVerify (Pairing.field (ZMod 7)) (6 : ZMod 7) ⟨1, 3⟩ tcParams 1 ⟨0, 3, 4⟩ = .ok () by decide]
    exact ⟨_, rfl⟩
  obtain ⟨p, hp⟩ := h
  obtain ⟨p', hp'⟩ := h'
  exact C107_alike (Pairing.field (ZMod 7)) H H' tcEnc tcEnc_lengths ⟨1, 5, 1⟩ ⟨0, 3, 4⟩ 2 1 1 6 tcParams tcParams ⟨1, 3⟩
    ⟨1, 3⟩ [9, 8] [7, 7] rfl r r' p p' hp hp'

example (H : Oracle (ZMod 7)) (r : ProofRand (ZMod 7)) :
    (makeProofR (Pairing.field (ZMod 7)) H tcEnc ⟨1, 4, 1⟩ 2 1 tcParams ⟨1, 3⟩ [9, 8] r).trace = .ok CredOp.verifyOps :=
  (C107_show _ _ _ tcEnc_lengths _ _ _ _ _ _ _).2.2 (by decide)

/-- a member enrols, somebody else does not -/
example (H : Oracle (ZMod 7)) : (∃ u', (⟨2, none, 1, ⟨1, 3⟩, 1⟩ : User (ZMod 7) (ZMod 7) (ZMod 7)).createWitness H tcEnc
      tcParams tcServer 1 6 = .ok u' ∧ u'.witness.isSome) ∧
    (⟨3, none, 1, ⟨1, 3⟩, 1⟩ : User (ZMod 7) (ZMod 7) (ZMod 7)).createWitness H tcEnc
      tcParams tcServer 1 6 = .ok ⟨3, none, 1, ⟨1, 3⟩, 1⟩ := by
  constructor
  · obtain ⟨C, R, -, -, h⟩ := C55_complete H tcEnc tcParams tcServer 1 rfl
      (⟨2, none, 1, ⟨1, 3⟩, 1⟩ : User (ZMod 7) (ZMod 7) (ZMod 7)) (by decide) (by decide) 1 6
    exact ⟨_, h, rfl⟩
  · rfl

example (H : Oracle (ZMod 7)) :
    ((⟨3, none, 1, ⟨1, 3⟩, 1⟩ : User (ZMod 7) (ZMod 7) (ZMod 7)).createWitnessR H tcEnc tcParams tcServer 1 6).trace
      = .ok (CredOp.enrolAskOps 1) := by
  rw [C107_create_witness H tcEnc tcEnc_lengths _ ⟨3, none, 1, ⟨1, 3⟩, 1⟩ tcParams tcServer 1 6 rfl]
  rfl

/-- an accepted and a rejected enrolment proof of the member -/
example : (tcServer.witnessR (fun _ _ => 5) tcEnc tcParams 2 5 4 1).trace
      = .ok (CredOp.enrolCheckOps 1 ++ CredOp.enrolSignOps) ∧
    (tcServer.witnessR (fun _ _ => 5) tcEnc tcParams 2 6 4 1).trace = .ok (CredOp.enrolCheckOps 1) := by
  have hy : (2 : ZMod 7) ∈ tcServer.ids := by decide
  obtain ⟨r, h, -⟩ := witnessR_accepted (fun _ _ => (5 : ZMod 7)) tcEnc tcEnc_lengths tcServer tcParams 2 5 4 1 hy rfl
    (by decide)
  exact ⟨(C107_enrol _ _ tcEnc_lengths _ _ _ _ _ _).2.2 r h, (C107_enrol _ _ tcEnc_lengths _ _ _ _ _ _).2.1 hy rfl⟩

example (H : Oracle (ZMod 7)) := C107_same (Pairing.field (ZMod 7)) H tcEnc tcEnc_lengths tcParams ⟨1, 3⟩
example (H : Oracle (ZMod 7)) := C107_check (Pairing.field (ZMod 7)) H tcEnc tcEnc_lengths ⟨1, 2, 3, 4, 5, 6, 0, 1, 2, 3, 4, 5⟩
  tcParams ⟨1, 3⟩ 1 [9, 8]
example := C107_vb (Pairing.field (ZMod 7)) ⟨1, 2, 3, 4⟩ 5
example (r : NonRand (ZMod 7)) : (NonCommitting.newR (Pairing.field (ZMod 7)) 3 ⟨4, 2⟩ ⟨1, 2, 3, 4⟩ 5 none r).trace
    = .ok (CredOp.nonCommitOps true) := (C107_vb (Pairing.field (ZMod 7)) ⟨1, 2, 3, 4⟩ 5).2.2.2.2.1 3 ⟨4, 2⟩ none r (by decide)

end Allo
