import Verif.Model.Key

/-!
# Model of `src/accumulator/witness.rs`

A method `f(&mut self, ..)` becomes a function returning the new value of `self`.
`MembershipWitness` is its point of `G1`.
-/

namespace Allo

section
variable {F G1 G2 GT : Type} [Field F] [DecidableEq F] [AddCommGroup G1] [Module F G1]
  [AddCommGroup G2] [Module F G2] [AddCommGroup GT] [Module F GT]

/-- `MembershipWitness::new`, src/accumulator/witness.rs:59-61. -/
def mwNew (value : F) (accumulator : G1) (secretKey : F) : Rust (Option G1) := do
  let c ← accRemove accumulator secretKey value
  pure (some c)

/-- `MembershipWitness::verify`, src/accumulator/witness.rs:65-84. The product of pairings
`multi_miller_loop(..).final_exponentiation()` is the sum of the two pairings in `Gt`. -/
def mwVerify [DecidableEq GT] (E : Pairing F G1 G2 GT) (self : G1) (y : F) (pubkey : G2)
    (accumulator : G1) : Bool :=
  let p := y • E.g2
  let p := p + pubkey
  let g2 := E.g2
  decide (E.e self p + E.e accumulator (-g2) = 0)

/-- `Delta`, src/accumulator/witness.rs:418-422. -/
structure Delta (F G1 : Type) where
  d : F
  p : G1

/-- `MembershipWitness::apply_delta_assign` (and `apply_delta`), src/accumulator/witness.rs:87-99. -/
def mwApplyDelta (self : G1) (delta : Delta F G1) : G1 :=
  let self := delta.d • self
  self + delta.p

/-- The deletion loop of `MembershipWitness::update_assign`, src/accumulator/witness.rs:125-136.
The Boolean says whether the loop ran to its end (`false`: it hit the `return`). -/
def mwUpdateDels (y : F) (newAcc : G1) : List F → G1 → G1 × Bool
  | [], c => (c, true)
  | d :: ds, c =>
    match invert? (d - y) with
    | none => (c, false)
    | some t => mwUpdateDels y newAcc ds (t • (c - newAcc))

/-- The addition loop of `MembershipWitness::update_assign`, src/accumulator/witness.rs:138-143. -/
def mwUpdateAdds (y : F) (oldAcc : G1) (additions : List F) (c : G1) : G1 :=
  additions.foldl (fun c a => (a - y) • c + oldAcc) c

/-- `MembershipWitness::update_assign` (and `update`), src/accumulator/witness.rs:102-144. -/
def mwUpdate (self : G1) (y : F) (oldAcc newAcc : G1) (additions deletions : List F) : G1 :=
  match mwUpdateDels y newAcc deletions self with
  | (c, false) => c
  | (c, true) => mwUpdateAdds y oldAcc additions c

/-- `evaluate_delta`, src/accumulator/witness.rs:492-527. -/
def evaluateDelta (y : F) (additions deletions : List F) (coefficients : List G1) :
    Except String (Delta F G1) :=
  let dD := dad deletions y
  match invert? dD with
  | none => .error "element was removed"
  | some dD =>
    let dA := dad additions y
    let dA := dA * dD
    match pg1Eval coefficients y with
    | some v => .ok { d := dA, p := dD • v }
    | none => .error "polynomial is empty"

/-- `evaluate_deltas`, src/accumulator/witness.rs:425-489. -/
def evaluateDeltas (y : F) (deltas : List (List F × List F × List G1)) :
    Except String (Delta F G1) :=
  -- first loop (lines 443-452): the vectors aa, dd and the running products
  let aa := deltas.map (fun t => dad t.1 y)
  let dd := deltas.map (fun t => dad t.2.1 y)
  let accA := aa.foldl (fun a t => a * t) 1
  let accD := dd.foldl (fun a t => a * t) 1
  match invert? accD with
  | none => .error "element was removed"
  | some accD =>
    -- second loop (lines 460-478)
    let poly := (List.range deltas.length).foldl (fun poly i =>
      let ddh := (dd.take i).foldl (fun a h => a * h) 1
      let dak := ((aa.take deltas.length).drop (i + 1)).foldl (fun a k => a * k) 1
      let dak := dak * ddh
      let pp := pg1Scale (deltas.getD i ([], [], [])).2.2 dak
      pg1Add poly pp) []
    let accA := accA * accD
    match pg1Eval poly y with
    | some v => .ok { d := accA, p := accD • v }
    | none => .error "polynomial is empty"

/-- `MembershipWitness::batch_update_assign` (and `batch_update`), src/accumulator/witness.rs:147-170. -/
def mwBatchUpdate (self : G1) (y : F) (additions deletions : List F) (coefficients : List G1) : G1 :=
  match evaluateDelta y additions deletions coefficients with
  | .ok delta => mwApplyDelta self delta
  | .error _ => self

/-- `MembershipWitness::multi_batch_update_assign` (and `multi_batch_update`),
src/accumulator/witness.rs:173-194. -/
def mwMultiBatchUpdate (self : G1) (y : F) (deltas : List (List F × List F × List G1)) : G1 :=
  match evaluateDeltas y deltas with
  | .ok delta => mwApplyDelta self delta
  | .error _ => self

/-- `NonMembershipWitness`, src/accumulator/witness.rs:208-213. -/
@[ext] structure NonMembershipWitness (F G1 : Type) where
  c : G1
  d : F

/-- `NonMembershipWitness::new`, src/accumulator/witness.rs:237-259. -/
def nmwNew (E : Pairing F G1 G2 GT) (value : F) (elements : List F) (secretKey : F) :
    Rust (Option (NonMembershipWitness F G1)) :=
  if elements.contains value then pure none
  else do
    let (fvAlpha, d) := (elements.map (fun e => (e + secretKey, e - value))).foldl
      (fun a y => (a.1 * y.1, a.2 * y.2)) ((1 : F), (1 : F))
    let denom := value
    let denom := denom + secretKey
    let fvAlpha := fvAlpha - d
    let i ← inv! denom
    let fvAlpha := fvAlpha * i
    let c := fvAlpha • E.g1
    pure (some { c := c, d := d })

/-- `NonMembershipWitness::verify`, src/accumulator/witness.rs:263-289. -/
def nmwVerify [DecidableEq GT] (E : Pairing F G1 G2 GT) (self : NonMembershipWitness F G1) (y : F)
    (pubkey : G2) (accumulator : G1) : Bool :=
  let p := y • E.g2
  let p := p + pubkey
  let pd := self.d • E.g1
  let g2 := -E.g2
  decide (E.e self.c p + E.e pd E.g2 + E.e accumulator g2 = 0)

/-- `NonMembershipWitness::apply_delta_assign` (and `apply_delta`), src/accumulator/witness.rs:292-306. -/
def nmwApplyDelta (self : NonMembershipWitness F G1) (delta : Delta F G1) :
    NonMembershipWitness F G1 :=
  { c := delta.d • self.c + delta.p, d := self.d * delta.d }

/-- Deletion loop of `NonMembershipWitness::update_assign`, src/accumulator/witness.rs:333-346. -/
def nmwUpdateDels (y : F) (newAcc : G1) :
    List F → NonMembershipWitness F G1 → NonMembershipWitness F G1 × Bool
  | [], w => (w, true)
  | d :: ds, w =>
    match invert? (d - y) with
    | none => (w, false)
    | some t => nmwUpdateDels y newAcc ds { c := t • (w.c - newAcc), d := w.d * t }

/-- Addition loop of `NonMembershipWitness::update_assign`, src/accumulator/witness.rs:349-355. -/
def nmwUpdateAdds (y : F) (oldAcc : G1) (additions : List F) (w : NonMembershipWitness F G1) :
    NonMembershipWitness F G1 :=
  additions.foldl (fun w a => { c := (a - y) • w.c + oldAcc, d := w.d * (a - y) }) w

/-- `NonMembershipWitness::update_assign` (and `update`), src/accumulator/witness.rs:309-356. -/
def nmwUpdate (self : NonMembershipWitness F G1) (y : F) (oldAcc newAcc : G1)
    (additions deletions : List F) : NonMembershipWitness F G1 :=
  match nmwUpdateDels y newAcc deletions self with
  | (w, false) => w
  | (w, true) => nmwUpdateAdds y oldAcc additions w

/-- `NonMembershipWitness::batch_update_assign` (and `batch_update`), src/accumulator/witness.rs:359-382. -/
def nmwBatchUpdate (self : NonMembershipWitness F G1) (y : F) (additions deletions : List F)
    (coefficients : List G1) : NonMembershipWitness F G1 :=
  match evaluateDelta y additions deletions coefficients with
  | .ok delta => nmwApplyDelta self delta
  | .error _ => self

/-- `NonMembershipWitness::multi_batch_update_assign` (and `multi_batch_update`),
src/accumulator/witness.rs:385-406. -/
def nmwMultiBatchUpdate (self : NonMembershipWitness F G1) (y : F)
    (deltas : List (List F × List F × List G1)) : NonMembershipWitness F G1 :=
  match evaluateDeltas y deltas with
  | .ok delta => nmwApplyDelta self delta
  | .error _ => self

end
end Allo
