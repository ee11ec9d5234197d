import Verif.Model.AccUtils

/-!
# Model of `src/accumulator/key.rs` and `src/accumulator/acc.rs` (algebraic part)

`SecretKey`, `Element` are scalars `F`; `PublicKey` is a point of `G2`; `Accumulator`,
`Coefficient`, `MembershipWitness` are points of `G1` (the Rust newtypes add no state).
-/

namespace Allo

section key
variable {F : Type} [Field F] [DecidableEq F]

/-- `SecretKey::batch_additions`, src/accumulator/key.rs:49-56. -/
def batchAdditions (sk : F) (additions : List F) : F :=
  (additions.map (fun v => v + sk)).foldl (fun a y => a * y) 1

/-- `SecretKey::batch_deletions`, src/accumulator/key.rs:59-61. -/
def batchDeletions (sk : F) (deletions : List F) : Rust F :=
  inv! (batchAdditions sk deletions)

/-- `poly = [1]; for j in js { poly *= &[j, -1] }`, the polynomial built at
src/accumulator/key.rs:76-81 and 98-103. -/
def linProd (js : List F) : List F :=
  js.foldl (fun poly j => polyMul poly [j, -1]) [1]

/-- The `v_d` loop of `create_coefficients`, src/accumulator/key.rs:72-84. -/
def vdLoop (sk : F) (deletions : List F) : Rust (List F) :=
  (List.range deletions.length).foldlM (fun vd s => do
    let c ← batchDeletions sk (deletions.take (s + 1))
    let poly := polyScale (linProd (deletions.take s)) c
    pure (polyAdd vd poly)) []

/-- The `v_a` loop of `create_coefficients`, src/accumulator/key.rs:90-106. -/
def vaLoop (sk : F) (additions : List F) : List F :=
  (List.range additions.length).foldl (fun va s =>
    let c := if s = 0 then 1 else batchAdditions sk (additions.take s)
    let poly := polyScale (linProd (additions.drop (s + 1))) c
    polyAdd va poly) []

/-- `SecretKey::create_coefficients`, src/accumulator/key.rs:64-111. -/
def createCoefficients (sk : F) (additions deletions : List F) : Rust (List F) := do
  let vd ← vdLoop sk deletions
  let vd := polyScale vd (batchAdditions sk additions)
  let va := vaLoop sk additions
  pure (polySub va vd)

end key

section acc
variable {F G1 G2 GT : Type} [Field F] [DecidableEq F] [AddCommGroup G1] [Module F G1]
  [AddCommGroup G2] [Module F G2] [AddCommGroup GT] [Module F GT]

/-- `PublicKey::from(&SecretKey)`, src/accumulator/key.rs:148-152. -/
def publicKey (E : Pairing F G1 G2 GT) (sk : F) : G2 := sk • E.g2

/-- `Accumulator::default`, src/accumulator/acc.rs:142-146. -/
def accDefault (E : Pairing F G1 G2 GT) : G1 := E.g1

/-- `Accumulator::with_elements`, src/accumulator/acc.rs:161-164. -/
def accWithElements (E : Pairing F G1 G2 GT) (key : F) (m : List F) : G1 :=
  batchAdditions key m • E.g1

/-- `Accumulator::add_elements`, src/accumulator/acc.rs:167-170. -/
def accAddElements (V : G1) (key : F) (m : List F) : G1 := batchAdditions key m • V

/-- `Accumulator::add_elements_assign`, src/accumulator/acc.rs:173-175 (the new value of `self`). -/
def accAddElementsAssign (self : G1) (key : F) (m : List F) : G1 := batchAdditions key m • self

/-- `Accumulator::add`, src/accumulator/acc.rs:178-180. -/
def accAdd (V : G1) (key value : F) : G1 := (key + value) • V

/-- `Accumulator::add_assign`, src/accumulator/acc.rs:183-185 (the new value of `self`). -/
def accAddAssign (self : G1) (key value : F) : G1 := (key + value) • self

/-- `Accumulator::remove`, src/accumulator/acc.rs:189-192. -/
def accRemove (V : G1) (key value : F) : Rust G1 := do
  let v ← inv! (key + value)
  pure (v • V)

/-- `Accumulator::remove_assign`, src/accumulator/acc.rs:195-198 (the new value of `self`). -/
def accRemoveAssign (self : G1) (key value : F) : Rust G1 := do
  let v ← inv! (key + value)
  pure (v • self)

/-- `Accumulator::remove_elements`, src/accumulator/acc.rs:202-205. -/
def accRemoveElements (V : G1) (key : F) (deletions : List F) : Rust G1 := do
  let v ← batchDeletions key deletions
  pure (v • V)

/-- `Accumulator::remove_elements_assign`, src/accumulator/acc.rs:208-210 (the new value of `self`). -/
def accRemoveElementsAssign (self : G1) (key : F) (deletions : List F) : Rust G1 := do
  let v ← batchDeletions key deletions
  pure (v • self)

/-- `Accumulator::update_assign`, src/accumulator/acc.rs:227-244: the new value of `self`
and the returned coefficients (computed from the old value of `self`). -/
def accUpdateAssign (self : G1) (key : F) (additions deletions : List F) :
    Rust (G1 × List G1) := do
  let a := batchAdditions key additions
  let d ← batchDeletions key deletions
  let a := a * d
  let cs ← createCoefficients key additions deletions
  let coefficients := cs.map (fun c => c • self)
  pure (a • self, coefficients)

/-- `Accumulator::update`, src/accumulator/acc.rs:214-223. -/
def accUpdate (V : G1) (key : F) (additions deletions : List F) : Rust (G1 × List G1) :=
  accUpdateAssign V key additions deletions

end acc
end Allo
