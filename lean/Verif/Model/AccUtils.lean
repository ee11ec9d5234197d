import Verif.Model.Prelude

/-!
# Model of `src/accumulator/utils.rs`

`generate_fr` and `hash_to_g1` are modelled in `Verif.Model.Hashing`.
Vectors are lists; `with_capacity` is the empty list (capacity has no observable effect).
-/

namespace Allo

section scalars
variable {F : Type} [Field F] [DecidableEq F]

/-- `dad`, src/accumulator/utils.rs:43-52. -/
def dad (values : List F) (y : F) : F :=
  match values with
  | [v] => v - y
  | _ => (values.map (fun v => v - y)).foldl (fun a y => a * y) 1

/-- `Polynomial::eval`, src/accumulator/utils.rs:131-141 (Horner). `self.0.len() - 1` underflows
on the empty polynomial (in release builds the following index panics instead). -/
def polyEval (p : List F) (value : F) : Rust F := do
  let degree ← usub p.length 1
  let r ← idx p degree
  (List.range degree).reverse.foldlM (fun r i => do
    let a ← idx p i
    pure (r * value + a)) r

/-- `Polynomial::degree`, src/accumulator/utils.rs:144-146. -/
def polyDegree (p : List F) : Rust Nat := usub p.length 1

/-- `Polynomial += &[Scalar]`, src/accumulator/utils.rs:161-174 (and 155-159 for `+= Polynomial`). -/
def polyAdd (self rhs : List F) : List F :=
  let minLen := min self.length rhs.length
  let self' := if self.length = minLen then self ++ rhs.drop minLen else self
  (List.range minLen).foldl (fun s i => s.modify i (· + rhs.getD i 0)) self'

/-- `Polynomial -= &[Scalar]`, src/accumulator/utils.rs:182-194 (and 176-180). -/
def polySub (self rhs : List F) : List F :=
  let minLen := min self.length rhs.length
  let self' := if self.length = minLen then self ++ (rhs.drop minLen).map (fun x => -x) else self
  (List.range minLen).foldl (fun s i => s.modify i (· - rhs.getD i 0)) self'

/-- The inner loop of the product: `for (j, jitem) in rhs.iter().enumerate() { self.0[i + j] += jitem * item }`,
src/accumulator/utils.rs:223-225. The index `i + j` is always in range here (checked by the
length lemma `polyMul_length`), so `modify` does not hide a panic. -/
def mulRow (s rhs : List F) (i : Nat) (item : F) : List F :=
  rhs.zipIdx.foldl (fun s (jitem, j) => s.modify (i + j) (· + jitem * item)) s

/-- `Polynomial *= &[Scalar]`, src/accumulator/utils.rs:208-229 (also 196-206, which forward to it). -/
def polyMul (self rhs : List F) : List F :=
  if !self.isEmpty || !rhs.isEmpty then
    let zeros := List.replicate (self.length + rhs.length - 1) (0 : F)
    self.zipIdx.foldl (fun s (item, i) => mulRow s rhs i item) zeros
  else self

/-- `Polynomial *= Scalar`, src/accumulator/utils.rs:231-237. -/
def polyScale (self : List F) (rhs : F) : List F := self.map (· * rhs)

end scalars

section points
variable {F G : Type} [Field F] [AddCommGroup G] [Module F G]

/-- `PolynomialG1::evaluate`, src/accumulator/utils.rs:76-89. The loop carries `(res, p)`. -/
def pg1Eval (A : List G) (x : F) : Option G :=
  match A with
  | [] => none
  | a0 :: rest => some (rest.foldl (fun (res, p) a => (res + p • a, p * x)) (a0, x)).1

/-- `PolynomialG1 += PolynomialG1`, src/accumulator/utils.rs:92-105. -/
def pg1Add (self rhs : List G) : List G :=
  let minLen := min self.length rhs.length
  let self' := if self.length = minLen then self ++ rhs.drop minLen else self
  (List.range minLen).foldl (fun s i => s.modify i (· + rhs.getD i 0)) self'

/-- `PolynomialG1 *= Scalar`, src/accumulator/utils.rs:107-113. -/
def pg1Scale (self : List G) (rhs : F) : List G := self.map (rhs • ·)

end points
end Allo
