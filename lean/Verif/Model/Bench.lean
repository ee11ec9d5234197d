import Verif.Model.Serde
import Verif.Model.AccWitness

/-!
# Model of the benchmark: the single-server update and the messages

benches/updates.rs writes its messages itself: lengths and the number of epochs as `uint_zigzag::Uint` (dependency;
`to_vec` writes seven bits per byte, least significant first, like BARE's `uint`), scalars as 32 bytes (`to_be_bytes`) and
points as 48 (`to_compressed`), and hands the result to `serde_bare` as one byte string, which puts its length in front.
How a scalar and a point are written is a parameter here (`Model/Codec.lean` has the encodings themselves).
-/

namespace Allo
namespace Bench
open Bare

section messages
variable {F G1 : Type} (f : Bare F) (g : Bare G1)

/-- `serializer.serialize_bytes(&output)` with `serde_bare`: the length, then the bytes. -/
def frame (b : Bytes) : Bytes := uintEnc b.length ++ b

/-- the output of `UserUpdateMessage`, benches/updates.rs:306-319. -/
def userMessage (epoch : Nat) (shares : List F) : Bytes :=
  frame (uintEnc epoch ++ uintEnc shares.length ++ seqEnc f shares)

/-- the output of `ServerUpdateMessage`, benches/updates.rs:327-343. -/
def serverMessage (dPoly : List F) (vPoly : List G1) : Bytes :=
  frame (uintEnc dPoly.length ++ seqEnc f dPoly ++ uintEnc vPoly.length ++ seqEnc g vPoly)

/-- the output of `VBUpdateMessage`, benches/updates.rs:352-372. -/
def vbMessage (additions deletions : List F) (deltas : List G1) : Bytes :=
  frame (uintEnc additions.length ++ seqEnc f additions ++ uintEnc deletions.length ++ seqEnc f deletions
    ++ uintEnc deltas.length ++ seqEnc g deltas)

end messages

/-- `deletions.chunks(SLICES)`, benches/updates.rs:67; `slice::chunks` panics for length 0 (the kind of panic is not distinguished; `divZero` stands for it). -/
def chunks {α : Type} (k : Nat) : List α → Rust (List (List α))
  | l => if k = 0 then .error .divZero else .ok (go k l)
where
  /-- all slices have `k` entries, but the last one may have fewer -/
  go (k : Nat) : List α → List (List α)
    | [] => []
    | a :: l => (a :: l.take (k - 1)) :: go k (l.drop (k - 1))
  termination_by l => l.length
  decreasing_by simp; omega

section single
variable {F G1 : Type} [Field F] [DecidableEq F] [AddCommGroup G1] [Module F G1]

/-- The server's side of the single-server update, benches/updates.rs:82-85: `update_assign` for each slice; the
accumulator at the end and the coefficients of each call. -/
def serverUpdates (key : F) (acc : G1) (split : List (List F)) : Rust (G1 × List (List G1)) :=
  split.foldlM (fun (st : G1 × List (List G1)) deletion => do
    let (acc, cs) ← accUpdateAssign st.1 key [] deletion
    pure (acc, st.2 ++ [cs])) (acc, [])

/-- The user's side, benches/updates.rs:104-107: `batch_update_assign` for each slice. -/
def userUpdates (y : F) (witness : G1) (split : List (List F)) (deltas : List (List G1)) : G1 :=
  (split.zip deltas).foldl (fun w p => mwBatchUpdate w y [] p.1 p.2) witness

/-- The bytes of all messages, benches/updates.rs:88-96. -/
def messageLength (f : Bare F) (g : Bare G1) (split : List (List F)) (deltas : List (List G1)) : Nat :=
  (split.zip deltas).foldl (fun n p => n + (vbMessage f g [] p.1 p.2).length) 0

end single

end Bench
end Allo
