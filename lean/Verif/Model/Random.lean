import Verif.Model.Hashing
import Verif.Model.Field
import Mathlib.Algebra.BigOperators.Fin

/-!
# From bytes to scalars

`Verif.Model.Hashing` leaves the hash to scalars abstract. Here is its last step, `Scalar::from_bytes_wide`
(dependency `bls12_381_plus`, used in src/accumulator/utils.rs:33 and src/accumulator/acc.rs:60): 64 bytes, read as a
little-endian number, are reduced modulo the group order.
-/

namespace Allo

/-- `[u8; 64]`. -/
abbrev Wide := Fin 64 → UInt8

/-- `[u8; 32]`. -/
abbrev Seed := Fin 32 → UInt8

/-- `Scalar::from_bytes_wide` (dependency). -/
def fromBytesWide (okm : Wide) : Fr := ((∑ i, (okm i).toNat * 256 ^ (i : Nat) : Nat) : Fr)

/-- `generate_fr`, src/accumulator/utils.rs:12-34, with the 64 bytes read from SHAKE128 (`shake`). -/
def generateFrBytes (shake : Bytes → Wide) (salt : Bytes) (ikm : Option Bytes) (rng : Seed) : Fr :=
  generateFr (fun m => fromBytesWide (shake m)) salt ikm (List.ofFn rng)

/-- `Element::from_transcript`, src/accumulator/acc.rs:57-61, with the 64 challenge bytes of Merlin (`merlin`). -/
def fromTranscript (merlin : Transcript → String → Wide) (t : Transcript) (label : String) : Fr :=
  fromBytesWide (merlin t label)

end Allo
