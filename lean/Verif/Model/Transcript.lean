import Verif.Model.Prelude

/-!
# Transcripts, point encodings, parameters

`merlin::Transcript` (dependency) is modelled by exactly what was put into it: the protocol label
and the list of (label, message) pairs appended. The Fiat-Shamir challenge is an arbitrary
function (`Oracle`) of that content and of the challenge label.
-/

namespace Allo

abbrev Bytes := List UInt8

/-- Content of a `merlin::Transcript`. -/
structure Transcript where
  proto : String
  msgs : List (String × Bytes)
  deriving DecidableEq

/-- `Transcript::new(label)`. -/
def Transcript.new (label : String) : Transcript := ⟨label, []⟩

/-- `transcript.append_message(label, message)`. -/
def Transcript.append (t : Transcript) (label : String) (m : Bytes) : Transcript :=
  { t with msgs := t.msgs ++ [(label, m)] }

/-- `Element::from_transcript(label, &mut transcript)`, src/accumulator/acc.rs:57-61: an arbitrary
function of the transcript content. -/
abbrev Oracle (F : Type) := Transcript → String → F

/-- Canonical encodings of group elements (dependency): for `G1` both `to_bytes()` and
`to_compressed()`, which are the same 48-byte encoding; for `G2`, `Gt` `to_bytes()`. -/
structure Enc (G1 G2 GT : Type) where
  g1 : G1 → Bytes
  g2 : G2 → Bytes
  gt : GT → Bytes

/-- `AccParams`, src/utils.rs:22-32. (`Default` is treated in `Verif.Model.Hashing`; the getters
`get_*`, src/utils.rs:63-96, are the field projections.) -/
structure AccParams (G1 G2 : Type) where
  p1 : G1
  p2 : G2
  k0 : G1
  k1 : G1
  k2 : G2
  x1 : G1
  y1 : G1
  z1 : G1

/-- `PublicKeys`, src/utils.rs:13-19. -/
structure PublicKeys (G2 : Type) where
  witnessKey : G2
  signKey : G2

/-- `AccParams::add_to_transcript`, src/utils.rs:99-104. -/
def AccParams.addToTranscript {G1 G2 GT : Type} (enc : Enc G1 G2 GT) (p : AccParams G1 G2)
    (t : Transcript) : Transcript :=
  (((t.append "Proof Param K" (enc.g1 p.k1)).append "Proof Param X" (enc.g1 p.x1)).append
    "Proof Param Y" (enc.g1 p.y1)).append "Proof Param Z" (enc.g1 p.z1)

end Allo
