import Verif.Model.AccProof

/-!
# Model of the hashing functions

`generate_fr`, `hash_to_g1` (src/accumulator/utils.rs), `SecretKey::new`, `Element::{hash, random}`,
`Accumulator::random`, `AccParams::default`, `ProofParams::new`. The hash functions of the
dependencies are parameters: `H` is SHAKE128 followed by the reduction `Scalar::from_bytes_wide`, a
function of the bytes absorbed; `h1 dst msg` and `h2 dst msg` are `G1Projective::hash` and
`G2Projective::hash` with SHA-256. Bytes drawn from `OsRng` are arguments.
-/

namespace Allo

/-- Bytes of an ASCII literal `b"..."`. -/
def ascii (s : String) : Bytes := s.toList.map (fun c => UInt8.ofNat c.toNat)

/-- `SALT`, src/accumulator/utils.rs:56. -/
def SALT : Bytes := ascii "VB-ACC-HASH-SALT-"

/-- `generate_fr`, src/accumulator/utils.rs:12-34: the bytes absorbed are `salt ++ ikm`, or `salt ++ rng`
with 32 random bytes. -/
def generateFr {F : Type} (H : Bytes → F) (salt : Bytes) (ikm : Option Bytes) (rng : Bytes) : F :=
  match ikm with
  | some v => H (salt ++ v)
  | none => H (salt ++ rng)

/-- `SecretKey::new`, src/accumulator/key.rs:37-41. -/
def SecretKey.new {F : Type} (H : Bytes → F) (seed : Option Bytes) (rng : Bytes) : F :=
  generateFr H (ascii "VB-ACC-KEYGEN-SALT-") seed rng

/-- `Element::hash`, src/accumulator/acc.rs:52-54. -/
def Element.hash {F : Type} (H : Bytes → F) (d rng : Bytes) : F := generateFr H SALT (some d) rng

/-- `Element::random`, src/accumulator/acc.rs:64-66. -/
def Element.random {F : Type} (H : Bytes → F) (rng : Bytes) : F := generateFr H SALT none rng

/-- `hash_to_g1`, src/accumulator/utils.rs:37-40. -/
def hashToG1 {G1 : Type} (h1 : Bytes → Bytes → G1) (data : Bytes) : G1 :=
  h1 (ascii "BLS12381G1_XMD:SHA256_SSWU_RO_VB_ACCUMULATOR:1_0_0") data

/-- `Accumulator::random`, src/accumulator/acc.rs:153-157; `buffer` has 64 bytes. -/
def Accumulator.random {G1 : Type} (h1 : Bytes → Bytes → G1) (buffer : Bytes) : G1 := hashToG1 h1 buffer

/-- `AccParams::default`, src/utils.rs:34-61. -/
def AccParams.default {G1 G2 : Type} (h1 : Bytes → Bytes → G1) (h2 : Bytes → Bytes → G2) (gen1 : G1)
    (gen2 : G2) : AccParams G1 G2 :=
  let DST_G1 := ascii "BLS12381G1_XMD:SHA-256_SSWU_RO_"
  let DST_G2 := ascii "BLS12381G2_XMD:SHA-256_SSWU_RO_"
  let array : Bytes := List.replicate 32 0xFF
  let k0 := h1 DST_G1 array
  let array := array.set 0 0xFE
  let k1 := h1 DST_G1 array
  let array := array.set 0 0xFD
  let k2 := h2 DST_G2 array
  let array := array.set 0 0xFC
  let x1 := h1 DST_G1 array
  let array := array.set 0 0xFB
  let y1 := h1 DST_G1 array
  let array := array.set 0 0xFA
  let z1 := h1 DST_G1 array
  { p1 := gen1, p2 := gen2, k0, k1, k2, x1, y1, z1 }

/-- `ProofParams::new`, src/accumulator/proof.rs:40-62; `pkBytes` is `pk.to_bytes()`, 96 bytes. -/
def ProofParams.new {G1 : Type} (h1 : Bytes → Bytes → G1) (pkBytes : Bytes) (entropy : Option Bytes) :
    ProofParams G1 :=
  let data : Bytes := List.replicate 32 0xFF
  let data := data ++ entropy.getD []
  let data := data ++ pkBytes
  let z := hashToG1 h1 data
  let data := data.set 0 0xFE
  let y := hashToG1 h1 data
  let data := data.set 0 0xFD
  let x := hashToG1 h1 data
  let data := data.set 0 0xFC
  let k := hashToG1 h1 data
  { k, x, y, z }

end Allo
