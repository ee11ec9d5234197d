import Verif.Model.Field
import Verif.Model.AccProof

/-!
# Model of the byte encodings

`MembershipProof::{to_bytes, from_bytes}` in `src/witness.rs` and `src/accumulator/proof.rs`, the
helpers `g1` and `sc` of `src/utils.rs`, and the `to_bytes` / `TryFrom` functions of the key,
element, coefficient, accumulator and witness types. Scalars are the actual field `Fr`.
The `serde` derives are modelled in `Verif.Model.Serde`.
-/

namespace Allo

/-- The 32-byte encoding of `Scalar` (dependency: `to_be_bytes`), big endian. `beBytes n k` is the
`n`-byte big-endian encoding of `k`. -/
def beBytes : Nat → Nat → Bytes
  | 0, _ => []
  | n + 1, k => beBytes n (k / 256) ++ [UInt8.ofNat (k % 256)]

/-- The integer a byte string denotes, big endian. -/
def beValue (b : Bytes) : Nat := b.foldl (fun a x => 256 * a + x.toNat) 0

/-- `Scalar::to_be_bytes` (dependency). -/
def scalarToBe (s : Fr) : Bytes := beBytes 32 s.val

/-- `Scalar::from_be_bytes` (dependency): `None` unless the integer is below the group order. -/
def scalarFromBe (b : Bytes) : Option Fr :=
  if beValue b < groupOrder then some (beValue b : Fr) else none

/-- What is assumed of the point compression of the dependency (`to_compressed`, `from_compressed`,
and `to_bytes`, which is the same encoding): `n` bytes, decoding inverts encoding, and only
encodings are decoded. -/
structure PointCodec (G : Type) (n : Nat) where
  compress : G → Bytes
  decompress : Bytes → Option G
  length_compress : ∀ p, (compress p).length = n
  decompress_compress : ∀ p, decompress (compress p) = some p
  compress_decompress : ∀ b p, decompress b = some p → compress p = b

/-- `&b[i..j]`: panics unless `i ≤ j ≤ len`. -/
def slice (b : Bytes) (i j : Nat) : Rust Bytes :=
  if i ≤ j ∧ j ≤ b.length then .ok ((b.drop i).take (j - i)) else .error .index

/-- `res[i..j].copy_from_slice(src)`: panics unless `i ≤ j ≤ len` and the lengths are equal. -/
def copyFromSlice (res : Bytes) (i j : Nat) (src : Bytes) : Rust Bytes :=
  if i ≤ j ∧ j ≤ res.length ∧ src.length = j - i then .ok (res.take i ++ src ++ res.drop j)
  else .error .index

/-- A Rust function returning `Result<T, &'static str>` that may panic. -/
abbrev RustResult (α : Type) := ExceptT String Rust α

/-- `g1`, src/utils.rs:229-233. -/
def g1Decode {G1 : Type} (pc : PointCodec G1 48) (b : Bytes) : RustResult G1 :=
  if b.length = 48 then
    match pc.decompress b with
    | some p => pure p
    | none => throw "Proof serialization error"
  else throw "Proof serialization error"

/-- `sc`, src/utils.rs:235-238. -/
def scDecode (b : Bytes) : RustResult Fr :=
  if b.length = 32 then
    match scalarFromBe b with
    | some s => pure s
    | none => throw "Proof serialization error"
  else throw "Proof serialization error"

section
variable {G1 G2 : Type}

/-- `MembershipProof::to_bytes`, src/witness.rs:335-350; `BYTES = 432`, line 332. -/
def CredProof.toBytes (pc : PointCodec G1 48) (self : CredProof Fr G1) : Rust Bytes := do
  let res := List.replicate 432 0
  let res ← copyFromSlice res 0 48 (pc.compress self.u1)
  let res ← copyFromSlice res 48 96 (pc.compress self.u2)
  let res ← copyFromSlice res 96 144 (pc.compress self.r)
  let res ← copyFromSlice res 144 176 (scalarToBe self.challenge)
  let res ← copyFromSlice res 176 208 (scalarToBe self.s0)
  let res ← copyFromSlice res 208 240 (scalarToBe self.s1)
  let res ← copyFromSlice res 240 272 (scalarToBe self.s2)
  let res ← copyFromSlice res 272 304 (scalarToBe self.s3)
  let res ← copyFromSlice res 304 336 (scalarToBe self.s4)
  let res ← copyFromSlice res 336 368 (scalarToBe self.s5)
  let res ← copyFromSlice res 368 400 (scalarToBe self.s6)
  let res ← copyFromSlice res 400 432 (scalarToBe self.s7)
  pure res

/-- `MembershipProof::from_bytes`, src/witness.rs:353-368. The argument type `&[u8; 432]` is the
hypothesis `input.length = 432` of the theorems. -/
def CredProof.fromBytes (pc : PointCodec G1 48) (input : Bytes) : RustResult (CredProof Fr G1) := do
  let u1 ← g1Decode pc (← slice input 0 48)
  let u2 ← g1Decode pc (← slice input 48 96)
  let r ← g1Decode pc (← slice input 96 144)
  let challenge ← scDecode (← slice input 144 176)
  let s0 ← scDecode (← slice input 176 208)
  let s1 ← scDecode (← slice input 208 240)
  let s2 ← scDecode (← slice input 240 272)
  let s3 ← scDecode (← slice input 272 304)
  let s4 ← scDecode (← slice input 304 336)
  let s5 ← scDecode (← slice input 336 368)
  let s6 ← scDecode (← slice input 368 400)
  let s7 ← scDecode (← slice input 400 432)
  pure ⟨u1, u2, r, challenge, s0, s1, s2, s3, s4, s5, s6, s7⟩

/-- `MembershipProof::to_bytes`, src/accumulator/proof.rs:333-344; `BYTES = 304`, line 250. -/
def MemProof.toBytes (pc : PointCodec G1 48) (self : MemProof Fr G1) : Rust Bytes := do
  let res := List.replicate 304 0
  let res ← copyFromSlice res 0 48 (pc.compress self.eC)
  let res ← copyFromSlice res 48 96 (pc.compress self.tSigma)
  let res ← copyFromSlice res 96 144 (pc.compress self.tRho)
  let res ← copyFromSlice res 144 176 (scalarToBe self.sSigma)
  let res ← copyFromSlice res 176 208 (scalarToBe self.sRho)
  let res ← copyFromSlice res 208 240 (scalarToBe self.sDeltaSigma)
  let res ← copyFromSlice res 240 272 (scalarToBe self.sDeltaRho)
  let res ← copyFromSlice res 272 304 (scalarToBe self.sY)
  pure res

/-- `MembershipProof::from_bytes`, src/accumulator/proof.rs:347-358. -/
def MemProof.fromBytes (pc : PointCodec G1 48) (input : Bytes) : RustResult (MemProof Fr G1) := do
  let eC ← g1Decode pc (← slice input 0 48)
  let tSigma ← g1Decode pc (← slice input 48 96)
  let tRho ← g1Decode pc (← slice input 96 144)
  let sSigma ← scDecode (← slice input 144 176)
  let sRho ← scDecode (← slice input 176 208)
  let sDeltaSigma ← scDecode (← slice input 208 240)
  let sDeltaRho ← scDecode (← slice input 240 272)
  let sY ← scDecode (← slice input 272 304)
  pure { eC, tSigma, tRho, sSigma, sRho, sDeltaSigma, sDeltaRho, sY }

/-- `SecretKey::to_bytes` and `From<SecretKey> for [u8; 32]`, src/accumulator/key.rs:17-21 and 44-46;
`Element::to_bytes`, src/accumulator/acc.rs:47-49. -/
def scalarToBytes (s : Fr) : Bytes := scalarToBe s

/-- `TryFrom<&[u8; 32]> for SecretKey`, src/accumulator/key.rs:23-31. -/
def secretKeyTryFrom (b : Bytes) : Except String Fr :=
  match scalarFromBe b with
  | some s => .ok s
  | none => .error "Invalid byte sequence"

/-- `TryFrom<&[u8; 32]> for Element`, src/accumulator/acc.rs:28-36. -/
def elementTryFrom (b : Bytes) : Except String Fr :=
  match scalarFromBe b with
  | some s => .ok s
  | none => .error "invalid byte sequence"

/-- `to_bytes` of `Accumulator` (src/accumulator/acc.rs:247-251), `MembershipWitness`
(src/accumulator/witness.rs:197-201), `PublicKey` (src/accumulator/key.rs:141-145): the encoding is
copied into a zeroed array of length `n`. -/
def pointToBytes {G : Type} {n : Nat} (pc : PointCodec G n) (p : G) : Rust Bytes :=
  copyFromSlice (List.replicate n 0) 0 n (pc.compress p)

/-- `Coefficient::to_bytes`, src/accumulator/acc.rs:105-107. -/
def coefficientToBytes (pc : PointCodec G1 48) (p : G1) : Bytes := pc.compress p

/-- `TryFrom<&[u8; 48]>` for `Coefficient` and `Accumulator` (src/accumulator/acc.rs:91-99, 132-140),
`TryFrom<&[u8; 96]> for PublicKey` (src/accumulator/key.rs:154-162), `TryFrom<&[u8; 48]> for
MembershipWitness` (src/accumulator/witness.rs:45-53); they differ in the text of the error only. -/
def pointTryFrom {G : Type} {n : Nat} (pc : PointCodec G n) (err : String) (b : Bytes) : Except String G :=
  match pc.decompress b with
  | some p => .ok p
  | none => .error err

/-- `NonMembershipWitness::to_bytes`, src/accumulator/witness.rs:409-414; `BYTES = 80`, line 234. -/
def NonMembershipWitness.toBytes (pc : PointCodec G1 48) (self : NonMembershipWitness Fr G1) :
    Rust Bytes := do
  let res := List.replicate 80 0
  let res ← copyFromSlice res 0 48 (pc.compress self.c)
  let res ← copyFromSlice res 48 80 (scalarToBe self.d)
  pure res

end
end Allo
