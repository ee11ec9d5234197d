import Verif.Model.Codec
import Mathlib.Tactic.Ring
import Mathlib.Tactic.Linarith

/-!
# C52, C53: byte encodings
-/

set_option linter.unusedSectionVars false
set_option linter.unusedVariables false
set_option linter.unusedSimpArgs false
namespace Allo

/-! ### big-endian integers -/

theorem beBytes_length (n k : Nat) : (beBytes n k).length = n := by
  induction n generalizing k with
  | zero => rfl
  | succ n ih => simp [beBytes, ih]

theorem beValue_append (b : Bytes) (x : UInt8) : beValue (b ++ [x]) = 256 * beValue b + x.toNat := by
  simp [beValue, List.foldl_append]

theorem beValue_beBytes (n k : Nat) (h : k < 256 ^ n) : beValue (beBytes n k) = k := by
  induction n generalizing k with
  | zero =>
    have : k = 0 := by simpa using h
    subst this; rfl
  | succ n ih =>
    have hk : k / 256 < 256 ^ n := by rw [pow_succ] at h; omega
    rw [beBytes, beValue_append, ih _ hk]
    have : (UInt8.ofNat (k % 256)).toNat = k % 256 := by
      rw [UInt8.toNat_ofNat']
      omega
    rw [this]; omega

theorem beValue_lt (b : Bytes) : beValue b < 256 ^ b.length := by
  induction b using List.reverseRecOn with
  | nil => simp [beValue]
  | append_singleton b x ih =>
    rw [beValue_append, List.length_append, List.length_singleton, pow_succ]
    have := x.toNat_lt
    omega

theorem beBytes_beValue (b : Bytes) : beBytes b.length (beValue b) = b := by
  induction b using List.reverseRecOn with
  | nil => rfl
  | append_singleton b x ih =>
    rw [beValue_append, List.length_append, List.length_singleton, beBytes]
    have hx := x.toNat_lt
    have h1 : (256 * beValue b + x.toNat) / 256 = beValue b := by omega
    have h2 : (256 * beValue b + x.toNat) % 256 = x.toNat := by omega
    rw [h1, h2, ih, UInt8.ofNat_toNat]

/-! ### scalars -/

theorem groupOrder_lt : groupOrder < 256 ^ 32 := by decide +kernel

theorem scalarToBe_length (s : Fr) : (scalarToBe s).length = 32 := beBytes_length 32 _

theorem beValue_scalarToBe (s : Fr) : beValue (scalarToBe s) = s.val :=
  beValue_beBytes 32 _ (lt_trans (ZMod.val_lt s) groupOrder_lt)

theorem scalarFromBe_toBe (s : Fr) : scalarFromBe (scalarToBe s) = some s := by
  unfold scalarFromBe
  rw [beValue_scalarToBe, if_pos (ZMod.val_lt s), ZMod.natCast_zmod_val]

theorem scalarToBe_fromBe (b : Bytes) (hb : b.length = 32) (s : Fr) (h : scalarFromBe b = some s) :
    scalarToBe s = b := by
  unfold scalarFromBe at h
  split at h
  · rename_i hlt
    simp only [Option.some.injEq] at h
    rw [← h, scalarToBe, ZMod.val_natCast, Nat.mod_eq_of_lt hlt, ← hb, beBytes_beValue]
  · cases h

theorem scalarFromBe_isSome (b : Bytes) : (∃ s, scalarFromBe b = some s) ↔ beValue b < groupOrder := by
  unfold scalarFromBe
  split
  · rename_i h; simp [h]
  · rename_i h; simp [h]

/-- **C53** (accepted strings). `SecretKey::try_from` and `Element::try_from` accept a 32-byte string exactly when
the big-endian integer it denotes is below the group order, and then return that integer; otherwise the
result is an error. -/
theorem C53_accept_iff (b : Bytes) :
    ((∃ s, secretKeyTryFrom b = .ok s) ↔ beValue b < groupOrder) ∧
    ((∃ s, elementTryFrom b = .ok s) ↔ beValue b < groupOrder) ∧
    (∀ s, secretKeyTryFrom b = .ok s → s.val = beValue b) ∧
    (∀ s, elementTryFrom b = .ok s → s.val = beValue b) ∧
    (groupOrder ≤ beValue b → secretKeyTryFrom b = .error "Invalid byte sequence" ∧
      elementTryFrom b = .error "invalid byte sequence") := by
  unfold secretKeyTryFrom elementTryFrom scalarFromBe
  by_cases h : beValue b < groupOrder
  · simp only [h, if_true, Except.ok.injEq, exists_eq', true_and]
    have e : ((beValue b : Nat) : Fr).val = beValue b := by
      rw [ZMod.val_natCast, Nat.mod_eq_of_lt h]
    refine ⟨?_, ?_, ?_⟩
    · rintro s rfl; exact e
    · rintro s rfl; exact e
    · intro h'; omega
  · simp [h]

/-- **C53** (round trip). Encoding gives 32 bytes that decode to the same value, and a decoded 32-byte string is
the encoding of the result: each scalar has exactly one encoding. -/
theorem C53_roundtrip :
    (∀ s : Fr, (scalarToBytes s).length = 32 ∧ secretKeyTryFrom (scalarToBytes s) = .ok s ∧
      elementTryFrom (scalarToBytes s) = .ok s) ∧
    (∀ (b : Bytes) (s : Fr), b.length = 32 → secretKeyTryFrom b = .ok s → scalarToBytes s = b) ∧
    (∀ (b : Bytes) (s : Fr), b.length = 32 → elementTryFrom b = .ok s → scalarToBytes s = b) := by
  refine ⟨fun s => ⟨scalarToBe_length s, ?_, ?_⟩, ?_, ?_⟩
  · simp only [secretKeyTryFrom, scalarToBytes, scalarFromBe_toBe]
  · simp only [elementTryFrom, scalarToBytes, scalarFromBe_toBe]
  · intro b s hb h
    unfold secretKeyTryFrom at h
    split at h
    · rename_i s' hs
      rw [Except.ok.injEq] at h
      subst h
      exact scalarToBe_fromBe b hb _ hs
    · cases h
  · intro b s hb h
    unfold elementTryFrom at h
    split at h
    · rename_i s' hs
      rw [Except.ok.injEq] at h
      subst h
      exact scalarToBe_fromBe b hb _ hs
    · cases h

/-- **C53** (points). The `to_bytes` of the point types returns `n` bytes, never panics, and inverts and is
inverted by `try_from`. -/
theorem C53_points {G : Type} {n : Nat} (pc : PointCodec G n) (err : String) :
    (∀ p : G, ∃ b, pointToBytes pc p = .ok b ∧ b.length = n ∧ pointTryFrom pc err b = .ok p) ∧
    (∀ (b : Bytes) (p : G), pointTryFrom pc err b = .ok p → pointToBytes pc p = .ok b) ∧
    (∀ b : Bytes, (∃ p, pointTryFrom pc err b = .ok p) ∨ pointTryFrom pc err b = .error err) := by
  have e : ∀ p : G, pointToBytes pc p = .ok (pc.compress p) := by
    intro p
    simp [pointToBytes, copyFromSlice, pc.length_compress]
  refine ⟨fun p => ⟨_, e p, pc.length_compress p, ?_⟩, ?_, ?_⟩
  · simp [pointTryFrom, pc.decompress_compress]
  · intro b p h
    unfold pointTryFrom at h
    split at h
    · rename_i p' hp
      rw [Except.ok.injEq] at h
      subst h
      rw [e, pc.compress_decompress b _ hp]
    · cases h
  · intro b
    unfold pointTryFrom
    cases pc.decompress b <;> simp

/-- **C53** (`Coefficient`, whose `to_bytes` returns the compressed point as it is). 48 bytes, inverts and is
inverted by `try_from`; two coefficients with the same bytes are equal. -/
theorem C53_coefficient {G1 : Type} (pc : PointCodec G1 48) :
    (∀ p : G1, (coefficientToBytes pc p).length = 48 ∧
      pointTryFrom pc "invalid byte sequence" (coefficientToBytes pc p) = .ok p) ∧
    (∀ (b : Bytes) (p : G1), pointTryFrom pc "invalid byte sequence" b = .ok p →
      coefficientToBytes pc p = b) ∧
    (∀ p q : G1, coefficientToBytes pc p = coefficientToBytes pc q → p = q) := by
  obtain ⟨h1, h2, -⟩ := C53_points pc "invalid byte sequence"
  have e : ∀ p : G1, pointToBytes pc p = .ok (coefficientToBytes pc p) := by
    intro p
    simp [pointToBytes, copyFromSlice, pc.length_compress, coefficientToBytes]
  have r : ∀ p : G1, (coefficientToBytes pc p).length = 48 ∧
      pointTryFrom pc "invalid byte sequence" (coefficientToBytes pc p) = .ok p := by
    intro p
    obtain ⟨b, hb, hl, ht⟩ := h1 p
    rw [e] at hb
    cases hb
    exact ⟨hl, ht⟩
  refine ⟨r, ?_, ?_⟩
  · intro b p h
    have := h2 b p h
    rw [e] at this
    exact Except.ok.inj this
  · intro p q h
    have h1 := (r p).2
    rw [h, (r q).2] at h1
    exact (Except.ok.inj h1).symm

/-! ### slices -/

theorem copyFromSlice_next (pre src : Bytes) (i j m : Nat) (hi : pre.length = i) (hs : src.length = j - i)
    (hij : i ≤ j) (hm : j - i ≤ m) :
    copyFromSlice (pre ++ List.replicate m 0) i j src
      = .ok ((pre ++ src) ++ List.replicate (m - (j - i)) 0) := by
  unfold copyFromSlice
  rw [if_pos ⟨hij, by simp [hi]; omega, hs⟩]
  congr 2
  · rw [List.take_append_of_le_length (by omega), List.take_of_length_le (by omega)]
  · rw [List.drop_append, List.drop_of_length_le (by omega), List.nil_append, List.drop_replicate, hi]

/-- The bytes `i..j` of a string. -/
def sub (b : Bytes) (i j : Nat) : Bytes := (b.drop i).take (j - i)

theorem slice_ok {b : Bytes} {i j n : Nat} (hb : b.length = n) (hij : i ≤ j) (hj : j ≤ n) :
    slice b i j = .ok (sub b i j) := by
  unfold slice sub
  rw [if_pos ⟨hij, by omega⟩]

theorem sub_length {b : Bytes} {i j n : Nat} (hb : b.length = n) (hj : j ≤ n) :
    (sub b i j).length = j - i := by
  simp only [sub, List.length_take, List.length_drop]; omega

theorem sub_append (b : Bytes) {i j k : Nat} (hij : i ≤ j) (hjk : j ≤ k) :
    sub b i j ++ sub b j k = sub b i k := by
  unfold sub
  have h1 : k - i = (j - i) + (k - j) := by omega
  have h2 : b.drop j = (b.drop i).drop (j - i) := by rw [List.drop_drop]; congr 1; omega
  rw [h1, h2, List.take_add]

theorem sub_all {b : Bytes} {n : Nat} (hb : b.length = n) : sub b 0 n = b := by
  simp [sub, ← hb]

/-- What is read back at the place of `src`. -/
theorem sub_concat (pre src post : Bytes) (i j : Nat) (hi : pre.length = i) (hs : src.length = j - i) :
    sub (pre ++ (src ++ post)) i j = src := by
  unfold sub
  rw [List.drop_append_of_le_length (by omega), List.drop_of_length_le (by omega), List.nil_append,
    ← hs, List.take_left']
  rfl

section
variable {G1 : Type}

/-- The order of the fields in the 432-byte encoding. -/
def CredProof.encoding (pc : PointCodec G1 48) (p : CredProof Fr G1) : Bytes :=
  pc.compress p.u1 ++ pc.compress p.u2 ++ pc.compress p.r ++ scalarToBe p.challenge ++ scalarToBe p.s0 ++
    scalarToBe p.s1 ++ scalarToBe p.s2 ++ scalarToBe p.s3 ++ scalarToBe p.s4 ++ scalarToBe p.s5 ++
    scalarToBe p.s6 ++ scalarToBe p.s7

/-- The order of the fields in the 304-byte encoding. -/
def MemProof.encoding (pc : PointCodec G1 48) (p : MemProof Fr G1) : Bytes :=
  pc.compress p.eC ++ pc.compress p.tSigma ++ pc.compress p.tRho ++ scalarToBe p.sSigma ++
    scalarToBe p.sRho ++ scalarToBe p.sDeltaSigma ++ scalarToBe p.sDeltaRho ++ scalarToBe p.sY

/-- **C52** (layout): encoding never panics and gives the 432 bytes of the fields in order. -/
theorem C52_cred_layout (pc : PointCodec G1 48) (p : CredProof Fr G1) :
    p.toBytes pc = .ok (p.encoding pc) ∧ (p.encoding pc).length = 432 := by
  have hl := pc.length_compress
  have hs := scalarToBe_length
  refine ⟨?_, by simp [CredProof.encoding, hl, hs]⟩
  unfold CredProof.toBytes CredProof.encoding
  simp only [bind, Except.bind, pure, Except.pure]
  have h0 := copyFromSlice_next [] (pc.compress p.u1) 0 48 432 rfl (hl _) (by omega) (by omega)
  rw [List.nil_append, List.nil_append] at h0
  rw [h0]
  simp only
  iterate 11
    rw [copyFromSlice_next _ _ _ _ _ (by simp [hl, hs]) (by simp [hl, hs]) (by omega) (by omega)]
    try simp only
  simp

/-- **C52** (layout): encoding never panics and gives the 304 bytes of the fields in order. -/
theorem C52_mem_layout (pc : PointCodec G1 48) (p : MemProof Fr G1) :
    p.toBytes pc = .ok (p.encoding pc) ∧ (p.encoding pc).length = 304 := by
  have hl := pc.length_compress
  have hs := scalarToBe_length
  refine ⟨?_, by simp [MemProof.encoding, hl, hs]⟩
  unfold MemProof.toBytes MemProof.encoding
  simp only [bind, Except.bind, pure, Except.pure]
  have h0 := copyFromSlice_next [] (pc.compress p.eC) 0 48 304 rfl (hl _) (by omega) (by omega)
  rw [List.nil_append, List.nil_append] at h0
  rw [h0]
  simp only
  iterate 7
    rw [copyFromSlice_next _ _ _ _ _ (by simp [hl, hs]) (by simp [hl, hs]) (by omega) (by omega)]
    try simp only
  simp

/-- Decoding of a point field. -/
theorem g1Decode_cases (pc : PointCodec G1 48) (b : Bytes) (hb : b.length = 48) :
    (∃ p, g1Decode pc b = (.ok (.ok p) : Rust _) ∧ pc.compress p = b) ∨
    g1Decode pc b = (.ok (.error "Proof serialization error") : Rust _) := by
  unfold g1Decode
  rw [if_pos hb]
  cases h : pc.decompress b with
  | none => right; rfl
  | some p => left; exact ⟨p, rfl, pc.compress_decompress b p h⟩

theorem g1Decode_compress (pc : PointCodec G1 48) (p : G1) :
    g1Decode pc (pc.compress p) = (.ok (.ok p) : Rust _) := by
  unfold g1Decode
  rw [if_pos (pc.length_compress p), pc.decompress_compress]
  rfl

/-- Decoding of a scalar field. -/
theorem scDecode_cases (b : Bytes) (hb : b.length = 32) :
    (∃ s, scDecode b = (.ok (.ok s) : Rust _) ∧ scalarToBe s = b) ∨
    scDecode b = (.ok (.error "Proof serialization error") : Rust _) := by
  unfold scDecode
  rw [if_pos hb]
  cases h : scalarFromBe b with
  | none => right; rfl
  | some s => left; exact ⟨s, rfl, scalarToBe_fromBe b hb s h⟩

theorem scDecode_toBe (s : Fr) : scDecode (scalarToBe s) = (.ok (.ok s) : Rust _) := by
  unfold scDecode
  rw [if_pos (scalarToBe_length s), scalarFromBe_toBe]
  rfl

/-- Sequencing in `RustResult`. -/
theorem bind_ok {α β : Type} (x : RustResult α) (f : α → RustResult β) (a : α)
    (h : x = (.ok (.ok a) : Rust _)) : (x >>= f) = f a := by
  subst h; rfl

theorem bind_err {α β : Type} (x : RustResult α) (f : α → RustResult β) (e : String)
    (h : x = (.ok (.error e) : Rust _)) : (x >>= f) = (.ok (.error e) : Rust _) := by
  subst h; rfl

theorem lift_slice {b : Bytes} {i j n : Nat} (hb : b.length = n) (hij : i ≤ j) (hj : j ≤ n) :
    (liftM (slice b i j) : RustResult Bytes) = (.ok (.ok (sub b i j)) : Rust _) := by
  rw [slice_ok hb hij hj]; rfl

/-- A string of 432 bytes is the concatenation of its fields. -/
theorem cred_split (b : Bytes) (hb : b.length = 432) :
    b = sub b 0 48 ++ (sub b 48 96 ++ (sub b 96 144 ++ (sub b 144 176 ++ (sub b 176 208 ++ (sub b 208 240 ++ (sub b 240 272 ++ (sub b 272 304 ++ (sub b 304 336 ++ (sub b 336 368 ++ (sub b 368 400 ++ (sub b 400 432))))))))))) := by
  rw [sub_append b (i := 368) (j := 400) (k := 432) (by omega) (by omega),
    sub_append b (i := 336) (j := 368) (k := 432) (by omega) (by omega),
    sub_append b (i := 304) (j := 336) (k := 432) (by omega) (by omega),
    sub_append b (i := 272) (j := 304) (k := 432) (by omega) (by omega),
    sub_append b (i := 240) (j := 272) (k := 432) (by omega) (by omega),
    sub_append b (i := 208) (j := 240) (k := 432) (by omega) (by omega),
    sub_append b (i := 176) (j := 208) (k := 432) (by omega) (by omega),
    sub_append b (i := 144) (j := 176) (k := 432) (by omega) (by omega),
    sub_append b (i := 96) (j := 144) (k := 432) (by omega) (by omega),
    sub_append b (i := 48) (j := 96) (k := 432) (by omega) (by omega),
    sub_append b (i := 0) (j := 48) (k := 432) (by omega) (by omega), sub_all hb]

/-- The fields of an encoding. -/
theorem cred_fields (pc : PointCodec G1 48) (p : CredProof Fr G1) (b : Bytes) (hb : b.length = 432)
    (h : p.encoding pc = b) :
    sub b 0 48 = pc.compress p.u1 ∧
    sub b 48 96 = pc.compress p.u2 ∧
    sub b 96 144 = pc.compress p.r ∧
    sub b 144 176 = scalarToBe p.challenge ∧
    sub b 176 208 = scalarToBe p.s0 ∧
    sub b 208 240 = scalarToBe p.s1 ∧
    sub b 240 272 = scalarToBe p.s2 ∧
    sub b 272 304 = scalarToBe p.s3 ∧
    sub b 304 336 = scalarToBe p.s4 ∧
    sub b 336 368 = scalarToBe p.s5 ∧
    sub b 368 400 = scalarToBe p.s6 ∧
    sub b 400 432 = scalarToBe p.s7 := by
  have hl := pc.length_compress
  have hs := scalarToBe_length
  have e := ((cred_split b hb).symm.trans h.symm)
  simp only [CredProof.encoding, List.append_assoc] at e
  obtain ⟨e0, e⟩ := List.append_inj e (by rw [sub_length hb (by omega), hl])
  obtain ⟨e1, e⟩ := List.append_inj e (by rw [sub_length hb (by omega), hl])
  obtain ⟨e2, e⟩ := List.append_inj e (by rw [sub_length hb (by omega), hl])
  obtain ⟨e3, e⟩ := List.append_inj e (by rw [sub_length hb (by omega), hs])
  obtain ⟨e4, e⟩ := List.append_inj e (by rw [sub_length hb (by omega), hs])
  obtain ⟨e5, e⟩ := List.append_inj e (by rw [sub_length hb (by omega), hs])
  obtain ⟨e6, e⟩ := List.append_inj e (by rw [sub_length hb (by omega), hs])
  obtain ⟨e7, e⟩ := List.append_inj e (by rw [sub_length hb (by omega), hs])
  obtain ⟨e8, e⟩ := List.append_inj e (by rw [sub_length hb (by omega), hs])
  obtain ⟨e9, e⟩ := List.append_inj e (by rw [sub_length hb (by omega), hs])
  obtain ⟨e10, e⟩ := List.append_inj e (by rw [sub_length hb (by omega), hs])
  exact ⟨e0, e1, e2, e3, e4, e5, e6, e7, e8, e9, e10, e⟩

/-- **C52** (decoding, 432 bytes): decoding never panics; it returns a proof exactly when the input is the
encoding of that proof, and the error "Proof serialization error" otherwise. -/
theorem C52_cred_decode (pc : PointCodec G1 48) (b : Bytes) (hb : b.length = 432) :
    (∀ p, CredProof.fromBytes pc b = (.ok (.ok p) : Rust (Except String _)) ↔ p.toBytes pc = .ok b) ∧
    ((∃ p, CredProof.fromBytes pc b = (.ok (.ok p) : Rust (Except String _))) ∨
      CredProof.fromBytes pc b = (.ok (.error "Proof serialization error") : Rust (Except String _))) := by
  have hl : ∀ i j : Nat, j ≤ 432 → (sub b i j).length = j - i := fun i j hj => sub_length hb hj
  have main : (∃ p, CredProof.fromBytes pc b = (.ok (.ok p) : Rust (Except String _)) ∧ p.encoding pc = b) ∨
      CredProof.fromBytes pc b = (.ok (.error "Proof serialization error") : Rust (Except String _)) := by
    unfold CredProof.fromBytes
    rw [bind_ok _ _ _ (lift_slice hb (i := 0) (j := 48) (by omega) (by omega))]
    rcases g1Decode_cases pc (sub b 0 48) (hl _ _ (by omega)) with ⟨x0, h, k0⟩ | h
    rotate_left
    · right; rw [bind_err _ _ _ h]
    rw [bind_ok _ _ _ h]; clear h
    rw [bind_ok _ _ _ (lift_slice hb (i := 48) (j := 96) (by omega) (by omega))]
    rcases g1Decode_cases pc (sub b 48 96) (hl _ _ (by omega)) with ⟨x1, h, k1⟩ | h
    rotate_left
    · right; rw [bind_err _ _ _ h]
    rw [bind_ok _ _ _ h]; clear h
    rw [bind_ok _ _ _ (lift_slice hb (i := 96) (j := 144) (by omega) (by omega))]
    rcases g1Decode_cases pc (sub b 96 144) (hl _ _ (by omega)) with ⟨x2, h, k2⟩ | h
    rotate_left
    · right; rw [bind_err _ _ _ h]
    rw [bind_ok _ _ _ h]; clear h
    rw [bind_ok _ _ _ (lift_slice hb (i := 144) (j := 176) (by omega) (by omega))]
    rcases scDecode_cases (sub b 144 176) (hl _ _ (by omega)) with ⟨x3, h, k3⟩ | h
    rotate_left
    · right; rw [bind_err _ _ _ h]
    rw [bind_ok _ _ _ h]; clear h
    rw [bind_ok _ _ _ (lift_slice hb (i := 176) (j := 208) (by omega) (by omega))]
    rcases scDecode_cases (sub b 176 208) (hl _ _ (by omega)) with ⟨x4, h, k4⟩ | h
    rotate_left
    · right; rw [bind_err _ _ _ h]
    rw [bind_ok _ _ _ h]; clear h
    rw [bind_ok _ _ _ (lift_slice hb (i := 208) (j := 240) (by omega) (by omega))]
    rcases scDecode_cases (sub b 208 240) (hl _ _ (by omega)) with ⟨x5, h, k5⟩ | h
    rotate_left
    · right; rw [bind_err _ _ _ h]
    rw [bind_ok _ _ _ h]; clear h
    rw [bind_ok _ _ _ (lift_slice hb (i := 240) (j := 272) (by omega) (by omega))]
    rcases scDecode_cases (sub b 240 272) (hl _ _ (by omega)) with ⟨x6, h, k6⟩ | h
    rotate_left
    · right; rw [bind_err _ _ _ h]
    rw [bind_ok _ _ _ h]; clear h
    rw [bind_ok _ _ _ (lift_slice hb (i := 272) (j := 304) (by omega) (by omega))]
    rcases scDecode_cases (sub b 272 304) (hl _ _ (by omega)) with ⟨x7, h, k7⟩ | h
    rotate_left
    · right; rw [bind_err _ _ _ h]
    rw [bind_ok _ _ _ h]; clear h
    rw [bind_ok _ _ _ (lift_slice hb (i := 304) (j := 336) (by omega) (by omega))]
    rcases scDecode_cases (sub b 304 336) (hl _ _ (by omega)) with ⟨x8, h, k8⟩ | h
    rotate_left
    · right; rw [bind_err _ _ _ h]
    rw [bind_ok _ _ _ h]; clear h
    rw [bind_ok _ _ _ (lift_slice hb (i := 336) (j := 368) (by omega) (by omega))]
    rcases scDecode_cases (sub b 336 368) (hl _ _ (by omega)) with ⟨x9, h, k9⟩ | h
    rotate_left
    · right; rw [bind_err _ _ _ h]
    rw [bind_ok _ _ _ h]; clear h
    rw [bind_ok _ _ _ (lift_slice hb (i := 368) (j := 400) (by omega) (by omega))]
    rcases scDecode_cases (sub b 368 400) (hl _ _ (by omega)) with ⟨x10, h, k10⟩ | h
    rotate_left
    · right; rw [bind_err _ _ _ h]
    rw [bind_ok _ _ _ h]; clear h
    rw [bind_ok _ _ _ (lift_slice hb (i := 400) (j := 432) (by omega) (by omega))]
    rcases scDecode_cases (sub b 400 432) (hl _ _ (by omega)) with ⟨x11, h, k11⟩ | h
    rotate_left
    · right; rw [bind_err _ _ _ h]
    rw [bind_ok _ _ _ h]; clear h
    left
    refine ⟨_, rfl, ?_⟩
    simp only [CredProof.encoding, List.append_assoc]
    rw [k0, k1, k2, k3, k4, k5, k6, k7, k8, k9, k10, k11]
    exact (cred_split b hb).symm
  have enc : ∀ p : CredProof Fr G1, p.toBytes pc = .ok b ↔ p.encoding pc = b := by
    intro p
    rw [(C52_cred_layout pc p).1, Except.ok.injEq]
  refine ⟨?_, ?_⟩
  · intro p
    rw [enc]
    constructor
    · intro h
      rcases main with ⟨q, hq, hqe⟩ | hq
      · rw [hq] at h
        rw [← Except.ok.inj (Except.ok.inj h), hqe]
      · rw [hq] at h
        cases Except.ok.inj h
    · intro h
      obtain ⟨e0, e1, e2, e3, e4, e5, e6, e7, e8, e9, e10, e11⟩ := cred_fields pc p b hb h
      unfold CredProof.fromBytes
      rw [bind_ok _ _ _ (lift_slice hb (i := 0) (j := 48) (by omega) (by omega)), e0,
        bind_ok _ _ _ (g1Decode_compress pc _)]
      rw [bind_ok _ _ _ (lift_slice hb (i := 48) (j := 96) (by omega) (by omega)), e1,
        bind_ok _ _ _ (g1Decode_compress pc _)]
      rw [bind_ok _ _ _ (lift_slice hb (i := 96) (j := 144) (by omega) (by omega)), e2,
        bind_ok _ _ _ (g1Decode_compress pc _)]
      rw [bind_ok _ _ _ (lift_slice hb (i := 144) (j := 176) (by omega) (by omega)), e3,
        bind_ok _ _ _ (scDecode_toBe _)]
      rw [bind_ok _ _ _ (lift_slice hb (i := 176) (j := 208) (by omega) (by omega)), e4,
        bind_ok _ _ _ (scDecode_toBe _)]
      rw [bind_ok _ _ _ (lift_slice hb (i := 208) (j := 240) (by omega) (by omega)), e5,
        bind_ok _ _ _ (scDecode_toBe _)]
      rw [bind_ok _ _ _ (lift_slice hb (i := 240) (j := 272) (by omega) (by omega)), e6,
        bind_ok _ _ _ (scDecode_toBe _)]
      rw [bind_ok _ _ _ (lift_slice hb (i := 272) (j := 304) (by omega) (by omega)), e7,
        bind_ok _ _ _ (scDecode_toBe _)]
      rw [bind_ok _ _ _ (lift_slice hb (i := 304) (j := 336) (by omega) (by omega)), e8,
        bind_ok _ _ _ (scDecode_toBe _)]
      rw [bind_ok _ _ _ (lift_slice hb (i := 336) (j := 368) (by omega) (by omega)), e9,
        bind_ok _ _ _ (scDecode_toBe _)]
      rw [bind_ok _ _ _ (lift_slice hb (i := 368) (j := 400) (by omega) (by omega)), e10,
        bind_ok _ _ _ (scDecode_toBe _)]
      rw [bind_ok _ _ _ (lift_slice hb (i := 400) (j := 432) (by omega) (by omega)), e11,
        bind_ok _ _ _ (scDecode_toBe _)]
      rfl
  · rcases main with ⟨q, hq, -⟩ | hq
    · exact .inl ⟨q, hq⟩
    · exact .inr hq

/-- **C52** (round trip, 432 bytes): encoding gives 432 bytes that decode to the same proof. -/
theorem C52_cred_roundtrip (pc : PointCodec G1 48) (p : CredProof Fr G1) :
    ∃ b, p.toBytes pc = .ok b ∧ b.length = 432 ∧
      CredProof.fromBytes pc b = (.ok (.ok p) : Rust (Except String _)) := by
  obtain ⟨h1, h2⟩ := C52_cred_layout pc p
  exact ⟨_, h1, h2, ((C52_cred_decode pc _ h2).1 p).2 h1⟩

/-- **C52** (unique encodings, 432 bytes): two accepted strings that decode to the same proof are equal. -/
theorem C52_cred_unique (pc : PointCodec G1 48) (b b' : Bytes) (hb : b.length = 432) (hb' : b'.length = 432)
    (p : CredProof Fr G1) (h : CredProof.fromBytes pc b = (.ok (.ok p) : Rust (Except String _)))
    (h' : CredProof.fromBytes pc b' = (.ok (.ok p) : Rust (Except String _))) : b = b' := by
  have e := ((C52_cred_decode pc b hb).1 p).1 h
  have e' := ((C52_cred_decode pc b' hb').1 p).1 h'
  rw [e] at e'
  exact Except.ok.inj e'

/-- A string of 304 bytes is the concatenation of its fields. -/
theorem mem_split (b : Bytes) (hb : b.length = 304) :
    b = sub b 0 48 ++ (sub b 48 96 ++ (sub b 96 144 ++ (sub b 144 176 ++ (sub b 176 208 ++ (sub b 208 240 ++ (sub b 240 272 ++ (sub b 272 304))))))) := by
  rw [sub_append b (i := 240) (j := 272) (k := 304) (by omega) (by omega),
    sub_append b (i := 208) (j := 240) (k := 304) (by omega) (by omega),
    sub_append b (i := 176) (j := 208) (k := 304) (by omega) (by omega),
    sub_append b (i := 144) (j := 176) (k := 304) (by omega) (by omega),
    sub_append b (i := 96) (j := 144) (k := 304) (by omega) (by omega),
    sub_append b (i := 48) (j := 96) (k := 304) (by omega) (by omega),
    sub_append b (i := 0) (j := 48) (k := 304) (by omega) (by omega), sub_all hb]

/-- The fields of an encoding. -/
theorem mem_fields (pc : PointCodec G1 48) (p : MemProof Fr G1) (b : Bytes) (hb : b.length = 304)
    (h : p.encoding pc = b) :
    sub b 0 48 = pc.compress p.eC ∧
    sub b 48 96 = pc.compress p.tSigma ∧
    sub b 96 144 = pc.compress p.tRho ∧
    sub b 144 176 = scalarToBe p.sSigma ∧
    sub b 176 208 = scalarToBe p.sRho ∧
    sub b 208 240 = scalarToBe p.sDeltaSigma ∧
    sub b 240 272 = scalarToBe p.sDeltaRho ∧
    sub b 272 304 = scalarToBe p.sY := by
  have hl := pc.length_compress
  have hs := scalarToBe_length
  have e := ((mem_split b hb).symm.trans h.symm)
  simp only [MemProof.encoding, List.append_assoc] at e
  obtain ⟨e0, e⟩ := List.append_inj e (by rw [sub_length hb (by omega), hl])
  obtain ⟨e1, e⟩ := List.append_inj e (by rw [sub_length hb (by omega), hl])
  obtain ⟨e2, e⟩ := List.append_inj e (by rw [sub_length hb (by omega), hl])
  obtain ⟨e3, e⟩ := List.append_inj e (by rw [sub_length hb (by omega), hs])
  obtain ⟨e4, e⟩ := List.append_inj e (by rw [sub_length hb (by omega), hs])
  obtain ⟨e5, e⟩ := List.append_inj e (by rw [sub_length hb (by omega), hs])
  obtain ⟨e6, e⟩ := List.append_inj e (by rw [sub_length hb (by omega), hs])
  exact ⟨e0, e1, e2, e3, e4, e5, e6, e⟩

/-- **C52** (decoding, 304 bytes): decoding never panics; it returns a proof exactly when the input is the
encoding of that proof, and the error "Proof serialization error" otherwise. -/
theorem C52_mem_decode (pc : PointCodec G1 48) (b : Bytes) (hb : b.length = 304) :
    (∀ p, MemProof.fromBytes pc b = (.ok (.ok p) : Rust (Except String _)) ↔ p.toBytes pc = .ok b) ∧
    ((∃ p, MemProof.fromBytes pc b = (.ok (.ok p) : Rust (Except String _))) ∨
      MemProof.fromBytes pc b = (.ok (.error "Proof serialization error") : Rust (Except String _))) := by
  have hl : ∀ i j : Nat, j ≤ 304 → (sub b i j).length = j - i := fun i j hj => sub_length hb hj
  have main : (∃ p, MemProof.fromBytes pc b = (.ok (.ok p) : Rust (Except String _)) ∧ p.encoding pc = b) ∨
      MemProof.fromBytes pc b = (.ok (.error "Proof serialization error") : Rust (Except String _)) := by
    unfold MemProof.fromBytes
    rw [bind_ok _ _ _ (lift_slice hb (i := 0) (j := 48) (by omega) (by omega))]
    rcases g1Decode_cases pc (sub b 0 48) (hl _ _ (by omega)) with ⟨x0, h, k0⟩ | h
    rotate_left
    · right; rw [bind_err _ _ _ h]
    rw [bind_ok _ _ _ h]; clear h
    rw [bind_ok _ _ _ (lift_slice hb (i := 48) (j := 96) (by omega) (by omega))]
    rcases g1Decode_cases pc (sub b 48 96) (hl _ _ (by omega)) with ⟨x1, h, k1⟩ | h
    rotate_left
    · right; rw [bind_err _ _ _ h]
    rw [bind_ok _ _ _ h]; clear h
    rw [bind_ok _ _ _ (lift_slice hb (i := 96) (j := 144) (by omega) (by omega))]
    rcases g1Decode_cases pc (sub b 96 144) (hl _ _ (by omega)) with ⟨x2, h, k2⟩ | h
    rotate_left
    · right; rw [bind_err _ _ _ h]
    rw [bind_ok _ _ _ h]; clear h
    rw [bind_ok _ _ _ (lift_slice hb (i := 144) (j := 176) (by omega) (by omega))]
    rcases scDecode_cases (sub b 144 176) (hl _ _ (by omega)) with ⟨x3, h, k3⟩ | h
    rotate_left
    · right; rw [bind_err _ _ _ h]
    rw [bind_ok _ _ _ h]; clear h
    rw [bind_ok _ _ _ (lift_slice hb (i := 176) (j := 208) (by omega) (by omega))]
    rcases scDecode_cases (sub b 176 208) (hl _ _ (by omega)) with ⟨x4, h, k4⟩ | h
    rotate_left
    · right; rw [bind_err _ _ _ h]
    rw [bind_ok _ _ _ h]; clear h
    rw [bind_ok _ _ _ (lift_slice hb (i := 208) (j := 240) (by omega) (by omega))]
    rcases scDecode_cases (sub b 208 240) (hl _ _ (by omega)) with ⟨x5, h, k5⟩ | h
    rotate_left
    · right; rw [bind_err _ _ _ h]
    rw [bind_ok _ _ _ h]; clear h
    rw [bind_ok _ _ _ (lift_slice hb (i := 240) (j := 272) (by omega) (by omega))]
    rcases scDecode_cases (sub b 240 272) (hl _ _ (by omega)) with ⟨x6, h, k6⟩ | h
    rotate_left
    · right; rw [bind_err _ _ _ h]
    rw [bind_ok _ _ _ h]; clear h
    rw [bind_ok _ _ _ (lift_slice hb (i := 272) (j := 304) (by omega) (by omega))]
    rcases scDecode_cases (sub b 272 304) (hl _ _ (by omega)) with ⟨x7, h, k7⟩ | h
    rotate_left
    · right; rw [bind_err _ _ _ h]
    rw [bind_ok _ _ _ h]; clear h
    left
    refine ⟨_, rfl, ?_⟩
    simp only [MemProof.encoding, List.append_assoc]
    rw [k0, k1, k2, k3, k4, k5, k6, k7]
    exact (mem_split b hb).symm
  have enc : ∀ p : MemProof Fr G1, p.toBytes pc = .ok b ↔ p.encoding pc = b := by
    intro p
    rw [(C52_mem_layout pc p).1, Except.ok.injEq]
  refine ⟨?_, ?_⟩
  · intro p
    rw [enc]
    constructor
    · intro h
      rcases main with ⟨q, hq, hqe⟩ | hq
      · rw [hq] at h
        rw [← Except.ok.inj (Except.ok.inj h), hqe]
      · rw [hq] at h
        cases Except.ok.inj h
    · intro h
      obtain ⟨e0, e1, e2, e3, e4, e5, e6, e7⟩ := mem_fields pc p b hb h
      unfold MemProof.fromBytes
      rw [bind_ok _ _ _ (lift_slice hb (i := 0) (j := 48) (by omega) (by omega)), e0,
        bind_ok _ _ _ (g1Decode_compress pc _)]
      rw [bind_ok _ _ _ (lift_slice hb (i := 48) (j := 96) (by omega) (by omega)), e1,
        bind_ok _ _ _ (g1Decode_compress pc _)]
      rw [bind_ok _ _ _ (lift_slice hb (i := 96) (j := 144) (by omega) (by omega)), e2,
        bind_ok _ _ _ (g1Decode_compress pc _)]
      rw [bind_ok _ _ _ (lift_slice hb (i := 144) (j := 176) (by omega) (by omega)), e3,
        bind_ok _ _ _ (scDecode_toBe _)]
      rw [bind_ok _ _ _ (lift_slice hb (i := 176) (j := 208) (by omega) (by omega)), e4,
        bind_ok _ _ _ (scDecode_toBe _)]
      rw [bind_ok _ _ _ (lift_slice hb (i := 208) (j := 240) (by omega) (by omega)), e5,
        bind_ok _ _ _ (scDecode_toBe _)]
      rw [bind_ok _ _ _ (lift_slice hb (i := 240) (j := 272) (by omega) (by omega)), e6,
        bind_ok _ _ _ (scDecode_toBe _)]
      rw [bind_ok _ _ _ (lift_slice hb (i := 272) (j := 304) (by omega) (by omega)), e7,
        bind_ok _ _ _ (scDecode_toBe _)]
      rfl
  · rcases main with ⟨q, hq, -⟩ | hq
    · exact .inl ⟨q, hq⟩
    · exact .inr hq

/-- **C52** (round trip, 304 bytes): encoding gives 304 bytes that decode to the same proof. -/
theorem C52_mem_roundtrip (pc : PointCodec G1 48) (p : MemProof Fr G1) :
    ∃ b, p.toBytes pc = .ok b ∧ b.length = 304 ∧
      MemProof.fromBytes pc b = (.ok (.ok p) : Rust (Except String _)) := by
  obtain ⟨h1, h2⟩ := C52_mem_layout pc p
  exact ⟨_, h1, h2, ((C52_mem_decode pc _ h2).1 p).2 h1⟩

/-- **C52** (unique encodings, 304 bytes): two accepted strings that decode to the same proof are equal. -/
theorem C52_mem_unique (pc : PointCodec G1 48) (b b' : Bytes) (hb : b.length = 304) (hb' : b'.length = 304)
    (p : MemProof Fr G1) (h : MemProof.fromBytes pc b = (.ok (.ok p) : Rust (Except String _)))
    (h' : MemProof.fromBytes pc b' = (.ok (.ok p) : Rust (Except String _))) : b = b' := by
  have e := ((C52_mem_decode pc b hb).1 p).1 h
  have e' := ((C52_mem_decode pc b' hb').1 p).1 h'
  rw [e] at e'
  exact Except.ok.inj e'

/-- **C53** (non-membership witness): `to_bytes` gives 80 bytes, never panics, and different witnesses have
different encodings (the crate has no function to read it back). -/
theorem C53_non_membership (pc : PointCodec G1 48) (w w' : NonMembershipWitness Fr G1) :
    (∃ b, w.toBytes pc = .ok b ∧ b.length = 80) ∧ (w.toBytes pc = w'.toBytes pc → w = w') := by
  have hl := pc.length_compress
  have hs := scalarToBe_length
  have e : ∀ w : NonMembershipWitness Fr G1, w.toBytes pc = .ok (pc.compress w.c ++ scalarToBe w.d) := by
    intro w
    unfold NonMembershipWitness.toBytes
    simp only [bind, Except.bind, pure, Except.pure]
    have h0 := copyFromSlice_next [] (pc.compress w.c) 0 48 80 rfl (hl _) (by omega) (by omega)
    rw [List.nil_append, List.nil_append] at h0
    rw [h0]
    simp only
    rw [copyFromSlice_next _ _ _ _ _ (by simp [hl, hs]) (by simp [hl, hs]) (by omega) (by omega)]
    simp
  refine ⟨⟨_, e w, by simp [hl, hs]⟩, ?_⟩
  rw [e, e, Except.ok.injEq]
  intro h
  obtain ⟨h1, h2⟩ := List.append_inj h (by rw [hl, hl])
  have c1 : w.c = w'.c := by
    have := pc.decompress_compress w.c
    rw [h1, pc.decompress_compress] at this
    exact (Option.some.inj this).symm
  have c2 : w.d = w'.d := by
    have := scalarFromBe_toBe w.d
    rw [h2, scalarFromBe_toBe] at this
    exact (Option.some.inj this).symm
  cases w; cases w'; simp_all

end

/-! ### Concrete cases -/

/-- A point codec as assumed exists: scalars padded with 16 zero bytes. -/
def padCodec : PointCodec Fr 48 where
  compress s := List.replicate 16 0 ++ scalarToBe s
  decompress b := if b.length = 48 ∧ b.take 16 = List.replicate 16 0 then scalarFromBe (b.drop 16) else none
  length_compress s := by simp [scalarToBe_length]
  decompress_compress s := by
    simp [scalarToBe_length, scalarFromBe_toBe]
  compress_decompress b p h := by
    split at h
    · rename_i hb
      rw [scalarToBe_fromBe (b.drop 16) (by simp [hb.1]) p h, ← hb.2, List.take_append_drop]
    · cases h

/-- 31 zero bytes and a 5 decode to 5; 32 bytes `0xFF` are rejected; the group order itself is rejected and
not reduced. -/
example : elementTryFrom (List.replicate 31 0 ++ [5]) = .ok 5 ∧
    elementTryFrom (List.replicate 32 255) = .error "invalid byte sequence" ∧
    elementTryFrom (beBytes 32 groupOrder) = .error "invalid byte sequence" := by
  decide +kernel

/-- C53: a coefficient, its 48 bytes, and bytes that are no point. -/
example : pointTryFrom padCodec "invalid byte sequence" (coefficientToBytes padCodec 5) = .ok 5 ∧
    coefficientToBytes padCodec 5 ≠ coefficientToBytes padCodec 6 ∧
    pointTryFrom padCodec "invalid byte sequence" (List.replicate 48 255) = .error "invalid byte sequence" :=
  ⟨((C53_coefficient padCodec).1 5).2, fun h => absurd ((C53_coefficient padCodec).2.2 _ _ h) (by decide +kernel),
    by decide +kernel⟩

end Allo
