import Verif.Model.Hashing

/-!
# C54: hash inputs are separated

The hash functions map into finite sets, so they have collisions, and "without a collision" cannot be the
hypothesis that they are injective. The theorems speak of the strings that are hashed instead: each value
is the hash of a string (with its domain tag, for points of G1), and those strings are different. The strings
are obtained by running the code with the hash that returns its input: `id` for scalars, `Prod.mk`
(tag and message) for points; each theorem says that the value for an arbitrary hash is the hash of that
string. So two equal values either come from equal inputs or exhibit a collision between the two strings named.
-/

set_option linter.unusedVariables false
set_option linter.unusedSimpArgs false
namespace Allo

/-- Scalars. Without a collision: keys from different seeds differ, elements from different data
differ, and no key is an element. -/
theorem scalars_of_injective {F : Type} (H : Bytes → F) (hH : Function.Injective H) (seed seed' d d' rng rng' : Bytes) :
    (SecretKey.new H (some seed) rng = SecretKey.new H (some seed') rng' ↔ seed = seed') ∧
    (Element.hash H d rng = Element.hash H d' rng' ↔ d = d') ∧
    SecretKey.new H (some seed) rng ≠ Element.hash H d rng' := by
  refine ⟨?_, ?_, ?_⟩
  · simp only [SecretKey.new, generateFr, hH.eq_iff, List.append_cancel_left_eq]
  · simp only [Element.hash, generateFr, hH.eq_iff, List.append_cancel_left_eq]
  · simp only [SecretKey.new, Element.hash, generateFr, ne_eq, hH.eq_iff]
    intro h
    have h7 := congrArg (fun l : Bytes => l[7]?) h
    rw [List.getElem?_append_left (by decide +kernel), List.getElem?_append_left (by decide +kernel)] at h7
    revert h7
    decide +kernel

/-- **C54** (random values). A random element is the hash of the random bytes drawn, and a random key the key of
that seed: the entropy must not be published, and `Element::hash` of it gives the same element. -/
theorem C54_random_is_hash {F : Type} (H : Bytes → F) (rng rng' : Bytes) :
    Element.random H rng = Element.hash H rng rng' ∧ SecretKey.new H none rng = SecretKey.new H (some rng) rng' :=
  ⟨rfl, rfl⟩

/-- The four strings hashed by `ProofParams::new`: 32 fixed bytes, of which the first tells the parameter,
then the entropy, then the key. -/
def paramInput (first : UInt8) (entropy pkBytes : Bytes) : Bytes :=
  first :: (List.replicate 31 0xFF ++ entropy ++ pkBytes)

theorem paramInput_inj {a a' : UInt8} {e e' p p' : Bytes} (hp : p.length = p'.length) :
    paramInput a e p = paramInput a' e' p' ↔ a = a' ∧ e = e' ∧ p = p' := by
  unfold paramInput
  constructor
  · intro h
    rw [List.cons.injEq] at h
    obtain ⟨h1, h2⟩ := h
    rw [List.append_assoc, List.append_assoc, List.append_cancel_left_eq] at h2
    have hl := congrArg List.length h2
    rw [List.length_append, List.length_append] at hl
    obtain ⟨h3, h4⟩ := List.append_inj h2 (by omega)
    exact ⟨h1, h3, h4⟩
  · rintro ⟨rfl, rfl, rfl⟩; rfl

/-- What `ProofParams::new` hashes. -/
theorem ProofParams.new_eq {G1 : Type} (h1 : Bytes → Bytes → G1) (pk : Bytes) (entropy : Option Bytes) :
    ProofParams.new h1 pk entropy =
      { z := hashToG1 h1 (paramInput 0xFF (entropy.getD []) pk)
        y := hashToG1 h1 (paramInput 0xFE (entropy.getD []) pk)
        x := hashToG1 h1 (paramInput 0xFD (entropy.getD []) pk)
        k := hashToG1 h1 (paramInput 0xFC (entropy.getD []) pk) } := rfl

/-- The four points of the parameters. -/
def ProofParams.points {G1 : Type} (p : ProofParams G1) : List G1 := [p.x, p.y, p.z, p.k]

/-- The five hashed G1 points of the ALLOSAUR parameters. -/
def AccParams.hashedPoints {G1 G2 : Type} (p : AccParams G1 G2) : List G1 := [p.k0, p.k1, p.x1, p.y1, p.z1]

/-- Proof parameters. Without a collision the four points of the proof parameters are different. -/
theorem params_distinct_of_injective {G1 : Type} (h1 : Bytes → Bytes → G1)
    (hh : Function.Injective (fun p : Bytes × Bytes => h1 p.1 p.2)) (pk : Bytes) (entropy : Option Bytes) :
    (ProofParams.new h1 pk entropy).points.Nodup := by
  have inj : ∀ a b : Bytes, hashToG1 h1 a = hashToG1 h1 b ↔ a = b := by
    intro a b
    refine ⟨fun h => ?_, fun h => by rw [h]⟩
    exact (Prod.mk.inj (hh (a₁ := (_, a)) (a₂ := (_, b)) h)).2
  rw [ProofParams.new_eq]
  simp only [ProofParams.points, List.nodup_cons, List.mem_cons, List.not_mem_nil, or_false, inj,
    paramInput_inj rfl, List.nodup_nil]
  clear inj
  decide

/-- Proof parameters of different keys and entropies. Without a collision a point of the parameters for
one key and entropy is also a point of the parameters for another key (of the same, fixed, encoding length)
and entropy only if the keys are equal and the entropies are equal (an absent entropy counts as an empty
one); so different keys or entropies have parameters with no point in common. -/
theorem params_injective_of_injective {G1 : Type} (h1 : Bytes → Bytes → G1)
    (hh : Function.Injective (fun p : Bytes × Bytes => h1 p.1 p.2)) (pk pk' : Bytes)
    (hl : pk.length = pk'.length) (entropy entropy' : Option Bytes) :
    (∃ g, g ∈ (ProofParams.new h1 pk entropy).points ∧ g ∈ (ProofParams.new h1 pk' entropy').points) ↔
      pk = pk' ∧ entropy.getD [] = entropy'.getD [] := by
  have inj : ∀ a b : Bytes, hashToG1 h1 a = hashToG1 h1 b ↔ a = b := by
    intro a b
    refine ⟨fun h => ?_, fun h => by rw [h]⟩
    exact (Prod.mk.inj (hh (a₁ := (_, a)) (a₂ := (_, b)) h)).2
  rw [ProofParams.new_eq, ProofParams.new_eq]
  simp only [ProofParams.points, List.mem_cons, List.not_mem_nil, or_false]
  constructor
  · rintro ⟨g, rfl | rfl | rfl | rfl, h⟩ <;>
      simp only [inj, paramInput_inj hl] at h <;>
      rcases h with h | h | h | h <;> exact ⟨h.2.2, h.2.1⟩
  · rintro ⟨rfl, h⟩
    rw [h]
    exact ⟨_, .inl rfl, .inl rfl⟩

/-- ALLOSAUR parameters. Without a collision the hashed points of `AccParams::default` are different
from each other, from every point of proof parameters, and from every random accumulator; a random
accumulator (64 bytes hashed) is never a point of proof parameters for a 96-byte key. -/
theorem acc_params_of_injective {G1 G2 : Type} (h1 : Bytes → Bytes → G1) (h2 : Bytes → Bytes → G2) (gen1 : G1)
    (gen2 : G2) (hh : Function.Injective (fun p : Bytes × Bytes => h1 p.1 p.2)) :
    let params := AccParams.default h1 h2 gen1 gen2
    params.hashedPoints.Nodup ∧
    (∀ (pk : Bytes) (entropy : Option Bytes), pk.length = 96 →
      (∀ g ∈ params.hashedPoints, g ∉ (ProofParams.new h1 pk entropy).points) ∧
      ∀ buffer : Bytes, buffer.length = 64 →
        Accumulator.random h1 buffer ∉ (ProofParams.new h1 pk entropy).points) ∧
    ∀ buffer : Bytes, Accumulator.random h1 buffer ∉ params.hashedPoints := by
  have inj : ∀ a b c d : Bytes, h1 a b = h1 c d ↔ a = c ∧ b = d := by
    intro a b c d
    refine ⟨fun h => Prod.mk.inj (hh (a₁ := (a, b)) (a₂ := (c, d)) h), ?_⟩
    rintro ⟨rfl, rfl⟩; rfl
  have hd : ascii "BLS12381G1_XMD:SHA-256_SSWU_RO_" ≠
      ascii "BLS12381G1_XMD:SHA256_SSWU_RO_VB_ACCUMULATOR:1_0_0" := by decide +kernel
  intro params
  refine ⟨?_, ?_, ?_⟩
  · simp only [params, AccParams.hashedPoints, AccParams.default, List.nodup_cons, List.mem_cons,
      List.not_mem_nil, or_false, inj, true_and, List.nodup_nil]
    clear inj
    decide
  · intro pk entropy hpk
    refine ⟨?_, ?_⟩
    · intro g hg
      simp only [params, AccParams.hashedPoints, AccParams.default, List.mem_cons, List.not_mem_nil,
        or_false] at hg
      rw [ProofParams.new_eq]
      simp only [ProofParams.points, List.mem_cons, List.not_mem_nil, or_false, hashToG1]
      rcases hg with rfl | rfl | rfl | rfl | rfl <;> simp only [inj, hd, false_and, or_self, not_false_eq_true]
    · intro buffer hb
      rw [ProofParams.new_eq]
      simp only [ProofParams.points, List.mem_cons, List.not_mem_nil, or_false, hashToG1, Accumulator.random,
        inj, true_and]
      have : ∀ a, buffer ≠ paramInput a (entropy.getD []) pk := by
        intro a h
        have := congrArg List.length h
        simp [paramInput, hb, hpk] at this
      simp only [this, or_self, not_false_eq_true]
  · intro buffer
    simp only [params, AccParams.hashedPoints, AccParams.default, List.mem_cons, List.not_mem_nil,
      or_false, Accumulator.random, hashToG1, inj, Ne.symm hd, false_and, or_self, not_false_eq_true]

/-! ### The theorems -/

theorem pairInjective : Function.Injective (fun p : Bytes × Bytes => Prod.mk p.1 p.2) := fun _ _ h => h

/-- **C54** (scalars). Keys and elements are hashes of strings which determine the seed or the datum and also
whether the value is a key or an element: the strings of different seeds differ, those of different data differ, and
no string of a key is the string of an element. -/
theorem C54_scalars :
    ∃ keyString elementString : Bytes → Bytes,
      Function.Injective keyString ∧ Function.Injective elementString ∧
      (∀ seed d, keyString seed ≠ elementString d) ∧
      ∀ (F : Type) (H : Bytes → F) (seed d rng : Bytes),
        SecretKey.new H (some seed) rng = H (keyString seed) ∧
        Element.hash H d rng = H (elementString d) := by
  have inj := scalars_of_injective (id : Bytes → Bytes) Function.injective_id
  refine ⟨fun s => SecretKey.new id (some s) [], fun d => Element.hash id d [], ?_, ?_, ?_, ?_⟩
  · intro a b h; exact (inj a b [] [] [] []).1.1 h
  · intro a b h; exact (inj [] [] a b [] []).2.1.1 h
  · intro s d; exact (inj s s d d [] []).2.2
  · intro F H seed d rng; exact ⟨rfl, rfl⟩

/-- **C54** (proof parameters). The four points of the proof parameters are the hashes of four different
(tag, message) pairs. -/
theorem C54_params_distinct {G1 : Type} (h1 : Bytes → Bytes → G1) (pk : Bytes) (entropy : Option Bytes) :
    let hashed := (ProofParams.new Prod.mk pk entropy).points
    (ProofParams.new h1 pk entropy).points = hashed.map (fun p => h1 p.1 p.2) ∧
    hashed.length = 4 ∧ hashed.Nodup :=
  ⟨rfl, rfl, params_distinct_of_injective Prod.mk pairInjective pk entropy⟩

/-- **C54** (proof parameters of different keys and entropies). A string hashed for the parameters of one key and
entropy is also hashed for the parameters of another key (of the same, fixed, encoding length) and entropy only
if the keys are equal and the entropies are equal (an absent entropy counts as an empty one). -/
theorem C54_params_injective (pk pk' : Bytes) (hl : pk.length = pk'.length) (entropy entropy' : Option Bytes) :
    (∃ s, s ∈ (ProofParams.new Prod.mk pk entropy).points ∧ s ∈ (ProofParams.new Prod.mk pk' entropy').points) ↔
      pk = pk' ∧ entropy.getD [] = entropy'.getD [] :=
  params_injective_of_injective Prod.mk pairInjective pk pk' hl entropy entropy'

/-- **C54** (ALLOSAUR parameters). The five hashed points of `AccParams::default` are the hashes of five different
(tag, message) pairs, none of which is hashed for any proof parameters or any random accumulator; the string
hashed for a random accumulator (64 bytes) is never hashed for proof parameters of a 96-byte key. -/
theorem C54_acc_params {G1 G2 : Type} (h1 : Bytes → Bytes → G1) (h2 : Bytes → Bytes → G2) (gen1 : G1)
    (gen2 : G2) :
    let hashed := (AccParams.default Prod.mk h2 (([], []) : Bytes × Bytes) gen2).hashedPoints
    (AccParams.default h1 h2 gen1 gen2).hashedPoints = hashed.map (fun p => h1 p.1 p.2) ∧
    hashed.length = 5 ∧ hashed.Nodup ∧
    (∀ (pk : Bytes) (entropy : Option Bytes), pk.length = 96 →
      (∀ s ∈ hashed, s ∉ (ProofParams.new Prod.mk pk entropy).points) ∧
      ∀ buffer : Bytes, buffer.length = 64 →
        Accumulator.random Prod.mk buffer ∉ (ProofParams.new Prod.mk pk entropy).points) ∧
    ∀ buffer : Bytes, Accumulator.random Prod.mk buffer ∉ hashed ∧
      Accumulator.random h1 buffer =
        h1 (Accumulator.random Prod.mk buffer : Bytes × Bytes).1 (Accumulator.random Prod.mk buffer : Bytes × Bytes).2 := by
  have h := acc_params_of_injective Prod.mk h2 (([], []) : Bytes × Bytes) gen2 pairInjective
  exact ⟨rfl, rfl, h.1, h.2.1, fun b => ⟨h.2.2 b, rfl⟩⟩

/-- **C54** (random accumulators). Different 64-byte draws give different strings to hash. -/
theorem C54_random_accumulator (buffer buffer' : Bytes) :
    Accumulator.random Prod.mk buffer = (Accumulator.random Prod.mk buffer' : Bytes × Bytes) ↔ buffer = buffer' := by
  constructor
  · intro h; exact (Prod.mk.inj h).2
  · rintro rfl; rfl

/-- **C54** (the strings, literally). Two implementations that agree on the hash functions agree on every key,
element, parameter and random accumulator: the inputs of the hash functions are these byte strings, and nothing else
enters. -/
theorem C54_exact {F G1 G2 : Type} (H : Bytes → F) (h1 : Bytes → Bytes → G1) (h2 : Bytes → Bytes → G2) (gen1 : G1)
    (gen2 : G2) (seed d rng pk buffer : Bytes) (entropy : Option Bytes) :
    let ones : Bytes := List.replicate 31 255
    let hash (m : Bytes) : G1 := h1 (ascii "BLS12381G1_XMD:SHA256_SSWU_RO_VB_ACCUMULATOR:1_0_0") m
    let gen (m : Bytes) : G1 := h1 (ascii "BLS12381G1_XMD:SHA-256_SSWU_RO_") m
    let tail : Bytes := ones ++ entropy.getD [] ++ pk
    SecretKey.new H (some seed) rng = H (ascii "VB-ACC-KEYGEN-SALT-" ++ seed) ∧
    SecretKey.new H none rng = H (ascii "VB-ACC-KEYGEN-SALT-" ++ rng) ∧
    Element.hash H d rng = H (ascii "VB-ACC-HASH-SALT-" ++ d) ∧
    Element.random H rng = H (ascii "VB-ACC-HASH-SALT-" ++ rng) ∧
    Accumulator.random h1 buffer = hash buffer ∧
    AccParams.default h1 h2 gen1 gen2 =
      { p1 := gen1, p2 := gen2, k0 := gen (255 :: ones), k1 := gen (254 :: ones),
        k2 := h2 (ascii "BLS12381G2_XMD:SHA-256_SSWU_RO_") (253 :: ones), x1 := gen (252 :: ones),
        y1 := gen (251 :: ones), z1 := gen (250 :: ones) } ∧
    ProofParams.new h1 pk entropy =
      { z := hash (255 :: tail), y := hash (254 :: tail), x := hash (253 :: tail), k := hash (252 :: tail) } :=
  ⟨rfl, rfl, rfl, rfl, rfl, rfl, rfl⟩

/-! ### Concrete cases: what is hashed -/

example : Accumulator.random Prod.mk [7] =
    (ascii "BLS12381G1_XMD:SHA256_SSWU_RO_VB_ACCUMULATOR:1_0_0", ([7] : Bytes)) := rfl
example : (ProofParams.new Prod.mk [9] (some [5])).y =
    (ascii "BLS12381G1_XMD:SHA256_SSWU_RO_VB_ACCUMULATOR:1_0_0", paramInput 0xFE [5] [9]) := rfl
example : Element.hash id [1, 2] [] = ascii "VB-ACC-HASH-SALT-" ++ [1, 2] := rfl

end Allo
