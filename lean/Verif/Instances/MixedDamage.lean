import Verif.Props.MixedDamage
import Verif.Instances.MixedLiar

/-!
# Concrete cases of the theorems of `Props/MixedDamage`

The history of `Instances/MixedLiar`; user 3 updates after the first deletion and then at the end.
-/

set_option linter.unusedVariables false
namespace Allo
open Spec Inst User

/-- user 3 with the wrong witness 1 -/
def wrongMixed : User ℚ ℚ ℚ := { user₃ with witness := some ⟨10, 1, 32 / 12⟩ }

example := C120_error_iff (Pairing.field ℚ) params (by decide +kernel) (by decide +kernel) (4 : ℚ) 9 6 opsMixed mixed_safe srvMixed
  runMixed [srvMixed, srvMixed, srvMixed, srvMixed] (by simp) 2 (by inst) (by inst) (cast_ne 4) id (fun _ h => h) wrongMixed
  (by decide +kernel) (by simp [wrongMixed]) (by decide +kernel) (by decide +kernel) 6 (by decide +kernel) (by decide +kernel) urand

/-- user 3 can go through two updates, from any witness at all, and ends in the last epoch -/
theorem mixed_maintained (w : ℚ) : ∃ u', Maintained params (4 : ℚ) 9 6 opsMixed
    { user₃ with witness := some ⟨10, w, 32 / 12⟩ } u' ∧ u'.epoch = 4 := by
  obtain ⟨u₁, V, W, a1, a2, a3, -, -⟩ := C120_error params (4 : ℚ) 9 6 ops₁ (safeFrom_append ops₁ _ _ mixed_safe) srv₁ run₁
    [srv₁, srv₁, srv₁] (by simp) 2 (by inst) (by inst) (cast_ne 3) id (fun _ h => h)
    { user₃ with witness := some ⟨10, w, 32 / 12⟩ } ⟨10, w, 32 / 12⟩ rfl (by show 1 ≤ user₃.epoch; decide +kernel)
    (by show user₃.epoch < _; decide +kernel) 6
    (by show srv₁.accumulators[user₃.epoch - 1]? = _; decide +kernel)
    (by show user₃.id ∉ srv₁.deletions.drop (user₃.epoch - 1); decide +kernel) urand
  obtain ⟨u₂, V', W', b1, b2, b3, -, -⟩ := C120_error params (4 : ℚ) 9 6 opsMixed mixed_safe srvMixed runMixed
    [srvMixed, srvMixed] (by simp) 2 (by inst) (by inst) (cast_ne 2) id (fun _ h => h)
    { u₁ with epoch := srv₁.getEpoch } ⟨10, W, 32 / 12⟩ (by rw [a3]) (by show 1 ≤ srv₁.getEpoch; decide +kernel)
    (by show srv₁.getEpoch < _; decide +kernel) 1
    (by show srvMixed.accumulators[srv₁.getEpoch - 1]? = _; decide +kernel)
    (by rw [a3]; show user₃.id ∉ srvMixed.deletions.drop (srv₁.getEpoch - 1); decide +kernel) urand
  exact ⟨_, .round _ u₁ _ ops₁ (List.prefix_append _ _) srv₁ run₁ (by show user₃.epoch < _; decide +kernel) [srv₁, srv₁, srv₁] (by simp) 2
    (by inst) (by inst) (cast_ne 3) id (fun _ h => h) urand a2
    (.round _ u₂ _ opsMixed (List.prefix_refl _) srvMixed runMixed (by show srv₁.getEpoch < _; decide +kernel)
      [srvMixed, srvMixed] (by simp) 2 (by inst) (by inst) (cast_ne 2) id (fun _ h => h) urand b2 (.done _)),
    by show srvMixed.getEpoch = 4; decide +kernel⟩

/-- the right witness stays right, the wrong one wrong -/
example : (∃ u', Maintained params (4 : ℚ) 9 6 opsMixed user₃ u' ∧
      u'.checkWitness (Pairing.field ℚ) params (1 / 60) = .ok ()) ∧
    ∃ u', Maintained params (4 : ℚ) 9 6 opsMixed wrongMixed u' ∧
      u'.checkWitness (Pairing.field ℚ) params (1 / 60) ≠ .ok () := by
  constructor
  · obtain ⟨u', h, e⟩ := mixed_maintained (6 / 7)
    obtain ⟨Ve, V, h1, h2, h3, -⟩ := C120_chain (Pairing.field ℚ) params (by decide +kernel) (by decide +kernel) 4 9 6 opsMixed
      mixed_safe srvMixed runMixed _ u' h (by show user₃.publicKeys = _; decide +kernel)
      (by show 1 ≤ user₃.epoch; decide +kernel) (by show user₃.epoch ≤ _; decide +kernel)
    rw [show srvMixed.accumulators[({ user₃ with witness := some ⟨10, 6 / 7, 32 / 12⟩ } : User ℚ ℚ ℚ).epoch - 1]? = some 6 by
      decide +kernel] at h1
    rw [e, show srvMixed.accumulators[4 - 1]? = some (1 / 60) by decide +kernel] at h2
    obtain rfl := Option.some.inj h1
    obtain rfl := Option.some.inj h2
    exact ⟨u', h, h3.2 (by decide +kernel)⟩
  · obtain ⟨u', h, e⟩ := mixed_maintained 1
    obtain ⟨Ve, V, h1, h2, h3, -⟩ := C120_chain (Pairing.field ℚ) params (by decide +kernel) (by decide +kernel) 4 9 6 opsMixed
      mixed_safe srvMixed runMixed _ u' h (by show user₃.publicKeys = _; decide +kernel)
      (by show 1 ≤ user₃.epoch; decide +kernel) (by show user₃.epoch ≤ _; decide +kernel)
    rw [show srvMixed.accumulators[({ user₃ with witness := some ⟨10, 1, 32 / 12⟩ } : User ℚ ℚ ℚ).epoch - 1]? = some 6 by
      decide +kernel] at h1
    rw [e, show srvMixed.accumulators[4 - 1]? = some (1 / 60) by decide +kernel] at h2
    obtain rfl := Option.some.inj h1
    obtain rfl := Option.some.inj h2
    exact ⟨u', h, fun hc => absurd (h3.1 hc) (by decide +kernel)⟩

/-- the request after the first deletion -/
def updFirst : UserUpdate ℚ :=
  match user₃.prepareForUpdate id srv₁.getEpoch 4 2 urand with
  | .ok (.ok u) => u
  | _ => ⟨0, [], []⟩
theorem updFirst_eq : user₃.prepareForUpdate id srv₁.getEpoch 4 2 urand = .ok (.ok updFirst) := by decide +kernel

/-- two of the first three servers make the user accept the witness 0 after the first deletion -/
example := C120_damage (Pairing.field ℚ) params (by decide +kernel) (by decide +kernel) 4 9 6 ops₁
  [.quickDelete 1, .add 8, .delete 8] mixed_safe srv₁ srvMixed run₁ (by decide +kernel) id (fun _ h => h) user₃
  ⟨10, 6 / 7, 32 / 12⟩ (by decide +kernel) 4 2 (by inst) (by inst) (cast_ne 4) (by decide +kernel) (by decide +kernel) urand
  updFirst updFirst_eq {0, 1} (by decide +kernel) 1 (by decide +kernel) 0 (by decide +kernel)

end Allo
