import Verif.Props.Real
import Verif.Instances.Rest

/-!
# Concrete cases of the theorems in `Props/Real`: the same data over the scalar field of BLS12-381
-/

set_option linter.unusedVariables false
namespace Allo
open Spec Inst

namespace Bls

def params : AccParams Fr Fr := ⟨1, 1, 2, 3, 1, 5, 7, 11⟩
def ops : List (Server.Op Fr) := [.add 1, .add 2, .add 3, .add 5, .delete 2, .delete 1, .add 8, .delete 5]
def getServer : Rust (Server Fr Fr Fr) → Server Fr Fr Fr
  | .ok s => s
  | .error _ => Server.new params 0 0 0
def srv : Server Fr Fr Fr := getServer ((Server.new params 4 9 6).run ops)
theorem run : (Server.new params 4 9 6).run (ops ++ []) = .ok srv := by decide +kernel
theorem run' : (Server.new params 4 9 6).run ops = .ok srv := by decide +kernel

def user₃ : User Fr Fr Fr := ⟨3, some ⟨10, 6 / 7, 32 / 12⟩, 6, ⟨4, 9⟩, 1⟩
def user₅ : User Fr Fr Fr := ⟨5, some ⟨10, 6 / 9, 32 / 14⟩, 6, ⟨4, 9⟩, 1⟩

theorem synced (n : Nat) (s : Server Fr Fr Fr) : ∀ s' ∈ List.replicate n s,
    s'.accumulators = s.accumulators ∧ s'.deletions = s.deletions := by
  intro s' hs; rw [List.eq_of_mem_replicate hs]; exact ⟨rfl, rfl⟩

def urand (i j : Nat) : Fr := i + 2 * j + 1
def upd₃ : UserUpdate Fr :=
  match user₃.prepareForUpdate id 4 4 2 urand with
  | .ok (.ok u) => u
  | _ => ⟨0, [], []⟩
def honest₃ : List (List Fr × List Fr) := upd₃.yShares.map (fun ys =>
  match srv.update upd₃.epochDiff ys with
  | .ok a => a
  | .error _ => ([], []))
def lying₃ : List (List Fr × List Fr) := honest₃.set 3 (honest₃[3]!.1.map (· + 1), honest₃[3]!.2.map (· + 1))
theorem upd₃_eq : user₃.prepareForUpdate id srv.getEpoch 4 2 urand = .ok (.ok upd₃) := by decide +kernel
theorem honest₃_answers : HonestAnswers srv 4 upd₃ honest₃ := by
  refine ⟨by decide +kernel, ?_⟩
  intro i hi
  have h : ∀ i < 4, srv.update upd₃.epochDiff (upd₃.yShares[i]!) = .ok (honest₃[i]!) ∧
      upd₃.yShares[i]? = some (upd₃.yShares[i]!) ∧ honest₃[i]? = some (honest₃[i]!) := by decide +kernel
  exact ⟨_, _, (h i hi).2.1, (h i hi).2.2, (h i hi).1⟩
theorem lying₃_differs : DiffersOn {3} honest₃ lying₃ := by unfold DiffersOn; decide +kernel

variable (rand : Nat → Nat → Fr)

example := C25_bls (Pairing.field Fr) params (by decide +kernel) (by decide +kernel) 4 9 6 ops [] (by decide +kernel) (by simp) srv run
  (List.replicate 4 srv) (synced 4 srv) 3 (by inst) (by inst) (by inst) id (fun _ h => h) user₃ (by decide +kernel) (by inst)
  (by decide +kernel) 6 (by decide +kernel) (by decide +kernel) (by decide +kernel) rand
example := C26_bls params 4 9 6 ops srv run' (List.replicate 4 srv) (synced 4 srv) 3 (by inst) (by inst) (by inst) id
  (fun _ h => h) user₅ (by simp [user₅]) (by inst) (by decide +kernel) rand
example := C33_bls 3 5 (by inst) (by inst) (by inst) 7 (fun i => i + 2)
example := C37_bls id (fun _ h => h) user₃ user₅ 4 4 3 (by inst) (by inst) (by inst) (by inst) rfl {0, 3} (by inst)
  (by inst) 4 (by decide +kernel) 5 (by inst) (fun i => if i = 0 then some [1, 2, 3] else some [4, 5, 6])
example := C38_bls params 4 9 6 ops [] (by decide +kernel) (by simp) srv run id (fun _ h => h) user₃ 4 2 (by inst) (by inst)
  (by inst) (by inst) (by decide +kernel) urand upd₃ upd₃_eq (6 / 7) 6 (by decide +kernel)
  (by show _ = _; decide +kernel) honest₃ lying₃ honest₃_answers {3} lying₃_differs (by decide +kernel)
  (1 / 315) (by decide +kernel)

/-- a world: 1, 2 and 3 are added, 1 joins and enrols, 2 is deleted, 3 is deleted with
`quick_delete` -/
theorem exWorldFr : ∃ (w : World Fr Fr Fr) (u : User Fr Fr Fr),
    World.Reach (Pairing.field Fr) (fun _ _ => 1) (⟨fun _ => [], fun _ => [], fun _ => []⟩ : Enc Fr Fr Fr) params Nat.sqrt 4 9 6 w ∧
    w.users 0 = some u ∧ u.witness ≠ none ∧ w.updated 0 = false ∧ u.epoch < w.srv.getEpoch := by
  have h1 : (Server.new params 4 9 6).run [.add 1, .add 2, .add 3]
      = .ok (getServer ((Server.new params 4 9 6).run [.add 1, .add 2, .add 3])) := by decide +kernel
  generalize hs : getServer ((Server.new params 4 9 6).run [.add 1, .add 2, .add 3]) = s at h1
  have h2 : s.run [.delete 2, .quickDelete 3] = .ok (getServer (s.run [.delete 2, .quickDelete 3])) := by
    subst hs; decide +kernel
  generalize hs' : getServer (s.run [.delete 2, .quickDelete 3]) = s' at h2
  have hnew : User.new s 1 = .ok ⟨1, none, 6, s.getPublicKeys, s.getEpoch⟩ := by subst hs; decide +kernel
  have hid : (1 : Fr) ∈ s.ids := by subst hs; decide +kernel
  have he : s.getEpoch < s'.getEpoch := by subst hs'; subst hs; decide +kernel
  obtain ⟨C, R, -, -, hcw⟩ := C55_complete (fun _ _ => 1) (⟨fun _ => [], fun _ => [], fun _ => []⟩ : Enc Fr Fr Fr)
    params s 6 (by subst hs; decide +kernel) ⟨1, none, 6, s.getPublicKeys, s.getEpoch⟩ hid (by subst hs; decide +kernel) 10 20
  have r1 := World.reach_run [.add 1, .add 2, .add 3] (C120_careful_covers [.add 1, .add 2, .add 3] []
    (by simp [Server.Op.isQuick]) (by simp)) (World.Reach.init (E := Pairing.field Fr) (H := fun _ _ => 1)
    (enc := (⟨fun _ => [], fun _ => [], fun _ => []⟩ : Enc Fr Fr Fr)) (seed := Nat.sqrt)) h1
  have r2 := r1.step _ _ (.join _ 0 1 _ hnew)
  have r3 := r2.step _ _ (.enrol _ 0 _ _ 10 20 rfl hcw (Or.inl (by simp [Server.Op.isQuick])))
  have r4 := World.reach_run _ (C120_careful_covers [.add 1, .add 2, .add 3, .delete 2] [.quickDelete 3]
    (by simp [Server.Op.isQuick]) (by simp [Server.Op.isDelete])) r3 h2
  exact ⟨_, _, r4, rfl, by simp, if_pos hid, he⟩

example : ∃ w : World Fr Fr Fr, ∃ u V, w.users 0 = some u ∧ w.srv.getAccumulator = .ok V := by
  obtain ⟨w, u, hr, hu, hw, hup, he⟩ := exWorldFr
  obtain ⟨V, hV, -⟩ := C57_bls (Pairing.field Fr) _ _ params (by decide +kernel) (by decide +kernel) Nat.sqrt
    (fun d hd => Nat.sqrt_pos.2 hd) rfl 4 9 6 w hr 0 u hu hw hup he (List.replicate 3 w.srv) (synced 3 w.srv) 2 (by inst)
    (by inst) (by inst) rand
  exact ⟨w, u, V, hu, hV⟩

end Bls
end Allo
