import Verif.Model.Field
import Verif.Props.Update
import Verif.Props.Secrecy
import Verif.Props.Silent
import Verif.Props.World

/-!
# The main theorems over the scalar field the crate uses

The theorems about sharing ask that the points `1..n` are not zero in the field. Over the scalar
field of BLS12-381 this holds for every number of servers that fits in a 64-bit `usize`.
-/

set_option linter.unusedSectionVars false
set_option linter.unusedVariables false
namespace Allo
open Spec Finset User

/-- The points `1..n` are not zero for every `n` that fits in a `usize`. -/
theorem Fr.usize_points {n : Nat} (hn : n < 2 ^ 64) : ∀ i, 0 < i → i ≤ n → (i : Fr) ≠ 0 := by
  intro i h0 h1
  apply Fr.natCast_ne_zero h0
  have : 2 ^ 64 < groupOrder := by decide +kernel
  omega

section
variable {G1 G2 GT : Type} [AddCommGroup G1] [Module Fr G1] [DecidableEq G1] [AddCommGroup G2] [Module Fr G2]
  [AddCommGroup GT] [Module Fr GT] [DecidableEq GT]

/-- **C25** over the scalar field of BLS12-381. -/
theorem C25_bls (E : Pairing Fr G1 G2 GT) (params : AccParams G1 G2) (hP : params.p2 ≠ 0)
    (hK : params.k2 ≠ 0) (α sM v : Fr) (ops₁ ops₂ : List (Server.Op Fr))
    (h₁ : ∀ op ∈ ops₁, op.isQuick = false) (h₂ : ∀ op ∈ ops₂, op.isDelete = false)
    (srv : Server Fr G1 G2) (h : (Server.new params α sM v).run (ops₁ ++ ops₂) = .ok srv)
    (servers : List (Server Fr G1 G2))
    (hs : ∀ s' ∈ servers, s'.accumulators = srv.accumulators ∧ s'.deletions = srv.deletions)
    (t : Nat) (ht : 2 ≤ t) (hn : t ≤ servers.length) (hlen : servers.length < 2 ^ 64)
    (seed : Nat → Nat) (hseed : ∀ d, 1 ≤ d → 1 ≤ seed d) (u : User Fr G1 G2)
    (hu : u.publicKeys = srv.getPublicKeys) (he1 : 1 ≤ u.epoch) (he2 : u.epoch < srv.getEpoch)
    (Ve : G1) (hVe : srv.accumulators[u.epoch - 1]? = some Ve)
    (hw : u.checkWitness E params Ve = .ok ())
    (hid : u.id ∉ srv.deletions.drop (u.epoch - 1)) (rand : Nat → Nat → Fr) :
    ∃ u' V, srv.getAccumulator = .ok V ∧ u.update seed servers t rand = .ok (u', .ok ()) ∧
      u'.checkWitness E params V = .ok () ∧ u'.accumulator = V ∧ u'.id = u.id ∧
      u'.publicKeys = u.publicKeys :=
  C25_update E params hP hK α sM v ops₁ ops₂ h₁ h₂ srv h servers hs t ht hn (Fr.usize_points hlen) seed
    hseed u hu he1 he2 Ve hVe hw hid rand

/-- **C26** over the scalar field of BLS12-381. -/
theorem C26_bls (params : AccParams G1 G2) (α sM v : Fr) (ops : List (Server.Op Fr))
    (srv : Server Fr G1 G2) (h : (Server.new params α sM v).run ops = .ok srv)
    (servers : List (Server Fr G1 G2))
    (hs : ∀ s' ∈ servers, s'.accumulators = srv.accumulators ∧ s'.deletions = srv.deletions)
    (t : Nat) (ht : 2 ≤ t) (hn : t ≤ servers.length) (hlen : servers.length < 2 ^ 64)
    (seed : Nat → Nat) (hseed : ∀ d, 1 ≤ d → 1 ≤ seed d) (u : User Fr G1 G2) (hw : u.witness ≠ none)
    (he1 : 1 ≤ u.epoch) (hid : u.id ∈ srv.deletions.drop (u.epoch - 1)) (rand : Nat → Nat → Fr) :
    u.update seed servers t rand = .ok (u, .error "user has been deleted") :=
  C26_deleted params α sM v ops srv h servers hs t ht hn (Fr.usize_points hlen) seed hseed u hw he1 hid rand

/-- **C33** over the scalar field of BLS12-381. -/
theorem C33_bls (t n : Nat) (ht : 1 ≤ t) (hn : t ≤ n) (hlen : n < 2 ^ 64) (secret : Fr) (coef : Nat → Fr) :
    ∃ shares cs ch, shamirShare t n secret coef = .ok shares ∧
      shamirCoefficients t shares = .ok (cs, ch) ∧ (ch.isSome ↔ t < n) ∧
      shamirRebuildScalar shares cs ch = .ok (some secret) ∧
      shamirRebuildScalar shares cs none = .ok (some secret) :=
  C33_round_trip t n ht hn (Fr.usize_points hlen) secret coef

/-- **C37** over the scalar field of BLS12-381: the number of random choices that give the servers in `I` a
certain view is finite and the same for both ids. -/
theorem C37_bls (seed : Nat → Nat) (hseed : ∀ d, 1 ≤ d → 1 ≤ seed d) (u u' : User Fr G1 G2)
    (newEpoch n t : Nat) (ht : 2 ≤ t) (hn : t ≤ n) (hlen : n < 2 ^ 64)
    (he : u.epoch < newEpoch) (hee : u'.epoch = u.epoch) (I : Finset Nat) (hI : ∀ i ∈ I, i < n)
    (hcard : I.card < t) (k : Nat)
    (hk : chunkSize (newEpoch - u.epoch) (seed (newEpoch - u.epoch)) = .ok k) (m : Nat) (hm : k - 1 ≤ m)
    (view : Nat → Option (List Fr)) :
    Finite (Fin m → Fin (t - 1) → Fr) ∧
    Nat.card {r : Fin m → Fin (t - 1) → Fr // ∃ upd,
        u.prepareForUpdate seed newEpoch n t (extRand m t r) = .ok (.ok upd) ∧
        ∀ i ∈ I, upd.yShares[i]? = view i}
      = Nat.card {r : Fin m → Fin (t - 1) → Fr // ∃ upd,
        u'.prepareForUpdate seed newEpoch n t (extRand m t r) = .ok (.ok upd) ∧
        ∀ i ∈ I, upd.yShares[i]? = view i} :=
  ⟨inferInstance, C37_equal_counts seed hseed u u' newEpoch n t ht hn (Fr.usize_points hlen) he hee I hI
    hcard k hk m hm view⟩

/-- **C38** over the scalar field of BLS12-381. -/
theorem C38_bls (params : AccParams G1 G2) (α sM v : Fr)
    (ops₁ ops₂ : List (Server.Op Fr)) (h₁ : ∀ op ∈ ops₁, op.isQuick = false)
    (h₂ : ∀ op ∈ ops₂, op.isDelete = false) (srv : Server Fr G1 G2)
    (h : (Server.new params α sM v).run (ops₁ ++ ops₂) = .ok srv) (seed : Nat → Nat)
    (hseed : ∀ d, 1 ≤ d → 1 ≤ seed d) (u : User Fr G1 G2) (n t : Nat) (ht : 2 ≤ t) (hn : t < n)
    (hlen : n < 2 ^ 64) (he1 : 1 ≤ u.epoch) (he2 : u.epoch < srv.getEpoch)
    (rand : Nat → Nat → Fr) (upd : UserUpdate Fr)
    (hp : u.prepareForUpdate seed srv.getEpoch n t rand = .ok (.ok upd)) (w : G1) (Ve : G1)
    (hVe : srv.accumulators[u.epoch - 1]? = some Ve) (hw : IsWitness α Ve u.id w)
    (honest ans : List (List Fr × List G1)) (hhon : HonestAnswers srv n upd honest) (L : Finset Nat)
    (hdiff : DiffersOn L honest ans) (hL : (L.filter (· ≤ t)).card ≤ 1) (W : G1)
    (hok : postUpdate w t upd.yShares upd.yValues ans = .ok (.ok W)) :
    ∃ V, srv.getAccumulator = .ok V ∧ IsWitness α V u.id W ∧ u.id ∉ srv.deletions.drop (u.epoch - 1) :=
  C38_accepted_is_valid params α sM v ops₁ ops₂ h₁ h₂ srv h seed hseed u n t ht hn (Fr.usize_points hlen)
    he1 he2 rand upd hp w Ve hVe hw honest ans hhon L hdiff hL W hok

/-- **C57** over the scalar field of BLS12-381. -/
theorem C57_bls (E : Pairing Fr G1 G2 GT) (H : Oracle Fr) (enc : Enc G1 G2 GT)
    (params : AccParams G1 G2) (hP : params.p2 ≠ 0) (hK : params.k2 ≠ 0) (seed : Nat → Nat)
    (hseed : ∀ d, 1 ≤ d → 1 ≤ seed d) (hseed0 : seed 0 = 0) (α sM v : Fr) (w : World Fr G1 G2)
    (h : World.Reach E H enc params seed α sM v w) (i : Nat) (u : User Fr G1 G2)
    (hu : w.users i = some u) (hw : u.witness ≠ none) (hf : w.updated i = false)
    (hlt : u.epoch < w.srv.getEpoch) (servers : List (Server Fr G1 G2))
    (hs : ∀ s' ∈ servers, s'.accumulators = w.srv.accumulators ∧ s'.deletions = w.srv.deletions)
    (t : Nat) (ht : 2 ≤ t) (hn : t ≤ servers.length) (hlen : servers.length < 2 ^ 64)
    (rand : Nat → Nat → Fr) :
    ∃ V, w.srv.getAccumulator = .ok V ∧
      (u.id ∉ w.srv.deletions.drop (u.epoch - 1) → ∃ u', u.update seed servers t rand = .ok (u', .ok ()) ∧
        u'.checkWitness E params V = .ok () ∧ u'.accumulator = V) ∧
      (u.id ∈ w.srv.deletions.drop (u.epoch - 1) →
        u.update seed servers t rand = .ok (u, .error "user has been deleted")) :=
  C57_update_succeeds E H enc params hP hK seed hseed hseed0 α sM v w h i u hu hw hf hlt servers hs t ht hn
    (Fr.usize_points hlen) rand

end

/-- The assumptions about groups and pairing can be met over this field. -/
example : Pairing Fr Fr Fr Fr := Pairing.field Fr

end Allo
