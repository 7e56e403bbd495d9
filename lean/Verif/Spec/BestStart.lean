import Verif.Spec.Start
import Verif.Model.SeedDriver

/-!
# Specification: the best of several k-means++ starts
-/

namespace Knor.Spec

open Knor.Driver

variable {R S : Type _} {k n : Nat}

/-- The engine before start `i`, if every start draws one row and `k` numbers. -/
def seedAt (rng : Rng R S k) : Nat → S
  | 0 => rng.seed
  | i + 1 => (fun s => (rng.unit s).2)^[k] (rng.row (seedAt rng i)).2

/-- The sum over the rows of the distance to the nearest centre. -/
def EnergyIs [AddCommMonoid R] [LE R] (dist : (Fin n → R) → (Fin n → R) → R) (data : Nat → Fin n → R) (N : Nat)
    (cents : Fin k → Fin n → R) (e : R) : Prop :=
  ∃ near : Nat → Fin k, (∀ r, r < N → IsNearest (fun c => dist (data r) (cents c)) (near r)) ∧
    e = ∑ r ∈ Finset.range N, dist (data r) (cents (near r))

/-- The result of `nstart` starts.  Start `i` samples the centres `cents i` by k-means++, with the engine where the
start before left it, and has the energy `en i`.  The reported start, counted from one, is the first one of the lowest
energy; energy and centres are that start's, every row has a nearest centre, and the sizes are those of the clusters. -/
def DeliversBest [Field R] [LinearOrder R] (dist : (Fin n → R) → (Fin n → R) → R) (data : Nat → Fin n → R) (N : Nat)
    (rng : Rng R S k) (nstart idx : Nat) (energy : R) (means : Fin k → Fin n → R) (assign : Nat → Option (Fin k))
    (sizes : Fin k → Int) : Prop :=
  ∃ (cents : Nat → Fin k → Fin n → R) (en : Nat → R),
    (∀ i, i < nstart → StartsAt .plusplus dist data N { rng with seed := seedAt rng i } none (cents i) ∧
      EnergyIs dist data N (cents i) (en i)) ∧
    1 ≤ idx ∧ idx ≤ nstart ∧
    (∀ i, i < nstart → en (idx - 1) ≤ en i) ∧ (∀ i, i < idx - 1 → en (idx - 1) < en i) ∧
    energy = en (idx - 1) ∧ means = cents (idx - 1) ∧
    (∀ r, r < N → ∃ c, assign r = some c ∧ IsNearest (fun c => dist (data r) (means c)) c) ∧
    ∀ c, sizes c = (Spec.count N assign c : Int)

end Knor.Spec
