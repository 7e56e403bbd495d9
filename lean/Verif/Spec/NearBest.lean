import Verif.Spec.BestStart
import Verif.Spec.NearStart

/-!
# Specification: the best of several k-means++ starts, up to rounding

Independent of the code: the promises of Spec/BestStart.lean when the numbers are rounded.
-/

namespace Knor.Spec

open Knor.Driver

variable {R S : Type _} {k n : Nat}

/-- `e` is the sum over the rows of the distance to the nearest centre (`EnergyIs`), up to a relative error `ε` and an
absolute error `ω`. -/
def NearEnergy (dist : (Fin n → ℝ) → (Fin n → ℝ) → ℝ) (ε ω : ℝ) (data : Nat → Fin n → ℝ) (N : Nat)
    (cents : Fin k → Fin n → ℝ) (e : ℝ) : Prop :=
  ∃ E, EnergyIs dist data N cents E ∧ |e - E| ≤ ε * E + ω

/-- The result of `nstart` starts with `T` threads on doubles (compare `DeliversBest`).  Start `i` samples the centres
`cents i` by k-means++ up to rounding, with the engine where the start before left it, and computes the energy `en i`.
The reported start, counted from one, is the first one of the lowest computed energy; energy and centres are that
start's, every row has a centre that is nearest up to rounding, and the sizes are exactly those of the clusters. -/
def NearDeliversBest [Zero R] (fin : R → Prop) (val : R → ℝ) (met : Dist.Metric) (data : Nat → Fin n → R) (N T : Nat)
    (rng : Rng R S k) (nstart idx : Nat) (energy : R) (means : Fin k → Fin n → R) (assign : Nat → Option (Fin k))
    (sizes : Fin k → Int) : Prop :=
  let γ := ((n + 4 : Nat) : ℝ) * 2 ^ (-52 : Int)
  ∃ (cents : Nat → Fin k → Fin n → R) (en : Nat → R),
    (∀ i, i < nstart →
      NearStartsAt fin val .plusplus (metricDist met) γ (metricSlack met) ((N + 1 : Nat) * 2 ^ (-52 : Int))
        (2 ^ (-1075 : Int)) ((N / T + N % T + T + N + 2 : Nat) * 2 ^ (-52 : Int)) (2 ^ (-1073 : Int)) data N
        { rng with seed := seedAt rng i } none (cents i) ∧
      fin (en i) ∧
      NearEnergy (metricDist met) ((n + 2 * N + 6 : Nat) * 2 ^ (-52 : Int)) (2 * (N * metricSlack met))
        (fun r j => val (data r j)) N (fun c j => val (cents i c j)) (val (en i))) ∧
    1 ≤ idx ∧ idx ≤ nstart ∧
    (∀ i, i < nstart → val (en (idx - 1)) ≤ val (en i)) ∧ (∀ i, i < idx - 1 → val (en (idx - 1)) < val (en i)) ∧
    energy = en (idx - 1) ∧ means = cents (idx - 1) ∧
    (∀ r, r < N → ∃ c, assign r = some c ∧
      NearNearest γ (metricSlack met)
        (fun c => metricDist met (fun j => val (data r j)) fun j => val (means c j)) c) ∧
    ∀ c, sizes c = (Spec.count N assign c : Int)

end Knor.Spec
