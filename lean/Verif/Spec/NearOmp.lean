import Verif.Spec.NearStart
import Verif.Spec.OmpCall

/-!
# Specification: what the OpenMP variant owes to the user when operations round

The runtime may give the rows to other threads in every iteration, so the same sum may be rounded differently in two
iterations; hence the clause about the last iteration needs that it does not.
-/

namespace Knor.Spec

open Knor.Driver Knor.Init

variable {R S F : Type _} {k n : Nat}

/-- As `NearLloydResult`, but the last clause only if `sameOrder` holds. -/
def NearLloydOrder [Field F] [LinearOrder F] [Div R] [NatCast R] [LE R] (fin : R → Prop) (val : R → F)
    (dist : (Fin n → F) → (Fin n → F) → F) (γ ζ e η : F) (N : Nat) (data : Nat → Fin n → R)
    (cents0 : Fin k → Fin n → R) (tol : R) (maxIters : Nat) (sameOrder : Prop) (iters : Nat)
    (assign : Nat → Option (Fin k)) (counts : Fin k → Int) (cents : Fin k → Fin n → R) : Prop :=
  ∃ (m : Nat) (tr : Nat → Snap F k n),
    let changed := fun i => numChanged N (tr (i - 1)).assign (tr i).assign
    let stops := fun i => changed i = 0 ∨ (changed i : R) / (N : R) ≤ tol
    1 ≤ m ∧ m ≤ maxIters ∧
    NearLloydRun dist γ ζ e η N (fun r j => val (data r j)) (fun c j => val (cents0 c j)) m tr ∧
    (∀ i, 1 ≤ i → i < m → ¬ stops i) ∧
    (stops m ∧ iters = m ∨ ¬ stops m ∧ m = maxIters ∧ iters = maxIters + 1) ∧
    (∀ r, r < N → assign r = (tr m).assign r) ∧
    (∀ c, counts c = (count N assign c : Int)) ∧
    (∀ c j, fin (cents c j) ∧ val (cents c j) = (tr m).cents c j) ∧
    (sameOrder → changed m = 0 → ∀ r, r < N → ∃ c, assign r = some c ∧
      NearNearest γ ζ (fun c => dist (fun j => val (data r j)) fun j => val (cents c j)) c)

/-- What a call of the OpenMP variant with `T` threads on doubles owes to the caller (compare `NearDelivers`): a thread
may have all `N` rows. -/
def NearDeliversOmp [Zero R] [Div R] [NatCast R] [LE R] (fin : R → Prop) (val : R → ℝ) (it : InitT) (met : Dist.Metric)
    (data : Nat → Fin n → R) (N T : Nat) (rng : Rng R S k) (given : Option (Fin k → Fin n → R)) (tol : R)
    (maxIters : Nat) (sameOrder : Prop) (rep : Omp.Report R k n) : Prop :=
  let γ := ((n + 4 : Nat) : ℝ) * 2 ^ (-52 : Int)
  ∃ c0, NearStartsAt fin val it (metricDist met) γ (metricSlack met) ((N + 1 : Nat) * 2 ^ (-52 : Int))
      (2 ^ (-1075 : Int)) ((N + T + N + 2 : Nat) * 2 ^ (-52 : Int)) (2 ^ (-1073 : Int)) data N rng given c0 ∧
    (maxIters = 0 → rep.means = c0) ∧
    (0 < maxIters → NearLloydOrder fin val (metricDist met) γ (metricSlack met) ((N + T + 1 : Nat) * 2 ^ (-52 : Int))
      (2 ^ (-1075 : Int)) N data c0 tol maxIters sameOrder rep.iters rep.assign rep.counts rep.means)

end Knor.Spec
