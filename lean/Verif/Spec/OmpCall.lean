import Verif.Model.OmpDriver
import Verif.Spec.PrunedStart

/-!
# Specification: what a call of the OpenMP variant returns

`rep` is what the caller gets: the number of iterations, the cluster of every row, the sizes and the centroids.
-/

namespace Knor.Spec

open Knor.Driver

variable {R S : Type _} {k n : Nat}

/-- `rep` shows the state `snap`. -/
structure Shows [Field R] (N : Nat) (snap : Snap R k n) (rep : Omp.Report R k n) : Prop where
  assign : ∀ r, r < N → rep.assign r = snap.assign r
  means : rep.means = snap.cents
  counts : ∀ c, rep.counts c = (Spec.count N snap.assign c : Int)

/-- `rep` is what Lloyd's algorithm with the trace `tr` and a budget of `budget` iterations gives: the state after the
first iteration in which no row, or at most the fraction `tol`, changed, with the number of that iteration; or, if
there is none within the budget, the state after the budget, with the number `budget + 1`. -/
def LloydReport [Field R] [LinearOrder R] (N : Nat) (tol : R) (budget : Nat) (tr : Nat → Snap R k n)
    (rep : Omp.Report R k n) : Prop :=
  ∃ m, 1 ≤ m ∧ m ≤ budget ∧ Shows N (tr m) rep ∧ (∀ j, 1 ≤ j → j < m → ¬ StopsAt N tol tr j) ∧
    ((StopsAt N tol tr m ∧ rep.iters = m) ∨ (m = budget ∧ ¬ StopsAt N tol tr m ∧ rep.iters = budget + 1))

/-- The result of Lloyd's algorithm with a budget of `budget` iterations, started where the initialisation `it` says;
with a budget of none, the start itself. -/
def DeliversReport [Field R] [LinearOrder R] (it : InitT) (dist : (Fin n → R) → (Fin n → R) → R)
    (data : Nat → Fin n → R) (N : Nat) (rng : Rng R S k) (given : Option (Fin k → Fin n → R)) (tol : R)
    (budget : Nat) (rep : Omp.Report R k n) : Prop :=
  ∃ c0, StartsAt it dist data N rng given c0 ∧
    (budget = 0 → rep.means = c0) ∧
    (0 < budget → ∀ tr, LloydTrace dist N data c0 tr → LloydReport N tol budget tr rep)

/-- `rep` describes a partition of the `N` rows. -/
structure ShowsPartition [Field R] (N : Nat) (data : Nat → Fin n → R) (rep : Omp.Report R k n) : Prop where
  assigned : ∀ r, r < N → ∃ c, rep.assign r = some c
  sizes : ∀ c, rep.counts c = (Spec.count N rep.assign c : Int)
  means : ∀ c j, rep.means c j = memberMean N data rep.assign c j

/-- `rep` is what Lloyd's algorithm gives from the centroids `c0`, ties broken in some way, with the stopping rule
tested from the second iteration on. -/
def LloydReportAnyTie [Field R] [LinearOrder R] (dist : (Fin n → R) → (Fin n → R) → R) (N : Nat)
    (data : Nat → Fin n → R) (c0 : Fin k → Fin n → R) (tol : R) (budget : Nat) (rep : Omp.Report R k n) : Prop :=
  ∃ m tr, 1 ≤ m ∧ m ≤ budget ∧ LloydRunAnyTie dist N data c0 m tr ∧ Shows N (tr m) rep ∧
    (∀ j, 2 ≤ j → j < m → ¬ StopsAt N tol tr j) ∧
    ((rep.iters = m ∧ 2 ≤ m ∧ StopsAt N tol tr m) ∨
      (rep.iters = budget + 1 ∧ m = budget ∧ (2 ≤ m → ¬ StopsAt N tol tr m)))

/-- What the pruned variant delivers for a budget of `budget ≥ 1` iterations; `eucl` says whether the metric is the
Euclidean one. -/
def DeliversReportPruned [Field R] [LinearOrder R] (it : InitT) (dist : (Fin n → R) → (Fin n → R) → R) (eucl : Prop)
    (data : Nat → Fin n → R) (N : Nat) (rng : Rng R S k) (given : Option (Fin k → Fin n → R)) (tol : R)
    (budget : Nat) (rep : Omp.Report R k n) : Prop :=
  ∃ c0, StartsAt it dist data N rng given c0 ∧ ShowsPartition N data rep ∧
    (budget = 1 → ∀ r, r < N → ∃ c, rep.assign r = some c ∧ IsNearest (fun c => dist (data r) (c0 c)) c) ∧
    (eucl → SmallFirstMoves dist N data c0 → LloydReportAnyTie dist N data c0 tol budget rep)

end Knor.Spec
