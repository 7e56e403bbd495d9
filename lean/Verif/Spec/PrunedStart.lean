import Verif.Model.PrunedDriver
import Verif.Spec.Start

/-!
# Specification: what a pruned k-means call returns
-/

namespace Knor.Spec

open Knor.Driver

variable {R D S : Type _} {k n : Nat}

/-- `res` describes a partition of the `N` rows: every row has a cluster, the sizes are those of the clusters, and
the centroids are the means of the clusters (zero vectors for empty ones). -/
structure IsPartition [Field R] (N : Nat) (data : Nat → Fin n → R) (res : Prune.Result R D k n) : Prop where
  assigned : ∀ r, r < N → ∃ c, (res.state.slots r).assign = some c
  sizes : ∀ c, res.state.counts c = (Spec.count N (fun r => (res.state.slots r).assign) c : Int)
  means : ∀ c j, res.state.cltrs.means c j = memberMean N data (fun r => (res.state.slots r).assign) c j

/-- `res` is what Lloyd's algorithm gives from the centroids `c0`, ties broken in some way: the state after the
first iteration but the very first one in which no row, or at most the fraction `tol`, changed, with the number of
that iteration; or, if there is none among the first `maxIters`, the state after `maxIters` iterations, with the
number `maxIters + 1`. -/
def LloydResultAnyTie [Field R] [LinearOrder R] [LE D] (dist : (Fin n → R) → (Fin n → R) → D) (N : Nat)
    (data : Nat → Fin n → R) (c0 : Fin k → Fin n → R) (tol : R) (maxIters : Nat) (res : Prune.Result R D k n) :
    Prop :=
  ∃ m tr, 1 ≤ m ∧ m ≤ maxIters ∧ LloydRunAnyTie dist N data c0 m tr ∧
    (∀ j, 2 ≤ j → j < m → ¬ StopsAt N tol tr j) ∧
    ((res.iters = m ∧ 2 ≤ m ∧ StopsAt N tol tr m) ∨
      (res.iters = maxIters + 1 ∧ m = maxIters ∧ (2 ≤ m → ¬ StopsAt N tol tr m))) ∧
    (∀ r, r < N → (res.state.slots r).assign = (tr m).assign r) ∧
    res.state.cltrs.means = (tr m).cents ∧
    ∀ c, res.state.counts c = (Spec.count N (tr m).assign c : Int)

/-- In the first iteration from `c0` no centroid moves further than it is away from the zero vector afterwards,
however ties are broken. -/
def SmallFirstMoves [Field R] [LE D] (dist : (Fin n → R) → (Fin n → R) → D) (N : Nat) (data : Nat → Fin n → R)
    (c0 : Fin k → Fin n → R) : Prop :=
  ∀ tr, LloydRunAnyTie dist N data c0 1 tr → ∀ c, dist (c0 c) ((tr 1).cents c) ≤ dist ((tr 1).cents c) (fun _ => 0)

/-- No row is at the same smallest distance to two centroids in any iteration of the trace. -/
def NoTies [Field R] [LE D] (dist : (Fin n → R) → (Fin n → R) → D) (N : Nat) (data : Nat → Fin n → R)
    (tr : Nat → Snap R k n) : Prop :=
  ∀ i r c c', r < N → IsNearest (fun c => dist (data r) ((tr i).cents c)) c →
    IsNearest (fun c => dist (data r) ((tr i).cents c)) c' → c = c'

/-- What the pruned call with initialisation `it` and a metric `dist` delivers; `eucl` says whether the metric is
the Euclidean one.  The centroids `c0` that the initialisation leaves; after at least one iteration a partition;
after one iteration every row in a nearest cluster of `c0`; with no iterations `c0` itself, for k-means++ with the
nearest clusters and their sizes; and under the Euclidean metric, if the first moves are small, the result of
Lloyd's algorithm. -/
def DeliversPruned [Field R] [LinearOrder R] (it : InitT) (dist : (Fin n → R) → (Fin n → R) → R) (eucl : Prop)
    (data : Nat → Fin n → R) (N : Nat) (rng : Rng R S k) (given : Option (Fin k → Fin n → R)) (tol : R)
    (maxIters : Nat) (res : Prune.Result R R k n) : Prop :=
  ∃ c0, StartsAt it dist data N rng given c0 ∧
    (0 < maxIters → IsPartition N data res) ∧
    (maxIters = 1 → ∀ r, r < N → ∃ c, (res.state.slots r).assign = some c ∧
      IsNearest (fun c => dist (data r) (c0 c)) c) ∧
    (maxIters = 0 → res.iters = 0 ∧ res.state.cltrs.means = c0 ∧
      (it = .plusplus → (∀ r, r < N → ∃ c, (res.state.slots r).assign = some c ∧
        IsNearest (fun c => dist (data r) (c0 c)) c) ∧
        ∀ c, res.state.counts c = (Spec.count N (fun r => (res.state.slots r).assign) c : Int))) ∧
    (0 < maxIters → eucl → SmallFirstMoves dist N data c0 →
      LloydResultAnyTie dist N data c0 tol maxIters res)

end Knor.Spec
