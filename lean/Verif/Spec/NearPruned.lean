import Verif.Spec.NearStart
import Verif.Spec.PrunedStart

/-!
# Specification: what a pruned k-means call on rounded numbers returns

Independent of the code: the promises of `DeliversPruned` (Spec/PrunedStart.lean) when the numbers are rounded.
-/

namespace Knor.Spec

open Knor.Driver

variable {R F S : Type _} {k n : Nat}

/-- A partition of the `N` rows up to rounding: every row has a cluster, the sizes are those of the clusters, and
the centroids are finite and differ from the means of the clusters by at most `err` (zero vectors for empty ones). -/
structure NearPartition [Field F] [LinearOrder F] (fin : R → Prop) (val : R → F) (err : F) (N : Nat)
    (data : Nat → Fin n → R) (assign : Nat → Option (Fin k)) (counts : Fin k → Int) (cents : Fin k → Fin n → R) :
    Prop where
  assigned : ∀ r, r < N → ∃ c, assign r = some c
  sizes : ∀ c, counts c = (count N assign c : Int)
  means : ∀ c j, fin (cents c j) ∧
    |val (cents c j) - memberMean N (fun r j => val (data r j)) assign c j| ≤ err

/-- The result of Lloyd's algorithm from `cents0` up to `ζ` in every distance and `err` in every centroid, with the
counting of iterations of the pruned version: the state after the first iteration but the very first one in which no
row, or at most the computed fraction `tol`, changed, with the number of that iteration; or, if there is none among
the first `maxIters`, the state after `maxIters` iterations, with the number `maxIters + 1`. -/
def NearPrunedResult [Field F] [LinearOrder F] [Div R] [NatCast R] [LE R] (fin : R → Prop) (val : R → F)
    (dist : (Fin n → F) → (Fin n → F) → F) (ζ err : F) (N : Nat) (data : Nat → Fin n → R)
    (cents0 : Fin k → Fin n → R) (tol : R) (maxIters : Nat) (iters : Nat) (assign : Nat → Option (Fin k))
    (counts : Fin k → Int) (cents : Fin k → Fin n → R) : Prop :=
  ∃ (m : Nat) (tr : Nat → Snap F k n),
    let changed := fun i => numChanged N (tr (i - 1)).assign (tr i).assign
    let stops := fun i => changed i = 0 ∨ (changed i : R) / (N : R) ≤ tol
    1 ≤ m ∧ m ≤ maxIters ∧
    NearLloydRun dist 0 ζ 0 err N (fun r j => val (data r j)) (fun c j => val (cents0 c j)) m tr ∧
    (∀ i, 2 ≤ i → i < m → ¬ stops i) ∧
    (2 ≤ m ∧ stops m ∧ iters = m ∨ (2 ≤ m → ¬ stops m) ∧ m = maxIters ∧ iters = maxIters + 1) ∧
    (∀ r, r < N → assign r = (tr m).assign r) ∧
    (∀ c, counts c = (count N assign c : Int)) ∧
    (∀ c j, fin (cents c j) ∧ val (cents c j) = (tr m).cents c j)

/-- In the first iteration from `c0` no centroid moves further than it is away from the zero vector afterwards,
however the rows that are at nearly the same distance to two centroids are assigned. -/
def NearSmallFirstMoves [Field F] [LinearOrder F] (dist : (Fin n → F) → (Fin n → F) → F) (ζ err : F) (N : Nat)
    (data : Nat → Fin n → F) (c0 : Fin k → Fin n → F) : Prop :=
  ∀ tr, NearLloydRun dist 0 ζ 0 err N data c0 1 tr →
    ∀ c, dist (c0 c) ((tr 1).cents c) ≤ dist ((tr 1).cents c) (fun _ => 0)

/-- What the pruned call with `T` threads on doubles no larger than `X` delivers (compare `DeliversPruned`): it starts
where the initialisation says, up to rounding.  With no iteration allowed it returns the start, for k-means++ with the
nearest clusters and their sizes; otherwise a partition up to `err` in every centroid.  After one iteration every row
is in a nearest cluster of the start, up to the error of one distance.  Under the Euclidean metric, if the first moves are small, it is the result of Lloyd's algorithm up to
`err` in every centroid and `errD` in every distance, both of which grow linearly with the number of iterations. -/
def NearDeliversPruned [Zero R] [Div R] [NatCast R] [LE R] (fin : R → Prop) (val : R → ℝ) (it : InitT)
    (met : Dist.Metric) (data : Nat → Fin n → R) (N T : Nat) (rng : Rng R S k)
    (given : Option (Fin k → Fin n → R)) (tol : R) (maxIters : Nat) (X : ℝ) (res : Prune.Result R R k n) : Prop :=
  let L := N / T + N % T
  let γ := ((n + 4 : Nat) : ℝ) * 2 ^ (-52 : Int)
  let err := (maxIters : ℝ) * ((4 * (L + T) + 7 : Nat) * 2 ^ (-52 : Int) * (N * X))
  let errD := ((maxIters + 2 : Nat) : ℝ) * ((n + 8 : Nat) * 2 ^ (-52 : Int) * (2 * √n * (X + err)))
  let assign := fun r => (res.state.slots r).assign
  let tdist := fun r c cents => metricDist met (fun j => val (data r j)) (fun j : Fin n => val (cents (c : Fin k) j))
  ∃ c0 : Fin k → Fin n → R,
    NearStartsAt fin val it (metricDist met) γ (metricSlack met) ((N + 1 : Nat) * 2 ^ (-52 : Int))
      (2 ^ (-1075 : Int)) ((L + T + N + 2 : Nat) * 2 ^ (-52 : Int)) (2 ^ (-1073 : Int)) data N rng given c0 ∧
    (maxIters = 0 → res.iters = 0 ∧ res.state.cltrs.means = c0 ∧
      (it = .plusplus → (∀ r, r < N → ∃ c, assign r = some c ∧
        NearNearest γ (metricSlack met) (fun c => tdist r c c0) c) ∧
        ∀ c, res.state.counts c = (Spec.count N assign c : Int))) ∧
    (0 < maxIters → NearPartition fin val err N data assign res.state.counts res.state.cltrs.means) ∧
    (maxIters = 1 → ∀ r, r < N → ∃ c, assign r = some c ∧
      NearNearest γ (metricSlack met) (fun c => tdist r c c0) c) ∧
    (0 < maxIters → met = .eucl →
      NearSmallFirstMoves (metricDist .eucl) errD err N (fun r j => val (data r j)) (fun c j => val (c0 c j)) →
      NearPrunedResult fin val (metricDist .eucl) errD err N data c0 tol maxIters res.iters assign res.state.counts
        res.state.cltrs.means)

/-- The pruned call returned the clusters of the exact Lloyd iterations `tr`: the number of iterations is that of
`NearPrunedResult`, the assignment and the sizes are those of `tr`, and the centroids differ from those of `tr` by at
most `δ`. -/
def SameClustersPruned [Field F] [LinearOrder F] [Div R] [NatCast R] [LE R] (val : R → F) (δ : F) (N : Nat) (tol : R)
    (maxIters : Nat) (tr : Nat → Snap F k n) (iters : Nat) (assign : Nat → Option (Fin k)) (counts : Fin k → Int)
    (cents : Fin k → Fin n → R) : Prop :=
  let changed := fun i => numChanged N (tr (i - 1)).assign (tr i).assign
  let stops := fun i => changed i = 0 ∨ (changed i : R) / (N : R) ≤ tol
  ∃ m, 1 ≤ m ∧ m ≤ maxIters ∧ (∀ i, 2 ≤ i → i < m → ¬ stops i) ∧
    (2 ≤ m ∧ stops m ∧ iters = m ∨ (2 ≤ m → ¬ stops m) ∧ m = maxIters ∧ iters = maxIters + 1) ∧
    (∀ r, r < N → assign r = (tr m).assign r) ∧
    (∀ c, counts c = (count N (tr m).assign c : Int)) ∧
    ∀ c j, |val (cents c j) - (tr m).cents c j| ≤ δ

end Knor.Spec
