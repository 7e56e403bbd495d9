import Mathlib.Algebra.BigOperators.Group.Finset.Basic
import Verif.Spec.Lloyd

/-!
# Specification: energies of an assignment of rows to medoids
-/

namespace Knor.Spec

open Finset

variable {R D : Type _} {k n : Nat}

/-- Sum of the distances of the rows of cluster `c` to a row `x`. -/
def energyAt [AddCommMonoid D] (dist : (Fin n → R) → (Fin n → R) → D) (N : Nat)
    (data : Nat → Fin n → R) (assign : Nat → Option (Fin k)) (c : Fin k) (x : Fin n → R) : D :=
  ∑ r ∈ (range N).filter (fun r => assign r = some c), dist (data r) x

/-- Sum of the distances of all rows to the medoid of their cluster. -/
def totalEnergy [AddCommMonoid D] (dist : (Fin n → R) → (Fin n → R) → D) (N : Nat)
    (data : Nat → Fin n → R) (assign : Nat → Option (Fin k)) (cents : Fin k → Fin n → R) : D :=
  ∑ r ∈ range N, match assign r with
    | some c => dist (data r) (cents c)
    | none => 0

/-- One iteration of k-medoids from the medoids and the assignment `s`: every medoid is kept or replaced by a sampled
row of its cluster with a smaller sum of distances to the cluster, no sampled row of the cluster has a smaller one than
the new medoid, and every row is assigned to the first of the nearest new medoids. -/
structure MedoidStep [AddCommMonoid D] [LinearOrder D] (dist : (Fin n → R) → (Fin n → R) → D) (N : Nat)
    (data : Nat → Fin n → R) (sampled : Nat → Prop) (s s' : Snap R k n) : Prop where
  kept : ∀ c, s'.cents c = s.cents c ∨ ∃ r, r < N ∧ s.assign r = some c ∧ sampled r ∧ s'.cents c = data r ∧
    energyAt dist N data s.assign c (s'.cents c) < energyAt dist N data s.assign c (s.cents c)
  best : ∀ c r, r < N → s.assign r = some c → sampled r →
    energyAt dist N data s.assign c (s'.cents c) ≤ energyAt dist N data s.assign c (data r)
  near : ∀ r, r < N → ∃ c, s'.assign r = some c ∧ IsFirstNearest (fun c => dist (data r) (s'.cents c)) c

/-- The result of k-medoids from the medoids `y0`: all rows are assigned to the nearest medoid, then follow iterations
until no row, or at most the fraction `tol`, changed, at most `maxIters`; the number of the last one (`maxIters + 1` if
the rule was not met); the last medoids and assignment, and the sizes of the clusters.  `sampled i r` says that row `r`
is considered in iteration `i`. -/
def MedoidResult [Field R] [LinearOrder R] (dist : (Fin n → R) → (Fin n → R) → R) (N : Nat) (data : Nat → Fin n → R)
    (sampled : Nat → Nat → Prop) (tol : R) (maxIters : Nat) (y0 : Fin k → Fin n → R) (iters : Nat) (last : Snap R k n)
    (sizes : Fin k → Int) : Prop :=
  ∃ (t : Nat) (tr : Nat → Snap R k n),
    ((tr 0).cents = y0 ∧ ∀ r, r < N → ∃ c, (tr 0).assign r = some c ∧
      IsFirstNearest (fun c => dist (data r) (y0 c)) c) ∧
    tr t = last ∧ t ≤ maxIters ∧
    (∀ i, i < t → MedoidStep dist N data (sampled (i + 1)) (tr i) (tr (i + 1))) ∧
    (∀ i, 1 ≤ i → i < t → ¬ StopsAt N tol tr i) ∧
    ((maxIters = 0 ∧ iters = 0) ∨ (1 ≤ t ∧ StopsAt N tol tr t ∧ iters = t) ∨
      (1 ≤ t ∧ ¬ StopsAt N tol tr t ∧ t = maxIters ∧ iters = maxIters + 1)) ∧
    ∀ c, sizes c = (((range N).filter fun r => last.assign r = some c).card : Int)

end Knor.Spec
