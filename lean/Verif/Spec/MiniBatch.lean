import Mathlib.Analysis.Convex.Hull
import Verif.Spec.Start

/-!
# Specification: mini-batch k-means
-/

namespace Knor.Spec

open Knor.Driver Knor.Init

variable {R D S : Type _} {k n : Nat}

/-- The point `x` moved towards each of the points `ps` in turn, each time by the fraction `eta` of the way. -/
def towards [Field R] (eta : R) (x : Fin n → R) (ps : List (Fin n → R)) : Fin n → R :=
  ps.foldl (fun x p j => x j + eta * (p j - x j)) x

open Classical in
/-- One mini-batch iteration on the rows `0 … N-1`.  The sampled rows go to a nearest of the old centroids, the
lowest-numbered one if `first`; the others stay.  Then every centroid is moved towards the rows that were sampled for
it, in the order of their numbers, with one over the size of its cluster (sampled or not) as the rate. -/
structure MbStep [Field R] [LE D] (dist : (Fin n → R) → (Fin n → R) → D) (N : Nat) (data : Nat → Fin n → R)
    (sampled : Nat → Prop) (first : Prop) (s s' : Snap R k n) : Prop where
  assigned : ∀ r, r < N → sampled r → ∃ c, s'.assign r = some c ∧
    IsNearest (fun c => dist (data r) (s.cents c)) c ∧
    (first → IsFirstNearest (fun c => dist (data r) (s.cents c)) c)
  others : ∀ r, r < N → ¬ sampled r → s'.assign r = s.assign r
  moved : ∀ c, s'.cents c = towards (1 / (count N s'.assign c : R)) (s.cents c)
    (((List.range N).filter fun r => sampled r ∧ s'.assign r = some c).map data)

/-- The assignment that the initialisation leaves: none for given centres and Forgy's method, the random partition,
and for k-means++ a nearest centroid of every row. -/
def StartAssign [LE D] (it : InitT) (dist : (Fin n → R) → (Fin n → R) → D) (data : Nat → Fin n → R) (N : Nat)
    (rng : Rng R S k) (s : Snap R k n) : Prop :=
  match it with
  | .none => ∀ r, r < N → s.assign r = none
  | .forgy => ∀ r, r < N → s.assign r = none
  | .random => ∀ r, r < N → ∃ c, s.assign r = some c ∧ (outputs rng.clust N rng.seed)[r]? = some c
  | .plusplus => ∀ r, r < N → ∃ c, s.assign r = some c ∧ IsNearest (fun c => dist (data r) (s.cents c)) c

/-- How far the centroids moved in iteration `i` (counted from 0). -/
def movedBy [Field R] (norm : (Fin k → Fin n → R) → R) (tr : Nat → Snap R k n) (i : Nat) : R :=
  norm fun c j => (tr (i + 1)).cents c j - (tr i).cents c j

/-- What the mini-batch call promises.  From the centroids and the assignment of the initialisation, `t` iterations;
row `r` is sampled in iteration `i` iff `draw i r` is at most `mb / N` (`1 / N` if the batch is smaller than the
number of threads).  The last one is the first in which the centroids move by less than `tol`, and its number
(counted from 0) is reported; if there is none, `maxIters` iterations are made and reported.  The returned centroids
are those after the last iteration; they lie in the convex hulls of their first positions and the rows.  Every row
is assigned to a nearest one (the lowest-numbered one, unless no iteration was allowed after k-means++), and the
sizes are those of this partition. -/
def DeliversMiniBatch [Field R] [LinearOrder R] (it : InitT) (dist : (Fin n → R) → (Fin n → R) → R)
    (norm : (Fin k → Fin n → R) → R) (data : Nat → Fin n → R) (N threads mb : Nat) (rng : Rng R S k)
    (draw : Nat → Nat → R) (given : Option (Fin k → Fin n → R)) (tol : R) (maxIters : Nat)
    (iters : Nat) (cents : Fin k → Fin n → R) (assign : Nat → Option (Fin k)) (sizes : Fin k → Int) : Prop :=
  ∃ (t : Nat) (tr : Nat → Snap R k n) (f : R),
    StartsAt it dist data N rng given (tr 0).cents ∧ StartAssign it dist data N rng (tr 0) ∧
    f * (N : R) = (if mb < min threads N then 1 else (mb : R)) ∧
    (∀ i, i < t → MbStep dist N data (fun r => draw i r ≤ f) (0 < i ∨ it ≠ .plusplus) (tr i) (tr (i + 1))) ∧
    (∀ i, i + 1 < t → tol ≤ movedBy norm tr i) ∧
    ((∃ j, t = j + 1 ∧ j < maxIters ∧ movedBy norm tr j < tol ∧ iters = j) ∨
      (t = maxIters ∧ iters = maxIters ∧ ∀ i, i < t → tol ≤ movedBy norm tr i)) ∧
    cents = (tr t).cents ∧
    (∀ c, cents c ∈ convexHull R ({(tr 0).cents c} ∪ {x | ∃ r, r < N ∧ x = data r})) ∧
    (∀ r, r < N → ∃ c, assign r = some c ∧ IsNearest (fun c => dist (data r) (cents c)) c ∧
      (0 < t ∨ it ≠ .plusplus → IsFirstNearest (fun c => dist (data r) (cents c)) c)) ∧
    (∀ c, sizes c = (count N assign c : Int)) ∧ ∑ c, sizes c = (N : Int)

end Knor.Spec
