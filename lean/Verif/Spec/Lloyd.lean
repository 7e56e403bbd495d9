import Mathlib.Algebra.BigOperators.Fin
import Verif.Spec.Membership
import Mathlib.Order.Defs.LinearOrder

/-!
# Specification: Lloyd's algorithm

Independent of the code: a relation between successive centroids and assignments.
-/

namespace Knor.Spec

open Finset

variable {R D : Type _} {k n : Nat}

/-- `c` is at minimal distance. -/
def IsNearest [LE D] (d : Fin k → D) (c : Fin k) : Prop := ∀ c', d c ≤ d c'

/-- `c` is the lowest-numbered cluster at minimal distance. -/
def IsFirstNearest [LE D] (d : Fin k → D) (c : Fin k) : Prop :=
  IsNearest d c ∧ ∀ c', IsNearest d c' → c ≤ c'

/-- Centroids and assignment after some iteration. -/
structure Snap (R : Type _) (k n : Nat) where
  cents : Fin k → Fin n → R
  assign : Nat → Option (Fin k)

/-- One Lloyd iteration on rows `0 … N-1`: every row goes to the lowest-numbered nearest of the
old centroids, and every new centroid is the mean of its members. -/
structure LloydStep [Field R] [LE D] (dist : (Fin n → R) → (Fin n → R) → D) (N : Nat)
    (data : Nat → Fin n → R) (s s' : Snap R k n) : Prop where
  assigned : ∀ r, r < N → ∃ c, s'.assign r = some c ∧
    IsFirstNearest (fun c => dist (data r) (s.cents c)) c
  means : ∀ c j, s'.cents c j = memberMean N data s'.assign c j

/-- A Lloyd trace from initial centroids `cents0`, with no row assigned before iteration 1. -/
structure LloydTrace [Field R] [LE D] (dist : (Fin n → R) → (Fin n → R) → D) (N : Nat)
    (data : Nat → Fin n → R) (cents0 : Fin k → Fin n → R) (tr : Nat → Snap R k n) : Prop where
  cents : (tr 0).cents = cents0
  unassigned : ∀ r, (tr 0).assign r = none
  step : ∀ i, LloydStep dist N data (tr i) (tr (i + 1))

/-- One Lloyd iteration with ties broken in any way. -/
structure LloydStepAnyTie [Field R] [LE D] (dist : (Fin n → R) → (Fin n → R) → D) (N : Nat)
    (data : Nat → Fin n → R) (s s' : Snap R k n) : Prop where
  assigned : ∀ r, r < N → ∃ c, s'.assign r = some c ∧
    IsNearest (fun c => dist (data r) (s.cents c)) c
  means : ∀ c j, s'.cents c j = memberMean N data s'.assign c j

/-- `tr 0, …, tr m` are `m` Lloyd iterations from centroids `cents0`, ties broken in any way. -/
structure LloydRunAnyTie [Field R] [LE D] (dist : (Fin n → R) → (Fin n → R) → D) (N : Nat)
    (data : Nat → Fin n → R) (cents0 : Fin k → Fin n → R) (m : Nat) (tr : Nat → Snap R k n) :
    Prop where
  cents : (tr 0).cents = cents0
  unassigned : ∀ r, (tr 0).assign r = none
  step : ∀ i, i < m → LloydStepAnyTie dist N data (tr i) (tr (i + 1))

/-- Number of rows below `N` on which two assignments differ. -/
def numChanged (N : Nat) (a b : Nat → Option (Fin k)) : Nat :=
  ((range N).filter fun r => a r ≠ b r).card

/-- Iteration `i ≥ 1` of a trace meets the stopping rule: no row, or at most the fraction `tol` of
the rows, changed cluster. -/
def StopsAt [Field R] [LE R] (N : Nat) (tol : R) (tr : Nat → Snap R k n) (i : Nat) : Prop :=
  numChanged N (tr (i - 1)).assign (tr i).assign = 0 ∨
    (numChanged N (tr (i - 1)).assign (tr i).assign : R) / (N : R) ≤ tol

/-- Within-cluster sum of squared Euclidean distances. -/
def wcss [CommRing R] (N : Nat) (data : Nat → Fin n → R) (s : Snap R k n) : R :=
  ∑ r ∈ range N, match s.assign r with
    | some c => ∑ j, (data r j - s.cents c j) ^ 2
    | none => 0

/-- A distance orders rows like the squared Euclidean distance (true of Euclidean and squared
Euclidean). -/
def LikeSq [CommRing R] [LE R] [LE D] (dist : (Fin n → R) → (Fin n → R) → D) : Prop :=
  ∀ x y z, dist x y ≤ dist x z ↔ ∑ j, (x j - y j) ^ 2 ≤ ∑ j, (x j - z j) ^ 2

end Knor.Spec
