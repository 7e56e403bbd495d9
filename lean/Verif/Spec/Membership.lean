import Mathlib.Algebra.BigOperators.Group.Finset.Basic
import Mathlib.Algebra.Field.Basic
import Mathlib.Data.Finset.Card

/-!
# Specification: histogram, member sums and means of an assignment of rows to clusters

Written with Mathlib's finite sums, independently of the code's loops.
-/

namespace Knor.Spec

open Finset

variable {R : Type _} {k n : Nat}

/-- Number of rows below `N` assigned to cluster `c`. -/
def count (N : Nat) (assign : Nat → Option (Fin k)) (c : Fin k) : Nat :=
  ((range N).filter fun r => assign r = some c).card

/-- Sum of the rows assigned to `c`. -/
def memberSum [AddCommMonoid R] (N : Nat) (data : Nat → Fin n → R)
    (assign : Nat → Option (Fin k)) (c : Fin k) (j : Fin n) : R :=
  ∑ r ∈ (range N).filter (fun r => assign r = some c), data r j

/-- Arithmetic mean of the rows assigned to `c` (the zero vector if there are none). -/
def memberMean [Field R] (N : Nat) (data : Nat → Fin n → R)
    (assign : Nat → Option (Fin k)) (c : Fin k) (j : Fin n) : R :=
  if count N assign c = 0 then 0
  else memberSum N data assign c j / (count N assign c : R)

end Knor.Spec
