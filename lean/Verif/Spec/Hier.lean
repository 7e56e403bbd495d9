import Mathlib.Algebra.BigOperators.Group.Finset.Basic
import Mathlib.Algebra.Field.Basic
import Mathlib.Data.Finset.Card

/-!
# Specification: sizes and means of clusters named by arbitrary numbers

Written with Mathlib's finite sums, independently of the code's loops.
-/

namespace Knor.Spec

open Finset

variable {R : Type _} {n : Nat}

/-- Number of rows below `N` that are in cluster `i`. -/
def size (N : Nat) (a : Nat → Nat) (i : Nat) : Nat := ((range N).filter fun r => a r = i).card

/-- Arithmetic mean of the rows in cluster `i` (the zero vector if there are none). -/
def meanOf [Field R] (N : Nat) (data : Nat → Fin n → R) (a : Nat → Nat) (i : Nat) : Fin n → R :=
  fun j => if size N a i = 0 then 0
    else (∑ r ∈ (range N).filter (fun r => a r = i), data r j) / (size N a i : R)

/-- The distance from a row to a mean of rows (or to the zero vector, the mean of none) never reaches `big`. -/
def MeansWithin {D : Type _} [Field R] [LT D] (N : Nat) (data : Nat → Fin n → R) (dist : (Fin n → R) → (Fin n → R) → D)
    (big : D) : Prop := ∀ r, r < N → ∀ a i, dist (data r) (meanOf N data a i) < big

end Knor.Spec
