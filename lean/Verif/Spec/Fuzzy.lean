import Mathlib.Algebra.BigOperators.Fin
import Mathlib.Algebra.Order.Field.Basic
import Verif.Model.Clusters

/-! # What fuzzy c-means should compute -/

namespace Knor.Spec

open Knor

variable {R : Type _} {k n : Nat}

/-- `f` is the function "to the power `1/(m-1)`" on positive numbers. -/
def IsRoot [Field R] [LinearOrder R] (m : Nat) (f : R → R) : Prop :=
  ∀ x, 0 < x → 0 < f x ∧ f x ^ (m - 1) = x

/-- A row's memberships: positive numbers that add up to 1. -/
def Membership [Field R] [LinearOrder R] (u : Fin k → R) : Prop :=
  (∀ c, 0 < u c) ∧ ∑ c, u c = 1

/-- `y` is the mean of the first `N` rows with the given positive weights. -/
def WeightedMean [Field R] (N : Nat) (data : Nat → Row R n) (w : Nat → R) (y : Row R n) : Prop :=
  ∀ j, y j * ∑ r ∈ Finset.range N, w r = ∑ r ∈ Finset.range N, w r * data r j

/-- Squared Euclidean distance. -/
def sqDist [Field R] (x y : Row R n) : R := ∑ j, (x j - y j) ^ 2

/-- The fuzzy c-means objective for memberships `u`, exponent `m` and centres `y`. -/
def fuzzyCost [Field R] (N m : Nat) (data : Nat → Row R n) (u : Nat → Fin k → R)
    (y : Fin k → Row R n) : R :=
  ∑ r ∈ Finset.range N, ∑ c, u r c ^ m * sqDist (data r) (y c)

/-- One iteration of fuzzy c-means with exponent `m`, from the centres `y` to the centres `y'`: `u` are memberships; if
all distances of a row to the centres are positive numbers, its memberships are in the proportion of `root` of the
inverse distances; every new centre is the mean of the rows weighted with the `m`-th powers of the memberships. -/
structure FuzzyStep [Field R] [LinearOrder R] (root : R → R) (dist : Row R n → Row R n → Option R) (N m : Nat)
    (data : Nat → Row R n) (y : Fin k → Row R n) (u : Nat → Fin k → R) (y' : Fin k → Row R n) : Prop where
  memb : ∀ r, r < N → Membership (u r)
  prop : ∀ r, r < N → ∀ d : Fin k → R, (∀ c, dist (data r) (y c) = some (d c) ∧ 0 < d c) →
    ∀ c, u r c * ∑ c', root (1 / d c') = root (1 / d c)
  mean : ∀ c, WeightedMean N data (fun r => u r c ^ m) (y' c)

/-- The result of fuzzy c-means from the centres `y0`: iterations until the centres move by less than `tol`, at most
`maxIters`; the number of the last one (`maxIters + 1` if the centres still moved); the last centres; every row in the
first cluster in which its last membership is largest; and the sizes of the clusters. -/
def FuzzyResult [Field R] [LinearOrder R] (root : R → R) (dist : Row R n → Row R n → Option R)
    (norm : (Fin k → Row R n) → R) (N m : Nat) (tol : R) (maxIters : Nat) (data : Nat → Row R n)
    (y0 : Fin k → Row R n) (iters : Nat) (assign : Nat → Nat) (sizes : Nat → Int) (centers : Fin k → Row R n) : Prop :=
  ∃ (t : Nat) (y : Nat → Fin k → Row R n) (u : Nat → Nat → Fin k → R),
    y 0 = y0 ∧ y (t + 1) = centers ∧ t + 1 ≤ maxIters ∧
    (∀ i, i ≤ t → FuzzyStep root dist N m data (y i) (u i) (y (i + 1))) ∧
    (∀ i, i < t → tol ≤ norm (y (i + 1) - y i)) ∧
    ((norm (y (t + 1) - y t) < tol ∧ iters = t + 1) ∨
      (tol ≤ norm (y (t + 1) - y t) ∧ t + 1 = maxIters ∧ iters = maxIters + 1)) ∧
    (∀ r, r < N → ∃ c : Fin k, assign r = c.val ∧ (∀ c', u t r c' ≤ u t r c) ∧ ∀ c', c' < c → u t r c' < u t r c) ∧
    ∀ c, sizes c = (((Finset.range N).filter fun r => assign r = c).card : Int)

end Knor.Spec
