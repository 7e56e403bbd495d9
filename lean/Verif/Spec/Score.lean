import Mathlib.Analysis.SpecialFunctions.Log.Basic
import Mathlib.Analysis.SpecialFunctions.Sqrt
import Mathlib.Analysis.SpecialFunctions.Trigonometric.Basic
import Mathlib.Data.List.Sort

/-!
# Specification: when to split a cluster

The Bayesian information criterion of x-means (Pelleg and Moore 2000, section 3.2), and the statistic of
Anderson and Darling for a sample with unknown mean and variance with its critical values (Stephens), as
used by g-means.
-/

namespace Knor.Spec

/-- The Bayesian information criterion of a model with spherical clusters of the given sizes in `M`
dimensions, where `W` is the sum of the squared distances of the points to their centres: the maximum
log-likelihood minus half the number of parameters times the logarithm of the number of points. -/
noncomputable def bicScore (M : ℝ) (sizes : List ℝ) (W : ℝ) : ℝ :=
  let R := sizes.sum
  let K : ℝ := sizes.length
  let var := W / (R - K)
  (sizes.map fun Rn => -(Rn / 2) * Real.log (2 * Real.pi) - Rn * M / 2 * Real.log var - (Rn - K) / 2 +
      Rn * Real.log Rn - Rn * Real.log R).sum
    - ((K - 1) + M * K + 1) / 2 * Real.log R

/-- The mean of a sample. -/
noncomputable def mean (xs : List ℝ) : ℝ := xs.sum / xs.length

/-- The standard deviation of a sample, with the unbiased estimate of the variance. -/
noncomputable def sd (xs : List ℝ) : ℝ :=
  Real.sqrt ((xs.map fun x => (x - mean xs) ^ 2).sum / (xs.length - 1))

/-- `A` is the Anderson-Darling statistic of the sample `xs` against the distribution function `F` with
location and scale estimated: `-n - 1/n Σ (2i-1) (ln F(y_i) + ln (1 - F(y_(n+1-i))))` for the standardised
sample in ascending order (indices from 1; the list counts from 0). -/
def IsAndersonDarling (F : ℝ → ℝ) (xs : List ℝ) (A : ℝ) : Prop :=
  ∃ ys : List ℝ, ys.Perm xs ∧ ys.Pairwise (· ≤ ·) ∧
    let z : Nat → ℝ := fun i => (ys.getD i 0 - mean xs) / sd xs
    A = -(xs.length : ℝ) - 1 / xs.length *
      ∑ i ∈ Finset.Icc 1 xs.length,
        (2 * (i : ℝ) - 1) * (Real.log (F (z (i - 1))) + Real.log (1 - F (z (xs.length - i))))

/-- The critical value for a sample of `n` numbers at the level with constant `a`. -/
noncomputable def critical (a : ℝ) (n : Nat) : ℝ := a / (1 + 4 / n - 25 / n ^ 2)

end Knor.Spec
