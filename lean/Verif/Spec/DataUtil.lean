import Mathlib.Algebra.BigOperators.Group.Finset.Basic
import Mathlib.Analysis.SpecialFunctions.Log.Basic

/-! # Specification for C109: rows of length one, the score of a clustering -/

namespace Knor.DataUtil

/-- Row `r` of a row-major array has Euclidean length one. -/
def UnitRow (data : List ℝ) (ncol r : Nat) : Prop := ∑ j ∈ Finset.range ncol, data.getD (r * ncol + j) 0 ^ 2 = 1

/-- All rows have. -/
def Projected (data : List ℝ) (nrow ncol : Nat) : Prop := ∀ r < nrow, UnitRow data ncol r

/-- Twice the sum of the distances plus `log nrow` for every coordinate of every centre. -/
noncomputable def score (d : List ℝ) (nrow ncol k : Nat) : ℝ := 2 * d.sum + Real.log nrow * (ncol * k)

end Knor.DataUtil
