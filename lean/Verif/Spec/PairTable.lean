import Mathlib.Analysis.Real.Sqrt
import Verif.Model.Dist

/-! # Specification: the three distances a table of pairwise distances can hold -/

namespace Knor.Spec

open Knor.Dist

/-- Euclidean, cosine and taxicab distance of two rows of real numbers, as in a textbook; the table does not support
the squared Euclidean distance. -/
noncomputable def tableDist {n : Nat} : Metric → Row ℝ n → Row ℝ n → Option ℝ
  | .eucl, x, y => some (Real.sqrt (∑ j, (x j - y j) ^ 2))
  | .cos, x, y => some (1 - (∑ j, x j * y j) / (Real.sqrt (∑ j, x j ^ 2) * Real.sqrt (∑ j, y j ^ 2)))
  | .taxi, x, y => some (∑ j, |x j - y j|)
  | .sqeucl, _, _ => none

end Knor.Spec
