import Mathlib.Analysis.Real.Sqrt
import Mathlib.Data.List.FinRange
import Verif.Model.Clusters

/-!
# Distance functions (`knor::base`)

Models libkcommon/util.hpp:76-166.  `double` is the type of real numbers; the `for` loop over
columns is a left fold over the columns in order.  Division by zero (possible in the cosine
distance only) yields NaN in C++ and `none` here.
-/

namespace Knor.Dist

open Knor

variable {n : Nat}

/-- `dist_t`.  Models libkcommon/types.hpp:38. -/
inductive Metric where
  | eucl | cos | taxi | sqeucl
  deriving DecidableEq, Repr

/-- `sqeucl_dist`.  Models libkcommon/util.hpp:90-101. -/
noncomputable def sqeucl (x y : Row ℝ n) : ℝ :=
  (List.finRange n).foldl (fun dist col => dist + (x col - y col) * (x col - y col)) 0

/-- `eucl_dist`.  Models libkcommon/util.hpp:76-88. -/
noncomputable def eucl (x y : Row ℝ n) : ℝ :=
  Real.sqrt ((List.finRange n).foldl (fun dist col => dist + (x col - y col) * (x col - y col)) 0)

/-- `taxi_dist`.  Models libkcommon/util.hpp:103-112. -/
noncomputable def taxi (x y : Row ℝ n) : ℝ :=
  (List.finRange n).foldl (fun dist col => dist + |x col - y col|) 0

/-- The three running sums of `cos_dist`.  Models libkcommon/util.hpp:117-128. -/
noncomputable def cosSums (x y : Row ℝ n) : ℝ × ℝ × ℝ :=
  (List.finRange n).foldl
    (fun s col => (s.1 + x col * y col, s.2.1 + x col * x col, s.2.2 + y col * y col)) (0, 0, 0)

/-- `cos_dist`; `none` is NaN.  Models libkcommon/util.hpp:114-130. -/
noncomputable def cos (x y : Row ℝ n) : Option ℝ :=
  let s := cosSums x y
  if Real.sqrt s.2.1 * Real.sqrt s.2.2 = 0 then none
  else some (1 - s.1 / (Real.sqrt s.2.1 * Real.sqrt s.2.2))

/-- `dist_comp_raw`.  Models libkcommon/util.hpp:151-166. -/
noncomputable def distComp (m : Metric) (x y : Row ℝ n) : Option ℝ :=
  match m with
  | .eucl => some (eucl x y)
  | .cos => cos x y
  | .taxi => some (taxi x y)
  | .sqeucl => some (sqeucl x y)

end Knor.Dist
