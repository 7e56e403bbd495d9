import Verif.Model.Dist

/-!
# Distance functions in any arithmetic

The distances of Model/Dist.lean are functions of real numbers.  Here the same loops are over any scalar type
with operations, so that rounding can be taken into account.
-/

namespace Knor.Dist

open Knor

variable {R : Type _} {n : Nat}

/-- `sqeucl_dist`.  Models libkcommon/util.hpp:90-101. -/
def sqeuclAny [Zero R] [Add R] [Sub R] [Mul R] (x y : Row R n) : R :=
  (List.finRange n).foldl (fun dist col => dist + (x col - y col) * (x col - y col)) 0

/-- `eucl_dist`, with `std::sqrt` as parameter.  Models libkcommon/util.hpp:76-88. -/
def euclAny [Zero R] [Add R] [Sub R] [Mul R] (sqrt : R → R) (x y : Row R n) : R :=
  sqrt ((List.finRange n).foldl (fun dist col => dist + (x col - y col) * (x col - y col)) 0)

/-- `taxi_dist`, with `std::abs` as parameter.  Models libkcommon/util.hpp:103-112. -/
def taxiAny [Zero R] [Add R] [Sub R] (abs : R → R) (x y : Row R n) : R :=
  (List.finRange n).foldl (fun dist col => dist + abs (x col - y col)) 0

/-- With real numbers these are the distances of Model/Dist.lean. -/
theorem any_real : (sqeuclAny : Row ℝ n → Row ℝ n → ℝ) = sqeucl ∧
    (euclAny Real.sqrt : Row ℝ n → Row ℝ n → ℝ) = eucl ∧ (taxiAny abs : Row ℝ n → Row ℝ n → ℝ) = taxi :=
  ⟨rfl, rfl, rfl⟩

end Knor.Dist
