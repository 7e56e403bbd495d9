import Mathlib.Algebra.Field.Defs
import Mathlib.Order.Defs.LinearOrder

/-!
# Specification: minimum and maximum of a column
-/

namespace Knor.Spec

variable {R : Type _} {n : Nat}

/-- `m` is the smallest entry of column `j` among rows `0 … N-1`. -/
def IsColMin [LE R] (N : Nat) (data : Nat → Fin n → R) (j : Fin n) (m : R) : Prop :=
  (∀ r, r < N → m ≤ data r j) ∧ ∃ r, r < N ∧ data r j = m

/-- `M` is the largest entry of column `j` among rows `0 … N-1`. -/
def IsColMax [LE R] (N : Nat) (data : Nat → Fin n → R) (j : Fin n) (M : R) : Prop :=
  (∀ r, r < N → data r j ≤ M) ∧ ∃ r, r < N ∧ data r j = M

/-- `scaled` is `data` with every column stretched from its smallest and largest entry to 0 and 1. -/
def MinMaxScaled [Field R] [LinearOrder R] (N : Nat) (data scaled : Nat → Fin n → R) : Prop :=
  ∀ j, ∃ lo hi, IsColMin N data j lo ∧ IsColMax N data j hi ∧ lo < hi ∧
    ∀ r, r < N → scaled r j = (data r j - lo) / (hi - lo)

end Knor.Spec
