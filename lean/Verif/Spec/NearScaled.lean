import Verif.Spec.NearStart
import Verif.Spec.Scale

/-!
# Specification: columns stretched to the unit interval, on doubles

Independent of the code: what is left of `MinMaxScaled` (Spec/Scale.lean) when the numbers are rounded.
-/

namespace Knor.Spec

variable {R : Type _} {n : Nat}

/-- `scaled` is, up to rounding, `data` with every column stretched from its smallest and largest entry to 0 and 1:
an entry differs from the exact one by at most `2^-51` of it plus half of the smallest double, none is negative, the
smallest ones become exactly 0, and if the largest one exceeds `2^-1022`, there is one that becomes exactly 1. -/
def NearScaled (fin : R → Prop) (val : R → ℝ) (N : Nat) (data scaled : Nat → Fin n → R) : Prop :=
  ∀ j, ∃ lo hi, IsColMin N (fun r j => val (data r j)) j lo ∧ IsColMax N (fun r j => val (data r j)) j hi ∧ lo < hi ∧
    (∀ r, r < N → fin (scaled r j) ∧ 0 ≤ val (scaled r j) ∧
      |val (scaled r j) - (val (data r j) - lo) / (hi - lo)| ≤
        2 ^ (-51 : Int) * ((val (data r j) - lo) / (hi - lo)) + 2 ^ (-1075 : Int) ∧
      (val (data r j) = lo → val (scaled r j) = 0)) ∧
    (2 ^ (-1022 : Int) < hi → ∃ r, r < N ∧ val (data r j) = hi ∧ val (scaled r j) = 1)

end Knor.Spec
