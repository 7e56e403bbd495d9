import Mathlib.Algebra.Order.Field.Basic
import Mathlib.Algebra.Order.AbsoluteValue.Basic
import Verif.Spec.Membership

/-!
# Specification: rounded arithmetic

The usual model of floating-point operations, in the form in which IEEE `double` satisfies it, and sums
computed from left to right.
-/

namespace Knor.Spec

/-- The number computed by adding up a list from left to right, starting at zero. -/
def sumSeq {R : Type _} [Zero R] [Add R] (l : List R) : R := l.foldl (· + ·) 0

/-- Operations of `R` approximate those of the ordered field `F`: `fin x` says that `x` is a finite number
(not NaN or infinite) and `val x` is its value.  Within the range `M` sums have relative error at most `u`,
quotients have relative error `u` or (underflow) absolute error `η`, and natural numbers up to `K` are exact.
IEEE double with rounding to nearest: `u = 2^-53`, `η = 2^-1075`, `M` the largest double, `K = 2^53`. -/
structure Rounds {R F : Type _} [Zero R] [Add R] [Div R] [IntCast R] [Field F] [LinearOrder F]
    (fin : R → Prop) (val : R → F) (u η M : F) (K : Nat) : Prop where
  u_nonneg : 0 ≤ u
  eta_nonneg : 0 ≤ η
  zero : fin 0 ∧ val 0 = 0
  add : ∀ x y, fin x → fin y → |val x + val y| ≤ M →
    fin (x + y) ∧ |val (x + y) - (val x + val y)| ≤ u * |val x + val y|
  div : ∀ x y, fin x → fin y → val y ≠ 0 → |val x / val y| ≤ M →
    fin (x / y) ∧ |val (x / y) - val x / val y| ≤ u * |val x / val y| + η
  cast : ∀ m : Nat, m ≤ K → fin ((m : Int) : R) ∧ val ((m : Int) : R) = (m : F)

end Knor.Spec
