import Mathlib.Analysis.Real.Sqrt

/-!
# Specification: IEEE 754 double precision, rounding to nearest

The finite doubles as real numbers, and what the standard requires of the operations: the result is a double
nearest to the exact result, unless that is beyond the largest double.  Ties may be broken in any way.
-/

namespace Knor.Spec

/-- `q` is the value of a finite double: a 53-bit integer times a power of two between `2^-1074` and `2^971`. -/
def IsDouble (q : ℝ) : Prop :=
  ∃ m e : Int, |m| < 2 ^ 53 ∧ -1074 ≤ e ∧ e ≤ 971 ∧ q = m * (2 : ℝ) ^ e

/-- The largest double. -/
noncomputable def maxDouble : ℝ := (2 ^ 53 - 1) * (2 : ℝ) ^ (971 : Int)

/-- `q` is a double nearest to `x`. -/
def NearestDouble (x q : ℝ) : Prop := IsDouble q ∧ ∀ q', IsDouble q' → |x - q| ≤ |x - q'|

/-- The operations of `R` are those of IEEE 754 doubles: `fin x` says that `x` is finite and `val x` is then its
value; nothing is said about operations on infinities and NaN. -/
structure IeeeDouble {R : Type _} [Zero R] [Add R] [Sub R] [Mul R] [Div R] [IntCast R] [NatCast R] [LT R] [LE R]
    (fin : R → Prop) (val : R → ℝ) (sqrt abs : R → R) : Prop where
  double : ∀ x, fin x → IsDouble (val x)
  zero : fin 0 ∧ val 0 = 0
  add : ∀ x y, fin x → fin y → |val x + val y| ≤ maxDouble →
    fin (x + y) ∧ NearestDouble (val x + val y) (val (x + y))
  sub : ∀ x y, fin x → fin y → |val x - val y| ≤ maxDouble →
    fin (x - y) ∧ NearestDouble (val x - val y) (val (x - y))
  mul : ∀ x y, fin x → fin y → |val x * val y| ≤ maxDouble →
    fin (x * y) ∧ NearestDouble (val x * val y) (val (x * y))
  div : ∀ x y, fin x → fin y → val y ≠ 0 → |val x / val y| ≤ maxDouble →
    fin (x / y) ∧ NearestDouble (val x / val y) (val (x / y))
  int : ∀ m : Int, |(m : ℝ)| ≤ maxDouble → fin (m : R) ∧ NearestDouble m (val (m : R))
  nat : ∀ m : Nat, |(m : ℝ)| ≤ maxDouble → fin (m : R) ∧ NearestDouble m (val (m : R))
  lt : ∀ x y, fin x → fin y → (x < y ↔ val x < val y)
  le : ∀ x y, fin x → fin y → (x ≤ y ↔ val x ≤ val y)
  sqrt : ∀ x, fin x → 0 ≤ val x → fin (sqrt x) ∧ NearestDouble (√(val x)) (val (sqrt x))
  abs : ∀ x, fin x → fin (abs x) ∧ val (abs x) = |val x|

end Knor.Spec
