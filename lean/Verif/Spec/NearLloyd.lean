import Verif.Spec.Lloyd
import Verif.Spec.Rounding

/-!
# Specification: Lloyd's algorithm up to rounding

Independent of the code: the standard model of floating-point subtraction, multiplication, comparison,
absolute value and square root (continuing Spec/Rounding.lean), and Lloyd iterations in which a row may go to
a centroid that is only nearly the nearest and a centroid may be only nearly the mean.
-/

namespace Knor.Spec

open Finset

variable {R F : Type _} {k n : Nat}

/-- `Rounds` for the remaining operations that k-means uses: differences have relative error `u`, products
relative error `u` or (underflow) absolute error `η`, a square is never negative, and finite numbers are
compared exactly. -/
structure RoundsAll [Zero R] [Add R] [Sub R] [Mul R] [Div R] [IntCast R] [LT R] [Field F] [LinearOrder F]
    (fin : R → Prop) (val : R → F) (u η M : F) (K : Nat) : Prop extends Rounds fin val u η M K where
  u_le : u ≤ 1
  sub : ∀ x y, fin x → fin y → |val x - val y| ≤ M →
    fin (x - y) ∧ |val (x - y) - (val x - val y)| ≤ u * |val x - val y|
  mul : ∀ x y, fin x → fin y → |val x * val y| ≤ M →
    fin (x * y) ∧ |val (x * y) - val x * val y| ≤ u * |val x * val y| + η
  sq : ∀ x, fin x → |val x * val x| ≤ M → 0 ≤ val (x * x)
  lt : ∀ x y, fin x → fin y → (x < y ↔ val x < val y)

/-- `c` is nearly the nearest: no other is closer by more than the relative error `γ` and the absolute
error `ζ` of either distance can explain. -/
def NearNearest [Field F] [LE F] (γ ζ : F) (d : Fin k → F) (c : Fin k) : Prop :=
  ∀ c', (1 - γ) * d c ≤ (1 + γ) * d c' + 2 * ζ

/-- One Lloyd iteration up to rounding: every row goes to a centroid that is nearly the nearest of the old
ones, and every new centroid differs from the mean of its members by at most `e` times the mean of their
absolute values, plus `η`. -/
structure NearLloydStep [Field F] [LinearOrder F] (dist : (Fin n → F) → (Fin n → F) → F) (γ ζ e η : F)
    (N : Nat) (data : Nat → Fin n → F) (s s' : Snap F k n) : Prop where
  assigned : ∀ r, r < N → ∃ c, s'.assign r = some c ∧
    NearNearest γ ζ (fun c => dist (data r) (s.cents c)) c
  means : ∀ c j, |s'.cents c j - memberMean N data s'.assign c j| ≤
    e * memberMean N (fun r j => |data r j|) s'.assign c j + η

/-- `tr 0, …, tr m` are `m` such iterations from `cents0`. -/
structure NearLloydRun [Field F] [LinearOrder F] (dist : (Fin n → F) → (Fin n → F) → F) (γ ζ e η : F)
    (N : Nat) (data : Nat → Fin n → F) (cents0 : Fin k → Fin n → F) (m : Nat) (tr : Nat → Snap F k n) :
    Prop where
  cents : (tr 0).cents = cents0
  unassigned : ∀ r, (tr 0).assign r = none
  step : ∀ i, i < m → NearLloydStep dist γ ζ e η N data (tr i) (tr (i + 1))

/-- Squared Euclidean distance. -/
def sqDistance [Field F] (x y : Fin n → F) : F := ∑ j, (x j - y j) ^ 2

/-- Taxicab distance. -/
def taxiDistance [Field F] [LinearOrder F] (x y : Fin n → F) : F := ∑ j, |x j - y j|

/-- Finite rows whose coordinates are at most `B` in size. -/
def InBox [Field F] [LinearOrder F] (fin : R → Prop) (val : R → F) (B : F) (x : Fin n → R) : Prop :=
  ∀ j, fin (x j) ∧ |val (x j)| ≤ B

/-- What a run that starts at `cents0` and returns `iters`, `assign`, `counts` and `cents` owes to the user when
operations round (`e` and `η`: error of the centroids; `γ` and `ζ`: error of the distances): it made `m` Lloyd
iterations up to rounding, it stopped at the first iteration whose computed fraction of changed rows is at most
`tol` or at `maxIters`, every returned number is finite, and, if no row changed in the last iteration, every row
is with a centroid that is nearly the nearest of the returned ones. -/
def NearLloydResult [Field F] [LinearOrder F] [Div R] [NatCast R] [LE R] (fin : R → Prop) (val : R → F)
    (dist : (Fin n → F) → (Fin n → F) → F) (γ ζ e η : F) (N : Nat) (data : Nat → Fin n → R)
    (cents0 : Fin k → Fin n → R) (tol : R) (maxIters : Nat) (iters : Nat) (assign : Nat → Option (Fin k))
    (counts : Fin k → Int) (cents : Fin k → Fin n → R) : Prop :=
  ∃ (m : Nat) (tr : Nat → Snap F k n),
    let changed := fun i => numChanged N (tr (i - 1)).assign (tr i).assign
    let stops := fun i => changed i = 0 ∨ (changed i : R) / (N : R) ≤ tol
    1 ≤ m ∧ m ≤ maxIters ∧
    NearLloydRun dist γ ζ e η N (fun r j => val (data r j)) (fun c j => val (cents0 c j)) m tr ∧
    (∀ i, 1 ≤ i → i < m → ¬ stops i) ∧
    (stops m ∧ iters = m ∨ ¬ stops m ∧ m = maxIters ∧ iters = maxIters + 1) ∧
    (∀ r, r < N → assign r = (tr m).assign r) ∧
    (∀ c, counts c = (count N assign c : Int)) ∧
    (∀ c j, fin (cents c j) ∧ val (cents c j) = (tr m).cents c j) ∧
    (changed m = 0 → ∀ r, r < N → ∃ c, assign r = some c ∧
      NearNearest γ ζ (fun c => dist (fun j => val (data r j)) fun j => val (cents c j)) c)

end Knor.Spec
