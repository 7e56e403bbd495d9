import Mathlib.Algebra.BigOperators.Group.Finset.Basic
import Mathlib.Algebra.Field.Defs
import Mathlib.Order.Defs.LinearOrder

/-!
# Specification: the choice of k-means++ centres

`2147483646` is `RAND_MAX - 1`.
-/

namespace Knor.Spec

variable {R D : Type _} {k n : Nat}

/-- `d q` is the smallest distance of row `q` to the centres that are in the set `chosen`. -/
def MinTo [LE D] (dist : (Fin n → R) → (Fin n → R) → D) (data : Nat → Fin n → R) (N : Nat)
    (chosen : Fin k → Prop) (cents : Fin k → Fin n → R) (d : Nat → D) : Prop :=
  ∀ q, q < N → (∃ c, chosen c ∧ d q = dist (data q) (cents c)) ∧
    ∀ c, chosen c → d q ≤ dist (data q) (cents c)

/-- Row `r` is what the draw `u` selects from `N` rows with weights `d`: the first row at which the running
total of the weights reaches the fraction `u / (RAND_MAX - 1)` of the whole. -/
def Sampled [Field D] [LinearOrder D] (d : Nat → D) (N : Nat) (u : D) (r : Nat) : Prop :=
  r < N ∧ (∑ i ∈ Finset.range N, d i) * u / 2147483646 ≤ ∑ i ∈ Finset.range (r + 1), d i ∧
  ∀ j, j < r → ∑ i ∈ Finset.range (j + 1), d i < (∑ i ∈ Finset.range N, d i) * u / 2147483646

end Knor.Spec
