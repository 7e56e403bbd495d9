import Verif.Spec.NearLloyd

/-!
# Specification: data on which rounding cannot matter
-/

namespace Knor.Spec

variable {F : Type _} {k n : Nat}

/-- In the iteration from `s` to `s'` every row is so much closer to its centroid than to any other that moving
the centroids (which changes distances by at most `Λ`) and an error of the distances (relative `γ`, absolute
`ζ`) leave it the nearest. -/
def Separated [Field F] [LinearOrder F] (dist : (Fin n → F) → (Fin n → F) → F) (γ ζ Λ : F) (N : Nat)
    (data : Nat → Fin n → F) (s s' : Snap F k n) : Prop :=
  ∀ r, r < N → ∀ c c', s'.assign r = some c → c' ≠ c →
    (1 + γ) * (dist (data r) (s.cents c) + Λ) + ζ < (1 - γ) * (dist (data r) (s.cents c') - Λ) - ζ

end Knor.Spec
