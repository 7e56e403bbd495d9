import Verif.Spec.NearLloyd

/-!
# Specification: what a distributed job owes to the user when operations round
-/

namespace Knor.Spec

variable {R F : Type _} {k n : Nat}

/-- A job of `np` ranks that starts at `cents0`, reports `iters` iterations and the assignment `assign`, and leaves
rank `p` with sizes `counts p` and centroids `cents p` (errors as in `NearLloydResult`): it made `m` Lloyd
iterations up to rounding on all rows, it stopped at the first iteration whose computed fraction of changed rows
is at most `tol` or at `maxIters`, all ranks hold the same finite centroids and the same sizes, and, if all
reductions of the job were made in the same order and no row changed in the last iteration, every row is with a
centroid that is nearly the nearest of the returned ones. -/
def NearJobResult [Field F] [LinearOrder F] [Div R] [NatCast R] [LE R] (fin : R → Prop) (val : R → F)
    (dist : (Fin n → F) → (Fin n → F) → F) (γ ζ e η : F) (N np : Nat) (data : Nat → Fin n → R)
    (cents0 : Fin k → Fin n → R) (tol : R) (maxIters : Nat) (sameOrder : Prop) (iters : Nat)
    (assign : Nat → Option (Fin k)) (counts : Nat → Fin k → Int) (cents : Nat → Fin k → Fin n → R) : Prop :=
  ∃ (m : Nat) (tr : Nat → Snap F k n),
    let changed := fun i => numChanged N (tr (i - 1)).assign (tr i).assign
    let stops := fun i => changed i = 0 ∨ (changed i : R) / (N : R) ≤ tol
    1 ≤ m ∧ m ≤ maxIters ∧
    NearLloydRun dist γ ζ e η N (fun r j => val (data r j)) (fun c j => val (cents0 c j)) m tr ∧
    (∀ i, 1 ≤ i → i < m → ¬ stops i) ∧
    (stops m ∨ m = maxIters) ∧ iters = m ∧
    (∀ r, r < N → assign r = (tr m).assign r) ∧
    (∀ p, p < np → (∀ c, counts p c = (count N assign c : Int)) ∧ cents p = cents 0) ∧
    (∀ c j, fin (cents 0 c j) ∧ val (cents 0 c j) = (tr m).cents c j) ∧
    (sameOrder → changed m = 0 → ∀ r, r < N → ∃ c, assign r = some c ∧
      NearNearest γ ζ (fun c => dist (fun j => val (data r j)) fun j => val (cents 0 c j)) c)

/-- The job returned the clusters of the exact Lloyd iterations `tr`: it made as many iterations as the stopping
rule asks for, its assignment and sizes are those of `tr`, and the centroids of all ranks differ from those of
`tr` by at most `δ`. -/
def SameClustersJob [Field F] [LinearOrder F] [Div R] [NatCast R] [LE R] (val : R → F) (δ : F) (N np : Nat) (tol : R)
    (maxIters : Nat) (tr : Nat → Snap F k n) (iters : Nat) (assign : Nat → Option (Fin k))
    (counts : Nat → Fin k → Int) (cents : Nat → Fin k → Fin n → R) : Prop :=
  let changed := fun i => numChanged N (tr (i - 1)).assign (tr i).assign
  let stops := fun i => changed i = 0 ∨ (changed i : R) / (N : R) ≤ tol
  1 ≤ iters ∧ iters ≤ maxIters ∧ (∀ i, 1 ≤ i → i < iters → ¬ stops i) ∧ (stops iters ∨ iters = maxIters) ∧
    (∀ r, r < N → assign r = (tr iters).assign r) ∧
    ∀ p, p < np → (∀ c, counts p c = (count N (tr iters).assign c : Int)) ∧
      ∀ c j, |val (cents p c j) - (tr iters).cents c j| ≤ δ

end Knor.Spec
