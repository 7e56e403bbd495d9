import Verif.Spec.Medoid
import Verif.Spec.NearStart

/-!
# Specification: k-medoids up to rounding

Independent of the code: the iterations of Spec/Medoid.lean when distances and their sums are rounded.  Medoids are
rows of the data, exactly.
-/

namespace Knor.Spec

open Finset

variable {R : Type _} {k n : Nat}

/-- One iteration of k-medoids from the medoids and the assignment `s`, up to the relative error `γ` and absolute error
`ζ` of distances, `ε` and `κ` of sums of distances: every medoid is kept or replaced by a sampled row of its cluster,
which has a smaller sum of distances to the cluster, up to the errors; up to the errors no sampled row of the cluster
has a smaller one than the new medoid; every row is assigned to a nearly nearest new medoid. -/
structure NearMedoidStep (val : R → ℝ) (dist : (Fin n → ℝ) → (Fin n → ℝ) → ℝ) (γ ζ ε κ : ℝ) (N : Nat)
    (data : Nat → Fin n → R) (sampled : Nat → Prop) (s s' : Snap R k n) : Prop where
  kept : ∀ c, s'.cents c = s.cents c ∨ ∃ r, r < N ∧ s.assign r = some c ∧ sampled r ∧ s'.cents c = data r ∧
    (1 - ε) * energyAt dist N (fun r j => val (data r j)) s.assign c (fun j => val (s'.cents c j)) <
      (1 + ε) * energyAt dist N (fun r j => val (data r j)) s.assign c (fun j => val (s.cents c j)) + 2 * κ
  best : ∀ c r, r < N → s.assign r = some c → sampled r →
    (1 - ε) * energyAt dist N (fun r j => val (data r j)) s.assign c (fun j => val (s'.cents c j)) ≤
      (1 + ε) * energyAt dist N (fun r j => val (data r j)) s.assign c (fun j => val (data r j)) + 2 * κ
  near : ∀ r, r < N → ∃ c, s'.assign r = some c ∧
    NearNearest γ ζ (fun c => dist (fun j => val (data r j)) fun j => val (s'.cents c j)) c

/-- The result of k-medoids up to rounding from the medoids `y0` (compare `MedoidResult`): all rows are assigned to a
nearly nearest medoid, then follow iterations until no row changed or the computed fraction of changed rows is at most
`tol`, at most `maxIters`; the number of the last one (`maxIters + 1` if the rule was not met); the last medoids, all of
which are rows of the data, and assignment, and the sizes of the clusters. -/
def NearMedoidResult [Div R] [NatCast R] [LE R] (val : R → ℝ) (dist : (Fin n → ℝ) → (Fin n → ℝ) → ℝ) (γ ζ ε κ : ℝ)
    (N : Nat) (data : Nat → Fin n → R) (sampled : Nat → Nat → Prop) (tol : R) (maxIters : Nat) (y0 : Fin k → Fin n → R)
    (iters : Nat) (last : Snap R k n) (sizes : Fin k → Int) : Prop :=
  ∃ (t : Nat) (tr : Nat → Snap R k n),
    let changed := fun i => numChanged N (tr (i - 1)).assign (tr i).assign
    let stops := fun i => changed i = 0 ∨ (changed i : R) / (N : R) ≤ tol
    ((tr 0).cents = y0 ∧ ∀ r, r < N → ∃ c, (tr 0).assign r = some c ∧
      NearNearest γ ζ (fun c => dist (fun j => val (data r j)) fun j => val (y0 c j)) c) ∧
    tr t = last ∧ t ≤ maxIters ∧
    (∀ i, i < t → NearMedoidStep val dist γ ζ ε κ N data (sampled (i + 1)) (tr i) (tr (i + 1))) ∧
    (∀ i, 1 ≤ i → i < t → ¬ stops i) ∧
    ((maxIters = 0 ∧ iters = 0) ∨ (1 ≤ t ∧ stops t ∧ iters = t) ∨
      (1 ≤ t ∧ ¬ stops t ∧ t = maxIters ∧ iters = maxIters + 1)) ∧
    (∀ c, ∃ r, r < N ∧ last.cents c = data r) ∧
    ∀ c, sizes c = (((range N).filter fun r => last.assign r = some c).card : Int)

end Knor.Spec
