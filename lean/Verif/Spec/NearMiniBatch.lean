import Verif.Spec.MiniBatch
import Verif.Spec.NearPruned
import Verif.Spec.Double

/-!
# Specification: mini-batch k-means on rounded numbers

Independent of the code: the promises of `DeliversMiniBatch` (Spec/MiniBatch.lean) when the numbers are rounded.
-/

namespace Knor.Spec

open Knor.Driver Knor.Init

variable {R S : Type _} {k n : Nat}

open Classical in
/-- One mini-batch iteration up to rounding (compare `MbStep`).  The sampled rows go to a centroid that is nearly the
nearest of the old ones; the others stay.  Every centroid is moved towards the rows that were sampled for it, in the
order of their numbers, with one over the size of its cluster as the rate, up to an error of `δ` for each of them; in
particular one for which no row was sampled does not move at all. -/
structure NearMbStep (dist : (Fin n → ℝ) → (Fin n → ℝ) → ℝ) (γ ζ δ : ℝ) (N : Nat) (data : Nat → Fin n → ℝ)
    (sampled : Nat → Prop) (s s' : Snap ℝ k n) : Prop where
  assigned : ∀ r, r < N → sampled r → ∃ c, s'.assign r = some c ∧
    NearNearest γ ζ (fun c => dist (data r) (s.cents c)) c
  others : ∀ r, r < N → ¬ sampled r → s'.assign r = s.assign r
  moved : ∀ c j,
    |s'.cents c j - towards (1 / (count N s'.assign c : ℝ)) (s.cents c)
      (((List.range N).filter fun r => sampled r ∧ s'.assign r = some c).map data) j| ≤
    ((List.range N).filter fun r => sampled r ∧ s'.assign r = some c).length * δ

/-- The assignment that the initialisation leaves, up to rounding (compare `StartAssign`): none for given centres and
Forgy's method, the random partition, and for k-means++ a nearest centroid of every row. -/
def NearStartAssign (it : InitT) (dist : (Fin n → ℝ) → (Fin n → ℝ) → ℝ) (γ ζ : ℝ) (data : Nat → Fin n → ℝ) (N : Nat)
    (rng : Rng R S k) (cents : Fin k → Fin n → ℝ) (assign : Nat → Option (Fin k)) : Prop :=
  match it with
  | .none => ∀ r, r < N → assign r = none
  | .forgy => ∀ r, r < N → assign r = none
  | .random => ∀ r, r < N → ∃ c, assign r = some c ∧ (outputs rng.clust N rng.seed)[r]? = some c
  | .plusplus => ∀ r, r < N → ∃ c, assign r = some c ∧ NearNearest γ ζ (fun c => dist (data r) (cents c)) c

/-- How far the centroids moved in iteration `i` (counted from 0): the root of the sum of the squares. -/
noncomputable def movedFrobenius (tr : Nat → Snap ℝ k n) (i : Nat) : ℝ :=
  movedBy (fun y => √(∑ c, ∑ j, y c j ^ 2)) tr i

/-- What the mini-batch call with `T` threads promises on doubles no larger than `X` (compare `DeliversMiniBatch`).
It starts where the initialisation says, up to rounding, and makes `t` iterations; row `r` is sampled in iteration `i`
iff `draw i r` is at most the double nearest to `mb / N` (to `1 / N` if the batch is smaller than the number of
threads).  The computed moves are the true ones up to rounding.  The last iteration is the first whose computed move
is less than `tol`, and its number is reported; if there is none, `maxIters` iterations are made and reported.  The
returned centroids are those after the last iteration; they are within `t N δ` of the convex hulls of their first
positions and the rows, in every coordinate.  Every row is assigned to a nearest one, up to rounding, and the sizes are
those of this partition. -/
def NearDeliversMiniBatch [Zero R] [LT R] (fin : R → Prop) (val : R → ℝ) (it : InitT) (met : Dist.Metric)
    (data : Nat → Fin n → R) (N T mb : Nat) (rng : Rng R S k) (draw : Nat → Nat → R)
    (given : Option (Fin k → Fin n → R)) (tol : R) (maxIters : Nat) (X : ℝ)
    (iters : Nat) (cents : Fin k → Fin n → R) (assign : Nat → Option (Fin k)) (sizes : Fin k → Int) : Prop :=
  let L := N / T + N % T
  let γ := ((n + 4 : Nat) : ℝ) * 2 ^ (-52 : Int)
  let δ := 12 * 2 ^ (-52 : Int) * X
  let rows := fun r (j : Fin n) => val (data r j)
  ∃ (t : Nat) (tr : Nat → Snap ℝ k n) (c0 : Fin k → Fin n → R) (f : ℝ) (moves : Nat → R),
    NearStartsAt fin val it (metricDist met) γ (metricSlack met) ((N + 1 : Nat) * 2 ^ (-52 : Int))
      (2 ^ (-1075 : Int)) ((L + T + N + 2 : Nat) * 2 ^ (-52 : Int)) (2 ^ (-1073 : Int)) data N rng given c0 ∧
    ((tr 0).cents = fun c j => val (c0 c j)) ∧
    NearStartAssign it (metricDist met) γ (metricSlack met) rows N rng (tr 0).cents (tr 0).assign ∧
    NearestDouble (((if mb < T then 1 else mb : Nat) : ℝ) / (N : ℝ)) f ∧
    (∀ i, i < t → NearMbStep (metricDist met) γ (metricSlack met) δ N rows (fun r => val (draw i r) ≤ f)
      (tr i) (tr (i + 1))) ∧
    (∀ i, i < t → fin (moves i) ∧ 0 ≤ val (moves i) ∧ |val (moves i) - movedFrobenius tr i| ≤
      ((k * n + 4 : Nat) : ℝ) * 2 ^ (-52 : Int) * movedFrobenius tr i + 2 ^ (-520 : Int)) ∧
    (∀ i, i + 1 < t → ¬ moves i < tol) ∧
    ((∃ j, t = j + 1 ∧ j < maxIters ∧ moves j < tol ∧ iters = j) ∨
      (t = maxIters ∧ iters = maxIters ∧ ∀ i, i < t → ¬ moves i < tol)) ∧
    (∀ c j, fin (cents c j) ∧ val (cents c j) = (tr t).cents c j) ∧
    (∀ c, ∃ x ∈ convexHull ℝ ({(tr 0).cents c} ∪ {x | ∃ r, r < N ∧ x = rows r}),
      ∀ j, |val (cents c j) - x j| ≤ t * (N * δ)) ∧
    (∀ r, r < N → ∃ c, assign r = some c ∧
      NearNearest γ (metricSlack met) (fun c => metricDist met (rows r) fun j => val (cents c j)) c) ∧
    (∀ c, sizes c = (count N assign c : Int)) ∧ ∑ c, sizes c = (N : Int)

end Knor.Spec
