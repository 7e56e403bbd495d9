import Mathlib.Analysis.SpecialFunctions.Pow.Real
import Verif.Spec.Fuzzy
import Verif.Spec.NearStart

/-!
# Specification: fuzzy c-means up to rounding

Independent of the code: the iterations of Spec/Fuzzy.lean when numbers are rounded.
-/

namespace Knor.Spec

open Finset Knor.Driver Knor.Init

variable {R : Type _} {k n : Nat}

/-- The weight of a centre at distance `d`, for the exponent `m`; a centre at distance 0 gets a tiny one. -/
noncomputable def exactWeight (m : Nat) (d : ℝ) : ℝ :=
  if 0 < d then (1 / d) ^ ((1 : ℝ) / ((m : ℝ) - 1)) else 22 / 10 ^ 17

/-- `root x` is `std::pow(x, 1/(m-1))` with relative error `2^-51` between `2^-122` and `2^538`. -/
def RootRounds (fin : R → Prop) (val : R → ℝ) (root : R → R) (m : Nat) : Prop :=
  ∀ x, fin x → 2 ^ (-122 : Int) ≤ val x → val x ≤ 2 ^ (538 : Int) →
    fin (root x) ∧ |val (root x) - val x ^ ((1 : ℝ) / ((m : ℝ) - 1))| ≤
      2 ^ (-51 : Int) * val x ^ ((1 : ℝ) / ((m : ℝ) - 1))

/-- `x ^ m` is `std::pow(x, m)` with relative error `2^-51`, or absolute error `2^-1074`, between 0 and 2. -/
def PowRounds [Pow R Nat] (fin : R → Prop) (val : R → ℝ) (m : Nat) : Prop :=
  ∀ x : R, fin x → 0 ≤ val x → val x ≤ 2 →
    fin (x ^ m) ∧ 0 ≤ val (x ^ m) ∧
      |val (x ^ m) - val x ^ m| ≤ 2 ^ (-51 : Int) * val x ^ m + 2 ^ (-1074 : Int)

/-- One iteration of fuzzy c-means with exponent `m` up to rounding, from the centres `y` to the centres `y'`; `w` are
the powers of the memberships.
* `d` are the distances, up to the relative error `γ` and the absolute error `ζ`;
* `v` are the memberships, in the proportion of the weights of these distances up to a relative error;
* `w` are their `m`-th powers, up to a relative error `2^-51` and an absolute error `2^-1074`;
* the weights `w` of a cluster do not vanish, and its new centre is the mean of the rows with these weights, up to a
  relative error (of the mean of the absolute values) and an absolute error. -/
def NearFuzzyStep (fin : R → Prop) (val : R → ℝ) (dist : (Fin n → ℝ) → (Fin n → ℝ) → ℝ) (γ ζ : ℝ) (N m : Nat)
    (data : Nat → Fin n → R) (y : Fin k → Fin n → R) (w : Nat → Fin k → R) (y' : Fin k → Fin n → R) : Prop :=
  ∃ d v : Nat → Fin k → ℝ,
    (∀ r, r < N → ∀ c, 0 ≤ d r c ∧
      |d r c - dist (fun j => val (data r j)) (fun j => val (y c j))| ≤
        γ * dist (fun j => val (data r j)) (fun j => val (y c j)) + ζ) ∧
    (∀ r, r < N → ∀ c, |v r c - exactWeight m (d r c) / ∑ c', exactWeight m (d r c')| ≤
        ((4 * k + 33 : Nat) : ℝ) * 2 ^ (-52 : Int) * (exactWeight m (d r c) / ∑ c', exactWeight m (d r c'))) ∧
    (∀ r, r < N → ∀ c, fin (w r c) ∧ 0 ≤ val (w r c) ∧
      |val (w r c) - v r c ^ m| ≤ 2 ^ (-51 : Int) * v r c ^ m + 2 ^ (-1074 : Int)) ∧
    ∀ c, 0 < ∑ r ∈ range N, val (w r c) ∧ ∀ j, fin (y' c j) ∧
      |val (y' c j) - (∑ r ∈ range N, val (w r c) * val (data r j)) / ∑ r ∈ range N, val (w r c)| ≤
        ((6 * N + 14 : Nat) : ℝ) * 2 ^ (-52 : Int) *
          ((∑ r ∈ range N, val (w r c) * |val (data r j)|) / ∑ r ∈ range N, val (w r c)) + 2 ^ (-390 : Int)

/-- Some `k+1` rows are at a distance of at least `δ` from each other. -/
def FarRows (k : Nat) (δ : ℝ) (dist : (Fin n → ℝ) → (Fin n → ℝ) → ℝ) (N : Nat) (data : Nat → Fin n → ℝ) : Prop :=
  ∃ q : Fin (k + 1) → Nat, (∀ i, q i < N) ∧ ∀ i i', i ≠ i' → δ ≤ dist (data (q i)) (data (q i'))

/-- The result of fuzzy c-means from the centres `y0` up to rounding (compare `FuzzyResult`): iterations until the
movement of the centres, the root of the sum of the squares, computed up to the relative error `γm` and the absolute
error `ζm`, is less than `tol`, at most `maxIters`; the number of the last one (`maxIters + 1` if the centres still
moved); the last centres; every row in the first cluster in which the computed power of its last membership is largest;
and the sizes of the clusters. -/
def NearFuzzyResult [LT R] (fin : R → Prop) (val : R → ℝ) (dist : (Fin n → ℝ) → (Fin n → ℝ) → ℝ) (γ ζ γm ζm : ℝ)
    (N m : Nat) (tol : R) (maxIters : Nat) (data : Nat → Fin n → R)
    (y0 : Fin k → Fin n → R) (iters : Nat) (assign : Nat → Nat) (sizes : Nat → Int) (centers : Fin k → Fin n → R) :
    Prop :=
  ∃ (t : Nat) (y : Nat → Fin k → Fin n → R) (w : Nat → Nat → Fin k → R) (mv : Nat → R),
    let moved := fun i => √(∑ c, ∑ j, (val (y (i + 1) c j) - val (y i c j)) ^ 2)
    let stops := fun i => mv i < tol
    y 0 = y0 ∧ y (t + 1) = centers ∧ t + 1 ≤ maxIters ∧
    (∀ i, i ≤ t → fin (mv i) ∧ 0 ≤ val (mv i) ∧ |val (mv i) - moved i| ≤ γm * moved i + ζm) ∧
    (∀ i, i ≤ t → NearFuzzyStep fin val dist γ ζ N m data (y i) (w i) (y (i + 1))) ∧
    (∀ i, i < t → ¬ stops i) ∧
    ((stops t ∧ iters = t + 1) ∨ (¬ stops t ∧ t + 1 = maxIters ∧ iters = maxIters + 1)) ∧
    (∀ r, r < N → ∃ c : Fin k, assign r = c.val ∧ (∀ c', val (w t r c') ≤ val (w t r c)) ∧
      ∀ c', c' < c → val (w t r c') < val (w t r c)) ∧
    ∀ c, sizes c = (((range N).filter fun r => assign r = c).card : Int)

/-- What a start that computes nothing owes to the caller: with `forgy`, centre `c` is the row with the number that draw
`c` of the engine gives; with `none`, the centres are those that were given, and zero vectors if none were. -/
def PlainStart [Zero R] {S : Type _} (it : InitT) (data : Nat → Fin n → R) (N : Nat) (rng : Rng R S k)
    (given : Option (Fin k → Fin n → R)) (y0 : Fin k → Fin n → R) : Prop :=
  match it with
  | .none => (∀ g, given = some g → y0 = g) ∧ (given = none → ∀ c j, y0 c j = 0)
  | .forgy => ∀ c : Fin k, ∃ r, r < N ∧ (outputs rng.row k rng.seed)[c.val]? = some r ∧ y0 c = data r
  | _ => False

end Knor.Spec
