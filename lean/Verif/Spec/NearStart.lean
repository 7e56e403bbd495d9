import Verif.Spec.NearLloyd
import Verif.Spec.Start

/-!
# Specification: where a k-means call on rounded numbers starts

Independent of the code: the promises of `StartsAt` (Spec/Start.lean) when the numbers are rounded.
-/

namespace Knor.Spec

open Knor.Driver Knor.Init Finset

variable {R S : Type _} {k n : Nat}

/-- The distances behind the names of the metrics; the cosine distance is not treated. -/
noncomputable def metricDist : Dist.Metric → (Fin n → ℝ) → (Fin n → ℝ) → ℝ
  | .eucl => fun x y => √(sqDistance x y)
  | .sqeucl => sqDistance
  | .taxi => taxiDistance
  | .cos => fun _ _ => 0

/-- `d q` is, up to a relative error `γ` and an absolute error `ζ`, the smallest distance of row `q` to the
centres in the set `chosen`; it is exactly zero for a row that is one of them. -/
def NearMinTo (dist : (Fin n → ℝ) → (Fin n → ℝ) → ℝ) (γ ζ : ℝ) (data : Nat → Fin n → ℝ) (N : Nat)
    (chosen : Fin k → Prop) (cents : Fin k → Fin n → ℝ) (d : Nat → ℝ) : Prop :=
  ∀ q, q < N → 0 ≤ d q ∧
    (∃ c, chosen c ∧ |d q - dist (data q) (cents c)| ≤ γ * dist (data q) (cents c) + ζ) ∧
    ∀ c, chosen c → d q ≤ (1 + γ) * dist (data q) (cents c) + ζ ∧ (data q = cents c → d q = 0)

/-- Row `r` is, up to a relative error `ε` and an absolute error `ω` of the sums, what the draw `u` selects from
`N` rows with weights `d` (compare `Sampled`); a row with weight 0 is not selected, unless the fraction of the
whole that the draw stands for is as good as 0. -/
def NearSampled (ε ω : ℝ) (d : Nat → ℝ) (N : Nat) (u : ℝ) (r : Nat) : Prop :=
  let t := (∑ i ∈ range N, d i) * u / 2147483646
  r < N ∧ (1 - ε) * t ≤ ∑ i ∈ range (r + 1), d i + ω ∧
    (∀ j, j < r → ∑ i ∈ range (j + 1), d i ≤ (1 + ε) * t + ω) ∧ (2 * ω ≤ t → 0 < d r)

/-- The centroids that the first iteration starts from, on rounded numbers.
* `none`: the centres that were given, and zero vectors if none were.
* `forgy`: centroid `c` is the row with the number that draw `c` of the engine gives.
* `random`: draw `r` of the engine is the cluster of row `r`, and the centroids are the means up to `e` and `η`.
* `kmeanspp`: the first centroid is the row of the first draw; every other one is a row that is sampled, up to
  rounding, with the distances to the nearest centroid before it as weights. -/
def NearStartsAt (fin : R → Prop) (val : R → ℝ) [Zero R] (it : InitT) (dist : (Fin n → ℝ) → (Fin n → ℝ) → ℝ)
    (γ ζ e η ε ω : ℝ) (data : Nat → Fin n → R) (N : Nat) (rng : Rng R S k)
    (given : Option (Fin k → Fin n → R)) (c0 : Fin k → Fin n → R) : Prop :=
  match it with
  | .none => (∀ g, given = some g → c0 = g) ∧ (given = none → ∀ c j, c0 c j = 0)
  | .forgy => ∀ c : Fin k, ∃ r, r < N ∧ (outputs rng.row k rng.seed)[c.val]? = some r ∧ c0 c = data r
  | .random => ∃ a : Nat → Option (Fin k),
      (∀ r, r < N → ∃ c, a r = some c ∧ (outputs rng.clust N rng.seed)[r]? = some c) ∧
      ∀ c j, fin (c0 c j) ∧ |val (c0 c j) - memberMean N (fun r j => val (data r j)) a c j| ≤
        e * memberMean N (fun r j => |val (data r j)|) a c j + η
  | .plusplus => ∀ c : Fin k,
      (c.val = 0 → c0 c = data (rng.row rng.seed).1) ∧
      (0 < c.val → ∃ r d u, c0 c = data r ∧
        NearMinTo dist γ ζ (fun r j => val (data r j)) N (fun c' => c' < c) (fun c j => val (c0 c j)) d ∧
        (outputs rng.unit k (rng.row rng.seed).2)[c.val - 1]? = some u ∧ NearSampled ε ω d N (val u) r)

/-- The draws of the engine are finite numbers in the ranges of their distributions. -/
structure RngFin (fin : R → Prop) (val : R → ℝ) (rng : Rng R S k) (N : Nat) : Prop where
  row : ∀ s, (rng.row s).1 < N
  unit : ∀ s, fin (rng.unit s).1 ∧ 0 ≤ val (rng.unit s).1 ∧ val (rng.unit s).1 ≤ 1

/-- The absolute error of a computed distance; the relative one is `(n+4) 2^-52`. -/
noncomputable def metricSlack : Dist.Metric → ℝ
  | .eucl => 2 ^ (-520 : Int)
  | .sqeucl => 2 ^ (-1042 : Int)
  | _ => 0

/-- What a k-means call with `T` threads on doubles owes to the caller (compare `Delivers`): it starts where the
initialisation says and returns the result of Lloyd's algorithm from there, both up to rounding; with no iteration
allowed, the start itself. -/
def NearDelivers [Zero R] [Div R] [NatCast R] [LE R] (fin : R → Prop) (val : R → ℝ) (it : InitT) (met : Dist.Metric)
    (data : Nat → Fin n → R) (N T : Nat) (rng : Rng R S k) (given : Option (Fin k → Fin n → R)) (tol : R)
    (maxIters : Nat) (res : Kmeans.Result R k n) : Prop :=
  let L := N / T + N % T
  let γ := ((n + 4 : Nat) : ℝ) * 2 ^ (-52 : Int)
  ∃ c0, NearStartsAt fin val it (metricDist met) γ (metricSlack met) ((N + 1 : Nat) * 2 ^ (-52 : Int))
      (2 ^ (-1075 : Int)) ((L + T + N + 2 : Nat) * 2 ^ (-52 : Int)) (2 ^ (-1073 : Int)) data N rng given c0 ∧
    (maxIters = 0 → res.iters = 0 ∧ res.state.cltrs.means = c0) ∧
    (0 < maxIters → NearLloydResult fin val (metricDist met) γ (metricSlack met) ((L + T + 1 : Nat) * 2 ^ (-52 : Int))
      (2 ^ (-1075 : Int)) N data c0 tol maxIters res.iters res.state.assign res.state.counts res.state.cltrs.means)

end Knor.Spec
