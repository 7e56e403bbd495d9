import Verif.Spec.NearJobStart

/-!
# Specification: what a whole pruned distributed job on doubles owes to the user
-/

namespace Knor.Spec

open Knor.Driver

variable {R S : Type _} {k n : Nat}

/-- What a pruned job of `np` processes with `nt` threads each on doubles no larger than `X` owes to the user (compare
`NearDeliversJob`): it starts where the initialisation says, up to rounding, and returns the result of Lloyd's algorithm
with the Euclidean distance from there up to `err` in every centroid and `errD` in every distance, both of which grow
linearly with the number of iterations; with no iteration allowed, the start itself. -/
def NearDeliversJobPruned [Zero R] [Div R] [NatCast R] [LE R] (fin : R → Prop) (val : R → ℝ) (it : InitT)
    (data : Nat → Fin n → R) (N np nt : Nat) (rng : Rng R S k) (given : Option (Fin k → Fin n → R)) (tol : R)
    (maxIters : Nat) (X : ℝ) (res : JobResult R k n) : Prop :=
  let W := addsOfJob N np nt
  let err := (maxIters : ℝ) * ((W + np + 7 : Nat) * 2 ^ (-52 : Int) * (N * X))
  let errD := ((maxIters + 3 : Nat) : ℝ) * ((n + 8 : Nat) * 2 ^ (-52 : Int) * (2 * √n * (X + err)))
  ∃ c0, NearStartsAt fin val it (metricDist .eucl) ((n + 4 : Nat) * 2 ^ (-52 : Int)) (metricSlack .eucl)
      ((N / np + N % np + np : Nat) * 2 ^ (-52 : Int)) (2 ^ (-1075 : Int))
      ((W + np + N + 1 : Nat) * 2 ^ (-52 : Int)) (2 ^ (-1073 : Int)) data N rng given c0 ∧
    (maxIters = 0 → res.iters = 0 ∧ ∀ c j, fin (res.means c j) ∧ val (res.means c j) = val (c0 c j)) ∧
    (0 < maxIters → NearJobResult fin val (metricDist .eucl) 0 errD 0 err N 1 data c0 tol maxIters False res.iters
      res.assign (fun _ => res.sizes) (fun _ => res.means))

end Knor.Spec
