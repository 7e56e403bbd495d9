import Verif.Spec.NearStart
import Verif.Spec.NearJob
import Verif.Model.DistrDriver

/-!
# Specification: what a whole distributed job on doubles owes to the user
-/

namespace Knor.Spec

open Knor.Driver

variable {R S : Type _} {k n : Nat}

/-- How many additions a process with `b` rows and `nt` threads makes at most in a row to add all its rows: a thread has
at most `b / T + b % T` of them, and the `T` sums of the threads are added up. -/
def addsOf (nt b : Nat) : Nat := b / min nt b + b % min nt b + min nt b

/-- The same for a job of `np` processes on `N` rows: every process has `N / np` rows, the last one also the rest. -/
def addsOfJob (N np nt : Nat) : Nat := max (addsOf nt (N / np)) (addsOf nt (N / np + N % np))

/-- What a job of `np` processes with `nt` threads each on doubles owes to the user (compare `NearDelivers`): it starts
where the initialisation says and returns the result of Lloyd's algorithm from there, both up to rounding; with no
iteration allowed, the start itself.  `sameOrder` says that the reductions of all iterations add in the same order. -/
def NearDeliversJob [Zero R] [Div R] [NatCast R] [LE R] (fin : R → Prop) (val : R → ℝ) (it : InitT) (met : Dist.Metric)
    (data : Nat → Fin n → R) (N np nt : Nat) (rng : Rng R S k) (given : Option (Fin k → Fin n → R)) (tol : R)
    (maxIters : Nat) (sameOrder : Prop) (res : JobResult R k n) : Prop :=
  let W := addsOfJob N np nt
  let γ := ((n + 4 : Nat) : ℝ) * 2 ^ (-52 : Int)
  ∃ c0, NearStartsAt fin val it (metricDist met) γ (metricSlack met)
      ((N / np + N % np + np : Nat) * 2 ^ (-52 : Int)) (2 ^ (-1075 : Int))
      ((W + np + N + 1 : Nat) * 2 ^ (-52 : Int)) (2 ^ (-1073 : Int)) data N rng given c0 ∧
    (maxIters = 0 → res.iters = 0 ∧ ∀ c j, fin (res.means c j) ∧ val (res.means c j) = val (c0 c j)) ∧
    (0 < maxIters → NearJobResult fin val (metricDist met) γ (metricSlack met) ((W + np : Nat) * 2 ^ (-52 : Int))
      (2 ^ (-1075 : Int)) N 1 data c0 tol maxIters sameOrder res.iters res.assign (fun _ => res.sizes)
      (fun _ => res.means))

end Knor.Spec
