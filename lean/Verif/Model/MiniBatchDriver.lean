import Verif.Model.PrunedDriver
import Verif.Model.MiniBatch

/-!
# A whole mini-batch call

Models `create(...)`, `set_mini_batch_size` and `mb_run(...)` of `knor::prune::kmeans_task_coordinator` from the names
of the options and the data to the returned `cluster_t`, and the program `mb_knori`.  The conventions are those of
Model/Driver.lean and Model/PrunedDriver.lean.
-/

namespace Knor.Driver

open Knor Knor.Io

variable {R S B : Type _} {k n : Nat}

/-- `frobenius_norm` of `k * n` numbers in row-major order.  Models libkcommon/linalg.hpp:151-158. -/
def frobenius [Zero R] [Add R] [Mul R] (sqrt : R → R) (y : Fin k → Row R n) : R :=
  sqrt ((List.finRange k).foldl (fun s c => (List.finRange n).foldl (fun s j => s + y c j * y c j) s) 0)

/-- `create(...)`, `set_mini_batch_size(mb)` and `mb_run(...)`; `draw i r` is what the generator of row `r`'s worker
returns for it in iteration `i`; `sched1` are the interleavings of the initialisation, `sched2` those of the
iterations and `schedEnd` that of the final assignment.  The result is the number of iterations and the state from
which `cluster_t` is built.
Models libman/kmeans_task_coordinator.hpp:62-91 and libman/kmeans_task_coordinator.cpp:34-63, 322-422. -/
def mbKmeans [Zero R] [One R] [Add R] [Sub R] [Mul R] [Div R] [IntCast R] [NatCast R] [LT R] [DecidableLT R]
    [LE R] [DecidableLE R] (dist : Dist.Metric → Row R n → Row R n → R) (big : R) (sqrt : R → R) (c : Codec R B)
    (rng : Rng R S k) (draw : Nat → Nat → R) (sched1 sched2 : Nat → List Nat) (schedEnd : List Nat) (mb : Nat)
    (a : Call R B) : Res (Nat × Prune.PState R R k n) :=
  match getInit a.init with
  | .error e => .error e
  | .ok it =>
    match getDist a.dist with
    | .error e => .error e
    | .ok m =>
      match constructPruned big it a.centers with
      | .error e => .error e
      | .ok s0 =>
        match load c a n with
        | .error e => .error e
        | .ok ws =>
          let data : Nat → Row R n := rowsIn ws a.nrow a.nthreads
          match runInitPruned (dist m) big rng data a.nrow a.nthreads sched1 it s0 with
          | .error e => .error e
          | .ok s =>
            MiniBatch.run (dist m) big (frobenius sqrt) data a.nrow a.nthreads mb draw a.tol a.maxIters sched2
              schedEnd s

/-- `mb_knori`.  Models exec/mb_knori.cpp:102-142. -/
def mbKnori [Zero R] [One R] [Add R] [Sub R] [Mul R] [Div R] [IntCast R] [NatCast R] [LT R] [DecidableLT R]
    [LE R] [DecidableLE R] (dist : Dist.Metric → Row R n → Row R n → R) (big : R) (sqrt : R → R) (c : Codec R B)
    (rng : Rng R S k) (draw : Nat → Nat → R) (sched1 sched2 : Nat → List Nat) (schedEnd : List Nat)
    (datafn : List B) (centersfn : Option (List B)) (nrow maxIters nthreads : Nat) (init : String) (tol : R)
    (distType : String) (mb : Nat) : Res (Nat × Prune.PState R R k n) :=
  let init := if centersfn.isSome then "none" else init
  if init = "none" ∧ centersfn.isNone then .error .assertFail
  else if datafn.length ≠ u64 (u64 (c.size * nrow) * n) then .error .throws
  else match centersfn with
    | none =>
      mbKmeans dist big sqrt c rng draw sched1 sched2 schedEnd mb
        ⟨.file datafn, nrow, maxIters, nthreads, none, init, tol, distType⟩
    | some f =>
      match (BinIo.openRead f k n).read c with
      | .error e => .error e
      | .ok (l, _) =>
        mbKmeans dist big sqrt c rng draw sched1 sched2 schedEnd mb
          ⟨.file datafn, nrow, maxIters, nthreads, some l, init, tol, distType⟩

end Knor.Driver
