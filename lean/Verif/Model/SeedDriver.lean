import Verif.Model.PrunedDriver
import Verif.Model.MultiStart

/-!
# Whole multi-start calls

Models `knor::base::kmeansPP(...)` from the names of the options and the data to the returned pair, and the program
`kmeanspp`.  The conventions are those of Model/Driver.lean; `keeps` is that of Model/MultiStart.lean.
-/

namespace Knor.Driver

open Knor Knor.Io

variable {R S B : Type _} {k n : Nat}

/-- The state of the engine before start `i`: the engine is a member of the coordinator, and a start draws one row
and `k` numbers.  Models libman/kmeans_task_coordinator.hpp:46-49 and
libman/kmeans_task_coordinator.cpp:183-187, 205-212. -/
def engineAt (rng : Rng R S k) : Nat → S
  | 0 => rng.seed
  | i + 1 => Init.skip rng.unit k (rng.row (engineAt rng i)).2

/-- What start `i` draws, with the interleavings `sched i`.
Models libman/kmeans_task_coordinator.cpp:183-212. -/
def startDraws (rng : Rng R S k) (sched : Nat → Nat → List Nat) (i : Nat) : MultiStart.Draws R :=
  ⟨(rng.row (engineAt rng i)).1, fun j => (rng.unit (Init.skip rng.unit j (rng.row (engineAt rng i)).2)).1, sched i⟩

/-- `kmeansPP(data, ...)` and `kmeansPP(datafn, ...)`: the coordinator is created for k-means++ and no iterations
(a single cluster has no distance matrix).
Models binding/kmeanspp.hpp:29-61 and 63-106. -/
def kmeansPPCall [Zero R] [Add R] [Sub R] [Mul R] [Div R] [Neg R] [One R] [NatCast R] [LT R] [DecidableLT R]
    [LE R] [DecidableLE R] (keeps : Bool) (dist : Dist.Metric → Row R n → Row R n → R) (big : R) (c : Codec R B)
    (rng : Rng R S k) (sched : Nat → Nat → List Nat) (source : Source R B) (nrow nstart nthreads : Nat)
    (distType : String) : Res (Nat × R × MultiStart.Copy R k n) :=
  match getDist distType with
  | .error e => .error e
  | .ok m =>
    match constructPruned (k := k) (n := n) big .plusplus none with
    | .error e => .error e
    | .ok _ =>
      match load c ⟨source, nrow, 0, nthreads, none, "kmeanspp", -1, distType⟩ n with
      | .error e => .error e
      | .ok ws =>
        MultiStart.kmeansPP keeps (dist m) big (rowsIn ws nrow nthreads) nrow nthreads
          (Partition.effThreads nthreads nrow) (Prune.taskRows nrow nthreads) (startDraws rng sched) nstart

/-- `kmeanspp`: the size of the file is checked first.  Models exec/kmeanspp.cpp:95-110. -/
def kmeansppMain [Zero R] [Add R] [Sub R] [Mul R] [Div R] [Neg R] [One R] [NatCast R] [LT R] [DecidableLT R]
    [LE R] [DecidableLE R] (keeps : Bool) (dist : Dist.Metric → Row R n → Row R n → R) (big : R) (c : Codec R B)
    (rng : Rng R S k) (sched : Nat → Nat → List Nat) (datafn : List B) (nrow nstart nthreads : Nat)
    (distType : String) : Res (Nat × R × MultiStart.Copy R k n) :=
  if datafn.length ≠ u64 (u64 (c.size * nrow) * n) then .error .throws
  else kmeansPPCall keeps dist big c rng sched (.file datafn) nrow nstart nthreads distType

end Knor.Driver
