import Verif.Model.Driver
import Verif.Model.Prune

/-!
# A whole pruned k-means call

Models `knor::prune::kmeans_task_coordinator::create(...)->run(...)` from the names of the options and the data to
the returned `cluster_t`, and the part of `knori` (exec/knori.cpp) that leads to it without `-P`, which is the
default.  The conventions are those of Model/Driver.lean.
-/

namespace Knor.Driver

open Knor Knor.Io

variable {R S B : Type _} {k n : Nat}

/-- The constructor: centres as in the unpruned coordinator, and the table of centroid distances, which exists
from two clusters on.  Models libman/kmeans_task_coordinator.cpp:34-63 and libkcommon/dist_matrix.cpp:30-40. -/
def constructPruned [Zero R] (big : R) (it : InitT) (centers : Option (List R)) : Res (Prune.PState R R k n) :=
  match construct it centers with
  | .error e => .error e
  | .ok c0 =>
    match DistMatrix.create big k with
    | .error e => .error e
    | .ok m =>
      .ok { cltrs := c0
            prevMeans := fun _ _ => 0
            prevDist := fun _ => 0
            sval := fun _ => big
            dm := m
            slots := fun _ => { assign := none, ub := big, recalc := false }
            counts := fun _ => 0
            changed := 0 }

/-- `run_init`; the distances and assignments of k-means++ stay in `dist_v` and `cluster_assignments`.
Models libman/coordinator.cpp:144-160 and libman/kmeans_task_coordinator.cpp:179-285. -/
def runInitPruned [Zero R] [Add R] [Sub R] [Mul R] [Div R] [IntCast R] [NatCast R] [LT R] [DecidableLT R]
    [LE R] [DecidableLE R] (dist : Row R n → Row R n → R) (big : R) (rng : Rng R S k)
    (data : Nat → Row R n) (nrow nthreads : Nat) (sched : Nat → List Nat) (it : InitT)
    (s : Prune.PState R R k n) : Res (Prune.PState R R k n) :=
  match it with
  | .random =>
    match Init.random rng.clust rng.seed data nrow nthreads s.cltrs (fun r => (s.slots r).assign) with
    | .error e => .error e
    | .ok (c, a) => .ok { s with cltrs := c, slots := fun r => { s.slots r with assign := a r } }
  | .forgy =>
    match Init.forgy rng.row rng.seed data nrow nthreads s.cltrs with
    | .error e => .error e
    | .ok c => .ok { s with cltrs := c }
  | .plusplus =>
    match Init.kpp dist data nrow nthreads (Partition.effThreads nthreads nrow)
        (Prune.taskRows nrow nthreads) sched (rng.row rng.seed).1
        (fun i => (rng.unit (Init.skip rng.unit i (rng.row rng.seed).2)).1)
        ⟨s.cltrs, fun r => ⟨(s.slots r).ub, (s.slots r).assign⟩⟩ with
    | .error e => .error e
    | .ok q => .ok { s with
        cltrs := q.cltrs
        slots := fun r => { s.slots r with assign := (q.slots r).assign, ub := (q.slots r).dist } }
  | .none => .ok s

/-- `tally_assignment_counts`; a row without a cluster would be counted outside the array.
Models libman/kmeans_task_coordinator.cpp:311-314. -/
def tally (slots : Nat → Prune.Slot R k) : List Nat → (Fin k → Int) → Res (Fin k → Int)
  | [], counts => .ok counts
  | r :: l, counts =>
    match (slots r).assign with
    | none => .error .ub
    | some c => tally slots l (Function.update counts c (counts c + 1))

/-- The sizes are counted separately if there was no iteration and the initialisation was k-means++.
Models libman/kmeans_task_coordinator.cpp:497-498. -/
def finish (it : InitT) (nrow : Nat) (res : Prune.Result R R k n) : Res (Prune.Result R R k n) :=
  if res.iters = 0 ∧ it = .plusplus then
    match tally res.state.slots (List.range nrow) res.state.counts with
    | .error e => .error e
    | .ok counts => .ok { res with state := { res.state with counts := counts } }
  else .ok res

/-- `kmeans_task_coordinator::create(...)->run(...)`; `sched1` are the interleavings of the initialisation,
`sched2` those of the iterations.
Models libman/kmeans_task_coordinator.hpp:62-82 and libman/kmeans_task_coordinator.cpp:34-63, 427-531. -/
def kmeansPruned [Zero R] [Add R] [Sub R] [Mul R] [Div R] [IntCast R] [NatCast R] [LT R] [DecidableLT R]
    [LE R] [DecidableLE R] (dist : Dist.Metric → Row R n → Row R n → R) (big : R) (c : Codec R B)
    (rng : Rng R S k) (sched1 sched2 : Nat → List Nat) (a : Call R B) : Res (Prune.Result R R k n) :=
  match getInit a.init with
  | .error e => .error e
  | .ok it =>
    match getDist a.dist with
    | .error e => .error e
    | .ok m =>
      match constructPruned big it a.centers with
      | .error e => .error e
      | .ok s0 =>
        match load c a n with
        | .error e => .error e
        | .ok ws =>
          let data : Nat → Row R n := rowsIn ws a.nrow a.nthreads
          match runInitPruned (dist m) big rng data a.nrow a.nthreads sched1 it s0 with
          | .error e => .error e
          | .ok s =>
            match Prune.run (dist m) (dist .eucl) big data a.nrow a.nthreads a.tol a.maxIters sched2 s with
            | .error e => .error e
            | .ok res => finish it a.nrow res

/-- `knori` without `-P`.  Models exec/knori.cpp:120-145 and 181-187. -/
def knoriPruned [Zero R] [Add R] [Sub R] [Mul R] [Div R] [IntCast R] [NatCast R] [LT R] [DecidableLT R]
    [LE R] [DecidableLE R] (dist : Dist.Metric → Row R n → Row R n → R) (big : R) (c : Codec R B)
    (rng : Rng R S k) (sched1 sched2 : Nat → List Nat) (datafn : List B) (centersfn : Option (List B))
    (nrow maxIters nthreads : Nat) (init : String) (tol : R) (distType : String) :
    Res (Prune.Result R R k n) :=
  let init := if centersfn.isSome then "none" else init
  if init = "none" ∧ centersfn.isNone then .error .assertFail
  else if datafn.length ≠ u64 (u64 (c.size * nrow) * n) then .error .throws
  else match centersfn with
    | none =>
      kmeansPruned dist big c rng sched1 sched2 ⟨.file datafn, nrow, maxIters, nthreads, none, init, tol, distType⟩
    | some f =>
      match (BinIo.openRead f k n).read c with
      | .error e => .error e
      | .ok (l, _) =>
        kmeansPruned dist big c rng sched1 sched2
          ⟨.file datafn, nrow, maxIters, nthreads, some l, init, tol, distType⟩

end Knor.Driver
