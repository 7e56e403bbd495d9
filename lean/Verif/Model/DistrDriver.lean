import Verif.Model.PrunedDriver
import Verif.Model.Distr

/-!
# A whole distributed k-means call

Models `knord` (exec/knord.cpp) from the options and the bytes of the files to the `cluster_t` that the root
writes with `-o`, with `-P` (`knor::dist::dist_coordinator`) and without (`knor::prune::dist_task_coordinator`).
MPI and its reductions are those of Model/Distr.lean.  `rng` is the engine of the initialisation in use: seed 1234
for the random partition (libkcommon/util.hpp:224-229), the default seed for the others.
-/

namespace Knor.Driver

open Knor Knor.Io

variable {R S B : Type _} {k n : Nat}

/-- The arguments of a job.  Models libdist/dist_coordinator.hpp:45-50 and libdist/dist_task_coordinator.hpp:46-51. -/
structure Job (R B : Type _) where
  bytes : List B
  nrow : Nat
  nprocs : Nat
  maxIters : Nat
  nthreads : Nat
  centers : Option (List R)
  init : String
  tol : R
  dist : String

/-- What the root passes to `cluster_t`.  Models libdist/dist_coordinator.cpp:414-416. -/
structure JobResult (R : Type _) (k n : Nat) where
  iters : Nat
  assign : Nat → Option (Fin k)
  sizes : Fin k → Int
  means : Fin k → Row R n

/-- The buffers of the workers of every rank: each reads its block of the file, moved by the rows of the ranks
before.  Models libdist/dist_coordinator.cpp:44-46 and 264-267, libdist/dist_task_coordinator.cpp:45-47 and 251-253. -/
def loadRanks (c : Codec R B) (bytes : List B) (g np nthreads ncol : Nat) : Res (Nat → List (Worker R B)) :=
  Distr.eachRank (fun p => loadAll c bytes (Partition.procNrow g np p) nthreads ncol (g / np * p)) np fun _ => []

/-- The rank that owns row `r`.  Models libdist/dist_coordinator.cpp:119-124. -/
def ownerOf (g np r : Nat) : Nat := min (r / (g / np)) (np - 1)

/-- Row `r` of the job, as its owner holds it.  Models libman/coordinator.cpp:93-101 as reached from
libdist/dist_coordinator.cpp:111-117. -/
def rowsInRanks [Zero R] (ws : Nat → List (Worker R B)) (g np nthreads r : Nat) : Row R n :=
  rowsIn (ws (ownerOf g np r)) (Partition.procNrow g np (ownerOf g np r)) nthreads (r - ownerOf g np r * (g / np))

/-- `run_init` of all ranks and the reduction after it, unpruned.  The membership counts of the clusters are
what `counts` holds.  Models libdist/dist_coordinator.cpp:70-250, 280-312. -/
def runInitDist [Zero R] [Add R] [Sub R] [Mul R] [Div R] [IntCast R] [NatCast R] [LT R] [DecidableLT R]
    [LE R] [DecidableLE R] (dist : Row R n → Row R n → R) (big : R) (rng : Rng R S k)
    (data : Nat → Row R n) (g np nthreads : Nat) (sched : Nat → Nat → List Nat) (it : InitT) (c0 : Clusters R k n) :
    Res (Nat → Kmeans.KState R k n) :=
  match it with
  | .random =>
    match Init.randomDist rng.clust rng.seed data g np nthreads (fun _ => (c0, fun _ => none)) with
    | .error e => .error e
    | .ok st => .ok fun p => ⟨(st p).1, (st p).2, (st p).1.num, 0⟩
  | .forgy =>
    match Init.forgyDist rng.row rng.seed data g np nthreads (fun _ => c0) with
    | .error e => .error e
    | .ok cs => .ok fun p => ⟨cs p, fun _ => none, (cs p).num, 0⟩
  | .plusplus =>
    match Init.kppDist false dist data g np nthreads
        (fun p => Partition.effThreads nthreads (Partition.procNrow g np p))
        (fun p => Kmeans.threadRows (Partition.procNrow g np p) nthreads) sched (rng.row rng.seed).1
        (fun i => (rng.unit (Init.skip rng.unit i (rng.row rng.seed).2)).1)
        (fun _ => ⟨c0, fun _ => ⟨big, none⟩⟩) with
    | .error e => .error e
    | .ok s => .ok fun p => ⟨(s p).cltrs, fun r => ((s p).slots r).assign, (s p).cltrs.num, 0⟩
  | .none => .ok fun _ => ⟨c0, fun _ => none, c0.num, 0⟩

/-- `dist_coordinator::create(...)->run(...)` with an output directory, on all ranks.
Models libdist/dist_coordinator.hpp:45-59 and libdist/dist_coordinator.cpp:33-68, 252-428. -/
def kmeansDist [Zero R] [Add R] [Sub R] [Mul R] [Div R] [IntCast R] [NatCast R] [LT R] [DecidableLT R]
    [LE R] [DecidableLE R] (dist : Dist.Metric → Row R n → Row R n → R) (big : R) (c : Codec R B)
    (rng : Rng R S k) (sched1 sched2 : Nat → Nat → List Nat) (a : Job R B) : Res (JobResult R k n) :=
  match getInit a.init with
  | .error e => .error e
  | .ok it =>
    match getDist a.dist with
    | .error e => .error e
    | .ok m =>
      match construct it a.centers with
      | .error e => .error e
      | .ok c0 =>
        match Distr.construct a.nrow a.nprocs (fun _ => ()) with
        | .error e => .error e
        | .ok _ =>
          match loadRanks c a.bytes a.nrow a.nprocs a.nthreads n with
          | .error e => .error e
          | .ok ws =>
            let data : Nat → Row R n := rowsInRanks ws a.nrow a.nprocs a.nthreads
            match runInitDist (dist m) big rng data a.nrow a.nprocs a.nthreads sched1 it c0 with
            | .error e => .error e
            | .ok procs =>
              match Distr.run (dist m) big data a.nrow a.nprocs a.nthreads a.tol a.maxIters sched2 procs with
              | .error e => .error e
              | .ok res =>
                match Distr.gather a.nrow a.nprocs (fun p => (res.procs p).assign) with
                | .error e => .error e
                | .ok v => .ok ⟨res.iters, v, (res.procs 0).counts, (res.procs 0).cltrs.means⟩

/-- `run_init` of all ranks and the reduction after it, pruned; the distances and assignments of k-means++ stay in
`dist_v` and `cluster_assignments`.  Models libdist/dist_task_coordinator.cpp:70-235, 264-298. -/
def runInitDistPruned [Zero R] [Add R] [Sub R] [Mul R] [Div R] [IntCast R] [NatCast R] [LT R] [DecidableLT R]
    [LE R] [DecidableLE R] (dist : Row R n → Row R n → R) (rng : Rng R S k)
    (data : Nat → Row R n) (g np nthreads : Nat) (sched : Nat → Nat → List Nat) (it : InitT)
    (s : Prune.PState R R k n) : Res (Nat → Distr.DProc R R k n) :=
  match it with
  | .random =>
    match Init.randomDist rng.clust rng.seed data g np nthreads (fun _ => (s.cltrs, fun r => (s.slots r).assign)) with
    | .error e => .error e
    | .ok st => .ok fun p => ⟨{ s with
        cltrs := (st p).1, slots := fun r => { s.slots r with assign := (st p).2 r }, counts := (st p).1.num },
        fun _ => 0⟩
  | .forgy =>
    match Init.forgyDist rng.row rng.seed data g np nthreads (fun _ => s.cltrs) with
    | .error e => .error e
    | .ok cs => .ok fun p => ⟨{ s with cltrs := cs p, counts := (cs p).num }, fun _ => 0⟩
  | .plusplus =>
    match Init.kppDist true dist data g np nthreads
        (fun p => Partition.effThreads nthreads (Partition.procNrow g np p))
        (fun p => Prune.taskRows (Partition.procNrow g np p) nthreads) sched (rng.row rng.seed).1
        (fun i => (rng.unit (Init.skip rng.unit i (rng.row rng.seed).2)).1)
        (fun _ => ⟨s.cltrs, fun r => ⟨(s.slots r).ub, (s.slots r).assign⟩⟩) with
    | .error e => .error e
    | .ok q => .ok fun p => ⟨{ s with
        cltrs := (q p).cltrs
        slots := fun r => { s.slots r with assign := ((q p).slots r).assign, ub := ((q p).slots r).dist }
        counts := (q p).cltrs.num }, fun _ => 0⟩
  | .none => .ok fun _ => ⟨{ s with counts := s.cltrs.num }, fun _ => 0⟩

/-- `dist_task_coordinator::create(...)->run(...)` with an output directory, on all ranks.
Models libdist/dist_task_coordinator.hpp:46-66 and libdist/dist_task_coordinator.cpp:33-68, 237-449. -/
def kmeansDistPruned [Zero R] [Add R] [Sub R] [Mul R] [Div R] [IntCast R] [NatCast R] [LT R] [DecidableLT R]
    [LE R] [DecidableLE R] (dist : Dist.Metric → Row R n → Row R n → R) (big : R) (c : Codec R B)
    (rng : Rng R S k) (sched1 sched2 : Nat → Nat → List Nat) (a : Job R B) : Res (JobResult R k n) :=
  match getInit a.init with
  | .error e => .error e
  | .ok it =>
    match getDist a.dist with
    | .error e => .error e
    | .ok m =>
      match constructPruned big it a.centers with
      | .error e => .error e
      | .ok s0 =>
        match Distr.construct a.nrow a.nprocs (fun _ => ()) with
        | .error e => .error e
        | .ok _ =>
          match loadRanks c a.bytes a.nrow a.nprocs a.nthreads n with
          | .error e => .error e
          | .ok ws =>
            let data : Nat → Row R n := rowsInRanks ws a.nrow a.nprocs a.nthreads
            match runInitDistPruned (dist m) rng data a.nrow a.nprocs a.nthreads sched1 it s0 with
            | .error e => .error e
            | .ok procs =>
              match Distr.runPruned (dist m) (dist .eucl) big data a.nrow a.nprocs a.nthreads a.tol a.maxIters
                  sched2 procs with
              | .error e => .error e
              | .ok res =>
                match Distr.gather a.nrow a.nprocs (fun p r => ((res.procs p).core.slots r).assign) with
                | .error e => .error e
                | .ok v => .ok ⟨res.iters, v, (res.procs 0).core.counts, (res.procs 0).core.cltrs.means⟩

/-- The options of `knord` that decide where the centroids start: `-t init` and `-C file`; the file is `none` if it
does not exist.  Models exec/knord.cpp:75-78 and 87-93. -/
inductive StartOpt (B : Type _) where
  | init (s : String)
  | centers (f : Option (List B))

/-- The variables `init` and `centersfn` after the loop over the options, which are taken in the order in which they
are given.  Models exec/knord.cpp:66-109. -/
def startOptions : List (StartOpt B) → String → Option (List B) → Res (String × Option (List B))
  | [], init, centersfn => .ok (init, centersfn)
  | .init s :: l, _, centersfn => startOptions l s centersfn
  | .centers none :: _, _, _ => .error .assertFail
  | .centers (some f) :: l, _, _ => startOptions l "none" (some f)

/-- What `knord` does after the loop over the options, with (`full`) or without `-P`: `none` without a file of centres is
refused, the size of the data file is compared with the given numbers of rows and columns, and the centres are read.
Every rank executes this; all read the same files.  Models exec/knord.cpp:112-147. -/
def knordWith [Zero R] [Add R] [Sub R] [Mul R] [Div R] [IntCast R] [NatCast R] [LT R] [DecidableLT R]
    [LE R] [DecidableLE R] (full : Bool) (dist : Dist.Metric → Row R n → Row R n → R) (big : R) (c : Codec R B)
    (rng : Rng R S k) (sched1 sched2 : Nat → Nat → List Nat) (datafn : List B) (init : String)
    (centersfn : Option (List B)) (nrow nprocs maxIters nthreads : Nat) (tol : R) (distType : String) :
    Res (JobResult R k n) :=
  if init = "none" ∧ centersfn.isNone then .error .assertFail
  else if datafn.length ≠ u64 (u64 (c.size * nrow) * n) then .error .throws
  else
    let call (centers : Option (List R)) : Res (JobResult R k n) :=
      if full then kmeansDist dist big c rng sched1 sched2
        ⟨datafn, nrow, nprocs, maxIters, nthreads, centers, init, tol, distType⟩
      else kmeansDistPruned dist big c rng sched1 sched2
        ⟨datafn, nrow, nprocs, maxIters, nthreads, centers, init, tol, distType⟩
    match centersfn with
    | none => call none
    | some f =>
      match (BinIo.openRead f k n).read c with
      | .error e => .error e
      | .ok (l, _) => call (some l)

/-- `knord`, with the options that decide where the centroids start in the order in which they are given.
Models exec/knord.cpp:37-147. -/
def knord [Zero R] [Add R] [Sub R] [Mul R] [Div R] [IntCast R] [NatCast R] [LT R] [DecidableLT R]
    [LE R] [DecidableLE R] (full : Bool) (dist : Dist.Metric → Row R n → Row R n → R) (big : R) (c : Codec R B)
    (rng : Rng R S k) (sched1 sched2 : Nat → Nat → List Nat) (datafn : List B) (opts : List (StartOpt B))
    (nrow nprocs maxIters nthreads : Nat) (tol : R) (distType : String) : Res (JobResult R k n) :=
  match startOptions opts "kmeanspp" none with
  | .error e => .error e
  | .ok (init, centersfn) =>
    knordWith full dist big c rng sched1 sched2 datafn init centersfn nrow nprocs maxIters nthreads tol distType

end Knor.Driver
