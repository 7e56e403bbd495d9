import Verif.Model.DistrDriver

/-!
# A whole distributed job with reductions in any order

Model/DistrDriver.lean adds the numbers of the ranks in rank order; here the order of every `MPI_SUM` is a parameter.
With reductions in rank order these are the functions of Model/Init.lean and Model/DistrDriver.lean
(`C112_rank_order`, Props/JobDouble.lean).
-/

namespace Knor.Init

open Knor

variable {R D S α : Type _} {k n : Nat}

/-- Distributed Forgy, the means being added by `sum`.  Models libdist/dist_coordinator.cpp:241-250 and 290-292. -/
def forgyDistBy (sum : Fin k → Fin n → (Nat → R) → R) (draw : S → Nat × S) (seed : S)
    (data : Nat → Row R n) (g np reqThreads : Nat) (cs : Nat → Clusters R k n) : Res (Nat → Clusters R k n) :=
  match Distr.eachRank
      (fun p => forgyLoopDist draw data g np p reqThreads (List.finRange k) seed (cs p)) np cs with
  | .error e => .error e
  | .ok loc => .ok fun p => (loc p).setMeans fun c j => sum c j fun q => (loc q).means c j

/-- Distributed random partition, the sums being added by `sum`.
Models libdist/dist_coordinator.cpp:70-87 and 290-298. -/
def randomDistBy [Add R] [Div R] [IntCast R] (sum : Fin k → Fin n → (Nat → R) → R) (draw : S → Fin k × S)
    (seed : S) (data : Nat → Row R n) (g np reqThreads : Nat) (st : Nat → Clusters R k n × (Nat → Option (Fin k))) :
    Res (Nat → Clusters R k n × (Nat → Option (Fin k))) :=
  match Distr.eachRank (fun p => randomLoop (emuNext draw) (Distr.procData data g np p)
      (Partition.procNrow g np p) reqThreads (List.range (Partition.procNrow g np p))
      (emuCreate draw seed (g / np * p)) (st p).1 (st p).2) np st with
  | .error e => .error e
  | .ok loc =>
    .ok fun p =>
      ((((loc p).1.setMeans fun c j => sum c j fun q => (loc q).1.means c j).setNum
        fun c => Distr.allreduce np fun q => (loc q).1.num c).finalizeAll, (loc p).2)

/-- Add the means of the ranks by `sum` and set them everywhere.
Models libdist/dist_coordinator.cpp:154-156 and 219-221. -/
def reduceMeansBy (sum : Fin k → Fin n → (Nat → R) → R) (s : Nat → Kpp R D k n) : Nat → Kpp R D k n :=
  fun p => { s p with cltrs := (s p).cltrs.setMeans fun c j => sum c j fun q => (s q).cltrs.means c j }

/-- All ranks' passes; the sums of distances are added by `tot`.  Models libdist/dist_coordinator.cpp:169-175. -/
def kppPassDistBy [Zero D] [Add D] [LT D] [DecidableLT D] (tot : (Nat → D) → D) (dist : Row R n → Row R n → D)
    (data : Nat → Row R n) (g np : Nat) (T : Nat → Nat) (todo : Nat → Nat → List Nat)
    (sched : Nat → List Nat) (ci : Fin k) (s : Nat → Kpp R D k n) :
    Res ((Nat → Kpp R D k n) × D) :=
  match Distr.eachRank (fun p => kppPass dist (Distr.procData data g np p) (T p) (todo p) (sched p)
      ci (s p)) np (fun p => (s p, 0)) with
  | .error e => .error e
  | .ok loc => .ok (fun p => (loc p).1, tot fun p => (loc p).2)

/-- The main loop of all ranks; `sum c` adds the means after centre `c` was chosen, `tot c` the distances in the pass
for centre `c`.  Models libdist/dist_coordinator.cpp:168-223 and libdist/dist_task_coordinator.cpp:151-208. -/
def kppLoopDistBy [Zero R] [Add R] [Zero D] [Add D] [Sub D] [Mul D] [Div D] [NatCast D]
    [LT D] [DecidableLT D] [LE D] [DecidableLE D] (sum : Nat → Fin k → Fin n → (Nat → R) → R)
    (tot : Nat → (Nat → D) → D) (zeroIt : Bool) (dist : Row R n → Row R n → D)
    (data : Nat → Row R n) (g np reqThreads : Nat) (T : Nat → Nat) (todo : Nat → Nat → List Nat)
    (sched : Nat → Nat → List Nat) (u : Nat → D) :
    List (Fin k) → Fin k → (Nat → Kpp R D k n) → Res (Nat → Kpp R D k n)
  | [], ci, s =>
    match kppPassDistBy (tot ci) dist data g np T todo (sched ci) ci s with
    | .error e => .error e
    | .ok (s', _) => .ok s'
  | c :: rest, ci, s =>
    match kppPassDistBy (tot ci) dist data g np T todo (sched ci) ci s with
    | .error e => .error e
    | .ok (s', total) =>
      let sel := select (gatherDist g np fun p l => ((s' p).slots l).dist) (List.range g)
        (threshold total (u ci))
      match sel.1 with
      | none =>
        if sel.2 ≤ 0 then
          kppLoopDistBy sum tot zeroIt dist data g np reqThreads T todo sched u rest c (reduceMeansBy (sum c) s')
        else .error .assertFail
      | some r =>
        match Distr.eachRank (fun p => chooseDist zeroIt data g np p reqThreads r c (s' p)) np s' with
        | .error e => .error e
        | .ok s'' =>
          if sel.2 ≤ 0 then
            kppLoopDistBy sum tot zeroIt dist data g np reqThreads T todo sched u rest c (reduceMeansBy (sum c) s'')
          else .error .assertFail

/-- Distributed `kmeanspp_init`.  Models libdist/dist_coordinator.cpp:132-239 (`zeroIt = false`) and
libdist/dist_task_coordinator.cpp:116-224 (`zeroIt = true`). -/
def kppDistBy [Zero R] [Add R] [Zero D] [Add D] [Sub D] [Mul D] [Div D] [NatCast D]
    [LT D] [DecidableLT D] [LE D] [DecidableLE D] (sum : Nat → Fin k → Fin n → (Nat → R) → R)
    (tot : Nat → (Nat → D) → D) (zeroIt : Bool) (dist : Row R n → Row R n → D)
    (data : Nat → Row R n) (g np reqThreads : Nat) (T : Nat → Nat) (todo : Nat → Nat → List Nat)
    (sched : Nat → Nat → List Nat) (first : Nat) (u : Nat → D) (s : Nat → Kpp R D k n) :
    Res (Nat → Kpp R D k n) :=
  match List.finRange k with
  | [] => .error .assertFail
  | c0 :: rest =>
    match Distr.eachRank (fun p => firstDist data g np p reqThreads first c0 (s p)) np s with
    | .error e => .error e
    | .ok s' =>
      kppLoopDistBy sum tot zeroIt dist data g np reqThreads T todo sched u rest c0 (reduceMeansBy (sum c0) s')

end Knor.Init

namespace Knor.Driver

open Knor Knor.Io

variable {R S B : Type _} {k n : Nat}

/-- The orders in which the MPI library adds in the reductions of a job: of the centroids in the initialisation (one per
chosen centre), of the distances in k-means++ (one per pass) and of the sums of every iteration.
Models the `MPI_SUM` of libdist/mpi.hpp:41-66. -/
structure Orders (k n : Nat) where
  init : Nat → Fin k → Fin n → Distr.SumTree
  total : Nat → Distr.SumTree
  run : Nat → Fin k → Fin n → Distr.SumTree

/-- `run_init` of all ranks and the reduction after it, unpruned, with the sums of the ranks added by `sum` and `tot`.
Models libdist/dist_coordinator.cpp:70-250, 280-312. -/
def runInitDistBy [Zero R] [Add R] [Sub R] [Mul R] [Div R] [IntCast R] [NatCast R] [LT R] [DecidableLT R]
    [LE R] [DecidableLE R] (sum : Nat → Fin k → Fin n → (Nat → R) → R) (tot : Nat → (Nat → R) → R)
    (dist : Row R n → Row R n → R) (big : R) (rng : Rng R S k)
    (data : Nat → Row R n) (g np nthreads : Nat) (sched : Nat → Nat → List Nat) (it : InitT) (c0 : Clusters R k n) :
    Res (Nat → Kmeans.KState R k n) :=
  match it with
  | .random =>
    match Init.randomDistBy (sum 0) rng.clust rng.seed data g np nthreads (fun _ => (c0, fun _ => none)) with
    | .error e => .error e
    | .ok st => .ok fun p => ⟨(st p).1, (st p).2, (st p).1.num, 0⟩
  | .forgy =>
    match Init.forgyDistBy (sum 0) rng.row rng.seed data g np nthreads (fun _ => c0) with
    | .error e => .error e
    | .ok cs => .ok fun p => ⟨cs p, fun _ => none, (cs p).num, 0⟩
  | .plusplus =>
    match Init.kppDistBy sum tot false dist data g np nthreads
        (fun p => Partition.effThreads nthreads (Partition.procNrow g np p))
        (fun p => Kmeans.threadRows (Partition.procNrow g np p) nthreads) sched (rng.row rng.seed).1
        (fun i => (rng.unit (Init.skip rng.unit i (rng.row rng.seed).2)).1)
        (fun _ => ⟨c0, fun _ => ⟨big, none⟩⟩) with
    | .error e => .error e
    | .ok s => .ok fun p => ⟨(s p).cltrs, fun r => ((s p).slots r).assign, (s p).cltrs.num, 0⟩
  | .none => .ok fun _ => ⟨c0, fun _ => none, c0.num, 0⟩

/-- `dist_coordinator::create(...)->run(...)` with an output directory, on all ranks, with the reductions of the
initialisation and of the iterations made by `sum0`, `tot` and `sum`.
Models libdist/dist_coordinator.hpp:45-59 and libdist/dist_coordinator.cpp:33-68, 252-428. -/
def kmeansDistBy [Zero R] [Add R] [Sub R] [Mul R] [Div R] [IntCast R] [NatCast R] [LT R] [DecidableLT R]
    [LE R] [DecidableLE R] (sum0 : Nat → Fin k → Fin n → (Nat → R) → R) (tot : Nat → (Nat → R) → R)
    (sum : Nat → Fin k → Fin n → (Nat → R) → R)
    (dist : Dist.Metric → Row R n → Row R n → R) (big : R) (c : Codec R B)
    (rng : Rng R S k) (sched1 sched2 : Nat → Nat → List Nat) (a : Job R B) : Res (JobResult R k n) :=
  match getInit a.init with
  | .error e => .error e
  | .ok it =>
    match getDist a.dist with
    | .error e => .error e
    | .ok m =>
      match construct it a.centers with
      | .error e => .error e
      | .ok c0 =>
        match Distr.construct a.nrow a.nprocs (fun _ => ()) with
        | .error e => .error e
        | .ok _ =>
          match loadRanks c a.bytes a.nrow a.nprocs a.nthreads n with
          | .error e => .error e
          | .ok ws =>
            let data : Nat → Row R n := rowsInRanks ws a.nrow a.nprocs a.nthreads
            match runInitDistBy sum0 tot (dist m) big rng data a.nrow a.nprocs a.nthreads sched1 it c0 with
            | .error e => .error e
            | .ok procs =>
              match Distr.runBy sum (dist m) big data a.nrow a.nprocs a.nthreads a.tol a.maxIters sched2 procs with
              | .error e => .error e
              | .ok res =>
                match Distr.gather a.nrow a.nprocs (fun p => (res.procs p).assign) with
                | .error e => .error e
                | .ok v => .ok ⟨res.iters, v, (res.procs 0).counts, (res.procs 0).cltrs.means⟩

/-- The job with the given orders.  Models libdist/dist_coordinator.cpp:33-68, 252-428 with the `MPI_SUM` of
libdist/mpi.hpp:41-66. -/
def kmeansDistIn [Zero R] [Add R] [Sub R] [Mul R] [Div R] [IntCast R] [NatCast R] [LT R] [DecidableLT R]
    [LE R] [DecidableLE R] (o : Orders k n) (dist : Dist.Metric → Row R n → Row R n → R) (big : R) (c : Codec R B)
    (rng : Rng R S k) (sched1 sched2 : Nat → Nat → List Nat) (a : Job R B) : Res (JobResult R k n) :=
  kmeansDistBy (fun i c j x => (o.init i c j).eval x) (fun i x => (o.total i).eval x)
    (fun i c j x => (o.run i c j).eval x) dist big c rng sched1 sched2 a

/-- `run_init` of all ranks and the reduction after it, pruned, with the sums of the ranks added by `sum` and `tot`.
Models libdist/dist_task_coordinator.cpp:70-235, 264-298. -/
def runInitDistPrunedBy [Zero R] [Add R] [Sub R] [Mul R] [Div R] [IntCast R] [NatCast R] [LT R] [DecidableLT R]
    [LE R] [DecidableLE R] (sum : Nat → Fin k → Fin n → (Nat → R) → R) (tot : Nat → (Nat → R) → R)
    (dist : Row R n → Row R n → R) (rng : Rng R S k)
    (data : Nat → Row R n) (g np nthreads : Nat) (sched : Nat → Nat → List Nat) (it : InitT)
    (s : Prune.PState R R k n) : Res (Nat → Distr.DProc R R k n) :=
  match it with
  | .random =>
    match Init.randomDistBy (sum 0) rng.clust rng.seed data g np nthreads
        (fun _ => (s.cltrs, fun r => (s.slots r).assign)) with
    | .error e => .error e
    | .ok st => .ok fun p => ⟨{ s with
        cltrs := (st p).1, slots := fun r => { s.slots r with assign := (st p).2 r }, counts := (st p).1.num },
        fun _ => 0⟩
  | .forgy =>
    match Init.forgyDistBy (sum 0) rng.row rng.seed data g np nthreads (fun _ => s.cltrs) with
    | .error e => .error e
    | .ok cs => .ok fun p => ⟨{ s with cltrs := cs p, counts := (cs p).num }, fun _ => 0⟩
  | .plusplus =>
    match Init.kppDistBy sum tot true dist data g np nthreads
        (fun p => Partition.effThreads nthreads (Partition.procNrow g np p))
        (fun p => Prune.taskRows (Partition.procNrow g np p) nthreads) sched (rng.row rng.seed).1
        (fun i => (rng.unit (Init.skip rng.unit i (rng.row rng.seed).2)).1)
        (fun _ => ⟨s.cltrs, fun r => ⟨(s.slots r).ub, (s.slots r).assign⟩⟩) with
    | .error e => .error e
    | .ok q => .ok fun p => ⟨{ s with
        cltrs := (q p).cltrs
        slots := fun r => { s.slots r with assign := ((q p).slots r).assign, ub := ((q p).slots r).dist }
        counts := (q p).cltrs.num }, fun _ => 0⟩
  | .none => .ok fun _ => ⟨{ s with counts := s.cltrs.num }, fun _ => 0⟩

/-- `dist_task_coordinator::create(...)->run(...)` with an output directory, on all ranks, with the reductions of the
initialisation and of the iterations made by `sum0`, `tot` and `sum`.
Models libdist/dist_task_coordinator.hpp:46-66 and libdist/dist_task_coordinator.cpp:33-68, 237-449. -/
def kmeansDistPrunedBy [Zero R] [Add R] [Sub R] [Mul R] [Div R] [IntCast R] [NatCast R] [LT R] [DecidableLT R]
    [LE R] [DecidableLE R] (sum0 : Nat → Fin k → Fin n → (Nat → R) → R) (tot : Nat → (Nat → R) → R)
    (sum : Nat → Fin k → Fin n → (Nat → R) → R)
    (dist : Dist.Metric → Row R n → Row R n → R) (big : R) (c : Codec R B)
    (rng : Rng R S k) (sched1 sched2 : Nat → Nat → List Nat) (a : Job R B) : Res (JobResult R k n) :=
  match getInit a.init with
  | .error e => .error e
  | .ok it =>
    match getDist a.dist with
    | .error e => .error e
    | .ok m =>
      match constructPruned big it a.centers with
      | .error e => .error e
      | .ok s0 =>
        match Distr.construct a.nrow a.nprocs (fun _ => ()) with
        | .error e => .error e
        | .ok _ =>
          match loadRanks c a.bytes a.nrow a.nprocs a.nthreads n with
          | .error e => .error e
          | .ok ws =>
            let data : Nat → Row R n := rowsInRanks ws a.nrow a.nprocs a.nthreads
            match runInitDistPrunedBy sum0 tot (dist m) rng data a.nrow a.nprocs a.nthreads sched1 it s0 with
            | .error e => .error e
            | .ok procs =>
              match Distr.runPrunedBy sum (dist m) (dist .eucl) big data a.nrow a.nprocs a.nthreads a.tol a.maxIters
                  sched2 procs with
              | .error e => .error e
              | .ok res =>
                match Distr.gather a.nrow a.nprocs (fun p r => ((res.procs p).core.slots r).assign) with
                | .error e => .error e
                | .ok v => .ok ⟨res.iters, v, (res.procs 0).core.counts, (res.procs 0).core.cltrs.means⟩

/-- The pruned job with the given orders.  Models libdist/dist_task_coordinator.cpp:33-68, 237-449 with the `MPI_SUM` of
libdist/mpi.hpp:41-66. -/
def kmeansDistPrunedIn [Zero R] [Add R] [Sub R] [Mul R] [Div R] [IntCast R] [NatCast R] [LT R] [DecidableLT R]
    [LE R] [DecidableLE R] (o : Orders k n) (dist : Dist.Metric → Row R n → Row R n → R) (big : R) (c : Codec R B)
    (rng : Rng R S k) (sched1 sched2 : Nat → Nat → List Nat) (a : Job R B) : Res (JobResult R k n) :=
  kmeansDistPrunedBy (fun i c j x => (o.init i c j).eval x) (fun i x => (o.total i).eval x)
    (fun i c j x => (o.run i c j).eval x) dist big c rng sched1 sched2 a

/-- `knord` with the job `job` (`kmeansDistIn` with `-P`, `kmeansDistPrunedIn` without), after the loop over the options.
Models exec/knord.cpp:37-147 (compare `knord` and
`knordWith`, Model/DistrDriver.lean). -/
def knordFullWith (job : Job R B → Res (JobResult R k n)) (c : Codec R B) (datafn : List B) (opts : List (StartOpt B))
    (nrow nprocs maxIters nthreads : Nat) (tol : R) (distType : String) : Res (JobResult R k n) :=
  match startOptions opts "kmeanspp" none with
  | .error e => .error e
  | .ok (init, centersfn) =>
    if init = "none" ∧ centersfn.isNone then .error .assertFail
    else if datafn.length ≠ u64 (u64 (c.size * nrow) * n) then .error .throws
    else
      match centersfn with
      | none => job ⟨datafn, nrow, nprocs, maxIters, nthreads, none, init, tol, distType⟩
      | some f =>
        match (BinIo.openRead f k n).read c with
        | .error e => .error e
        | .ok (l, _) => job ⟨datafn, nrow, nprocs, maxIters, nthreads, some l, init, tol, distType⟩

end Knor.Driver
