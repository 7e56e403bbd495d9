import Verif.Model.Kmeans
import Verif.Model.Prune

/-!
# Distributed k-means (`knord`), libdist/

Each MPI process is a coordinator over its own rows; processes communicate only through
`MPI_Allreduce(SUM)` (libdist/mpi.hpp:41-66), which waits for all processes.  Between two
reductions the processes share nothing, so the state of the computation is one state per rank and
a phase is: every rank does its local work (with any interleaving of its own threads), then the
reduction.  In which order the MPI library adds is up to it: `iterationBy`, `runBy` and their pruned versions
take the order as a parameter (`SumTree`); `iteration`, `run` add in rank order, which makes no difference if
sums are exact.

Local row `r` of rank `p` is global row `p*(g_nrow/nprocs) + r`: the threads read the file at
`start_rid + (g_nrow/nprocs)*rank` (libdist/dist_coordinator.cpp:44-46 and
libdist/dist_task_coordinator.cpp:44-46), while row ids used to index the local arrays stay local
(libdist/dist_coordinator.cpp:94-105; the task queues keep the local `start_rid` set by
libman/task_thread.cpp:46).  The 32-bit `start_rid` is exact for fewer than `2^32` rows.
-/

namespace Knor.Distr

open Knor

variable {R D α : Type _} {k n : Nat}

/-- Row `r` of rank `p`.  Models libdist/dist_coordinator.cpp:44-46 with libman/thread.cpp:119. -/
def procData (data : Nat → Row R n) (g np p r : Nat) : Row R n := data (p * (g / np) + r)

/-- Every rank does its work; a fault of one rank is a fault of the job.
Models the ranks that all execute libdist/dist_coordinator.cpp:252-371. -/
def eachRank (f : Nat → Res α) : Nat → (Nat → α) → Res (Nat → α)
  | 0, dflt => .ok dflt
  | p + 1, dflt =>
    match eachRank f p dflt with
    | .error e => .error e
    | .ok m =>
      match f p with
      | .error e => .error e
      | .ok x => .ok (Function.update m p x)

/-- `MPI_Allreduce(SUM)` over ranks `0 … np-1`, added in rank order.  (The MPI library may choose another
order; with exact arithmetic it does not matter.)  Models libdist/mpi.hpp:41-66. -/
def allreduce {M : Type _} [Add M] [Zero M] (np : Nat) (x : Nat → M) : M :=
  (List.range np).foldl (fun m p => m + x p) 0

/-- An order in which the numbers of several ranks can be added: `MPI_SUM` combines the operands pairwise in
an order the library chooses.  Models the `MPI_SUM` of libdist/mpi.hpp:41-66. -/
inductive SumTree where
  | leaf (p : Nat)
  | node (l r : SumTree)

/-- The number a reduction in this order computes.  Models libdist/mpi.hpp:41-66. -/
def SumTree.eval {M : Type _} [Add M] (x : Nat → M) : SumTree → M
  | .leaf p => x p
  | .node l r => l.eval x + r.eval x

/-- The ranks whose numbers are added.  Models the communicator of libdist/mpi.hpp:41-66. -/
def SumTree.ranks : SumTree → List Nat
  | .leaf p => [p]
  | .node l r => l.ranks ++ r.ranks

/-- Creating the coordinator of every rank: `nrow / nthreads` in `build_thread_state` divides by
zero if a rank has no rows.  Models libman/kmeans_coordinator.cpp:51-53 as reached from
libdist/dist_coordinator.cpp:39-40. -/
def construct (g np : Nat) (procs : Nat → α) : Res (Nat → α) :=
  eachRank (fun p => if Partition.procNrow g np p = 0 then .error .ub else .ok (procs p)) np procs

/-! ## Unpruned -/

/-- One rank's E-step and `pp_aggregate`: the rank's clusters now hold unfinalised sums of its own
rows.  Models libdist/dist_coordinator.cpp:325-329 and 438-447. -/
def localStep [Zero R] [Add R] [LT D] [DecidableLT D] (dist : Row R n → Row R n → D) (big : D)
    (data : Nat → Row R n) (nrow reqThreads : Nat) (sched : List Nat) (s : Kmeans.KState R k n) :
    Res (Kmeans.KState R k n) :=
  match Par.run (Kmeans.emRow dist big data s.cltrs.means)
      { mem := s.assign, acc := fun _ => Kmeans.Acc.init
        todo := Kmeans.threadRows nrow reqThreads } sched with
  | .error e => .error e
  | .ok q =>
    let T := Partition.effThreads reqThreads nrow
    .ok { cltrs := (List.range T).foldl (fun x t => Clusters.peq x (q.acc t).loc) Clusters.empty
          assign := q.mem
          counts := s.counts
          changed := (List.range T).foldl (fun m t => m + (q.acc t).changed) 0 }

/-- The rest of an iteration on one rank, given the reduced sums, counts and change count.
`counts` plays the role of the `num_members_v` the root passes to `cluster_t`.
Models libdist/dist_coordinator.cpp:339-358. -/
def afterReduce [Div R] [IntCast R] (g : Nat) (means : Fin k → Row R n) (num : Fin k → Int) (nchanged : Nat)
    (s : Kmeans.KState R k n) : Res (Kmeans.KState R k n) :=
  let c := (s.cltrs.setMeans means).setNum num
  if (List.finRange k).foldl (fun m i => m + c.num i) (0 : Int) ≠ g then .error .assertFail
  else .ok { cltrs := c.finalizeAll, assign := s.assign, counts := c.num, changed := nchanged }

/-- One iteration of all ranks; `sum c j` is the reduction of coordinate `j` of centroid `c`.  Counts are
integers, for which the order does not matter; every rank receives the same number (the MPI standard
recommends this of implementations).  Models libdist/dist_coordinator.cpp:325-358. -/
def iterationBy [Zero R] [Add R] [Div R] [IntCast R] [LT D] [DecidableLT D]
    (sum : Fin k → Fin n → (Nat → R) → R) (dist : Row R n → Row R n → D) (big : D)
    (data : Nat → Row R n) (g np reqThreads : Nat) (sched : Nat → List Nat)
    (procs : Nat → Kmeans.KState R k n) : Res (Nat → Kmeans.KState R k n) :=
  match eachRank (fun p => localStep dist big (procData data g np p)
      (Partition.procNrow g np p) reqThreads (sched p) (procs p)) np procs with
  | .error e => .error e
  | .ok loc =>
    let means : Fin k → Row R n := fun c j => sum c j fun p => (loc p).cltrs.means c j
    let num : Fin k → Int := fun c => allreduce np fun p => (loc p).cltrs.num c
    let nchanged := allreduce np fun p => (loc p).changed
    eachRank (fun p => afterReduce g means num nchanged (loc p)) np loc

/-- One iteration with reductions in rank order.  Models libdist/dist_coordinator.cpp:325-358. -/
def iteration [Zero R] [Add R] [Div R] [IntCast R] [LT D] [DecidableLT D] (dist : Row R n → Row R n → D) (big : D)
    (data : Nat → Row R n) (g np reqThreads : Nat) (sched : Nat → List Nat)
    (procs : Nat → Kmeans.KState R k n) : Res (Nat → Kmeans.KState R k n) :=
  iterationBy (fun _ _ => allreduce np) dist big data g np reqThreads sched procs

/-- Result: the iteration counter the root stores in `cluster_t`, and every rank's state.
Models libdist/dist_coordinator.cpp:414-420 and libdist/dist_task_coordinator.cpp:433-440. -/
structure Result (α : Type _) where
  iters : Nat
  procs : Nat → α

/-- The main loop.  Each rank decides by itself whether to leave the loop; if some leave and
others do not, the remaining ones wait forever in the next reduction (modelled as a fault).
`stop` says whether a rank leaves, `body i` is iteration `i`.
Models libdist/dist_coordinator.cpp:315-371 and libdist/dist_task_coordinator.cpp:301-392. -/
def loop (np maxIters : Nat) (stop : α → Bool) (body : Nat → (Nat → α) → Res (Nat → α)) :
    Nat → Nat → (Nat → α) → Res (Result α)
  | 0, iters, procs => .ok ⟨iters, procs⟩
  | fuel + 1, iters, procs =>
    if iters < maxIters ∧ 0 < maxIters then
      match body iters procs with
      | .error e => .error e
      | .ok procs' =>
        if ∀ p, p < np → stop (procs' p) = true then .ok ⟨iters + 1, procs'⟩
        else if ∃ p, p < np ∧ stop (procs' p) = true then .error .ub
        else loop np maxIters stop body fuel (iters + 1) procs'
    else .ok ⟨iters, procs⟩

/-- `dist_coordinator::run` after the initialisation; `sum i` is the order of the reductions of iteration `i`.
Models libdist/dist_coordinator.cpp:252-371. -/
def runBy [Zero R] [Add R] [Div R] [IntCast R] [NatCast R]
    [LE R] [DecidableLE R] [LT D] [DecidableLT D] (sum : Nat → Fin k → Fin n → (Nat → R) → R)
    (dist : Row R n → Row R n → D)
    (big : D) (data : Nat → Row R n) (g np reqThreads : Nat) (tol : R) (maxIters : Nat)
    (sched : Nat → Nat → List Nat) (procs : Nat → Kmeans.KState R k n) :
    Res (Result (Kmeans.KState R k n)) :=
  match construct g np procs with
  | .error e => .error e
  | .ok procs =>
    loop np maxIters (fun s => Kmeans.convTest g tol s.changed)
      (fun i procs =>
        let procs1 := if i = 0 then fun p => { procs p with assign := fun _ => none } else procs
        iterationBy (sum i) dist big data g np reqThreads (sched i) procs1)
      maxIters 0 procs

/-- `runBy` with reductions in rank order.  Models libdist/dist_coordinator.cpp:252-371. -/
def run [Zero R] [Add R] [Div R] [IntCast R] [NatCast R]
    [LE R] [DecidableLE R] [LT D] [DecidableLT D] (dist : Row R n → Row R n → D)
    (big : D) (data : Nat → Row R n) (g np reqThreads : Nat) (tol : R) (maxIters : Nat)
    (sched : Nat → Nat → List Nat) (procs : Nat → Kmeans.KState R k n) :
    Res (Result (Kmeans.KState R k n)) :=
  match construct g np procs with
  | .error e => .error e
  | .ok procs =>
    loop np maxIters (fun s => Kmeans.convTest g tol s.changed)
      (fun i procs =>
        let procs1 := if i = 0 then fun p => { procs p with assign := fun _ => none } else procs
        iteration dist big data g np reqThreads (sched i) procs1)
      maxIters 0 procs

/-! ## Collecting the result -/

/-- Write `len` received values into the root's buffer from position `off`.
Models libdist/dist_coordinator.cpp:407-409 and libdist/dist_task_coordinator.cpp:426-428. -/
def writeSlice {β : Type _} (buf : Nat → Option β) (off len : Nat) (msg : Nat → Option β) :
    Nat → Option β :=
  fun i => if off ≤ i ∧ i < off + len then msg (i - off) else buf i

/-- The root's assignment vector of length `g`: its own rows, then one message per other rank,
received into the slice `gatherSlices` gives for it.  A message longer than the receive count is
an error, a slice that leaves the vector is undefined behaviour.  `none` marks an entry never
written.  Models libdist/dist_coordinator.cpp:385-412 and
libdist/dist_task_coordinator.cpp:406-431. -/
def gather {β : Type _} (g np : Nat) (assign : Nat → Nat → Option β) : Res (Nat → Option β) :=
  ((Partition.gatherSlices g np).zipIdx).foldl
    (fun acc x =>
      match acc with
      | .error e => .error e
      | .ok buf =>
        let p := x.2
        let sent := Partition.procNrow g np p
        if x.1.2 < sent then .error .assertFail
        else if g < x.1.1 + sent then .error .ub
        else .ok (writeSlice buf x.1.1 sent (assign p)))
    (.ok fun _ => none)

/-! ## Pruned -/

/-- A rank's state in the pruned version; `prevNum` is `prev_num_members`.
Models libdist/dist_task_coordinator.hpp:43 and libman/kmeans_task_coordinator.hpp:41-44. -/
structure DProc (R D : Type _) (k n : Nat) where
  core : Prune.PState R D k n
  prevNum : Fin k → Int

/-- One rank: `compute_dist`, E-step, `pp_aggregate` (which saves means and sizes, then replaces
them by the sums of this rank's workers).  Models libdist/dist_task_coordinator.cpp:311-323 and
458-471; the final check is `prune_init` for iteration 0 only (302-303). -/
def localPass [Zero R] [Add R] [Sub R] [Add D] [Div D] [NatCast D]
    [LT D] [DecidableLT D] [LE D] [DecidableLE D] (dist eucl : Row R n → Row R n → D) (big : D)
    (data : Nat → Row R n) (nrow reqThreads : Nat) (pruneInit : Bool) (sched : List Nat)
    (s : DProc R D k n) : Res (DProc R D k n) :=
  match Prune.computeDm eucl big s.core with
  | .error e => .error e
  | .ok c =>
    match Par.run (Prune.emRow dist big data c.view pruneInit)
        { mem := c.slots, acc := fun _ => Kmeans.Acc.init
          todo := Prune.taskRows nrow reqThreads } sched with
    | .error e => .error e
    | .ok q =>
      let T := Partition.effThreads reqThreads nrow
      .ok { core :=
              { c with
                prevMeans := c.cltrs.means
                cltrs := (List.range T).foldl (fun x t => Clusters.peq x (q.acc t).loc)
                  Clusters.empty
                slots := q.mem
                changed := (List.range T).foldl (fun m t => m + (q.acc t).changed) 0 }
            prevNum := c.cltrs.num }

/-- The rest of an iteration on one rank, given the reduced sums, counts and change count.
Models libdist/dist_task_coordinator.cpp:334-381. -/
def afterReducePruned [Add R] [Mul R] [Div R] [IntCast R] (eucl : Row R n → Row R n → D) (g : Nat) (first : Bool)
    (means : Fin k → Row R n) (num : Fin k → Int) (nchanged : Nat) (s : DProc R D k n) :
    Res (DProc R D k n) :=
  let c :=
    if first then (s.core.cltrs.setMeans means).setNum num
    else
      let u := ((s.core.cltrs.setMeans s.core.prevMeans).setNum s.prevNum).setCompleteAll.unfinalizeAll
      -- `means_peq`, `num_members_v_peq`: libkcommon/clusters.cpp:129-137
      { u with means := fun c j => u.means c j + means c j, num := fun c => u.num c + num c }
  if (List.finRange k).foldl (fun m i => m + c.num i) (0 : Int) ≠ g then .error .assertFail
  else
    let fin := c.finalizeAll
    .ok { core :=
            { s.core with
              cltrs := fin
              prevDist := fun c => eucl (fin.means c) (s.core.prevMeans c)
              counts := fin.num
              changed := nchanged }
          prevNum := s.prevNum }

/-- One iteration of all ranks; `sum` as in `iterationBy`.
Models libdist/dist_task_coordinator.cpp:301-381. -/
def iterationPrunedBy [Zero R] [Add R] [Sub R] [Mul R] [Div R] [IntCast R]
    [Add D] [Div D] [NatCast D] [LT D] [DecidableLT D] [LE D] [DecidableLE D]
    (sum : Fin k → Fin n → (Nat → R) → R) (dist eucl : Row R n → Row R n → D)
    (big : D) (data : Nat → Row R n) (g np reqThreads : Nat) (first : Bool)
    (sched : Nat → List Nat) (procs : Nat → DProc R D k n) : Res (Nat → DProc R D k n) :=
  match eachRank (fun p => localPass dist eucl big (procData data g np p)
      (Partition.procNrow g np p) reqThreads first (sched p) (procs p)) np procs with
  | .error e => .error e
  | .ok loc =>
    let means : Fin k → Row R n := fun c j => sum c j fun p => (loc p).core.cltrs.means c j
    let num : Fin k → Int := fun c => allreduce np fun p => (loc p).core.cltrs.num c
    let nchanged := allreduce np fun p => (loc p).core.changed
    eachRank (fun p => afterReducePruned eucl g first means num nchanged (loc p)) np loc

/-- One iteration with reductions in rank order.  Models libdist/dist_task_coordinator.cpp:301-381. -/
def iterationPruned [Zero R] [Add R] [Sub R] [Mul R] [Div R] [IntCast R]
    [Add D] [Div D] [NatCast D] [LT D] [DecidableLT D] [LE D] [DecidableLE D] (dist eucl : Row R n → Row R n → D)
    (big : D) (data : Nat → Row R n) (g np reqThreads : Nat) (first : Bool)
    (sched : Nat → List Nat) (procs : Nat → DProc R D k n) : Res (Nat → DProc R D k n) :=
  iterationPrunedBy (fun _ _ => allreduce np) dist eucl big data g np reqThreads first sched procs

/-- `dist_task_coordinator::run` after the initialisation; `sum i` is the order of the reductions of
iteration `i`.  Models libdist/dist_task_coordinator.cpp:237-392. -/
def runPrunedBy [Zero R] [Add R] [Sub R] [Mul R] [Div R] [IntCast R] [NatCast R] [LE R] [DecidableLE R]
    [Add D] [Div D] [NatCast D] [LT D] [DecidableLT D] [LE D] [DecidableLE D]
    (sum : Nat → Fin k → Fin n → (Nat → R) → R)
    (dist eucl : Row R n → Row R n → D) (big : D) (data : Nat → Row R n) (g np reqThreads : Nat)
    (tol : R) (maxIters : Nat) (sched : Nat → Nat → List Nat) (procs : Nat → DProc R D k n) :
    Res (Result (DProc R D k n)) :=
  match construct g np procs with
  | .error e => .error e
  | .ok procs =>
    loop np maxIters (fun s => Kmeans.convTest g tol s.core.changed)
      (fun i => iterationPrunedBy (sum i) dist eucl big data g np reqThreads (decide (i = 0)) (sched i))
      maxIters 0 procs

/-- `runPrunedBy` with reductions in rank order.
Models libdist/dist_task_coordinator.cpp:237-392. -/
def runPruned [Zero R] [Add R] [Sub R] [Mul R] [Div R] [IntCast R] [NatCast R] [LE R] [DecidableLE R]
    [Add D] [Div D] [NatCast D] [LT D] [DecidableLT D] [LE D] [DecidableLE D]
    (dist eucl : Row R n → Row R n → D) (big : D) (data : Nat → Row R n) (g np reqThreads : Nat)
    (tol : R) (maxIters : Nat) (sched : Nat → Nat → List Nat) (procs : Nat → DProc R D k n) :
    Res (Result (DProc R D k n)) :=
  match construct g np procs with
  | .error e => .error e
  | .ok procs =>
    loop np maxIters (fun s => Kmeans.convTest g tol s.core.changed)
      (fun i => iterationPruned dist eucl big data g np reqThreads (decide (i = 0)) (sched i))
      maxIters 0 procs

/-- A rank right after construction with given centres.
Models libdist/dist_task_coordinator.cpp:33-50 (see `Prune.construct`). -/
def constructPruned [Zero R] [Zero D] (big : D) (centers : Fin k → Row R n) :
    Res (DProc R D k n) :=
  match Prune.construct big centers with
  | .error e => .error e
  | .ok s => .ok ⟨s, fun _ => 0⟩

end Knor.Distr
