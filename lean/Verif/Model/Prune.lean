import Mathlib.Algebra.Field.Basic
import Verif.Model.Kmeans
import Verif.Model.DistMatrix

/-!
# Pruned k-means (`knori` default, `knor::prune::kmeans_task_coordinator`)

Models libman/kmeans_task_thread.cpp, libman/kmeans_task_coordinator.cpp and the pruning part of
libkcommon/clusters.hpp.  `dist` is the metric used by the E-step (`dist_comp_raw` with the
configured metric), `eucl` the Euclidean distance that the M-step and the distance table always
use (libman/kmeans_task_coordinator.cpp:154-156, libkcommon/dist_matrix.cpp:98).
-/

namespace Knor.Prune

open Knor

variable {R D : Type _} {k n : Nat}

/-- Per-row state: `cluster_assignments[r]`, `dist_v[r]`, `recalculated_v[r]`.
Models libman/coordinator.hpp:55 and libman/kmeans_task_coordinator.hpp:42-43. -/
structure Slot (D : Type _) (k : Nat) where
  assign : Option (Fin k)
  ub : D
  recalc : Bool

/-- Read-only data of an E-step: centroids, movement of each centroid in the last M-step, s-values
and the distance table.  Models libkcommon/clusters.hpp:248-300. -/
structure View (R D : Type _) (k n : Nat) where
  cents : Fin k → Row R n
  prevDist : Fin k → D
  sval : Fin k → D
  dm : DistMatrix D

/-- One step of the loop over clusters in the initial branch.
Models libman/kmeans_task_thread.cpp:192-203. -/
def initStep [LT D] [DecidableLT D] (d : Fin k → D) (s : D × Option (Fin k)) (c : Fin k) :
    D × Option (Fin k) :=
  if d c < s.1 then (d c, some c) else s

/-- The loop over clusters with pruning: state is (assigned cluster, bound, recalculated).
Models libman/kmeans_task_thread.cpp:214-249. -/
def pruneLoop [LT D] [DecidableLT D] [LE D] [DecidableLE D] (big : D) (d : Fin k → D) (dm : DistMatrix D) :
    List (Fin k) → Fin k × D × Bool → Res (Fin k × D × Bool)
  | [], st => .ok st
  | c :: cs, (a, ub, rc) =>
    match dm.get big a.val c.val with
    | .error e => .error e
    | .ok g =>
      if ub ≤ g then pruneLoop big d dm cs (a, ub, rc)
      else
        let ub1 := if rc then ub else d a
        -- the second `dm->get` reads the same entry
        if ub1 ≤ g then pruneLoop big d dm cs (a, ub1, true)
        else if d c < ub1 then pruneLoop big d dm cs (c, d c, true)
        else pruneLoop big d dm cs (a, ub1, true)

/-- Body of the row loop of `EM_step`.  In the non-initial branch a row without a cluster would
index arrays with `INVALID_CLUSTER_ID`, which is undefined behaviour.
Models libman/kmeans_task_thread.cpp:184-266. -/
def emRow [Add R] [Sub R] [Add D] [LT D] [DecidableLT D] [LE D] [DecidableLE D] (dist : Row R n → Row R n → D) (big : D)
    (data : Nat → Row R n) (v : View R D k n) (pruneInit : Bool)
    (r : Nat) (s : Slot D k) (acc : Kmeans.Acc R k n) : Res (Slot D k × Kmeans.Acc R k n) :=
  let d : Fin k → D := fun c => dist (data r) (v.cents c)
  if pruneInit then
    let p := (List.finRange k).foldl (initStep d) (s.ub, s.assign)
    match p.2 with
    | none => .error .assertFail
    | some c =>
      .ok ({ s with assign := some c, ub := p.1 },
        { changed := acc.changed + 1, loc := acc.loc.addMember (data r) c })
  else
    match s.assign with
    | none => .error .ub
    | some a =>
      let ub := s.ub + v.prevDist a
      if ub ≤ v.sval a then .ok ({ assign := some a, ub := ub, recalc := false }, acc)
      else
        match pruneLoop big d v.dm (List.finRange k) (a, ub, false) with
        | .error e => .error e
        | .ok (a', ub', rc') =>
          .ok ({ assign := some a', ub := ub', recalc := rc' },
            if a ≠ a' then
              { changed := acc.changed + 1, loc := acc.loc.swapMembership (data r) a a' }
            else acc)

/-- Rows of worker `t`, in the order in which its task queue hands them out.
Models libman/kmeans_task_thread.cpp:104-126 (`wake` resets the queue and takes the first task),
libman/kmeans_task_thread.cpp:73-102 (each run ends with `request_task`) and the constructor
libman/task_thread.cpp:31-48; `get_global_data_id` is `row + curr_task->get_start_rid()`. -/
def taskRows (nrow reqThreads t : Nat) : List Nat :=
  if t < Partition.effThreads reqThreads nrow then
    let b := Partition.ridLen nrow (Partition.effThreads reqThreads nrow) t
    match (Partition.TaskQueue.mk b.1 b.2 0 false).reset.drain b.2 with
    | .ok (ts, _) => ts.flatMap fun task => List.range' task.start task.nrow
    | .error _ => []
  else []

/-- The coordinator's state between phases.  Models libman/kmeans_task_coordinator.hpp:41-44,
libman/coordinator.hpp:51-56 and libkcommon/clusters.hpp:250-257. -/
structure PState (R D : Type _) (k n : Nat) where
  cltrs : Clusters R k n
  prevMeans : Fin k → Row R n
  prevDist : Fin k → D
  sval : Fin k → D
  dm : DistMatrix D
  slots : Nat → Slot D k
  counts : Fin k → Int
  changed : Nat

/-- The part of the state that workers read.
Models the pointers handed out in libman/kmeans_task_coordinator.cpp:87-95. -/
def PState.view (s : PState R D k n) : View R D k n :=
  { cents := s.cltrs.means, prevDist := s.prevDist, sval := s.sval, dm := s.dm }

/-- `update_clusters(prune_init)`: in the initial call the sums are cleared, later the previous
means are saved and the sums recovered; then the workers' sums are added in thread order and each
cluster is finalised and its movement recorded.  `num_changed` is accumulated.
Models libman/kmeans_task_coordinator.cpp:131-170. -/
def updateClusters [Zero R] [Add R] [Mul R] [Div R] [IntCast R] (eucl : Row R n → Row R n → D) (nrow T : Nat) (pruneInit : Bool)
    (acc : Nat → Kmeans.Acc R k n) (slots : Nat → Slot D k) (s : PState R D k n) :
    Res (PState R D k n) :=
  let prevMeans := if pruneInit then s.prevMeans else s.cltrs.means
  let start := if pruneInit then Clusters.empty else s.cltrs.unfinalizeAll
  let merged := (List.range T).foldl (fun x t => Clusters.peq x (acc t).loc) start
  let changed := (List.range T).foldl (fun m t => m + (acc t).changed) s.changed
  let fin := merged.finalizeAll
  let chk := (List.finRange k).foldl (fun m c => m + fin.num c) (0 : Int)
  if chk ≠ nrow then .error .assertFail
  else
    .ok { cltrs := fin
          prevMeans := prevMeans
          prevDist := fun c => eucl (fin.means c) (prevMeans c)
          sval := s.sval
          dm := s.dm
          slots := slots
          counts := fin.num
          changed := changed }

/-- `wake4run(EM); wait4complete(); update_clusters(prune_init);` with interleaving `sched`.
Models libman/kmeans_task_coordinator.cpp:455-457 and 476-478. -/
def iteration [Zero R] [Add R] [Sub R] [Mul R] [Div R] [IntCast R] [Add D]
    [LT D] [DecidableLT D] [LE D] [DecidableLE D] (dist eucl : Row R n → Row R n → D) (big : D)
    (data : Nat → Row R n) (nrow reqThreads : Nat) (pruneInit : Bool) (sched : List Nat)
    (s : PState R D k n) : Res (PState R D k n) :=
  match Par.run (emRow dist big data s.view pruneInit)
      { mem := s.slots, acc := fun _ => Kmeans.Acc.init, todo := taskRows nrow reqThreads }
      sched with
  | .error e => .error e
  | .ok p =>
    updateClusters eucl nrow (Partition.effThreads reqThreads nrow) pruneInit p.acc p.mem s

/-- `dm->compute_dist(cltrs, ncol)`.  Models libman/kmeans_task_coordinator.cpp:474. -/
def computeDm [Div D] [NatCast D] [LT D] [DecidableLT D] (eucl : Row R n → Row R n → D) (big : D)
    (s : PState R D k n) : Res (PState R D k n) :=
  match DistMatrix.computeDist big eucl s.cltrs.means s.dm s.sval with
  | .error e => .error e
  | .ok (m, sv) => .ok { s with dm := m, sval := sv }

/-- One pass of the main loop: recompute the table, E-step, M-step.
Models libman/kmeans_task_coordinator.cpp:474-478. -/
def pass [Zero R] [Add R] [Sub R] [Mul R] [Div R] [IntCast R] [Add D]
    [Div D] [NatCast D] [LT D] [DecidableLT D] [LE D] [DecidableLE D] (dist eucl : Row R n → Row R n → D) (big : D)
    (data : Nat → Row R n) (nrow reqThreads : Nat) (sched : List Nat) (s : PState R D k n) :
    Res (PState R D k n) :=
  match computeDm eucl big s with
  | .error e => .error e
  | .ok s1 => iteration dist eucl big data nrow reqThreads false sched s1

/-- Result of a run.  Models libman/kmeans_task_coordinator.cpp:528-530. -/
structure Result (R D : Type _) (k n : Nat) where
  iters : Nat
  converged : Bool
  state : PState R D k n

/-- The main loop.  Models libman/kmeans_task_coordinator.cpp:467-495. -/
def loop [Zero R] [Add R] [Sub R] [Mul R] [Div R] [IntCast R] [NatCast R]
    [LE R] [DecidableLE R] [Add D] [Div D] [NatCast D] [LT D] [DecidableLT D] [LE D] [DecidableLE D]
    (dist eucl : Row R n → Row R n → D)
    (big : D) (data : Nat → Row R n) (nrow reqThreads : Nat) (tol : R) (maxIters : Nat)
    (sched : Nat → List Nat) : Nat → Nat → PState R D k n → Res (Result R D k n)
  | 0, iter, s => .ok ⟨iter, false, s⟩
  | fuel + 1, iter, s =>
    if iter ≤ maxIters ∧ 0 < maxIters then
      match pass dist eucl big data nrow reqThreads (sched iter) s with
      | .error e => .error e
      | .ok s2 =>
        if Kmeans.convTest nrow tol s2.changed then .ok ⟨iter, true, s2⟩
        else loop dist eucl big data nrow reqThreads tol maxIters sched fuel (iter + 1)
          { s2 with changed := 0 }
    else .ok ⟨iter, false, s⟩

/-- `run` from the state left by the initialisation.
Models libman/kmeans_task_coordinator.cpp:427-531 (data placement, timing, printing omitted). -/
def run [Zero R] [Add R] [Sub R] [Mul R] [Div R] [IntCast R] [NatCast R]
    [LE R] [DecidableLE R] [Add D] [Div D] [NatCast D] [LT D] [DecidableLT D] [LE D] [DecidableLE D]
    (dist eucl : Row R n → Row R n → D)
    (big : D) (data : Nat → Row R n) (nrow reqThreads : Nat) (tol : R) (maxIters : Nat)
    (sched : Nat → List Nat) (s0 : PState R D k n) : Res (Result R D k n) :=
  if 0 < maxIters then
    match iteration dist eucl big data nrow reqThreads true (sched 1) s0 with
    | .error e => .error e
    | .ok s1 =>
      loop dist eucl big data nrow reqThreads tol maxIters sched maxIters 2
        { s1 with changed := 0 }
  else
    .ok ⟨0, false, { s0 with changed := 0 }⟩

/-- State after construction with centres given (`init_t::NONE`): zero `prev_means` and
`prev_dist` (`resize`), s-values and bounds `big`.  `dist_matrix::create` aborts for `k < 2`.
Models libman/kmeans_task_coordinator.cpp:34-63 and libkcommon/clusters.hpp:254-258. -/
def construct [Zero R] [Zero D] (big : D) (centers : Fin k → Row R n) :
    Res (PState R D k n) :=
  match DistMatrix.create big k with
  | .error e => .error e
  | .ok m =>
    .ok { cltrs := Clusters.empty.setMeans centers
          prevMeans := fun _ _ => 0
          prevDist := fun _ => 0
          sval := fun _ => big
          dm := m
          slots := fun _ => { assign := none, ub := big, recalc := false }
          counts := fun _ => 0
          changed := 0 }

end Knor.Prune
