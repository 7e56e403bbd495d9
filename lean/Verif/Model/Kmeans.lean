import Mathlib.Data.List.FinRange
import Verif.Model.Partition
import Verif.Model.Par
import Verif.Model.Clusters

/-!
# Unpruned k-means (`knori --no-prune`, `knor::kmeans_coordinator`)

Models libman/kmeans_thread.cpp and libman/kmeans_coordinator.cpp.

* Rows are `data : Nat → Row R n`; the row at a worker's local index `i` is global row
  `start_rid + i` (`Partition.localData`, see C02), so rows are named by their global id.
* The value of `dist_comp_raw` (libkcommon/util.hpp:151-166) for the chosen metric is a parameter
  `dist : Row R n → Row R n → D`, where `D` is any linear order, and `big : D` stands for
  `std::numeric_limits<double>::max()`.
* `INVALID_CLUSTER_ID` is `none`.
-/

namespace Knor.Kmeans

open Knor

variable {R D : Type _} {k n : Nat}

/-- One step of the loop over clusters: keep the cluster with the strictly smaller distance.
Models libman/kmeans_thread.cpp:84-94. -/
def scanStep [LT D] [DecidableLT D] (d : Fin k → D) (s : D × Option (Fin k)) (c : Fin k) :
    D × Option (Fin k) :=
  if d c < s.1 then (d c, some c) else s

/-- The loop over clusters for one row.  Models libman/kmeans_thread.cpp:80-94. -/
def emScan [LT D] [DecidableLT D] (big : D) (d : Fin k → D) : Option (Fin k) :=
  ((List.finRange k).foldl (scanStep d) (big, none)).2

/-- A worker's accumulators: `meta.num_changed` and `local_clusters`.
Models libman/thread.hpp:56-59 and 95-106. -/
structure Acc (R : Type _) (k n : Nat) where
  changed : Nat
  loc : Clusters R k n

/-- Accumulators at the beginning of an EM step.  Models libman/kmeans_thread.cpp:76-77. -/
def Acc.init [Zero R] : Acc R k n := ⟨0, Clusters.empty⟩

/-- Body of the row loop of `EM_step`.  Models libman/kmeans_thread.cpp:79-104; the assertion of
line 96 fires if no distance was below `big`. -/
def emRow [Add R] [LT D] [DecidableLT D] (dist : Row R n → Row R n → D) (big : D)
    (data : Nat → Row R n) (cents : Fin k → Row R n)
    (r : Nat) (old : Option (Fin k)) (a : Acc R k n) : Res (Option (Fin k) × Acc R k n) :=
  match emScan big (fun c => dist (data r) (cents c)) with
  | none => .error .assertFail
  | some c =>
    .ok (some c, { changed := if some c ≠ old then a.changed + 1 else a.changed
                   loc := a.loc.addMember (data r) c })

/-- Rows of worker `t` when `nrow` rows are split over `reqThreads` requested threads.
Models libman/coordinator.cpp:37-38,71-79 and libman/kmeans_coordinator.cpp:51-64. -/
def threadRows (nrow reqThreads t : Nat) : List Nat :=
  if t < Partition.effThreads reqThreads nrow then
    let b := Partition.ridLen nrow (Partition.effThreads reqThreads nrow) t
    List.range' b.1 b.2
  else []

/-- The coordinator's state between phases: global clusters, `cluster_assignments`,
`cluster_assignment_counts`, `num_changed`.  Models libman/coordinator.hpp:51-56 and libman/kmeans_coordinator.hpp:35. -/
structure KState (R : Type _) (k n : Nat) where
  cltrs : Clusters R k n
  assign : Nat → Option (Fin k)
  counts : Fin k → Int
  changed : Nat

/-- `update_clusters`: clear, add the workers' sums in thread order, finalise, copy the counts;
both assertions are checked.  Models libman/kmeans_coordinator.cpp:66-89. -/
def updateClusters [Zero R] [Add R] [Div R] [IntCast R] (nrow T : Nat) (acc : Nat → Acc R k n)
    (assign : Nat → Option (Fin k)) : Res (KState R k n) :=
  let merged := (List.range T).foldl (fun s t => Clusters.peq s (acc t).loc) Clusters.empty
  let changed := (List.range T).foldl (fun m t => m + (acc t).changed) 0
  let fin := merged.finalizeAll
  let chk := (List.finRange k).foldl (fun m c => m + fin.num c) (0 : Int)
  if chk ≠ nrow then .error .assertFail
  else if nrow < changed then .error .assertFail
  else .ok { cltrs := fin, assign := assign, counts := fin.num, changed := changed }

/-- One iteration: `wake4run(EM); wait4complete(); update_clusters();` where the workers run in
the order given by `sched`.  Models libman/kmeans_coordinator.cpp:190-196. -/
def iteration [Zero R] [Add R] [Div R] [IntCast R] [LT D] [DecidableLT D] (dist : Row R n → Row R n → D) (big : D)
    (data : Nat → Row R n) (nrow reqThreads : Nat) (sched : List Nat) (s : KState R k n) :
    Res (KState R k n) :=
  match Par.run (emRow dist big data s.cltrs.means)
      { mem := s.assign, acc := fun _ => Acc.init, todo := threadRows nrow reqThreads } sched with
  | .error e => .error e
  | .ok p => updateClusters nrow (Partition.effThreads reqThreads nrow) p.acc p.mem

/-- The convergence test.  Models libman/kmeans_coordinator.cpp:204-205. -/
def convTest [Div R] [NatCast R] [LE R] [DecidableLE R] (nrow : Nat) (tol : R) (changed : Nat) : Bool :=
  changed == 0 || decide ((changed : R) / (nrow : R) ≤ tol)

/-- Result of a run: the returned iteration number and the final state (assignments, sizes and
centroids are what `cluster_t` copies).  Models libman/kmeans_coordinator.cpp:238-240. -/
structure Result (R : Type _) (k n : Nat) where
  iters : Nat
  state : KState R k n

/-- The main loop from iteration `iter`, which runs at most `fuel` times; `sched i` is the
interleaving of iteration `i`.  The loop leaves after `maxIters` iterations, so `fuel = maxIters`
suffices (`loop_fuel` in Lemmas/Kmeans.lean).  Models libman/kmeans_coordinator.cpp:189-210. -/
def loop [Zero R] [Add R] [Div R] [IntCast R] [NatCast R] [LE R] [DecidableLE R] [LT D] [DecidableLT D] (dist : Row R n → Row R n → D)
    (big : D) (data : Nat → Row R n) (nrow reqThreads : Nat) (tol : R) (maxIters : Nat)
    (sched : Nat → List Nat) : Nat → Nat → KState R k n → Res (Result R k n)
  | 0, iter, s => .ok ⟨iter, s⟩
  | fuel + 1, iter, s =>
    if iter ≤ maxIters ∧ 0 < maxIters then
      -- `if (iter == 1) clear_cluster_assignments();`
      let s1 := if iter = 1 then { s with assign := fun _ => none } else s
      match iteration dist big data nrow reqThreads (sched iter) s1 with
      | .error e => .error e
      | .ok s2 =>
        if convTest nrow tol s2.changed then .ok ⟨iter, s2⟩
        else loop dist big data nrow reqThreads tol maxIters sched fuel (iter + 1) s2
    else .ok ⟨iter, s⟩

/-- `run`, from the state `s0` left by the initialisation.
Models libman/kmeans_coordinator.cpp:165-241 (data placement, timing and printing omitted). -/
def run [Zero R] [Add R] [Div R] [IntCast R] [NatCast R] [LE R] [DecidableLE R] [LT D] [DecidableLT D] (dist : Row R n → Row R n → D)
    (big : D) (data : Nat → Row R n) (nrow reqThreads : Nat) (tol : R) (maxIters : Nat)
    (sched : Nat → List Nat) (s0 : KState R k n) : Res (Result R k n) :=
  loop dist big data nrow reqThreads tol maxIters sched (maxIters + 1)
    (if 0 < maxIters then 1 else 0) s0

end Knor.Kmeans
