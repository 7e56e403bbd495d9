import Verif.Model.Prune

/-!
# Mini-batch k-means (`kmeans_task_coordinator::mb_run`)

Same conventions as `Model/Prune.lean`; rows are named by their global id (a task thread's
`get_global_data_id(row)` is `row + curr_task->get_start_rid()`, `mb_selected` stores it relative to
the thread's first row and `mb_finalize_centroids` adds the first row again).
-/

namespace Knor.MiniBatch

open Knor Knor.Prune

variable {R D : Type _} {k n : Nat}

/-- Fraction of rows to sample.  Models libman/kmeans_task_coordinator.cpp:327-331. -/
def perctg [Div R] [NatCast R] (mbSize nthreads nrow : Nat) : R :=
  ((if mbSize < nthreads then 1 else mbSize : Nat) : R) / (nrow : R)

/-- Body of the row loop of `mb_EM_step`: a row is skipped if its draw exceeds the fraction; otherwise
it is remembered in `mb_selected` (the accumulator) and assigned to a nearest centroid.  `draw r` is
what the worker's generator returns for row `r` in this iteration.
Models libman/kmeans_task_thread.cpp:160-182. -/
def mbRow [LT D] [DecidableLT D] [LT R] [DecidableLT R] (dist : Row R n → Row R n → D)
    (data : Nat → Row R n) (cents : Fin k → Row R n) (draw : Nat → R) (frac : R)
    (r : Nat) (s : Slot D k) (sel : List Nat) : Res (Slot D k × List Nat) :=
  if draw r > frac then .ok (s, sel)
  else
    let p := (List.finRange k).foldl (initStep fun c => dist (data r) (cents c)) (s.ub, s.assign)
    .ok ({ s with assign := p.2, ub := p.1 }, sel ++ [r])

/-- Number of rows below `nrow` that have cluster `c`, counted by the loop of `mb_iteration_end`.
Models libman/kmeans_task_coordinator.cpp:99-104. -/
def tally (nrow : Nat) (assign : Nat → Option (Fin k)) : Fin k → Nat :=
  (List.range nrow).foldl (fun v r =>
    match assign r with
    | none => v
    | some c => Function.update v c (v c + 1)) (fun _ => 0)

/-- Learning rates `1.0 / v[cid]`.  (For a cluster without rows the code computes `1.0 / 0`, here 0; no
row uses that rate.)  Models libman/kmeans_task_coordinator.cpp:106-108. -/
def rates [One R] [Div R] [NatCast R] (nrow : Nat) (assign : Nat → Option (Fin k)) (c : Fin k) : R :=
  1 / (tally nrow assign c : R)

/-- The loop of `mb_finalize_centroids` over one worker's selected rows, in order; the assertion fails
on a row without a cluster.  Models libman/kmeans_task_thread.cpp:146-158. -/
def finalizeRows [One R] [Sub R] [Add R] [Mul R] (data : Nat → Row R n) (assign : Nat → Option (Fin k)) (eta : Fin k → R) :
    List Nat → Clusters R k n → Res (Clusters R k n)
  | [], s => .ok s
  | r :: rs, s =>
    match assign r with
    | none => .error .assertFail
    | some c => finalizeRows data assign eta rs (s.scaleCentroid (eta c) c (data r))

/-- The loop over the threads that calls `mb_finalize_centroids`.
Models libman/kmeans_task_coordinator.cpp:115-122. -/
def finalizeThreads [One R] [Sub R] [Add R] [Mul R] (data : Nat → Row R n) (assign : Nat → Option (Fin k))
    (eta : Fin k → R) (sel : Nat → List Nat) : List Nat → Clusters R k n → Res (Clusters R k n)
  | [], c => .ok c
  | t :: ts, c =>
    match finalizeRows data assign eta (sel t) c with
    | .error e => .error e
    | .ok c' => finalizeThreads data assign eta sel ts c'

/-- `mb_iteration_end`: rates, then the workers' selected rows in thread order, then the bounds are
reset.  Models libman/kmeans_task_coordinator.cpp:97-129. -/
def iterationEnd [One R] [Sub R] [Add R] [Mul R] [Div R] [NatCast R]
    (big : D) (data : Nat → Row R n) (nrow T : Nat) (sel : Nat → List Nat)
    (slots : Nat → Slot D k) (s : PState R D k n) : Res (PState R D k n) :=
  let assign := fun r => (slots r).assign
  match finalizeThreads data assign (rates nrow assign) sel (List.range T) s.cltrs with
  | .error e => .error e
  | .ok c =>
    .ok { s with
          cltrs := c
          slots := fun r => if r < nrow then { slots r with ub := big } else slots r }

/-- One iteration: `set_prev_means`, `wake4run(MB_EM)`, `wait4complete`, `mb_iteration_end`.
Models libman/kmeans_task_coordinator.cpp:359-363. -/
def iteration [One R] [Sub R] [Add R] [Mul R] [Div R] [NatCast R] [LT R]
    [DecidableLT R] [LT D] [DecidableLT D] (dist : Row R n → Row R n → D) (big : D)
    (data : Nat → Row R n) (nrow reqThreads : Nat) (draw : Nat → R) (frac : R) (sched : List Nat)
    (s : PState R D k n) : Res (PState R D k n) :=
  match Par.run (mbRow dist data s.cltrs.means draw frac)
      { mem := s.slots, acc := fun _ => [], todo := taskRows nrow reqThreads } sched with
  | .error e => .error e
  | .ok p =>
    iterationEnd big data nrow (Partition.effThreads reqThreads nrow) p.acc p.mem
      { s with prevMeans := s.cltrs.means }

/-- The iterations `iter, iter+1, …` until the centroids move by less than `tol`, at most `fuel` of
them.  `norm` is the Frobenius norm of libkcommon/linalg.hpp:151-158 applied to the difference of
libkcommon/linalg.hpp:143-149.  Models libman/kmeans_task_coordinator.cpp:352-378. -/
def loop [One R] [Sub R] [Add R] [Mul R] [Div R] [NatCast R] [LT R]
    [DecidableLT R] [LT D] [DecidableLT D] (dist : Row R n → Row R n → D) (big : D)
    (norm : (Fin k → Row R n) → R) (data : Nat → Row R n) (nrow reqThreads : Nat)
    (draw : Nat → Nat → R) (frac tol : R) (sched : Nat → List Nat) :
    Nat → Nat → PState R D k n → Res (Nat × PState R D k n)
  | 0, iter, s => .ok (iter, s)
  | fuel + 1, iter, s =>
    match iteration dist big data nrow reqThreads (draw iter) frac (sched iter) s with
    | .error e => .error e
    | .ok s' =>
      if norm (fun c j => s'.cltrs.means c j - s'.prevMeans c j) < tol then .ok (iter, s')
      else loop dist big norm data nrow reqThreads draw frac tol sched fuel (iter + 1) s'

/-- The final `EM` phase and the count of every row's cluster (a row without one would index the counts
out of bounds).  Models libman/kmeans_task_coordinator.cpp:395-404. -/
def finish [Zero R] [Add R] [Sub R] [Add D] [LT D] [DecidableLT D] [LE D] [DecidableLE D]
    (dist : Row R n → Row R n → D) (big : D)
    (data : Nat → Row R n) (nrow reqThreads : Nat) (sched : List Nat) (s : PState R D k n) :
    Res (PState R D k n) :=
  match Par.run (emRow dist big data s.view true)
      { mem := s.slots, acc := fun _ => Kmeans.Acc.init, todo := taskRows nrow reqThreads }
      sched with
  | .error e => .error e
  | .ok p =>
    if (List.range nrow).all fun r => (p.mem r).assign.isSome then
      .ok { s with
            slots := p.mem
            counts := fun c => (tally nrow (fun r => (p.mem r).assign) c : Int) }
    else .error .ub

/-- `mb_run` from the state left by the initialisation; `sched i` is the interleaving of iteration `i`
and `schedEnd` that of the final phase.  The result is what `cluster_t` is built from: the number of
the last iteration, assignments, sizes and centroids.
Models libman/kmeans_task_coordinator.cpp:322-422 (data placement, timing, printing omitted). -/
def run [Zero R] [One R] [Sub R] [Add R] [Mul R] [Div R] [NatCast R] [LT R]
    [DecidableLT R] [Add D] [LT D] [DecidableLT D] [LE D] [DecidableLE D]
    (dist : Row R n → Row R n → D) (big : D)
    (norm : (Fin k → Row R n) → R) (data : Nat → Row R n) (nrow reqThreads mbSize : Nat)
    (draw : Nat → Nat → R) (tol : R) (maxIters : Nat) (sched : Nat → List Nat)
    (schedEnd : List Nat) (s0 : PState R D k n) : Res (Nat × PState R D k n) :=
  match loop dist big norm data nrow reqThreads draw
      (perctg mbSize (Partition.effThreads reqThreads nrow) nrow) tol sched maxIters 0 s0 with
  | .error e => .error e
  | .ok (iter, s) =>
    match finish dist big data nrow reqThreads schedEnd s with
    | .error e => .error e
    | .ok s' => .ok (iter, s')

end Knor.MiniBatch
