import Verif.Basic

/-!
# Row partitioning: threads, task queues, MPI processes
-/

namespace Knor.Partition

open Knor

/-- Effective number of threads: `min(nthreads, nrow)`.
Models libman/coordinator.cpp:37-38. -/
def effThreads (nthreads nrow : Nat) : Nat := min nthreads nrow

/-- `coordinator::get_rid_len_tup`: first row and number of rows of a thread's
block.  Models libman/coordinator.cpp:71-79, including the truncation of the
`size_t` quotient to `unsigned`. -/
def ridLen (nrow nthreads thd : Nat) : Nat × Nat :=
  let rowsPerThread := u32 (nrow / nthreads)
  let startRid := u32 (thd * rowsPerThread)
  let rowsPerThread' :=
    if thd = nthreads - 1 then u32 (rowsPerThread + nrow % nthreads) else rowsPerThread
  (startRid, rowsPerThread')

/-- The blocks of all threads, in thread order, for a *requested* thread count.
Models libman/kmeans_coordinator.cpp:51-64 (and the identical loops of the other
coordinators), which calls `get_rid_len_tup` for every thread id. -/
def blocks (nrow reqThreads : Nat) : List (Nat × Nat) :=
  (List.range (effThreads reqThreads nrow)).map (ridLen nrow (effThreads reqThreads nrow))

/-- `thd_max_row_idx`: exclusive end of each thread's block.
Models libman/kmeans_coordinator.cpp:53-56. -/
def thdMaxRowIdx (nrow reqThreads : Nat) : List Nat :=
  let t := effThreads reqThreads nrow
  (List.range t).map fun thd => u32 (thd * u32 (nrow / t) + (ridLen nrow t thd).2)

/-- `std::upper_bound` on a sorted sequence: index of the first element greater
than `x` (or the length).  The C++ library does a binary search; on sorted input
(proved for `thdMaxRowIdx` in `Lemmas/Partition.lean`) it returns this index.
Models its use in libman/coordinator.cpp:93-101. -/
def upperBound (l : List Nat) (x : Nat) : Nat := l.findIdx (fun e => decide (x < e))

/-- `coordinator::get_thd_data`, as the pair (thread, row within the thread's
local buffer).  Models libman/coordinator.cpp:93-101.  The pointer
`&local_data[(row - parent*rows)*ncol]` is represented by the local row index. -/
def getThdData (nrow reqThreads row : Nat) : Nat × Nat :=
  let t := effThreads reqThreads nrow
  let parent := upperBound (thdMaxRowIdx nrow reqThreads) row
  (parent, row - parent * u32 (nrow / t))

/-- Contents of a thread's local buffer: local row `i` of thread `thd` is global
row `start_rid + i`.  Models libman/thread.cpp:119-125 (seek to
`start_rid*ncol*8`, read the block) and libman/thread.cpp:129-134
(`&data[start_rid*ncol]`). -/
def localData {α : Type _} (data : Nat → α) (nrow reqThreads thd i : Nat) : α :=
  data ((ridLen nrow (effThreads reqThreads nrow) thd).1 + i)

/-! ## Task queue -/

/-- `MIN_TASK_ROWS`.  Models libman/task_queue.hpp:29. -/
def minTaskRows : Nat := 8192

/-- A task: global id of its first row and its number of rows (the data pointer is
determined by the first row).  Models libman/task_queue.hpp:86-92. -/
structure Task where
  start : Nat
  nrow : Nat
  deriving DecidableEq, Repr

/-- State of a `task_queue`.  Models libman/task_queue.hpp:107-121. -/
structure TaskQueue where
  start : Nat
  nrow : Nat
  curr : Nat
  hasTask : Bool
  deriving DecidableEq, Repr

/-- `task_queue::reset`.  Models libman/task_queue.hpp:170-174. -/
def TaskQueue.reset (q : TaskQueue) : TaskQueue :=
  { q with curr := 0, hasTask := if 0 < q.nrow then true else q.hasTask }

/-- `task_queue::get_task`.  Models libman/task_queue.hpp:128-152.  All arithmetic
is on `unsigned` and wraps. -/
def TaskQueue.getTask (q : TaskQueue) : Res (Task × TaskQueue) :=
  if !q.hasTask then .ok (⟨4294967295, 0⟩, q)
  else if ¬ q.curr < q.nrow then .error .assertFail
  else if u32 (q.curr + minTaskRows) < q.nrow - 1 then
    .ok (⟨u32 (q.start + q.curr), minTaskRows⟩, { q with curr := u32 (q.curr + minTaskRows) })
  else if ¬ 0 < q.nrow - q.curr then .error .assertFail
  else
    .ok (⟨u32 (q.start + q.curr), q.nrow - q.curr⟩,
      { q with curr := q.nrow - 1, hasTask := false })

/-- The worker loop of one phase: take tasks until `has_task()` is false, at most
`fuel` of them; `request_task` asserts that each task is non-empty and no larger
than the block.  Models libman/kmeans_task_thread.cpp:114-116 and
libman/task_thread.cpp:63-95. -/
def TaskQueue.drain : Nat → TaskQueue → Res (List Task × TaskQueue)
  | 0, q => .ok ([], q)
  | fuel + 1, q =>
    if q.hasTask then
      match q.getTask with
      | .error e => .error e
      | .ok (t, q') =>
        if t.nrow = 0 ∨ q.nrow < t.nrow then .error .assertFail
        else
          match TaskQueue.drain fuel q' with
          | .error e => .error e
          | .ok (ts, q'') => .ok (t :: ts, q'')
    else .ok ([], q)

/-! ## MPI processes -/

/-- Number of rows of a process.  Models libdist/dist_coordinator.cpp:56-68. -/
def procNrow (gNrow nprocs rank : Nat) : Nat :=
  if rank = nprocs - 1 then gNrow / nprocs + gNrow % nprocs else gNrow / nprocs

/-- `global_rid`.  Models libdist/dist_coordinator.cpp:107-109. -/
def globalRid (gNrow nprocs rank lrid : Nat) : Nat :=
  u64 (u64 (gNrow / nprocs * rank) + lrid)

/-- `local_rid`: throws only if the difference *exceeds* the local row count.
Models libdist/dist_coordinator.cpp:111-117. -/
def localRid (gNrow nprocs rank grid : Nat) : Res Nat :=
  let rid := sub64 grid (rank * (gNrow / nprocs))
  if procNrow gNrow nprocs rank < rid then .error .throws else .ok rid

/-- `is_local`.  Models libdist/dist_coordinator.cpp:119-124. -/
def isLocal (gNrow nprocs rank grid : Nat) : Bool :=
  let rid := sub64 grid (rank * (gNrow / nprocs))
  if procNrow gNrow nprocs rank ≤ rid then false else true

/-- Slice `[pid*(g/n), +count)` into which the root receives each process's
assignments, and the number of entries it expects (the root's own `get_nrow()`, plus
the remainder for the last process).  Models libdist/dist_coordinator.cpp:395-412. -/
def gatherSlices (gNrow nprocs : Nat) : List (Nat × Nat) :=
  (0, procNrow gNrow nprocs 0) ::
    (List.range (nprocs - 1)).map fun i =>
      let pid := i + 1
      (pid * (gNrow / nprocs),
        if pid = nprocs - 1 then procNrow gNrow nprocs 0 + gNrow % nprocs
        else procNrow gNrow nprocs 0)

end Knor.Partition
