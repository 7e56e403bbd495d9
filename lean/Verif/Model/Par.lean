import Mathlib.Logic.Function.Basic
import Verif.Basic

/-!
# Parallel row phases

knor's workers process disjoint rows.  Processing a row reads and writes only that row's
slots of the shared arrays (`cluster_assignments`, `dist_v`, `recalculated_v`), reads data that
no worker writes during the phase (the rows, the global centroids, the distance table) and
updates the worker's own accumulators (`local_clusters`, `meta.num_changed`, `cuml_dist`).

A phase is modelled as a small-step system: in each step the scheduler names a worker, which
processes its next row.  One step is one row; finer interleavings are not distinguished because
two workers never touch the same mutable location during a phase (that the row sets are disjoint
is proved, see `Lemmas/Par.lean` and C01/C03).
-/

namespace Knor.Par

open Knor

variable {μ α : Type _}

/-- State of a phase: the per-row slots, each worker's accumulator, and each worker's remaining
rows (in processing order).  Models the loop headers `for (row = 0; row < nprocrows; row++)` of
libman/kmeans_thread.cpp:79,112 and libman/kmeans_task_thread.cpp:161,185,273, where
`mem r` are the array entries with index `get_global_data_id(row)`. -/
structure State (μ α : Type _) where
  mem : Nat → μ
  acc : Nat → α
  todo : Nat → List Nat

/-- Worker `t` processes its next row with `f row slot accumulator` (nothing if it is done).
Models one pass through the row loop of libman/kmeans_thread.cpp:79-104. -/
def step (f : Nat → μ → α → Res (μ × α)) (s : State μ α) (t : Nat) : Res (State μ α) :=
  match s.todo t with
  | [] => .ok s
  | r :: rs =>
    match f r (s.mem r) (s.acc t) with
    | .error e => .error e
    | .ok (m, a) =>
      .ok { mem := Function.update s.mem r m
            acc := Function.update s.acc t a
            todo := Function.update s.todo t rs }

/-- Run a schedule: the list of worker ids in the order in which they take steps.
Models the threads started in libman/kmeans_thread.cpp:67-73, which run in any order. -/
def run (f : Nat → μ → α → Res (μ × α)) : State μ α → List Nat → Res (State μ α)
  | s, [] => .ok s
  | s, t :: ts =>
    match step f s t with
    | .error e => .error e
    | .ok s' => run f s' ts

/-- All workers `0 … T-1` have processed all their rows, as `wait4complete` guarantees
(libman/coordinator.cpp:57-63; see C34). -/
def Done (T : Nat) (s : State μ α) : Prop := ∀ t, t < T → s.todo t = []

/-- A schedule is complete for `T` workers if each worker occurs in it at least as often as it
has rows (steps of a finished worker do nothing).  Models libman/coordinator.cpp:57-63. -/
def Complete (T : Nat) (todo : Nat → List Nat) (sched : List Nat) : Prop :=
  ∀ t, t < T → (todo t).length ≤ sched.count t

end Knor.Par
