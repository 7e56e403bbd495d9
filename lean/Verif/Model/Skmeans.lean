import Verif.Model.Kmeans

/-!
# Scaled k-means (`exec/skmeans`, `knor::skmeans_coordinator`)

Models libman/skmeans.cpp and libman/skmeans_coordinator.cpp.  A run first scales every column with
its minimum and maximum and then runs unpruned k-means (the EM step is inherited from
`kmeans_thread`, the driver is a copy of `kmeans_coordinator::run`).

A `double` is either an exact number of the field `R` or "not a number"; the latter only arises as
`0.0 / 0.0`.
-/

namespace Knor.Skmeans

open Knor

variable {R D : Type _} {k n : Nat}

/-- A `double` that may be NaN.  Models the results of libman/skmeans.cpp:57-59. -/
inductive Fl (R : Type _) where
  | fin (x : R)
  | nan
  deriving DecidableEq, Repr

/-- Addition propagates NaN (IEEE 754; used by libkcommon/clusters.hpp:128-134). -/
instance [Add R] : Add (Fl R) where
  add
    | .fin a, .fin b => .fin (a + b)
    | _, _ => .nan

/-- `<` is false if an operand is NaN (IEEE 754; used by libman/kmeans_thread.cpp:90). -/
instance [LT R] : LT (Fl R) where
  lt
    | .fin a, .fin b => a < b
    | _, _ => False

/-- The comparison can be decided.  Models the `if` of libman/kmeans_thread.cpp:90. -/
instance [LT R] [DecidableLT R] : DecidableLT (Fl R) := fun a b =>
  match a, b with
  | .fin x, .fin y => inferInstanceAs (Decidable (x < y))
  | .nan, _ => isFalse (fun h => h)
  | .fin _, .nan => isFalse (fun h => h)

/-- Division `(v - lo) / (hi - lo)`; when `hi = lo` every entry `v` of the column equals `lo`, so the
quotient is `0.0 / 0.0`.  Models libman/skmeans.cpp:57-59. -/
def scaleEntry [Zero R] [Sub R] [Div R] [DecidableEq R] (lo hi : R) : Fl R → Fl R
  | .nan => .nan
  | .fin v => if hi - lo = 0 then .nan else .fin ((v - lo) / (hi - lo))

/-- Per-column (minimum, maximum) vectors of a thread: `min_feature_val`, `max_feature_val`.
Models libman/skmeans.hpp:37-38. -/
abbrev Bounds (R : Type _) (n : Nat) := Fin n → R × R

/-- Values at construction: `numeric_limits<double>::max()` for the minima and
`numeric_limits<double>::min()` — the smallest *positive* number, here `tiny` — for the maxima.
Models libman/skmeans.cpp:36-37 and libman/skmeans_coordinator.cpp:67-68. -/
def initBounds (big tiny : R) : Bounds R n := fun _ => (big, tiny)

/-- One entry in `feature_bounds_reduction`.  Models libman/skmeans.cpp:44-47. -/
def boundsEntry [LT R] [DecidableLT R] (b : R × R) : Fl R → R × R
  | .nan => b
  | .fin v => (if v < b.1 then v else b.1, if b.2 < v then v else b.2)

/-- One row in `feature_bounds_reduction`; the row is only read.
Models libman/skmeans.cpp:41-50. -/
def boundsRow [LT R] [DecidableLT R] (_r : Nat) (x : Fin n → Fl R) (b : Bounds R n) :
    Res ((Fin n → Fl R) × Bounds R n) :=
  .ok (x, fun j => boundsEntry (b j) (x j))

/-- `bounds_reduction`: merge the threads' bounds in thread order.
Models libman/skmeans_coordinator.cpp:66-81. -/
def reduceBounds [LT R] [DecidableLT R] (big tiny : R) (T : Nat) (b : Nat → Bounds R n) :
    Bounds R n :=
  (List.range T).foldl (fun g t j =>
    (if (b t j).1 < (g j).1 then (b t j).1 else (g j).1,
     if (g j).2 < (b t j).2 then (b t j).2 else (g j).2)) (initBounds big tiny)

/-- One row in `feature_normalize`, with the bounds handed out by the coordinator.
Models libman/skmeans.cpp:53-62 and libman/skmeans_coordinator.cpp:84-89. -/
def normRow [Zero R] [Sub R] [Div R] [DecidableEq R] (g : Bounds R n) (_r : Nat) (x : Fin n → Fl R) (u : Unit) :
    Res ((Fin n → Fl R) × Unit) :=
  .ok (fun j => scaleEntry (g j).1 (g j).2 (x j), u)

/-- `preprocess_data`: the bounds phase under interleaving `s1`, the reduction, the scaling phase
under interleaving `s2`.  The result is the workers' row storage.
Models libman/skmeans_coordinator.cpp:91-99. -/
def preprocess [Zero R] [Sub R] [Div R] [DecidableEq R] [LT R] [DecidableLT R]
    (big tiny : R) (data : Nat → Row R n)
    (nrow reqThreads : Nat) (s1 s2 : List Nat) : Res (Nat → Fin n → Fl R) :=
  match Par.run boundsRow
      { mem := fun r j => .fin (data r j), acc := fun _ => initBounds big tiny
        todo := Kmeans.threadRows nrow reqThreads } s1 with
  | .error e => .error e
  | .ok p =>
    let g := reduceBounds big tiny (Partition.effThreads reqThreads nrow) p.acc
    match Par.run (normRow g)
        { mem := p.mem, acc := fun _ => (), todo := Kmeans.threadRows nrow reqThreads } s2 with
    | .error e => .error e
    | .ok q => .ok q.mem

/-- Whether a metric propagates NaN: it is NaN as soon as some coordinate of its first argument is.
True of all metrics of libkcommon/util.hpp:76-128 (each sums over all coordinates). -/
def Propagates (dist : (Fin n → Fl R) → (Fin n → Fl R) → Fl D) : Prop :=
  ∀ x y, (∃ j, x j = .nan) → dist x y = .nan

/-- The EM phase on the scaled rows, up to its `wait4complete`: the inherited `EM_step`.
Models libman/skmeans.cpp:72-74, libman/skmeans_coordinator.cpp:230-231. -/
def emPhase [Add R] [LT D] [DecidableLT D] (dist : (Fin n → Fl R) → (Fin n → Fl R) → Fl D) (big : Fl D)
    (rows : Nat → Fin n → Fl R) (cents : Fin k → Fin n → Fl R) (zero : Clusters (Fl R) k n)
    (nrow reqThreads : Nat) (sched : List Nat) (assign : Nat → Option (Fin k)) :
    Res (Par.State (Option (Fin k)) (Kmeans.Acc (Fl R) k n)) :=
  Par.run (Kmeans.emRow dist big rows cents)
    { mem := assign, acc := fun _ => ⟨0, zero⟩, todo := Kmeans.threadRows nrow reqThreads } sched

/-- The finite value of an entry (0 for NaN, never used for such entries).  Models libman/skmeans.cpp:57-59. -/
def Fl.val [Zero R] : Fl R → R
  | .fin x => x
  | .nan => 0

/-- `skmeans_coordinator::run` for data whose scaled entries are all finite: preprocessing, then the
k-means driver (a verbatim copy of the loop modelled by `Kmeans.run`) on the scaled rows.  With a NaN
entry and at least one iteration the EM phase aborts (`emPhase`); for such data this definition only
says that the run does not return normally.
Models libman/skmeans_coordinator.cpp:200-279; the state `init rows` is what `run_init` leaves after
preprocessing. -/
def run [Zero R] [Add R] [Sub R] [Div R] [IntCast R] [NatCast R] [DecidableEq R]
    [LE R] [DecidableLE R] [LT R] [DecidableLT R] [LT D] [DecidableLT D] (dist : Row R n → Row R n → D) (bigD : D)
    (big tiny : R) (data : Nat → Row R n) (nrow reqThreads : Nat) (tol : R) (maxIters : Nat)
    (s1 s2 : List Nat) (sched : Nat → List Nat)
    (init : (Nat → Row R n) → Kmeans.KState R k n) : Res (Kmeans.Result R k n) :=
  match preprocess big tiny data nrow reqThreads s1 s2 with
  | .error e => .error e
  | .ok rows =>
    let scaled : Nat → Row R n := fun r j => (rows r j).val
    if (List.range nrow).all (fun r => (List.finRange n).all fun j => decide (rows r j ≠ .nan)) then
      Kmeans.run dist bigD scaled nrow reqThreads tol maxIters sched (init scaled)
    else .error .assertFail

end Knor.Skmeans
