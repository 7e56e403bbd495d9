import Verif.Model.Omp
import Verif.Model.PrunedDriver

/-!
# A whole call of the OpenMP variant

Models `knor::omp::compute_kmeans` and `knor::omp::compute_min_kmeans` from the names of the options and the data to the
returned `cluster_t`, and the part of `knori` (exec/knori.cpp) that leads to them with `-O`.  The conventions are those
of Model/Driver.lean; the data is one array of the caller.
-/

namespace Knor.Driver

open Knor Knor.Io

variable {R S B : Type _} {k n : Nat}

/-- The names of the metrics that the OpenMP variant knows.
Models libauto/kmeans.cpp:330-337 and libauto/min-tri-kmeans.cpp:442-449. -/
def ompMetric (s : String) : Res Dist.Metric :=
  if s = "eucl" then .ok .eucl
  else if s = "cos" then .ok .cos
  else .error .throws

/-- The number of threads; `avail` is what `get_num_omp_threads` finds.  A request above the largest `int` is outside
the model.  Models libauto/kmeans.cpp:291-301, libauto/min-tri-kmeans.cpp:396-407 and libkcommon/util.cpp:83-93. -/
def ompThreads (nthreads avail : Nat) : Nat :=
  min (if nthreads = 0 then 1 else nthreads) (if avail = 0 then 1 else avail)

/-- Row `r` of a row-major array (`&matrix[row*NUM_COLS]`).
Models libauto/kmeans.cpp:75, 108, 151, 217 and libauto/min-tri-kmeans.cpp:78, 114, 170, 240. -/
def flatRow [Zero R] (l : List R) (r : Nat) : Row R n := fun j => l.getD (r * n + j.val) 0

/-- `clusters->set_mean(clusters_ptr)` with the initialisation `none`; the copy is undefined if the array is too short
or missing.  With another name the array is not touched.
Models libauto/kmeans.cpp:320-321 and libauto/min-tri-kmeans.cpp:427-428. -/
def ompGiven [Zero R] (init : String) (centers : Option (List R)) : Res (Fin k → Row R n) :=
  if init = "none" then
    match centers with
    | none => .error .ub
    | some l => if l.length < k * n then .error .ub else .ok fun c => flatRow l c.val
  else .ok fun _ _ => 0

/-- The draws of a freshly seeded engine, as the initialisations use them.
Models libauto/kmeans.cpp:66-67, 99-100, 123-124, 141 and libauto/min-tri-kmeans.cpp:69-70, 105-106, 139-140, 159. -/
def ompStart (rng : Rng R S k) (given : Fin k → Row R n) : InitT → Omp.Start R R S k n
  | .none => .none given
  | .forgy => .forgy rng.row rng.seed
  | .random => .random rng.clust rng.seed
  | .plusplus => .kpp (rng.row rng.seed).1 fun i => (rng.unit (Init.skip rng.unit i (rng.row rng.seed).2)).1

/-- The arguments of a call.  Models libauto/kmeans.cpp:280-284 and libauto/min-tri-kmeans.cpp:385-389. -/
structure OmpCall (R : Type _) where
  data : List R
  nrow : Nat
  maxIters : Nat
  nthreads : Nat
  centers : Option (List R)
  init : String
  tol : R
  dist : String

/-- What the OpenMP runtime does: which thread gets which row, and how the threads interleave, in the passes of
k-means++ and in the iterations; and the number of processors.
Models the parallel loops of libauto/kmeans.cpp:147-150 and 206-210, and libkcommon/util.cpp:83-93. -/
structure OmpRun where
  avail : Nat
  kppOwner : Nat → Nat → Nat
  kppSched : Nat → List Nat
  owner : Nat → Nat → Nat
  sched : Nat → List Nat

/-- The checks that come before the work: `k`, then the centres, then the name of the metric, then that of the
initialisation.  Models libauto/kmeans.cpp:307-355 and libauto/min-tri-kmeans.cpp:412-468. -/
def ompChecks [Zero R] (a : OmpCall R) : Res (Dist.Metric × InitT × (Fin k → Row R n)) :=
  if a.nrow < k ∨ k < 2 then .error .throws
  else
    match ompGiven a.init a.centers with
    | .error e => .error e
    | .ok given =>
      match ompMetric a.dist with
      | .error e => .error e
      | .ok m =>
        match getInit a.init with
        | .error e => .error e
        | .ok it => .ok (m, it, given)

/-- `omp::compute_kmeans`.  Models libauto/kmeans.cpp:280-483. -/
def kmeansOmp [Zero R] [Add R] [Sub R] [Mul R] [Div R] [IntCast R] [NatCast R] [LT R] [DecidableLT R]
    [LE R] [DecidableLE R] (dist : Dist.Metric → Row R n → Row R n → R) (big : R) (rng : Rng R S k) (o : OmpRun)
    (a : OmpCall R) : Res (Kmeans.Result R k n) :=
  match ompChecks a with
  | .error e => .error e
  | .ok (m, it, given) =>
    Omp.compute (dist m) big (flatRow a.data) a.nrow (ompThreads a.nthreads o.avail) o.kppOwner o.kppSched o.owner a.tol
      a.maxIters o.sched (ompStart rng given it)

/-- `omp::compute_min_kmeans`.  Models libauto/min-tri-kmeans.cpp:385-596. -/
def kmeansOmpPruned [Zero R] [Add R] [Sub R] [Mul R] [Div R] [IntCast R] [NatCast R] [LT R] [DecidableLT R]
    [LE R] [DecidableLE R] (dist : Dist.Metric → Row R n → Row R n → R) (big : R) (rng : Rng R S k) (o : OmpRun)
    (a : OmpCall R) : Res (Prune.Result R R k n) :=
  match ompChecks a with
  | .error e => .error e
  | .ok (m, it, given) =>
    Omp.computeP (dist m) (dist .eucl) big (flatRow a.data) a.nrow (ompThreads a.nthreads o.avail) o.kppOwner o.kppSched
      o.owner a.tol a.maxIters o.sched (ompStart rng given it)

/-- `knori -O`: a file with centres replaces the initialisation by `none`, `none` without such a file is refused, the
size of the data file is compared with the given numbers of rows and columns, the centres and then the data are read;
`noPrune` is `-P`.  Without a file of centres the caller passes a fresh array that is not read.
Models exec/knori.cpp:120-172. -/
def knoriOmp [Zero R] [Add R] [Sub R] [Mul R] [Div R] [IntCast R] [NatCast R] [LT R] [DecidableLT R]
    [LE R] [DecidableLE R] (dist : Dist.Metric → Row R n → Row R n → R) (big : R) (c : Codec R B)
    (rng : Rng R S k) (o : OmpRun) (noPrune : Bool) (datafn : List B) (centersfn : Option (List B))
    (nrow maxIters nthreads : Nat) (init : String) (tol : R) (distType : String) : Res (Omp.Report R k n) :=
  let init := if centersfn.isSome then "none" else init
  if init = "none" ∧ centersfn.isNone then .error .assertFail
  else if datafn.length ≠ u64 (u64 (c.size * nrow) * n) then .error .throws
  else
    let cents : Res (Option (List R)) :=
      match centersfn with
      | none => .ok none
      | some f =>
        match (BinIo.openRead f k n).read c with
        | .error e => .error e
        | .ok (l, _) => .ok (some l)
    match cents with
    | .error e => .error e
    | .ok centers =>
      match (BinIo.openRead datafn nrow n).read c with
      | .error e => .error e
      | .ok (data, _) =>
        let a : OmpCall R := ⟨data, nrow, maxIters, nthreads, centers, init, tol, distType⟩
        if noPrune then (kmeansOmp dist big rng o a).map Omp.report
        else (kmeansOmpPruned dist big rng o a).map Omp.reportP

end Knor.Driver
