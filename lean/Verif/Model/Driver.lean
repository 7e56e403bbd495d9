import Verif.Model.Init
import Verif.Model.Io
import Verif.Model.Kmeans
import Verif.Model.Dist

/-!
# A whole unpruned k-means call

Models `knor::kmeans_coordinator::create(...)->run(...)` from the names of the options and the data to the
returned `cluster_t`, and the part of `knori` (exec/knori.cpp) that leads to it with `-P`.

* Numbers are of a type `R`; `dist m` is what `dist_comp_raw` computes for metric `m`, as a number.
* A NaN distance is represented by `big` (`std::numeric_limits<double>::max()`): both loops that compare
  distances replace a stored value that is at most `big` only by a strictly smaller one, so a NaN and `big` are
  ignored alike (`Driver.realDist`).
* The random engine is a state `S`; the three distributions of the initialisations are functions on it.
* With `numa_opt` the buffers are those that `memory_distributor` fills (binding/numa_reorg.hpp).
-/

namespace Knor.Driver

open Knor Knor.Io

variable {R S B : Type _} {k n : Nat}

/-- `init_t`.  Models libkcommon/types.hpp:39. -/
inductive InitT where
  | random | forgy | plusplus | none
  deriving DecidableEq, Repr

/-- `get_init_type`.  Models libkcommon/util.cpp:95-108. -/
def getInit (s : String) : Res InitT :=
  if s = "random" then .ok .random
  else if s = "forgy" then .ok .forgy
  else if s = "kmeanspp" then .ok .plusplus
  else if s = "none" then .ok .none
  else .error .throws

/-- `get_dist_type`.  Models libkcommon/util.cpp:110-123. -/
def getDist (s : String) : Res Dist.Metric :=
  if s = "eucl" then .ok .eucl
  else if s = "cos" then .ok .cos
  else if s = "taxi" then .ok .taxi
  else if s = "sqeucl" then .ok .sqeucl
  else .error .throws

/-- `dist_comp_raw` over the reals, with `big` for a NaN.  Models libkcommon/util.hpp:151-166. -/
noncomputable def realDist (big : ℝ) (m : Dist.Metric) (x y : Row ℝ n) : ℝ := (Dist.distComp m x y).getD big

/-- The random engine with its seed: a row number, a cluster number, and a real in `[0, 1]`.
Models libman/kmeans_coordinator.cpp:99-110, 138-139 and 153-154. -/
structure Rng (R S : Type _) (k : Nat) where
  seed : S
  row : S → Nat × S
  clust : S → Fin k × S
  unit : S → R × S

/-- Where the data is: a file that the workers read, an array of the caller, or an array of the caller that
`memory_distributor` has copied to the NUMA nodes before the call with `numa_opt`.
Models libman/kmeans_coordinator.cpp:171-177 and binding/numa_reorg.hpp:76-96. -/
inductive Source (R B : Type _) where
  | file (bytes : List B)
  | array (data : List R)
  | numa (data : List R) (nodes : Nat)

/-- The arguments of a call.
Models the parameters of libman/kmeans_coordinator.hpp:44-49 and libman/kmeans_coordinator.cpp:165-166. -/
structure Call (R B : Type _) where
  source : Source R B
  nrow : Nat
  maxIters : Nat
  nthreads : Nat
  centers : Option (List R)
  init : String
  tol : R
  dist : String

/-- The constructor: `k ≥ 1`, and the given centres are used only with `NONE`; the copy is undefined if the
array is too short.  Models libman/kmeans_coordinator.cpp:29-49 and libman/coordinator.cpp:42. -/
def construct [Zero R] (it : InitT) (centers : Option (List R)) : Res (Clusters R k n) :=
  if k < 1 then .error .assertFail
  else match centers, it with
    | some l, .none =>
      if l.length < k * n then .error .ub
      else .ok (Clusters.empty.setMeans fun c j => l.getD (c.val * n + j.val) 0)
    | _, _ => .ok Clusters.empty

/-- The workers' buffers.  Models libman/kmeans_coordinator.cpp:171-177 and libman/coordinator.cpp:65-69. -/
def load (c : Codec R B) (a : Call R B) (ncol : Nat) : Res (List (Worker R B)) :=
  match a.source with
  | .file bytes => loadAll c bytes a.nrow a.nthreads ncol 0
  | .array data => .ok ((List.range (Partition.effThreads a.nthreads a.nrow)).map fun thd =>
      (Worker.create c [] a.nrow a.nthreads ncol 0 thd : Worker R B).setLocalDataPtr data)
  | .numa data nodes => numaReorgAll c data nodes a.nrow a.nthreads ncol

/-- The row with number `r` as the workers hold it.  Models `get_thd_data`, libman/coordinator.cpp:93-101. -/
def rowsIn [Zero R] (ws : List (Worker R B)) (nrow nthreads r : Nat) : Row R n :=
  match thdData ws nrow nthreads r with
  | .ok l => fun j => l.getD j.val 0
  | .error _ => fun _ => 0

/-- `run_init`, on the state after construction.  In `kmeanspp_init` the engine gives the first row and then one
number of the unit interval for every pass; `sched i` is the interleaving of pass `i`.
Models libman/coordinator.cpp:144-160 and libman/kmeans_coordinator.cpp:91-160. -/
def runInit [Zero R] [Add R] [Sub R] [Mul R] [Div R] [IntCast R] [NatCast R] [LT R] [DecidableLT R]
    [LE R] [DecidableLE R] (dist : Row R n → Row R n → R) (big : R) (rng : Rng R S k)
    (data : Nat → Row R n) (nrow nthreads : Nat) (sched : Nat → List Nat) (it : InitT) (c0 : Clusters R k n) :
    Res (Kmeans.KState R k n) :=
  match it with
  | .random =>
    match Init.random rng.clust rng.seed data nrow nthreads c0 (fun _ => none) with
    | .error e => .error e
    | .ok (c, a) => .ok ⟨c, a, fun _ => 0, 0⟩
  | .forgy =>
    match Init.forgy rng.row rng.seed data nrow nthreads c0 with
    | .error e => .error e
    | .ok c => .ok ⟨c, fun _ => none, fun _ => 0, 0⟩
  | .plusplus =>
    match Init.kpp dist data nrow nthreads (Partition.effThreads nthreads nrow)
        (Kmeans.threadRows nrow nthreads) sched (rng.row rng.seed).1
        (fun i => (rng.unit (Init.skip rng.unit i (rng.row rng.seed).2)).1) ⟨c0, fun _ => ⟨big, none⟩⟩ with
    | .error e => .error e
    | .ok s => .ok ⟨s.cltrs, fun r => (s.slots r).assign, fun _ => 0, 0⟩
  | .none => .ok ⟨c0, fun _ => none, fun _ => 0, 0⟩

/-- `kmeans_coordinator::create(...)->run(...)`; `sched1` are the interleavings of the initialisation, `sched2`
those of the iterations.  Models libman/kmeans_coordinator.hpp:44-64 and
libman/kmeans_coordinator.cpp:29-49, 165-241. -/
def kmeans [Zero R] [Add R] [Sub R] [Mul R] [Div R] [IntCast R] [NatCast R] [LT R] [DecidableLT R]
    [LE R] [DecidableLE R] (dist : Dist.Metric → Row R n → Row R n → R) (big : R) (c : Codec R B)
    (rng : Rng R S k) (sched1 sched2 : Nat → List Nat) (a : Call R B) : Res (Kmeans.Result R k n) :=
  match getInit a.init with
  | .error e => .error e
  | .ok it =>
    match getDist a.dist with
    | .error e => .error e
    | .ok m =>
      match construct it a.centers with
      | .error e => .error e
      | .ok c0 =>
        match load c a n with
        | .error e => .error e
        | .ok ws =>
          let data : Nat → Row R n := rowsIn ws a.nrow a.nthreads
          match runInit (dist m) big rng data a.nrow a.nthreads sched1 it c0 with
          | .error e => .error e
          | .ok s => Kmeans.run (dist m) big data a.nrow a.nthreads a.tol a.maxIters sched2 s

/-- `knori` with `-P`: a file with centres replaces the initialisation by `none`, `none` without such a file is
refused, the size of the data file is compared with the given numbers of rows and columns, and the centres are
read.  `sizeof(double)` is `c.size`.  Models exec/knori.cpp:120-145 and 174-180. -/
def knori [Zero R] [Add R] [Sub R] [Mul R] [Div R] [IntCast R] [NatCast R] [LT R] [DecidableLT R]
    [LE R] [DecidableLE R] (dist : Dist.Metric → Row R n → Row R n → R) (big : R) (c : Codec R B)
    (rng : Rng R S k) (sched1 sched2 : Nat → List Nat) (datafn : List B) (centersfn : Option (List B))
    (nrow maxIters nthreads : Nat) (init : String) (tol : R) (distType : String) :
    Res (Kmeans.Result R k n) :=
  let init := if centersfn.isSome then "none" else init
  if init = "none" ∧ centersfn.isNone then .error .assertFail
  else if datafn.length ≠ u64 (u64 (c.size * nrow) * n) then .error .throws
  else match centersfn with
    | none => kmeans dist big c rng sched1 sched2 ⟨.file datafn, nrow, maxIters, nthreads, none, init, tol, distType⟩
    | some f =>
      match (BinIo.openRead f k n).read c with
      | .error e => .error e
      | .ok (l, _) =>
        kmeans dist big c rng sched1 sched2 ⟨.file datafn, nrow, maxIters, nthreads, some l, init, tol, distType⟩

end Knor.Driver
