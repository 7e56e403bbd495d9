import Verif.Model.Prune
import Verif.Model.Init

/-!
# The OpenMP variant (`knori -O`, libauto)

Models libauto/kmeans.cpp (`knor::omp::compute_kmeans`) and libauto/min-tri-kmeans.cpp
(`knor::omp::compute_min_kmeans`).  A `#pragma omp parallel for` over rows is a parallel phase
(`Model/Par.lean`): `owner r` is the thread that the OpenMP runtime gives row `r` to, which is
arbitrary, and each thread runs its rows in increasing order.

`dist`, `eucl`, `big` are as in `Model/Kmeans.lean` and `Model/Prune.lean`.  The matrix is one
row-major array, so row `r` is read directly (`&matrix[row*NUM_COLS]`).
-/

namespace Knor.Omp

open Knor

variable {R D S : Type _} {k n : Nat}

/-- The rows that thread `t` of `T` runs.  Models `#pragma omp parallel for` of
libauto/kmeans.cpp:206-210, 147-150 and libauto/min-tri-kmeans.cpp:228-232, 165-168. -/
def rows (nrow T : Nat) (owner : Nat → Nat) (t : Nat) : List Nat :=
  if t < T then (List.range nrow).filter fun r => owner r = t else []

/-! ## Unpruned -/

/-- The serial part of `EM_step`: clear, add the per-thread sums, finalise, count.  `g_num_changed`
is a global to which the per-thread counts are added.  Models libauto/kmeans.cpp:251-268. -/
def merge [Zero R] [Add R] [Div R] [IntCast R] (nrow T : Nat) (acc : Nat → Kmeans.Acc R k n)
    (assign : Nat → Option (Fin k)) (changed0 : Nat) : Res (Kmeans.KState R k n) :=
  let merged := (List.range T).foldl (fun s t => Clusters.peq s (acc t).loc) Clusters.empty
  let changed := (List.range T).foldl (fun m t => m + (acc t).changed) changed0
  let fin := merged.finalizeAll
  let chk := (List.finRange k).foldl (fun m c => m + fin.num c) (0 : Int)
  if chk ≠ nrow then .error .assertFail
  else .ok { cltrs := fin, assign := assign, counts := fin.num, changed := changed }

/-- `EM_step` with rows split by `todo` over `T` threads; the row loop is the same as that of the
pthread version.  Models libauto/kmeans.cpp:196-275. -/
def emStep [Zero R] [Add R] [Div R] [IntCast R] [LT D] [DecidableLT D] (dist : Row R n → Row R n → D) (big : D)
    (data : Nat → Row R n) (nrow T : Nat) (todo : Nat → List Nat) (sched : List Nat)
    (s : Kmeans.KState R k n) : Res (Kmeans.KState R k n) :=
  match Par.run (Kmeans.emRow dist big data s.cltrs.means)
      { mem := s.assign, acc := fun _ => Kmeans.Acc.init, todo := todo } sched with
  | .error e => .error e
  | .ok p => merge nrow T p.acc p.mem s.changed

/-- The main loop: note `iter < MAX_ITERS`.  At most `fuel` passes, which suffices for
`fuel = MAX_ITERS`.  Models libauto/kmeans.cpp:400-433. -/
def loop [Zero R] [Add R] [Div R] [IntCast R] [NatCast R]
    [LE R] [DecidableLE R] [LT D] [DecidableLT D] (dist : Row R n → Row R n → D)
    (big : D) (data : Nat → Row R n) (nrow T : Nat) (owner : Nat → Nat → Nat) (tol : R)
    (maxIters : Nat) (sched : Nat → List Nat) :
    Nat → Nat → Kmeans.KState R k n → Res (Kmeans.Result R k n)
  | 0, iter, s => .ok ⟨iter, s⟩
  | fuel + 1, iter, s =>
    if iter < maxIters then
      let s1 := if iter = 1 then { s with assign := fun _ => none } else s
      match emStep dist big data nrow T (rows nrow T (owner iter)) (sched iter) s1 with
      | .error e => .error e
      | .ok s2 =>
        if Kmeans.convTest nrow tol s2.changed then .ok ⟨iter, s2⟩
        else loop dist big data nrow T owner tol maxIters sched fuel (iter + 1)
          { s2 with changed := 0 }
    else .ok ⟨iter, s⟩

/-- `compute_kmeans` after the initialisation.  Models libauto/kmeans.cpp:357, 396-433, 480-482. -/
def run [Zero R] [Add R] [Div R] [IntCast R] [NatCast R]
    [LE R] [DecidableLE R] [LT D] [DecidableLT D] (dist : Row R n → Row R n → D)
    (big : D) (data : Nat → Row R n) (nrow T : Nat) (owner : Nat → Nat → Nat) (tol : R)
    (maxIters : Nat) (sched : Nat → List Nat) (s0 : Kmeans.KState R k n) :
    Res (Kmeans.Result R k n) :=
  loop dist big data nrow T owner tol maxIters sched maxIters (if 0 < maxIters then 1 else 0)
    { s0 with changed := 0 }

/-! ## Initialisations -/

/-- The loop of `forgy_init`.  Models libauto/kmeans.cpp:106-109 and
libauto/min-tri-kmeans.cpp:112-115. -/
def forgyLoop (draw : S → Nat × S) (data : Nat → Row R n) :
    List (Fin k) → S → Clusters R k n → Clusters R k n
  | [], _, c => c
  | i :: l, s, c => forgyLoop draw data l (draw s).2 (c.setMean (data (draw s).1) i)

/-- The loop of `random_partition_init`.  Models libauto/kmeans.cpp:72-77 and
libauto/min-tri-kmeans.cpp:75-80. -/
def randomLoop [Add R] (draw : S → Fin k × S) (data : Nat → Row R n) :
    List Nat → S → Clusters R k n → (Nat → Option (Fin k)) →
      Clusters R k n × (Nat → Option (Fin k))
  | [], _, c, a => (c, a)
  | r :: l, s, c, a =>
    randomLoop draw data l (draw s).2 (c.addMember (data r) (draw s).1)
      (Function.update a r (some (draw s).1))

/-- The main loop of `kmeanspp_init`, with the parallel pass `Init.kppPass`.
Models libauto/kmeans.cpp:144-180 and libauto/min-tri-kmeans.cpp:162-199. -/
def kppLoop [Zero D] [Add D] [Sub D] [Mul D] [Div D] [NatCast D]
    [LT D] [DecidableLT D] [LE D] [DecidableLE D] (dist : Row R n → Row R n → D) (data : Nat → Row R n)
    (nrow T : Nat) (owner : Nat → Nat → Nat) (sched : Nat → List Nat) (u : Nat → D) :
    List (Fin k) → Fin k → Init.Kpp R D k n → Res (Init.Kpp R D k n)
  | [], ci, s =>
    match Init.kppPass dist data T (rows nrow T (owner ci)) (sched ci) ci s with
    | .error e => .error e
    | .ok (s', _) => .ok s'
  | c :: rest, ci, s =>
    match Init.kppPass dist data T (rows nrow T (owner ci)) (sched ci) ci s with
    | .error e => .error e
    | .ok (s', total) =>
      let sel := Init.select (fun r => (s'.slots r).dist) (List.range nrow)
        (Init.threshold total (u ci))
      if sel.2 ≤ 0 then
        kppLoop dist data nrow T owner sched u rest c
          (match sel.1 with
            | none => s'
            | some r => s'.choose (data r) r c)
      else .error .assertFail

/-- `kmeanspp_init`.  Models libauto/kmeans.cpp:120-187 and libauto/min-tri-kmeans.cpp:135-207. -/
def kpp [Zero D] [Add D] [Sub D] [Mul D] [Div D] [NatCast D]
    [LT D] [DecidableLT D] [LE D] [DecidableLE D] (dist : Row R n → Row R n → D) (data : Nat → Row R n)
    (nrow T : Nat) (owner : Nat → Nat → Nat) (sched : Nat → List Nat) (first : Nat)
    (u : Nat → D) (s : Init.Kpp R D k n) : Res (Init.Kpp R D k n) :=
  match List.finRange k with
  | [] => .error .assertFail
  | c0 :: rest =>
    kppLoop dist data nrow T owner sched u rest c0
      { cltrs := s.cltrs.setMean (data first) c0
        slots := Function.update s.slots first ⟨0, some c0⟩ }

/-- The argument `init` together with the numbers that the generator will return.
Models libauto/kmeans.cpp:283 and 342-355. -/
inductive Start (R D S : Type _) (k n : Nat) where
  /-- `"none"` with the caller's centres -/
  | none (centers : Fin k → Row R n)
  /-- `"forgy"` -/
  | forgy (draw : S → Nat × S) (seed : S)
  /-- `"random"` -/
  | random (draw : S → Fin k × S) (seed : S)
  /-- `"kmeanspp"`: the first row and the later draws from [0, 1) -/
  | kpp (first : Nat) (u : Nat → D)

/-- Clusters and assignments after the initialisation; `ko`, `ks` describe the threads' work in
the passes of k-means++.  Models libauto/kmeans.cpp:313-355. -/
def initState [Zero R] [Add R] [Div R] [IntCast R]
    [Zero D] [Add D] [Sub D] [Mul D] [Div D] [NatCast D]
    [LT D] [DecidableLT D] [LE D] [DecidableLE D] (dist : Row R n → Row R n → D) (big : D)
    (data : Nat → Row R n) (nrow T : Nat) (ko : Nat → Nat → Nat) (ks : Nat → List Nat) :
    Start R D S k n → Res (Kmeans.KState R k n)
  | .none centers => .ok ⟨Clusters.empty.setMeans centers, fun _ => none, fun _ => 0, 0⟩
  | .forgy draw seed =>
    .ok ⟨forgyLoop draw data (List.finRange k) seed Clusters.empty, fun _ => none, fun _ => 0, 0⟩
  | .random draw seed =>
    let p := randomLoop draw data (List.range nrow) seed Clusters.empty fun _ => none
    .ok ⟨p.1.finalizeAll, p.2, fun _ => 0, 0⟩
  | .kpp first u =>
    match kpp dist data nrow T ko ks first u ⟨Clusters.empty, fun _ => ⟨big, none⟩⟩ with
    | .error e => .error e
    | .ok s => .ok ⟨s.cltrs, fun r => (s.slots r).assign, fun _ => 0, 0⟩

/-- `compute_kmeans`.  Models libauto/kmeans.cpp:280-483 (metric name check, timing and printing
omitted: the metric is the parameter `dist`). -/
def compute [Zero R] [Add R] [Div R] [IntCast R] [NatCast R] [LE R] [DecidableLE R]
    [Zero D] [Add D] [Sub D] [Mul D] [Div D] [NatCast D]
    [LT D] [DecidableLT D] [LE D] [DecidableLE D]
    (dist : Row R n → Row R n → D) (big : D) (data : Nat → Row R n) (nrow T : Nat)
    (ko : Nat → Nat → Nat) (ks : Nat → List Nat) (owner : Nat → Nat → Nat) (tol : R)
    (maxIters : Nat) (sched : Nat → List Nat) (start : Start R D S k n) :
    Res (Kmeans.Result R k n) :=
  if nrow < k ∨ k < 2 then .error .throws
  else
    match initState dist big data nrow T ko ks start with
    | .error e => .error e
    | .ok s => run dist big data nrow T owner tol maxIters sched s

/-! ## Pruned -/

/-- `EM_step` of the pruned version: the row loop and the merge are those of the pthread version
(`Prune.emRow`, `Prune.updateClusters`).  Models libauto/min-tri-kmeans.cpp:215-362. -/
def emStepP [Zero R] [Add R] [Sub R] [Mul R] [Div R] [IntCast R] [Add D]
    [LT D] [DecidableLT D] [LE D] [DecidableLE D] (dist eucl : Row R n → Row R n → D) (big : D)
    (data : Nat → Row R n) (nrow T : Nat) (todo : Nat → List Nat) (pruneInit : Bool)
    (sched : List Nat) (s : Prune.PState R D k n) : Res (Prune.PState R D k n) :=
  match Par.run (Prune.emRow dist big data s.view pruneInit)
      { mem := s.slots, acc := fun _ => Kmeans.Acc.init, todo := todo } sched with
  | .error e => .error e
  | .ok p => Prune.updateClusters eucl nrow T pruneInit p.acc p.mem s

/-- The main loop: note `iter < MAX_ITERS`.  Models libauto/min-tri-kmeans.cpp:514-558. -/
def loopP [Zero R] [Add R] [Sub R] [Mul R] [Div R] [IntCast R] [NatCast R]
    [LE R] [DecidableLE R] [Add D] [Div D] [NatCast D] [LT D] [DecidableLT D] [LE D] [DecidableLE D]
    (dist eucl : Row R n → Row R n → D)
    (big : D) (data : Nat → Row R n) (nrow T : Nat) (owner : Nat → Nat → Nat) (tol : R)
    (maxIters : Nat) (sched : Nat → List Nat) :
    Nat → Nat → Prune.PState R D k n → Res (Prune.Result R D k n)
  | 0, iter, s => .ok ⟨iter, false, s⟩
  | fuel + 1, iter, s =>
    if iter < maxIters then
      match Prune.computeDm eucl big s with
      | .error e => .error e
      | .ok s1 =>
        match emStepP dist eucl big data nrow T (rows nrow T (owner iter)) false (sched iter) s1 with
        | .error e => .error e
        | .ok s2 =>
          if Kmeans.convTest nrow tol s2.changed then .ok ⟨iter, true, s2⟩
          else loopP dist eucl big data nrow T owner tol maxIters sched fuel (iter + 1)
            { s2 with changed := 0 }
    else .ok ⟨iter, false, s⟩

/-- `compute_min_kmeans` after the initialisation: one full pass, then the loop from iteration 2.
Models libauto/min-tri-kmeans.cpp:482-558, 593-595. -/
def runP [Zero R] [Add R] [Sub R] [Mul R] [Div R] [IntCast R] [NatCast R]
    [LE R] [DecidableLE R] [Add D] [Div D] [NatCast D] [LT D] [DecidableLT D] [LE D] [DecidableLE D]
    (dist eucl : Row R n → Row R n → D)
    (big : D) (data : Nat → Row R n) (nrow T : Nat) (owner : Nat → Nat → Nat) (tol : R)
    (maxIters : Nat) (sched : Nat → List Nat) (s0 : Prune.PState R D k n) :
    Res (Prune.Result R D k n) :=
  if 0 < maxIters then
    match emStepP dist eucl big data nrow T (rows nrow T (owner 1)) true (sched 1) s0 with
    | .error e => .error e
    | .ok s1 =>
      loopP dist eucl big data nrow T owner tol maxIters sched maxIters 2 { s1 with changed := 0 }
  else .ok ⟨0, false, { s0 with changed := 0 }⟩

/-- State after the initialisation.  With `"none"` the distance table is computed once more; the
assignments left by the random partition are kept, the bounds stay `big`, and k-means++ works on a
distance array of its own.  Models libauto/min-tri-kmeans.cpp:419-468. -/
def initStateP [Zero R] [Add R] [Div R] [IntCast R]
    [Zero D] [Add D] [Sub D] [Mul D] [Div D] [NatCast D]
    [LT D] [DecidableLT D] [LE D] [DecidableLE D] (dist eucl : Row R n → Row R n → D) (big : D)
    (data : Nat → Row R n) (nrow T : Nat) (ko : Nat → Nat → Nat) (ks : Nat → List Nat)
    (start : Start R D S k n) : Res (Prune.PState R D k n) :=
  match DistMatrix.create big k, initState dist big data nrow T ko ks start with
  | .error e, _ => .error e
  | _, .error e => .error e
  | .ok m, .ok s =>
    let p : Prune.PState R D k n :=
      { cltrs := s.cltrs
        prevMeans := fun _ _ => 0
        prevDist := fun _ => 0
        sval := fun _ => big
        dm := m
        slots := fun r => { assign := s.assign r, ub := big, recalc := false }
        counts := fun _ => 0
        changed := 0 }
    match start with
    | .none _ => Prune.computeDm eucl big p
    | _ => .ok p

/-- `compute_min_kmeans`.  Models libauto/min-tri-kmeans.cpp:385-596. -/
def computeP [Zero R] [Add R] [Sub R] [Mul R] [Div R] [IntCast R] [NatCast R]
    [LE R] [DecidableLE R] [Zero D] [Add D] [Sub D] [Mul D] [Div D] [NatCast D]
    [LT D] [DecidableLT D] [LE D] [DecidableLE D]
    (dist eucl : Row R n → Row R n → D) (big : D) (data : Nat → Row R n) (nrow T : Nat)
    (ko : Nat → Nat → Nat) (ks : Nat → List Nat) (owner : Nat → Nat → Nat) (tol : R)
    (maxIters : Nat) (sched : Nat → List Nat) (start : Start R D S k n) :
    Res (Prune.Result R D k n) :=
  if nrow < k ∨ k < 2 then .error .throws
  else
    match initStateP dist eucl big data nrow T ko ks start with
    | .error e => .error e
    | .ok s => runP dist eucl big data nrow T owner tol maxIters sched s

/-! ## The pthread engines with their initialisation, for comparison -/

/-- `kmeans_coordinator::run` including `run_init`.
Models libman/kmeans_coordinator.cpp:35-49, 165-190 and libman/coordinator.cpp:144-160. -/
def pthread [Zero R] [Add R] [Sub R] [Mul R] [Div R] [IntCast R] [NatCast R]
    [LE R] [DecidableLE R] [Zero D] [Add D] [Sub D] [Mul D] [Div D] [NatCast D]
    [LT D] [DecidableLT D] [LE D] [DecidableLE D]
    (dist : Row R n → Row R n → D) (big : D) (data : Nat → Row R n) (nrow reqThreads : Nat)
    (ks : Nat → List Nat) (tol : R) (maxIters : Nat) (sched : Nat → List Nat)
    (start : Start R D S k n) : Res (Kmeans.Result R k n) :=
  let go := Kmeans.run dist big data nrow reqThreads tol maxIters sched
  match start with
  | .none centers => go ⟨Clusters.empty.setMeans centers, fun _ => Option.none, fun _ => 0, 0⟩
  | .forgy draw seed =>
    match Init.forgy draw seed data nrow reqThreads Clusters.empty with
    | .error e => .error e
    | .ok c => go ⟨c, fun _ => Option.none, fun _ => 0, 0⟩
  | .random draw seed =>
    match Init.random draw seed data nrow reqThreads Clusters.empty fun _ => Option.none with
    | .error e => .error e
    | .ok (c, a) => go ⟨c, a, fun _ => 0, 0⟩
  | .kpp first u =>
    match Init.kpp dist data nrow reqThreads (Partition.effThreads reqThreads nrow)
        (Kmeans.threadRows nrow reqThreads) ks first u
        ⟨Clusters.empty, fun _ => ⟨big, Option.none⟩⟩ with
    | .error e => .error e
    | .ok s => go ⟨s.cltrs, fun r => (s.slots r).assign, fun _ => 0, 0⟩

/-- `kmeans_task_coordinator::run` including `run_init`.  k-means++ leaves its distances in
`dist_v`.  Models libman/kmeans_task_coordinator.cpp:34-63, 427-470 and
libman/coordinator.cpp:144-160. -/
def pthreadP [Zero R] [Add R] [Sub R] [Mul R] [Div R] [IntCast R] [NatCast R]
    [LE R] [DecidableLE R] [Zero D] [Add D] [Sub D] [Mul D] [Div D] [NatCast D]
    [LT D] [DecidableLT D] [LE D] [DecidableLE D]
    (dist eucl : Row R n → Row R n → D) (big : D) (data : Nat → Row R n) (nrow reqThreads : Nat)
    (ks : Nat → List Nat) (tol : R) (maxIters : Nat) (sched : Nat → List Nat)
    (start : Start R D S k n) : Res (Prune.Result R D k n) :=
  let go := Prune.run dist eucl big data nrow reqThreads tol maxIters sched
  match Prune.construct big fun _ _ => 0 with
  | .error e => .error e
  | .ok p =>
    match start with
    | .none centers => go { p with cltrs := Clusters.empty.setMeans centers }
    | .forgy draw seed =>
      match Init.forgy draw seed data nrow reqThreads Clusters.empty with
      | .error e => .error e
      | .ok c => go { p with cltrs := c }
    | .random draw seed =>
      match Init.random draw seed data nrow reqThreads Clusters.empty fun _ => Option.none with
      | .error e => .error e
      | .ok (c, a) => go { p with cltrs := c, slots := fun r => ⟨a r, big, false⟩ }
    | .kpp first u =>
      match Init.kpp dist data nrow reqThreads (Partition.effThreads reqThreads nrow)
          (Prune.taskRows nrow reqThreads) ks first u
          ⟨Clusters.empty, fun _ => ⟨big, Option.none⟩⟩ with
      | .error e => .error e
      | .ok s => go { p with cltrs := s.cltrs,
                             slots := fun r => ⟨(s.slots r).assign, (s.slots r).dist, false⟩ }

/-! ## What the caller sees -/

/-- What the caller gets back in `cluster_t`.  Models libkcommon/types.hpp:41-46. -/
structure Report (R : Type _) (k n : Nat) where
  iters : Nat
  assign : Nat → Option (Fin k)
  counts : Fin k → Int
  means : Fin k → Row R n

/-- The part of a run's result that is returned to the caller.  Models libauto/kmeans.cpp:480-482. -/
def report (x : Kmeans.Result R k n) : Report R k n :=
  ⟨x.iters, x.state.assign, x.state.counts, x.state.cltrs.means⟩

/-- What the caller gets back from the pruned run.  Models libauto/min-tri-kmeans.cpp:593-595. -/
def reportP (x : Prune.Result R D k n) : Report R k n :=
  ⟨x.iters, fun r => (x.state.slots r).assign, x.state.counts, x.state.cltrs.means⟩

end Knor.Omp
