import Verif.Model.Distr

/-!
# Initialisation: Forgy, random partition, k-means++, and the random generators

A pseudo random generator is a function `draw : S → α × S` on generator states; what is proved holds
for every such function.  The range of `std::uniform_int_distribution(a, b)` is a hypothesis of the
theorems (or the type `Fin k`), and the draws of `std::uniform_real_distribution(0, 1)` are an
arbitrary sequence `u`.
-/

namespace Knor.Init

open Knor

variable {R D S α : Type _} {k n : Nat}

/-! ## Generators -/

/-- Throw away `m` numbers.  Models libkcommon/util.hpp:218-221 and 194-197. -/
def skip (draw : S → α × S) : Nat → S → S
  | 0, s => s
  | m + 1, s => skip draw m (draw s).2

/-- `rand123emulator` after construction (each process starts from the same seed).
Models libkcommon/util.hpp:224-229. -/
def emuCreate (draw : S → α × S) (seed : S) (nskip : Nat) : S := skip draw nskip seed

/-- `rand123emulator::next`.  Models libkcommon/util.hpp:231-233. -/
def emuNext (draw : S → α × S) (s : S) : α × S := draw s

/-- `mpi_random_generator` after construction.  Models libkcommon/util.hpp:184-197. -/
def mpiCreate (draw : S → α × S) (seed : S) (rank : Nat) : S := skip draw rank seed

/-- `mpi_random_generator::next`.  Models libkcommon/util.hpp:199-204. -/
def mpiNext (draw : S → α × S) (nprocs : Nat) (s : S) : α × S :=
  ((draw s).1, skip draw (nprocs - 1) (draw s).2)

/-- The first `m` results of repeatedly calling `next`.
Models the calls of libkcommon/util.hpp:199-204 and 231-233. -/
def outputs (next : S → α × S) : Nat → S → List α
  | 0, _ => []
  | m + 1, s => (next s).1 :: outputs next m (next s).2

/-! ## Reading a row -/

/-- The row behind the pointer `get_thd_data(row)`: undefined behaviour if the thread or the
position in its buffer does not exist.  Models libman/coordinator.cpp:93-101. -/
def thdRow (data : Nat → Row R n) (nrow reqThreads row : Nat) : Res (Row R n) :=
  let p := Partition.getThdData nrow reqThreads row
  let t := Partition.effThreads reqThreads nrow
  if p.1 < t ∧ p.2 < (Partition.ridLen nrow t p.1).2 then
    .ok (Partition.localData data nrow reqThreads p.1 p.2)
  else .error .ub

/-! ## Forgy -/

/-- The loop over clusters of `forgy_init`.  Models libman/kmeans_coordinator.cpp:152-160 and
libman/kmeans_task_coordinator.cpp:268-276. -/
def forgyLoop (draw : S → Nat × S) (data : Nat → Row R n) (nrow reqThreads : Nat) :
    List (Fin k) → S → Clusters R k n → Res (Clusters R k n)
  | [], _, c => .ok c
  | i :: l, s, c =>
    match thdRow data nrow reqThreads (draw s).1 with
    | .error e => .error e
    | .ok x => forgyLoop draw data nrow reqThreads l (draw s).2 (c.setMean x i)

/-- `forgy_init`.  Models libman/kmeans_coordinator.cpp:152-160. -/
def forgy (draw : S → Nat × S) (seed : S) (data : Nat → Row R n) (nrow reqThreads : Nat)
    (c : Clusters R k n) : Res (Clusters R k n) :=
  forgyLoop draw data nrow reqThreads (List.finRange k) seed c

/-- The same loop on MPI rank `p`, which sets only the centroids whose row it owns.
Models libdist/dist_coordinator.cpp:241-250 and libdist/dist_task_coordinator.cpp:226-235. -/
def forgyLoopDist (draw : S → Nat × S) (data : Nat → Row R n) (g np p reqThreads : Nat) :
    List (Fin k) → S → Clusters R k n → Res (Clusters R k n)
  | [], _, c => .ok c
  | i :: l, s, c =>
    if Partition.isLocal g np p (draw s).1 then
      match Partition.localRid g np p (draw s).1 with
      | .error e => .error e
      | .ok r =>
        match thdRow (Distr.procData data g np p) (Partition.procNrow g np p) reqThreads r with
        | .error e => .error e
        | .ok x => forgyLoopDist draw data g np p reqThreads l (draw s).2 (c.setMean x i)
    else forgyLoopDist draw data g np p reqThreads l (draw s).2 c

/-- Distributed Forgy: every rank runs the loop from the same seed, then the means are summed over
the ranks.  Models libdist/dist_coordinator.cpp:241-250 and 290-292. -/
def forgyDist [Zero R] [Add R] (draw : S → Nat × S) (seed : S) (data : Nat → Row R n)
    (g np reqThreads : Nat) (cs : Nat → Clusters R k n) : Res (Nat → Clusters R k n) :=
  match Distr.eachRank
      (fun p => forgyLoopDist draw data g np p reqThreads (List.finRange k) seed (cs p)) np cs with
  | .error e => .error e
  | .ok loc => .ok fun p => (loc p).setMeans fun c j => Distr.allreduce np fun q => (loc q).means c j

/-! ## Random partition -/

/-- The row loop of `random_partition_init`.  Models libman/kmeans_coordinator.cpp:141-147,
libman/kmeans_task_coordinator.cpp:250-256 and libdist/dist_coordinator.cpp:73-79. -/
def randomLoop [Add R] (draw : S → Fin k × S) (data : Nat → Row R n) (nrow reqThreads : Nat) :
    List Nat → S → Clusters R k n → (Nat → Option (Fin k)) →
      Res (Clusters R k n × (Nat → Option (Fin k)))
  | [], _, c, a => .ok (c, a)
  | r :: l, s, c, a =>
    match thdRow data nrow reqThreads r with
    | .error e => .error e
    | .ok x => randomLoop draw data nrow reqThreads l (draw s).2 (c.addMember x (draw s).1)
        (Function.update a r (some (draw s).1))

/-- `random_partition_init`.  Models libman/kmeans_coordinator.cpp:137-150. -/
def random [Add R] [Div R] [IntCast R] (draw : S → Fin k × S) (seed : S) (data : Nat → Row R n)
    (nrow reqThreads : Nat) (c : Clusters R k n) (a : Nat → Option (Fin k)) :
    Res (Clusters R k n × (Nat → Option (Fin k))) :=
  match randomLoop draw data nrow reqThreads (List.range nrow) seed c a with
  | .error e => .error e
  | .ok (c', a') => .ok (c'.finalizeAll, a')

/-- Distributed random partition: rank `p` skips the numbers of the rows before its own, sums and
counts are reduced, then every rank finalises.
Models libdist/dist_coordinator.cpp:70-87 and 290-298. -/
def randomDist [Zero R] [Add R] [Div R] [IntCast R] (draw : S → Fin k × S) (seed : S) (data : Nat → Row R n)
    (g np reqThreads : Nat) (st : Nat → Clusters R k n × (Nat → Option (Fin k))) :
    Res (Nat → Clusters R k n × (Nat → Option (Fin k))) :=
  match Distr.eachRank (fun p => randomLoop (emuNext draw) (Distr.procData data g np p)
      (Partition.procNrow g np p) reqThreads (List.range (Partition.procNrow g np p))
      (emuCreate draw seed (g / np * p)) (st p).1 (st p).2) np st with
  | .error e => .error e
  | .ok loc =>
    .ok fun p =>
      ((((loc p).1.setMeans fun c j => Distr.allreduce np fun q => (loc q).1.means c j).setNum
        fun c => Distr.allreduce np fun q => (loc q).1.num c).finalizeAll, (loc p).2)

/-! ## k-means++ -/

/-- A row's `dist_v` and `cluster_assignments` entries.
Models libman/kmeans_task_coordinator.hpp:43 and libman/coordinator.hpp:55. -/
structure KppSlot (D : Type _) (k : Nat) where
  dist : D
  assign : Option (Fin k)

/-- State of the initialisation.
Models the `cltrs`, `dist_v` and `cluster_assignments` of libman/kmeans_coordinator.cpp:91-135. -/
structure Kpp (R D : Type _) (k n : Nat) where
  cltrs : Clusters R k n
  slots : Nat → KppSlot D k

/-- Body of the row loop of `kmspp_dist` for centre `ci`; the accumulator is `cuml_dist`.
Models libman/kmeans_thread.cpp:110-125 and libman/kmeans_task_thread.cpp:271-288. -/
def kppRow [Add D] [LT D] [DecidableLT D] (dist : Row R n → Row R n → D) (data : Nat → Row R n)
    (cents : Fin k → Row R n) (ci : Fin k) (r : Nat) (m : KppSlot D k) (a : D) :
    Res (KppSlot D k × D) :=
  let d := dist (data r) (cents ci)
  let m' : KppSlot D k := if d < m.dist then ⟨d, some ci⟩ else m
  .ok (m', a + m'.dist)

/-- `set_thread_clust_idx; wake4run(KMSPP_INIT); wait4complete; reduction_on_cuml_sum`: the new
slots and the sum of all stored distances.  `todo` gives each worker's rows.
Models libman/kmeans_coordinator.cpp:114-117 and libman/coordinator.cpp:137-142. -/
def kppPass [Zero D] [Add D] [LT D] [DecidableLT D] (dist : Row R n → Row R n → D)
    (data : Nat → Row R n) (T : Nat) (todo : Nat → List Nat) (sched : List Nat) (ci : Fin k)
    (s : Kpp R D k n) : Res (Kpp R D k n × D) :=
  match Par.run (kppRow dist data s.cltrs.means ci)
      { mem := s.slots, acc := fun _ => (0 : D), todo := todo } sched with
  | .error e => .error e
  | .ok q => .ok ({ s with slots := q.mem }, (List.range T).foldl (fun m t => m + q.acc t) 0)

/-- The loop over rows that picks the next centre: the picked row, if any, and the final value of
`cuml_dist`.  Models libman/kmeans_coordinator.cpp:123-130. -/
def select [Zero D] [Sub D] [LE D] [DecidableLE D] (d : Nat → D) : List Nat → D → Option Nat × D
  | [], x => (none, x)
  | r :: l, x => if x - d r ≤ 0 then (some r, x - d r) else select d l (x - d r)

/-- `RAND_MAX - 1.0` with glibc's `RAND_MAX = 2147483647`.
Models libman/kmeans_coordinator.cpp:119. -/
def randDiv [NatCast D] : D := ((2147483646 : Nat) : D)

/-- The threshold for a draw `u`.  Models libman/kmeans_coordinator.cpp:119. -/
def threshold [Mul D] [Div D] [NatCast D] (total u : D) : D := total * u / randDiv

/-- Put row `r` in as centre `c`.  Models libman/kmeans_coordinator.cpp:126-127. -/
def Kpp.choose (s : Kpp R D k n) (x : Row R n) (r : Nat) (c : Fin k) : Kpp R D k n :=
  { cltrs := s.cltrs.setMean x c
    slots := Function.update s.slots r { s.slots r with assign := some c } }

/-- The main loop, `ci` being the centre chosen last and the list the centres still to choose.
Pass `i` uses draw `u i` and interleaving `sched i` with `i` the number of the centre.
Models libman/kmeans_coordinator.cpp:112-132. -/
def kppLoop [Zero D] [Add D] [Sub D] [Mul D] [Div D] [NatCast D]
    [LT D] [DecidableLT D] [LE D] [DecidableLE D] (dist : Row R n → Row R n → D) (data : Nat → Row R n)
    (nrow reqThreads T : Nat) (todo : Nat → List Nat) (sched : Nat → List Nat) (u : Nat → D) :
    List (Fin k) → Fin k → Kpp R D k n → Res (Kpp R D k n)
  | [], ci, s =>
    match kppPass dist data T todo (sched ci) ci s with
    | .error e => .error e
    | .ok (s', _) => .ok s'
  | c :: rest, ci, s =>
    match kppPass dist data T todo (sched ci) ci s with
    | .error e => .error e
    | .ok (s', total) =>
      let sel := select (fun r => (s'.slots r).dist) (List.range nrow)
        (threshold total (u ci))
      match sel.1 with
      | none =>
        if sel.2 ≤ 0 then kppLoop dist data nrow reqThreads T todo sched u rest c s'
        else .error .assertFail
      | some r =>
        match thdRow data nrow reqThreads r with
        | .error e => .error e
        | .ok x =>
          if sel.2 ≤ 0 then
            kppLoop dist data nrow reqThreads T todo sched u rest c (s'.choose x r c)
          else .error .assertFail

/-- `kmeanspp_init` with first row `first`; `k ≥ 1` is asserted by the coordinator.
Models libman/kmeans_coordinator.cpp:91-135 and libman/kmeans_task_coordinator.cpp:179-231. -/
def kpp [Zero D] [Add D] [Sub D] [Mul D] [Div D] [NatCast D]
    [LT D] [DecidableLT D] [LE D] [DecidableLE D] (dist : Row R n → Row R n → D) (data : Nat → Row R n)
    (nrow reqThreads T : Nat) (todo : Nat → List Nat) (sched : Nat → List Nat) (first : Nat)
    (u : Nat → D) (s : Kpp R D k n) : Res (Kpp R D k n) :=
  match List.finRange k with
  | [] => .error .assertFail
  | c0 :: rest =>
    match thdRow data nrow reqThreads first with
    | .error e => .error e
    | .ok x =>
      kppLoop dist data nrow reqThreads T todo sched u rest c0
        { cltrs := s.cltrs.setMean x c0
          slots := Function.update s.slots first ⟨0, some c0⟩ }

/-! ## Distributed k-means++ -/

/-- `g_dist_v`: `allgather` of the first `g/np` entries of every rank, then the broadcast of the
last rank's tail.  Models libdist/dist_coordinator.cpp:182-196. -/
def gatherDist (g np : Nat) (d : Nat → Nat → D) (i : Nat) : D :=
  if i < g - g % np then d (i / (g / np)) (i % (g / np))
  else d (np - 1) (g / np + (i - (g - g % np)))

/-- What a rank does with the selected global row `r`: the owner sets the centroid (and, in the
task version, zeroes the stored distance), every other rank clears its clusters.
Models libdist/dist_coordinator.cpp:208-213 and libdist/dist_task_coordinator.cpp:192-198. -/
def chooseDist [Zero R] [Add R] [Zero D] (zeroIt : Bool) (data : Nat → Row R n)
    (g np p reqThreads r : Nat) (c : Fin k) (s : Kpp R D k n) : Res (Kpp R D k n) :=
  if Partition.isLocal g np p r then
    match Partition.localRid g np p r with
    | .error e => .error e
    | .ok l =>
      match thdRow (Distr.procData data g np p) (Partition.procNrow g np p) reqThreads l with
      | .error e => .error e
      | .ok x =>
        .ok { cltrs := s.cltrs.setMean x c
              slots := Function.update s.slots l
                { dist := if zeroIt then 0 else (s.slots l).dist, assign := some c } }
  else .ok { s with cltrs := Clusters.empty }

/-- Sum the means over the ranks and set them everywhere.
Models libdist/dist_coordinator.cpp:154-156 and 219-221. -/
def reduceMeans [Zero R] [Add R] (np : Nat) (s : Nat → Kpp R D k n) : Nat → Kpp R D k n :=
  fun p => { s p with
    cltrs := (s p).cltrs.setMeans fun c j => Distr.allreduce np fun q => (s q).cltrs.means c j }

/-- All ranks' passes; the sum of distances is reduced over the ranks.
Models libdist/dist_coordinator.cpp:169-175. -/
def kppPassDist [Zero D] [Add D] [LT D] [DecidableLT D] (dist : Row R n → Row R n → D)
    (data : Nat → Row R n) (g np : Nat) (T : Nat → Nat) (todo : Nat → Nat → List Nat)
    (sched : Nat → List Nat) (ci : Fin k) (s : Nat → Kpp R D k n) :
    Res ((Nat → Kpp R D k n) × D) :=
  match Distr.eachRank (fun p => kppPass dist (Distr.procData data g np p) (T p) (todo p) (sched p)
      ci (s p)) np (fun p => (s p, 0)) with
  | .error e => .error e
  | .ok loc => .ok (fun p => (loc p).1, Distr.allreduce np fun p => (loc p).2)

/-- The main loop of all ranks.  Models libdist/dist_coordinator.cpp:168-223 and
libdist/dist_task_coordinator.cpp:151-208. -/
def kppLoopDist [Zero R] [Add R] [Zero D] [Add D] [Sub D] [Mul D] [Div D] [NatCast D]
    [LT D] [DecidableLT D] [LE D] [DecidableLE D] (zeroIt : Bool)
    (dist : Row R n → Row R n → D)
    (data : Nat → Row R n) (g np reqThreads : Nat) (T : Nat → Nat) (todo : Nat → Nat → List Nat)
    (sched : Nat → Nat → List Nat) (u : Nat → D) :
    List (Fin k) → Fin k → (Nat → Kpp R D k n) → Res (Nat → Kpp R D k n)
  | [], ci, s =>
    match kppPassDist dist data g np T todo (sched ci) ci s with
    | .error e => .error e
    | .ok (s', _) => .ok s'
  | c :: rest, ci, s =>
    match kppPassDist dist data g np T todo (sched ci) ci s with
    | .error e => .error e
    | .ok (s', total) =>
      let sel := select (gatherDist g np fun p l => ((s' p).slots l).dist) (List.range g)
        (threshold total (u ci))
      match sel.1 with
      | none =>
        if sel.2 ≤ 0 then
          kppLoopDist zeroIt dist data g np reqThreads T todo sched u rest c (reduceMeans np s')
        else .error .assertFail
      | some r =>
        match Distr.eachRank (fun p => chooseDist zeroIt data g np p reqThreads r c (s' p)) np s' with
        | .error e => .error e
        | .ok s'' =>
          if sel.2 ≤ 0 then
            kppLoopDist zeroIt dist data g np reqThreads T todo sched u rest c (reduceMeans np s'')
          else .error .assertFail

/-- The owner of the first row.  Models libdist/dist_coordinator.cpp:147-152. -/
def firstDist [Zero D] (data : Nat → Row R n) (g np p reqThreads first : Nat) (c0 : Fin k)
    (s : Kpp R D k n) : Res (Kpp R D k n) :=
  if Partition.isLocal g np p first then
    match Partition.localRid g np p first with
    | .error e => .error e
    | .ok l =>
      match thdRow (Distr.procData data g np p) (Partition.procNrow g np p) reqThreads l with
      | .error e => .error e
      | .ok x => .ok { cltrs := s.cltrs.setMean x c0
                       slots := Function.update s.slots l ⟨0, some c0⟩ }
  else .ok s

/-- Distributed `kmeanspp_init`.  Models libdist/dist_coordinator.cpp:132-239 (`zeroIt = false`) and
libdist/dist_task_coordinator.cpp:116-224 (`zeroIt = true`). -/
def kppDist [Zero R] [Add R] [Zero D] [Add D] [Sub D] [Mul D] [Div D] [NatCast D]
    [LT D] [DecidableLT D] [LE D] [DecidableLE D] (zeroIt : Bool)
    (dist : Row R n → Row R n → D)
    (data : Nat → Row R n) (g np reqThreads : Nat) (T : Nat → Nat) (todo : Nat → Nat → List Nat)
    (sched : Nat → Nat → List Nat) (first : Nat) (u : Nat → D) (s : Nat → Kpp R D k n) :
    Res (Nat → Kpp R D k n) :=
  match List.finRange k with
  | [] => .error .assertFail
  | c0 :: rest =>
    match Distr.eachRank (fun p => firstDist data g np p reqThreads first c0 (s p)) np s with
    | .error e => .error e
    | .ok s' =>
      kppLoopDist zeroIt dist data g np reqThreads T todo sched u rest c0 (reduceMeans np s')

end Knor.Init
