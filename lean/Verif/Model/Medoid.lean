import Verif.Model.Kmeans
import Verif.Model.Dist

/-!
# k-medoids (`exec/medoids`, `knor::medoid_coordinator`)

Models libman/medoid.cpp and libman/medoid_coordinator.cpp.  Same conventions as `Model/Kmeans.lean`
(rows are named by their global id, a phase is run under an arbitrary interleaving).  `get_thd_data(r)`
and `gdata[r*ncol]` are row `r` (C02).  The value of `dist_comp_raw` with the metric the workers use is
a parameter `dist`; which metric that is, is `workerMetric`.  Distances and
energies are values of an ordered additive monoid `D`.
-/

namespace Knor.Medoid

open Knor

variable {R D : Type _} {k n : Nat}

/-- Accumulators of a worker in the EM phase: `meta.num_changed`, `local_medoid_energy` and the member
counts of `local_clusters`.  Models libman/medoid.hpp:42 and libman/medoid.cpp:81-83. -/
structure EAcc (D : Type _) (k : Nat) where
  changed : Nat
  energy : Fin k → D
  num : Fin k → Int

/-- Accumulators at the beginning of `EM_step`.  Models libman/medoid.cpp:80-83. -/
def EAcc.init [Zero D] : EAcc D k := ⟨0, fun _ => 0, fun _ => 0⟩

/-- Body of the row loop of `EM_step`.  Models libman/medoid.cpp:85-118. -/
def emRow [Add D] [LT D] [DecidableLT D] (dist : Row R n → Row R n → D) (big : D)
    (data : Nat → Row R n) (cents : Fin k → Row R n)
    (r : Nat) (old : Option (Fin k)) (a : EAcc D k) : Res (Option (Fin k) × EAcc D k) :=
  let p := (List.finRange k).foldl (Kmeans.scanStep fun c => dist (data r) (cents c)) (big, none)
  match p.2 with
  | none => .error .assertFail
  | some c =>
    .ok (some c, ⟨if some c ≠ old then a.changed + 1 else a.changed,
      Function.update a.energy c (a.energy c + p.1), Function.update a.num c (a.num c + 1)⟩)

/-- A worker's candidates: for each cluster `candidate_medoids` (`-1` is `none`) and
`candidate_medoid_energy`.  Models libman/medoid.hpp:43-44. -/
abbrev Cand (D : Type _) (k : Nat) := Fin k → Option Nat × D

/-- Candidates at the beginning of `medoid_step`.  Models libman/medoid.cpp:121-125 and
libman/medoid_coordinator.cpp:104-106. -/
def Cand.init (big : D) : Cand D k := fun _ => (none, big)

/-- Sum of the distances from row `r` to the other members of a cluster, in membership order.
Models libman/medoid.cpp:136-144. -/
def candEnergy [Zero D] [Add D] (dist : Row R n → Row R n → D) (data : Nat → Row R n) (r : Nat)
    (members : List Nat) : D :=
  members.foldl (fun e m => if m ≠ r then e + dist (data r) (data m) else e) 0

/-- Body of the row loop of `medoid_step`; `draw r` is what the worker's generator returns for row `r`.
A row without a cluster would index `membership` out of bounds.  Models libman/medoid.cpp:128-151. -/
def medoidRow [Zero D] [Add D] [LT D] [DecidableLT D] [LT R] [DecidableLT R]
    (dist : Row R n → Row R n → D)
    (data : Nat → Row R n) (members : Fin k → List Nat) (draw : Nat → R) (rate : R)
    (r : Nat) (cid : Option (Fin k)) (a : Cand D k) : Res (Option (Fin k) × Cand D k) :=
  if rate < draw r then .ok (cid, a)
  else
    match cid with
    | none => .error .ub
    | some c =>
      let e := candEnergy dist data r (members c)
      .ok (some c, if e < (a c).2 then Function.update a c (some r, e) else a)

/-- The coordinator's state: the medoid coordinates (`cltrs` means), the medoid ids (stored in `cltrs`'
member counts), assignments, `membership`, `medoid_energy`, sizes, `num_changed`, `medoids_changed`.
Models libman/medoid_coordinator.hpp:36-44. -/
structure MState (R D : Type _) (k n : Nat) where
  cents : Fin k → Row R n
  ids : Fin k → Nat
  assign : Nat → Option (Fin k)
  members : Fin k → List Nat
  energy : Fin k → D
  counts : Fin k → Int
  changed : Nat
  medoidsChanged : Bool

/-- First loop of `choose_global_medoids`: merge the workers' candidates in thread order.
Models libman/medoid_coordinator.cpp:100-120. -/
def mergeCand [LT D] [DecidableLT D] (big : D) (T : Nat) (acc : Nat → Cand D k) : Cand D k :=
  (List.range T).foldl (fun g t c => if (acc t c).2 < (g c).2 then acc t c else g c)
    (Cand.init big)

/-- Body of the second loop of `choose_global_medoids`.  Installing the medoid `-1` would read outside
the data.  Models libman/medoid_coordinator.cpp:123-137. -/
def installOne [LT D] [DecidableLT D] (data : Nat → Row R n) (agg : Cand D k) (s : MState R D k n)
    (c : Fin k) : Res (MState R D k n) :=
  if (agg c).2 < s.energy c then
    match (agg c).1 with
    | none => .error .ub
    | some r =>
      .ok { s with
            medoidsChanged := true
            energy := Function.update s.energy c (agg c).2
            ids := Function.update s.ids c r
            cents := Function.update s.cents c (data r) }
  else .ok s

/-- Second loop of `choose_global_medoids`.  Models libman/medoid_coordinator.cpp:123-137. -/
def install [LT D] [DecidableLT D] (data : Nat → Row R n) (agg : Cand D k) :
    List (Fin k) → MState R D k n → Res (MState R D k n)
  | [], s => .ok s
  | c :: cs, s =>
    match installOne data agg s c with
    | .error e => .error e
    | .ok s' => install data agg cs s'

/-- The medoid phase and `choose_global_medoids`.
Models libman/medoid_coordinator.cpp:227-233. -/
def choose [Zero D] [Add D] [LT D] [DecidableLT D] [LT R] [DecidableLT R]
    (dist : Row R n → Row R n → D) (big : D)
    (data : Nat → Row R n) (nrow reqThreads : Nat) (draw : Nat → R) (rate : R) (sched : List Nat)
    (s : MState R D k n) : Res (MState R D k n) :=
  match Par.run (medoidRow dist data s.members draw rate)
      { mem := s.assign, acc := fun _ => Cand.init big
        todo := Kmeans.threadRows nrow reqThreads } sched with
  | .error e => .error e
  | .ok p =>
    install data (mergeCand big (Partition.effThreads reqThreads nrow) p.acc) (List.finRange k) s

/-- `populate_membership`: appends to the lists.  (The loop over clusters may run in parallel; each
cluster has its own list.)  Models libman/medoid_coordinator.cpp:61-71. -/
def populate (nrow : Nat) (assign : Nat → Option (Fin k)) (members : Fin k → List Nat) (c : Fin k) :
    List Nat :=
  members c ++ (List.range nrow).filter fun r => decide (assign r = some c)

/-- The EM phase and `compute_globals`.
Models libman/medoid_coordinator.cpp:140-165,246-248. -/
def emPhase [Zero D] [Add D] [LT D] [DecidableLT D] (dist : Row R n → Row R n → D) (big : D)
    (data : Nat → Row R n) (nrow reqThreads : Nat) (sched : List Nat) (s : MState R D k n) :
    Res (MState R D k n) :=
  match Par.run (emRow dist big data s.cents)
      { mem := s.assign, acc := fun _ => EAcc.init, todo := Kmeans.threadRows nrow reqThreads }
      sched with
  | .error e => .error e
  | .ok p =>
    let T := Partition.effThreads reqThreads nrow
    let changed := (List.range T).foldl (fun m t => m + (p.acc t).changed) 0
    if nrow < changed then .error .assertFail
    else
      .ok { s with
            assign := p.mem
            members := populate nrow p.mem s.members
            changed := changed
            counts := fun c => (List.range T).foldl (fun m t => m + (p.acc t).num c) 0
            energy := fun c => (List.range T).foldl (fun m t => m + (p.acc t).energy c) 0 }

/-- State before initialisation: no assignments, empty lists, `medoids_changed = true`.
Models libman/medoid_coordinator.cpp:39-54 and libman/coordinator.cpp:44-50. -/
def blank [Zero R] [Zero D] : MState R D k n :=
  ⟨fun _ _ => 0, fun _ => 0, fun _ => none, fun _ => [], fun _ => 0, fun _ => 0, 0, true⟩

/-- `forgy_init`: medoid `c` becomes the row drawn for it.
Models libman/medoid_coordinator.cpp:168-179. -/
def forgy (data : Nat → Row R n) (pick : Fin k → Nat) (s : MState R D k n) : MState R D k n :=
  { s with cents := fun c => data (pick c), ids := pick }

/-- `run_init`: only Forgy is supported, every other method throws.
Models libman/medoid_coordinator.cpp:181-191. -/
def runInit [Zero R] [Zero D] [Add D] [LT D] [DecidableLT D] (isForgy : Bool)
    (dist : Row R n → Row R n → D) (big : D) (data : Nat → Row R n) (nrow reqThreads : Nat)
    (pick : Fin k → Nat) (sched : List Nat) : Res (MState R D k n) :=
  if isForgy then emPhase dist big data nrow reqThreads sched (forgy data pick blank)
  else .error .throws

/-- One iteration of the main loop: `none` if it left through `else { converged = true; break; }`.
Models libman/medoid_coordinator.cpp:227-258. -/
def iteration [Zero D] [Add D] [LT D] [DecidableLT D] [LT R] [DecidableLT R]
    (dist : Row R n → Row R n → D) (big : D)
    (data : Nat → Row R n) (nrow reqThreads : Nat) (draw : Nat → R) (rate : R)
    (sched1 sched2 : List Nat) (s : MState R D k n) : Res (MState R D k n × Bool) :=
  match choose dist big data nrow reqThreads draw rate sched1 s with
  | .error e => .error e
  | .ok s1 =>
    if s1.medoidsChanged then
      match emPhase dist big data nrow reqThreads sched2 { s1 with members := fun _ => [] } with
      | .error e => .error e
      | .ok s2 => .ok (s2, true)
    else .ok (s1, false)

/-- Result of a run.  Models libman/medoid_coordinator.cpp:294-296. -/
structure Result (R D : Type _) (k n : Nat) where
  iters : Nat
  state : MState R D k n

/-- The main loop from iteration `iter`; it runs at most `fuel` times and leaves after `maxIters`
iterations.  Models libman/medoid_coordinator.cpp:223-266. -/
def loop [Div R] [NatCast R] [LE R] [DecidableLE R] [LT R] [DecidableLT R] [Zero D] [Add D] [LT D]
    [DecidableLT D] (dist : Row R n → Row R n → D) (big : D) (data : Nat → Row R n)
    (nrow reqThreads : Nat) (draw : Nat → Nat → R) (rate tol : R) (maxIters : Nat)
    (sched1 sched2 : Nat → List Nat) : Nat → Nat → MState R D k n → Res (Result R D k n)
  | 0, iter, s => .ok ⟨iter, s⟩
  | fuel + 1, iter, s =>
    if iter ≤ maxIters ∧ 0 < maxIters then
      match iteration dist big data nrow reqThreads (draw iter) rate (sched1 iter) (sched2 iter) s with
      | .error e => .error e
      | .ok (s', false) => .ok ⟨iter, s'⟩
      | .ok (s', true) =>
        if Kmeans.convTest nrow tol s'.changed then .ok ⟨iter, s'⟩
        else loop dist big data nrow reqThreads draw rate tol maxIters sched1 sched2 fuel (iter + 1) s'
    else .ok ⟨iter, s⟩

/-- The sampling rate the workers use: `max(.2, sample_rate)`.
Models libman/medoid_coordinator.cpp:57. -/
def effRate [One R] [Div R] [NatCast R] [LT R] [DecidableLT R] (req : R) : R :=
  if 1 / 5 < req then req else 1 / 5

/-- `run`.  Models libman/medoid_coordinator.cpp:196-297. -/
def run [Zero R] [One R] [Div R] [NatCast R] [LE R] [DecidableLE R] [LT R]
    [DecidableLT R] [Zero D] [Add D] [LT D] [DecidableLT D] (isForgy : Bool)
    (dist : Row R n → Row R n → D) (big : D) (data : Nat → Row R n) (nrow reqThreads : Nat)
    (pick : Fin k → Nat) (draw : Nat → Nat → R) (reqRate tol : R) (maxIters : Nat)
    (sched0 : List Nat) (sched1 sched2 : Nat → List Nat) : Res (Result R D k n) :=
  match runInit isForgy dist big data nrow reqThreads pick sched0 with
  | .error e => .error e
  | .ok s =>
    loop dist big data nrow reqThreads draw (effRate reqRate) tol maxIters sched1 sched2 (maxIters + 1)
      (if 0 < maxIters then 1 else 0) s

/-- Metric stored in a worker: the constructor of `medoid` has no metric argument and leaves the
default of `thread`, whatever was requested.
Models libman/medoid.cpp:31-38, libman/thread.hpp:121 and libman/medoid_coordinator.cpp:79-82. -/
def workerMetric (_requested : Dist.Metric) : Dist.Metric := .eucl

end Knor.Medoid
