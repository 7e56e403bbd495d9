import Verif.Model.Init

/-!
# The multi-start k-means++ driver

Models binding/kmeanspp.hpp and the members of `kmeans_task_coordinator` it calls.
-/

namespace Knor.MultiStart

open Knor Knor.Init

variable {R D : Type _} {k n : Nat}

/-- The coordinator between starts: distances, assignments and centroids, the size of the
`cluster_assignments` vector, and `cluster_assignment_counts`.
Models libman/kmeans_task_coordinator.hpp:40-50 and libman/coordinator.hpp:44-57. -/
structure St (R D : Type _) (k n : Nat) where
  kpp : Kpp R D k n
  asize : Nat
  counts : Fin k → Int

/-- A copy of assignments, counts and centroids (`cluster_t`).  Models libkcommon/types.hpp:41-46. -/
structure Copy (R : Type _) (k n : Nat) where
  assign : Nat → Option (Fin k)
  counts : Fin k → Int
  means : Fin k → Row R n

/-- `dump_state`, and the result of `run`.
Models libman/kmeans_task_coordinator.cpp:316-320 and 528-530. -/
def St.dump (s : St R D k n) : Copy R k n :=
  ⟨fun r => (s.kpp.slots r).assign, s.counts, s.kpp.cltrs.means⟩

/-- The loop of `tally_assignment_counts`.  A row without a cluster indexes out of bounds.
Models libman/kmeans_task_coordinator.cpp:311-314. -/
def tallyLoop (a : Nat → Option (Fin k)) : List Nat → (Fin k → Int) → Res (Fin k → Int)
  | [], v => .ok v
  | r :: l, v =>
    match a r with
    | none => .error .ub
    | some c => tallyLoop a l (Function.update v c (v c + 1))

/-- `tally_assignment_counts`.  Models libman/kmeans_task_coordinator.cpp:311-314. -/
def St.tally (N : Nat) (s : St R D k n) : Res (St R D k n) :=
  match tallyLoop (fun r => (s.kpp.slots r).assign) (List.range N) s.counts with
  | .error e => .error e
  | .ok v => .ok { s with counts := v }

/-- `compute_cluster_energy`.  Models libman/kmeans_task_coordinator.cpp:296-301. -/
def St.energy [Zero D] [Add D] (N : Nat) (s : St R D k n) : D :=
  (List.range N).foldl (fun e r => e + (s.kpp.slots r).dist) 0

/-- Everything that is drawn or scheduled during one start.
Models the draws of libman/kmeans_task_coordinator.cpp:187 and 212. -/
structure Draws (D : Type _) where
  first : Nat
  u : Nat → D
  sched : Nat → List Nat

/-- `run_init` with k-means++.  The initialisation indexes `cluster_assignments` with every row;
`keeps = false` is the language's rule that this is undefined once the vector is shorter, `keeps = true`
the behaviour of a library whose `clear` keeps the storage and whose `operator[]` does not check.
Models libman/kmeans_task_coordinator.cpp:179-244. -/
def St.init [Zero D] [Add D] [Sub D] [Mul D] [Div D] [NatCast D]
    [LT D] [DecidableLT D] [LE D] [DecidableLE D] (keeps : Bool) (dist : Row R n → Row R n → D)
    (data : Nat → Row R n) (N nt T : Nat) (todo : Nat → List Nat) (w : Draws D) (s : St R D k n) :
    Res (St R D k n) :=
  if !keeps && decide (s.asize < N) then .error .ub
  else
    match Init.kpp dist data N nt T todo w.sched w.first w.u s.kpp with
    | .error e => .error e
    | .ok p => .ok { s with kpp := p }

/-- `reinit`: distances to the maximum, `cluster_assignments.clear()`, counts and clusters to zero,
then the initialisation.  Models libman/kmeans_task_coordinator.cpp:303-309. -/
def St.reinit [Zero R] [Zero D] [Add D] [Sub D] [Mul D] [Div D] [NatCast D]
    [LT D] [DecidableLT D] [LE D] [DecidableLE D] (keeps : Bool) (dist : Row R n → Row R n → D)
    (big : D) (data : Nat → Row R n) (N nt T : Nat) (todo : Nat → List Nat) (w : Draws D)
    (s : St R D k n) : Res (St R D k n) :=
  St.init keeps dist data N nt T todo w
    { kpp := { cltrs := Clusters.empty
               slots := fun r => if r < N then { s.kpp.slots r with dist := big } else s.kpp.slots r }
      asize := 0
      counts := fun _ => 0 }

/-- The loop over the further starts, with the best start, energy and copy so far.
Models binding/kmeanspp.hpp:47-57 and 82-95. -/
def startLoop [Zero R] [Zero D] [Add D] [Sub D] [Mul D] [Div D] [NatCast D]
    [LT D] [DecidableLT D] [LE D] [DecidableLE D] (keeps : Bool) (dist : Row R n → Row R n → D)
    (big : D) (data : Nat → Row R n) (N nt T : Nat) (todo : Nat → List Nat) (w : Nat → Draws D) :
    List Nat → St R D k n → Nat × D × Copy R k n → Res (Nat × D × Copy R k n)
  | [], _, best => .ok best
  | start :: l, s, best =>
    match St.reinit keeps dist big data N nt T todo (w start) s with
    | .error e => .error e
    | .ok s1 =>
      match s1.tally N with
      | .error e => .error e
      | .ok s2 =>
        startLoop keeps dist big data N nt T todo w l s2
          (if s2.energy N < best.2.1 then (start + 1, s2.energy N, s2.dump) else best)

/-- The coordinator after construction: no row has a cluster, all distances are the maximum.
Models libman/kmeans_task_coordinator.cpp:34-63 and libman/coordinator.cpp:30-55. -/
def fresh [Zero R] (big : D) (N : Nat) : St R D k n :=
  ⟨⟨Clusters.empty, fun _ => ⟨big, none⟩⟩, N, fun _ => 0⟩

/-- `kmeansPP`: index and energy of the best start and a copy of its state.  `run` with no iterations
initialises, tallies and copies; the driver tallies once more before it asks for the energy.
Models binding/kmeanspp.hpp:29-61 and libman/kmeans_task_coordinator.cpp:427-531. -/
def kmeansPP [Zero R] [Zero D] [Add D] [Sub D] [Mul D] [Div D] [NatCast D]
    [LT D] [DecidableLT D] [LE D] [DecidableLE D] (keeps : Bool) (dist : Row R n → Row R n → D)
    (big : D) (data : Nat → Row R n) (N nt T : Nat) (todo : Nat → List Nat) (w : Nat → Draws D)
    (nstart : Nat) : Res (Nat × D × Copy R k n) :=
  match St.init keeps dist data N nt T todo (w 0) (fresh big N) with
  | .error e => .error e
  | .ok s1 =>
    match s1.tally N with
    | .error e => .error e
    | .ok s2 =>
      match s2.tally N with
      | .error e => .error e
      | .ok s3 =>
        startLoop keeps dist big data N nt T todo w (List.range' 1 (nstart - 1)) s3
          (1, s3.energy N, s2.dump)

end Knor.MultiStart
