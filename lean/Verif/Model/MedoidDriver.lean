import Verif.Model.ScaledDriver
import Verif.Model.Medoid

/-!
# A whole k-medoids call, and the program `medoids`

`knor::medoid_coordinator::create(...)->run(...)` and exec/medoids.cpp.  Conventions are those of Model/Driver.lean and
Model/Medoid.lean; energies are numbers of the same type as distances and entries.
-/

namespace Knor.Driver

open Knor Knor.Io

variable {R S B : Type _} {k n : Nat}

/-- The rows that `forgy_init` draws.  Models libman/medoid_coordinator.cpp:169-174. -/
def medoidPick (rng : Rng R S k) (c : Fin k) : Nat := (rng.row (Init.skip rng.row c.val rng.seed)).1

/-- The data of a call; `numa_opt` is refused.  Models libman/medoid_coordinator.cpp:202-210. -/
def loadMedoid (c : Codec R B) (a : Call R B) (ncol : Nat) : Res (List (Worker R B)) :=
  match a.source with
  | .numa _ _ => .error .throws
  | _ => load c a ncol

/-- `medoid_coordinator::create(...)->run(...)`; `rate` is the requested sampling rate, `draw i r` what the workers'
generators return for row `r` in iteration `i`, `s0`, `s1` and `s2` are the interleavings.  The centres of the
constructor are overwritten or the call throws.
Models libman/medoid_coordinator.hpp:54-76 and libman/medoid_coordinator.cpp:30-59, 181-297. -/
def medoids [Zero R] [One R] [Add R] [Div R] [NatCast R] [LT R] [DecidableLT R] [LE R] [DecidableLE R]
    (dist : Dist.Metric → Row R n → Row R n → R) (big : R) (c : Codec R B) (rng : Rng R S k) (draw : Nat → Nat → R)
    (s0 : List Nat) (s1 s2 : Nat → List Nat) (rate : R) (a : Call R B) : Res (Medoid.Result R R k n) :=
  match getInit a.init with
  | .error e => .error e
  | .ok it =>
    match getDist a.dist with
    | .error e => .error e
    | .ok m =>
      match construct (k := k) (n := n) it a.centers with
      | .error e => .error e
      | .ok _ =>
        match loadMedoid c a n with
        | .error e => .error e
        | .ok ws => Medoid.run (decide (it = .forgy)) (dist (Medoid.workerMetric m)) big (rowsIn ws a.nrow a.nthreads)
            a.nrow a.nthreads (medoidPick rng) draw rate a.tol a.maxIters s0 s1 s2

/-- The program `medoids`: a file of centres changes the initialisation to `none`, and is never read; the data is read
into an array.  Models exec/medoids.cpp:34-148. -/
def medoidsProg [Zero R] [One R] [Add R] [Div R] [NatCast R] [LT R] [DecidableLT R] [LE R] [DecidableLE R]
    (dist : Dist.Metric → Row R n → Row R n → R) (big : R) (c : Codec R B) (rng : Rng R S k) (draw : Nat → Nat → R)
    (s0 : List Nat) (s1 s2 : Nat → List Nat) (rate : R) (datafn : List B) (hasCenters : Bool)
    (nrow maxIters nthreads : Nat) (tol : R) (distType : String) : Res (Medoid.Result R R k n) :=
  let init := if hasCenters then "none" else "forgy"
  if datafn.length ≠ u64 (u64 (c.size * nrow) * n) then .error .throws
  else
    match (BinIo.openRead datafn nrow n).read c with
    | .error e => .error e
    | .ok (l, _) => medoids dist big c rng draw s0 s1 s2 rate
        ⟨.array l, nrow, maxIters, nthreads, none, init, tol, distType⟩

end Knor.Driver
