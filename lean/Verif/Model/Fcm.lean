import Verif.Model.Init

/-!
# Fuzzy c-means (`exec/fcm`, `knor::fcm_coordinator`)

Models libman/fcm.cpp, libman/fcm_coordinator.cpp and the members of `dense_matrix` they use.

* Arithmetic is exact.  `dist` is `dist_comp_raw` with the chosen metric, `none` being NaN (possible
  with the cosine distance, C36); comparing NaN is false.
* `root x` is `std::pow(x, 1.0 / (fuzzindex-1))`; the model describes `fuzzindex ≥ 2`, for which the
  exponent is a number (for 1 it is infinite).  The theorems say what they assume of `root`.
* The contribution matrix `um` (k x nrow) is stored by data row here: `um r c` is `um->get(c, r)`.
* Workers write only the columns of their own rows (C01), so both phases are row phases
  (`Model/Par.lean`).
-/

namespace Knor.Fcm

open Knor

variable {R S : Type _} {k n : Nat}

/-- The literal `2.2E-16`.  Models libman/fcm.cpp:53. -/
def eps [Div R] [NatCast R] : R := 22 / 100000000000000000

/-- The value stored for one distance.  Models libman/fcm.cpp:48-54. -/
def entry [Zero R] [One R] [Div R] [NatCast R] [LT R] [DecidableLT R] (root : R → R) : Option R → R
  | some d => if 0 < d then root (1 / d) else eps
  | none => eps

/-- Body of the row loop of `Estep`.  Models libman/fcm.cpp:42-57. -/
def eRow [Zero R] [One R] [Div R] [NatCast R] [LT R] [DecidableLT R] (root : R → R)
    (dist : Row R n → Row R n → Option R) (data : Nat → Row R n) (centers : Fin k → Row R n)
    (r : Nat) (_m : Fin k → R) (u : Unit) : Res ((Fin k → R) × Unit) :=
  .ok (fun c => entry root (dist (data r) (centers c)), u)

/-- `um->sum(0, colsums)` for one column: the first row is copied, the others are added.
Models libkcommon/dense_matrix.hpp:220-232. -/
def colSum [Zero R] [Add R] (f : Fin k → R) : R :=
  match List.finRange k with
  | [] => 0
  | c0 :: l => l.foldl (fun s c => s + f c) (f c0)

/-- `update_contribution_matrix`: divide by the column sums, then raise to the power `fuzzindex`.
Models libman/fcm_coordinator.cpp:97-101 and libkcommon/dense_matrix.hpp:301-315. -/
def contribution [Zero R] [Add R] [Div R] [Pow R Nat] (fuzz nrow : Nat) (um : Nat → Fin k → R) : Nat → Fin k → R :=
  fun r c => if r < nrow then (um r c / colSum (um r)) ^ fuzz else um r c

/-- Body of the row loop of `Mstep`; the accumulator is `innerprod`.
Models libman/fcm.cpp:61-73. -/
def mRow [Add R] [Mul R] (data : Nat → Row R n) (r : Nat) (m : Fin k → R) (a : Fin k → Row R n) :
    Res ((Fin k → R) × (Fin k → Row R n)) :=
  .ok (m, fun c j => a c j + m c * data r j)

/-- `update_centers`: add the workers' products (`operator+` for the first two, `+=` for the others),
divide by the row sums of `um`.  Models libman/fcm_coordinator.cpp:103-123 and
libkcommon/dense_matrix.hpp:233-242, 283-299. -/
def updateCenters [Zero R] [Add R] [Div R] (T nrow : Nat) (um : Nat → Fin k → R) (prod : Nat → Fin k → Row R n) :
    Fin k → Row R n :=
  let sum : Fin k → Row R n :=
    if T = 1 then prod 0
    else (List.range' 2 (T - 2)).foldl (fun s t c j => s c j + prod t c j)
      fun c j => prod 0 c j + prod 1 c j
  fun c j => sum c j / (List.range nrow).foldl (fun s r => s + um r c) 0

/-- The coordinator's matrices.  Models libman/fcm_coordinator.hpp:31-33. -/
structure FState (R : Type _) (k n : Nat) where
  centers : Fin k → Row R n
  prev : Fin k → Row R n
  um : Nat → Fin k → R

/-- One iteration: E phase, contribution matrix, M phase, new centres.
Models libman/fcm_coordinator.cpp:156-173. -/
def iteration [Zero R] [One R] [Add R] [Mul R] [Div R] [Pow R Nat] [NatCast R]
    [LT R] [DecidableLT R] (root : R → R)
    (dist : Row R n → Row R n → Option R) (data : Nat → Row R n) (nrow reqThreads fuzz : Nat)
    (s1 s2 : List Nat) (s : FState R k n) : Res (FState R k n) :=
  match Par.run (eRow root dist data s.centers)
      { mem := s.um, acc := fun _ => (), todo := Kmeans.threadRows nrow reqThreads } s1 with
  | .error e => .error e
  | .ok p =>
    let um := contribution fuzz nrow p.mem
    match Par.run (mRow data)
        { mem := um, acc := fun _ _ _ => 0, todo := Kmeans.threadRows nrow reqThreads } s2 with
    | .error e => .error e
    | .ok q =>
      .ok { centers := updateCenters (Partition.effThreads reqThreads nrow) nrow q.mem q.acc
            prev := s.centers
            um := q.mem }

/-- The main loop from iteration `iter`; `norm` is `frobenius_norm`.
Models libman/fcm_coordinator.cpp:146-196. -/
def loop [Zero R] [One R] [Add R] [Mul R] [Div R] [Pow R Nat] [NatCast R] [Sub R]
    [LT R] [DecidableLT R] (root : R → R)
    (dist : Row R n → Row R n → Option R) (norm : (Fin k → Row R n) → R) (data : Nat → Row R n)
    (nrow reqThreads fuzz : Nat) (tol : R) (maxIters : Nat) (s1 s2 : Nat → List Nat) :
    Nat → Nat → FState R k n → Res (Nat × FState R k n)
  | 0, iter, s => .ok (iter, s)
  | fuel + 1, iter, s =>
    if iter ≤ maxIters ∧ 0 < maxIters then
      match iteration root dist data nrow reqThreads fuzz (s1 iter) (s2 iter) s with
      | .error e => .error e
      | .ok s' =>
        if norm (fun c j => s'.centers c j - s'.prev c j) < tol then .ok (iter, s')
        else loop root dist norm data nrow reqThreads fuzz tol maxIters s1 s2 fuel (iter + 1) s'
    else .ok (iter, s)

/-- `argmax(1, …)` for one column: index 0 and the smallest positive `double` to begin with, here
`dmin`.  Models libkcommon/dense_matrix.hpp:371-383. -/
def argmax [LT R] [DecidableLT R] (dmin : R) (f : Fin k → R) : Nat :=
  ((List.finRange k).foldl (fun v c => if v.1 < f c then (f c, c.val) else v) (dmin, 0)).2

/-- `for (auto const& i : cluster_assignments) cluster_assignment_counts[i]++`.
Models libman/fcm_coordinator.cpp:219-221. -/
def tally (nrow : Nat) (assign : Nat → Nat) : Nat → Int :=
  (List.range nrow).foldl (fun v r => Function.update v (assign r) (v (assign r) + 1)) fun _ => 0

/-- How the centres are initialised.  Models libman/coordinator.cpp:144-160. -/
inductive Start (R S : Type _) (k n : Nat) where
  /-- `"none"`: the caller's centres -/
  | given (centers : Fin k → Row R n)
  /-- `"forgy"` -/
  | forgy (draw : S → Nat × S) (seed : S)
  /-- any other type -/
  | other

/-- The loop of `forgy_init`.  Models libman/fcm_coordinator.cpp:84-87. -/
def forgyLoop (draw : S → Nat × S) (data : Nat → Row R n) (nrow reqThreads : Nat) :
    List (Fin k) → S → (Fin k → Row R n) → Res (Fin k → Row R n)
  | [], _, c => .ok c
  | i :: l, s, c =>
    match Init.thdRow data nrow reqThreads (draw s).1 with
    | .error e => .error e
    | .ok x => forgyLoop draw data nrow reqThreads l (draw s).2 (Function.update c i x)

/-- `run_init`; the base class rejects the types that are not overridden.
Models libman/coordinator.cpp:145-160 and libman/coordinator.hpp:78-86. -/
def runInit [Zero R] (data : Nat → Row R n) (nrow reqThreads : Nat) :
    Start R S k n → Res (Fin k → Row R n)
  | .given c => .ok c
  | .forgy draw seed => forgyLoop draw data nrow reqThreads (List.finRange k) seed fun _ _ => 0
  | .other => .error .throws

/-- What the caller gets back.  Models libman/fcm_coordinator.cpp:229-231. -/
structure Result (R : Type _) (k n : Nat) where
  iters : Nat
  assign : Nat → Nat
  counts : Nat → Int
  state : FState R k n

/-- Constructor and `run`; the matrices start as zeros.
Models libman/fcm_coordinator.cpp:33-55, 128-232 and libman/coordinator.cpp:42. -/
def run [Zero R] [One R] [Add R] [Mul R] [Div R] [Pow R Nat] [NatCast R] [Sub R]
    [LT R] [DecidableLT R] (root : R → R)
    (dist : Row R n → Row R n → Option R) (norm : (Fin k → Row R n) → R) (dmin : R)
    (data : Nat → Row R n) (nrow reqThreads fuzz : Nat) (tol : R) (maxIters : Nat)
    (s1 s2 : Nat → List Nat) (start : Start R S k n) : Res (Result R k n) :=
  if k < 1 then .error .assertFail
  else
    match runInit data nrow reqThreads start with
    | .error e => .error e
    | .ok c =>
      match loop root dist norm data nrow reqThreads fuzz tol maxIters s1 s2 (maxIters + 1)
          (if 0 < maxIters then 1 else 0) ⟨c, fun _ _ => 0, fun _ _ => 0⟩ with
      | .error e => .error e
      | .ok (iters, s) =>
        let assign := fun r => argmax dmin (s.um r)
        .ok ⟨iters, assign, tally nrow assign, s⟩

end Knor.Fcm
