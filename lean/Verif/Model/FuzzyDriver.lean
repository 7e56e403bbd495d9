import Verif.Model.ScaledDriver
import Verif.Model.Fcm

/-!
# A whole fuzzy c-means call, and the program `fcm`

`knor::fcm_coordinator::create(...)->run(...)` and exec/fcm.cpp.  Conventions are those of Model/Driver.lean and
Model/Fcm.lean.
-/

namespace Knor.Driver

open Knor Knor.Io

variable {R S B : Type _} {k n : Nat}

/-- The constructor: `k ≥ 1`; the matrix of centres is zero, or a copy of the centres that are given; the copy is
undefined if the array is too short.  Models libman/coordinator.cpp:42, libman/fcm_coordinator.cpp:47-52 and
libkcommon/dense_matrix.hpp:80-82. -/
def constructFuzzy [Zero R] (centers : Option (List R)) : Res (Fin k → Row R n) :=
  if k < 1 then .error .assertFail
  else match centers with
    | none => .ok fun _ _ => 0
    | some l => if l.length < k * n then .error .ub else .ok fun c j => l.getD (c.val * n + j.val) 0

/-- What `run_init` starts from: only Forgy is overridden, and `none` keeps the matrix of the constructor.
Models libman/coordinator.cpp:144-160 and libman/coordinator.hpp:78-86. -/
def fuzzyStart (rng : Rng R S k) (y : Fin k → Row R n) : InitT → Fcm.Start R S k n
  | .none => .given y
  | .forgy => .forgy rng.row rng.seed
  | .random => .other
  | .plusplus => .other

/-- `fcm_coordinator::create(...)->run(...)`; `s1` and `s2` are the interleavings of the two phases.
Models libman/fcm_coordinator.hpp:44-59 and libman/fcm_coordinator.cpp:33-55, 128-232. -/
def fcm [Zero R] [One R] [Add R] [Mul R] [Div R] [Pow R Nat] [NatCast R] [Sub R] [LT R] [DecidableLT R]
    (root : R → R) (dist : Dist.Metric → Row R n → Row R n → Option R) (norm : (Fin k → Row R n) → R) (dmin : R)
    (c : Codec R B) (rng : Rng R S k) (s1 s2 : Nat → List Nat) (fuzz : Nat) (a : Call R B) :
    Res (Fcm.Result R k n) :=
  match getInit a.init with
  | .error e => .error e
  | .ok it =>
    match getDist a.dist with
    | .error e => .error e
    | .ok m =>
      match constructFuzzy a.centers with
      | .error e => .error e
      | .ok y =>
        match load c a n with
        | .error e => .error e
        | .ok ws => Fcm.run root (dist m) norm dmin (rowsIn ws a.nrow a.nthreads) a.nrow a.nthreads fuzz a.tol
            a.maxIters s1 s2 (fuzzyStart rng y it)

/-- The program `fcm`; its initialisation is Forgy.  Models exec/fcm.cpp:30-142. -/
def fcmProg [Zero R] [One R] [Add R] [Mul R] [Div R] [Pow R Nat] [NatCast R] [Sub R] [LT R] [DecidableLT R]
    (root : R → R) (dist : Dist.Metric → Row R n → Row R n → Option R) (norm : (Fin k → Row R n) → R) (dmin : R)
    (c : Codec R B) (rng : Rng R S k) (s1 s2 : Nat → List Nat) (fuzz : Nat) (datafn : List B)
    (centersfn : Option (List B)) (nrow maxIters nthreads : Nat) (tol : R) (distType : String) :
    Res (Fcm.Result R k n) :=
  program c datafn centersfn nrow n k "forgy" fun init centers =>
    fcm root dist norm dmin c rng s1 s2 fuzz
      ⟨.file datafn, nrow, maxIters, nthreads, centers, init, tol, distType⟩

end Knor.Driver
