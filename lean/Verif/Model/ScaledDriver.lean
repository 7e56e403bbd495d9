import Verif.Model.Driver
import Verif.Model.Skmeans

/-!
# The command line programs, and a whole scaled k-means call

* `program`: what the programs of exec/ do before they call the library.
* `skmeans`: `knor::skmeans_coordinator::create(...)->run(...)`, and the program of that name.

Conventions are those of Model/Driver.lean.
-/

namespace Knor.Driver

open Knor Knor.Io

variable {R S B α : Type _} {k n : Nat}

/-- What a program does with its options: a file with centres replaces the initialisation by `none`, `none` without
such a file is refused, the size of the data file is compared with the given numbers of rows and columns, and `rows`
rows of centres are read.  `call` is the library call, with the initialisation and the centres that are passed on.
`sizeof(double)` is `c.size`.  Simplified: that a named file of centres does not exist is not modelled (the programs
fail an assertion); `skmeans` and `fcm` take the address of the first element of an empty vector when there are no
centres, here a null pointer.
Models exec/skmeans.cpp:94-130, exec/fcm.cpp:97-130, exec/hmeans.cpp:97-133, exec/xmeans.cpp:97-133,
exec/gmeans.cpp:100-136, exec/mb_knori.cpp:104-142. -/
def program (c : Codec R B) (datafn : List B) (centersfn : Option (List B)) (nrow ncol rows : Nat) (init : String)
    (call : String → Option (List R) → Res α) : Res α :=
  let init := if centersfn.isSome then "none" else init
  if init = "none" ∧ centersfn.isNone then .error .assertFail
  else if datafn.length ≠ u64 (u64 (c.size * nrow) * ncol) then .error .throws
  else match centersfn with
    | none => call init none
    | some f =>
      match (BinIo.openRead f rows ncol).read c with
      | .error e => .error e
      | .ok (l, _) => call init (some l)

/-- `skmeans_coordinator::create(...)->run(...)`: construction, data, scaling, initialisation on the scaled rows, and
the loop, which is a copy of the one in `kmeans_coordinator`.  `s1` and `s2` are the interleavings of the two phases
of the scaling; the centres are not scaled.  If some scaled entry is NaN this only says that an assertion fails,
which it does in the first iteration.
Models libman/skmeans_coordinator.hpp:49-62 and libman/skmeans_coordinator.cpp:29-49, 91-99, 101-279. -/
def skmeans [Zero R] [Add R] [Sub R] [Mul R] [Div R] [IntCast R] [NatCast R] [DecidableEq R] [LT R] [DecidableLT R]
    [LE R] [DecidableLE R] (dist : Dist.Metric → Row R n → Row R n → R) (big tiny : R) (c : Codec R B)
    (rng : Rng R S k) (s1 s2 : List Nat) (sched1 sched2 : Nat → List Nat) (a : Call R B) :
    Res (Kmeans.Result R k n) :=
  match getInit a.init with
  | .error e => .error e
  | .ok it =>
    match getDist a.dist with
    | .error e => .error e
    | .ok m =>
      match construct it a.centers with
      | .error e => .error e
      | .ok c0 =>
        match load c a n with
        | .error e => .error e
        | .ok ws =>
          match Skmeans.preprocess (n := n) big tiny (rowsIn ws a.nrow a.nthreads) a.nrow a.nthreads s1 s2 with
          | .error e => .error e
          | .ok rows =>
            if (List.range a.nrow).all (fun r => (List.finRange n).all fun j => decide (rows r j ≠ .nan)) then
              let data : Nat → Row R n := fun r j => (rows r j).val
              match runInit (dist m) big rng data a.nrow a.nthreads sched1 it c0 with
              | .error e => .error e
              | .ok s => Kmeans.run (dist m) big data a.nrow a.nthreads a.tol a.maxIters sched2 s
            else .error .assertFail

/-- The program `skmeans`; its initialisation is Forgy.  Models exec/skmeans.cpp:30-142. -/
def skmeansProg [Zero R] [Add R] [Sub R] [Mul R] [Div R] [IntCast R] [NatCast R] [DecidableEq R] [LT R]
    [DecidableLT R] [LE R] [DecidableLE R] (dist : Dist.Metric → Row R n → Row R n → R) (big tiny : R)
    (c : Codec R B) (rng : Rng R S k) (s1 s2 : List Nat) (sched1 sched2 : Nat → List Nat) (datafn : List B)
    (centersfn : Option (List B)) (nrow maxIters nthreads : Nat) (tol : R) (distType : String) :
    Res (Kmeans.Result R k n) :=
  program c datafn centersfn nrow n k "forgy" fun init centers =>
    skmeans dist big tiny c rng s1 s2 sched1 sched2
      ⟨.file datafn, nrow, maxIters, nthreads, centers, init, tol, distType⟩

end Knor.Driver
