import Verif.Model.CliMain
import Verif.Model.Gmm

/-!
# A whole Gaussian mixture call, and the program `gmm`

`knor::gmm_coordinator::create(...)->soft_run(...)` from the names of the options and the data on, in both builds of the
library, and exec/gmm.cpp.  Conventions are those of Model/Driver.lean, Model/CliMain.lean and Model/Gmm.lean.
-/

namespace Knor.Gmm

open Knor Knor.Io

variable {R S B : Type _} {k n : Nat}

/-- How a call ends: the process exits with a status, having printed a state, or a result is returned.
Models libman/gmm_coordinator.cpp:244-263 and 324-326. -/
inductive Ending (R : Type _) (k n : Nat) where
  | exits (status : Nat) (printed : St R k n)
  | returned (res : Result R k n)

/-- The given means; the copy is undefined if the array is too short.
Models libman/gmm_coordinator.cpp:57-60 and libkcommon/dense_matrix.hpp:80-82. -/
def givenMeans [Zero R] (centers : Option (List R)) : Res (Option (Fin k → Row R n)) :=
  match centers with
  | none => .ok none
  | some l => if l.length < k * n then .error .ub else .ok (some fun c j => l.getD (c.val * n + j.val) 0)

/-- The status that the environment gets: the lowest eight bits.
Models `exit` of the C library, as used in libman/gmm_coordinator.cpp:261. -/
def exitStatus (n : Nat) : Nat := n % 256

/-- `gmm_coordinator::create(...)->soft_run(...)`.  `bind` tells whether the library was built with the macro `BIND`
(for the R and Python packages); if not, `soft_run` prints the state after the initialisation and exits.  The constructor
looks at both names; no other use is made of the metric.
Models libman/gmm_coordinator.hpp:57-79 and libman/gmm_coordinator.cpp:31-63, 231-327. -/
def gmmCall [Zero R] [Div R] [NatCast R] [LE R] [DecidableLE R] (bind : Bool) (o : Ops R)
    (shared : St R k n → (Fin k → Nat → Nat → R) × (Fin k → R)) (rng : Rng R S) (c : Codec R B)
    (sched : Nat → List Nat) (a : Driver.Call R B) : Res (Ending R k n) :=
  match Driver.getInit a.init with
  | .error e => .error e
  | .ok it =>
    match Driver.getDist a.dist with
    | .error e => .error e
    | .ok _ =>
      if k < 1 then .error .assertFail
      else match givenMeans (k := k) (n := n) a.centers with
        | .error e => .error e
        | .ok given =>
          match Driver.load c a n with
          | .error e => .error e
          | .ok ws =>
            let data : Nat → Row R n := Driver.rowsIn ws a.nrow a.nthreads
            if bind then
              (softRun o shared rng data a.nrow a.nthreads a.maxIters
                (fun changed => decide ((changed : R) / (a.nrow : R) ≤ a.tol)) sched a.init given).map .returned
            else match runInit o rng data a.nrow a.nthreads it given with
              | .error e => .error e
              | .ok s => .ok (.exits (exitStatus 911) s)

/-- What `gmm` does between its options and its end: a file with centres replaces the initialisation by `none`, `none`
without such a file is refused, the size of the data file is compared with the numbers of rows and columns, the centres
are read, and the library is called.  `sizeof(double)` is `c.size`.  Models exec/gmm.cpp:102-137. -/
def gmmProg [Zero R] [Div R] [NatCast R] [LE R] [DecidableLE R] (bind : Bool) (o : Ops R)
    (shared : St R k n → (Fin k → Nat → Nat → R) × (Fin k → R)) (rng : Rng R S) (c : Codec R B)
    (sched : Nat → List Nat) (datafn : List B) (centersfn : Option (List B)) (nrow maxIters nthreads : Nat)
    (init : String) (tol : R) (distType : String) : Res (Ending R k n) :=
  let init := if centersfn.isSome then "none" else init
  if init = "none" ∧ centersfn.isNone then .error .assertFail
  else if datafn.length ≠ u64 (u64 (c.size * nrow) * n) then .error .throws
  else match centersfn with
    | none => gmmCall bind o shared rng c sched ⟨.file datafn, nrow, maxIters, nthreads, none, init, tol, distType⟩
    | some f =>
      match (BinIo.openRead f k n).read c with
      | .error e => .error e
      | .ok (l, _) =>
        gmmCall bind o shared rng c sched ⟨.file datafn, nrow, maxIters, nthreads, some l, init, tol, distType⟩

end Knor.Gmm

namespace Knor.Cli

open Knor Knor.Io

variable {R S B : Type _}

/-- The code that would write the result is commented out: whatever directory was named, nothing is written.
Models exec/gmm.cpp:139-142. -/
def unwritten {F : Nat → Nat → Type _} : Outcome (Output F) → Outcome (Output F)
  | .done r => .done { r with outdir := [] }
  | x => x

/-- `gmm`; `micro` is the literal 1E-6.  The number after `-c` is handed to the library, which only prints it.
Simplified: that it is no number is reported when the tolerance and the file of centres have been looked at.
Models exec/gmm.cpp:31-152. -/
def gmmMain [Zero R] [Neg R] [One R] [Div R] [NatCast R] [LE R] [DecidableLE R] (bind : Bool) (o : Gmm.Ops R)
    (shared : (k n : Nat) → Gmm.St R k n → (Fin k → Nat → Nat → R) × (Fin k → R)) (micro : R) (rng : Gmm.Rng R S)
    (c : Codec R B) (sched : Nat → List Nat) (env : Env R B) (argv : List Str) : Outcome (Output (Gmm.Ending R)) :=
  unwritten (mainWith gmmP env (-1) (Gmm.Ending R) (fun g _ =>
    match (if g.st.count 'c' ≠ 0 then env.stod (g.st.str 'c') else .ok micro) with
    | .error e => .error e
    | .ok _ =>
      Gmm.gmmProg bind o (shared _ g.ncol) rng c sched g.datafn g.centers g.nrow (g.st.num 'i') (g.st.num 'T')
        (g.st.text 't') g.tol (g.st.text 'd')) argv)

end Knor.Cli
