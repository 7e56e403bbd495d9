import Verif.Model.Init
import Verif.Model.Driver

/-!
# Gaussian mixtures (`exec/gmm`, `knor::gmm_coordinator`)

Models `gmm_coordinator::create(...)->soft_run(...)` as built with `BIND` (the R and Python packages); without
`BIND` the process ends with `exit(911)` right after the initialisation
(libman/gmm_coordinator.cpp:248-263).

* The numbers are of a type `F` with the operations that the code uses (`Ops`); nothing is assumed about them
  here, so that infinities and NaNs are part of the model.
* A step of a worker is one pass through the body of one of the two inner loops of the E step, so the
  interleavings of the workers on the shared responsibility matrix are visible.  (Two workers that write the same
  entry without synchronisation are a data race, which the C++ standard leaves undefined altogether.)
* `dets.clear()` followed by `dets[cid] = …` is taken to write into the storage that `clear` keeps.
-/

namespace Knor.Gmm

open Knor

variable {F S : Type _} {k n : Nat}

/-- The operations and constants of `double` in the E step: `0`, `.5`, `-.5`, the enumerator `M` of
`thread_state_t` (which the name `M` denotes there) and `2*M_PI`.
Models libman/gmm.cpp:81-83 and libkcommon/thread_state.hpp:25-41. -/
structure Ops (F : Type _) where
  zero : F
  half : F
  mhalf : F
  m : F
  twoPi : F
  add : F → F → F
  sub : F → F → F
  mul : F → F → F
  div : F → F → F
  log2 : F → F

/-- The shared state of coordinator and workers.  Models libman/gmm_coordinator.hpp:36-45 and
libman/coordinator.hpp:48. -/
structure St (F : Type _) (k n : Nat) where
  mu : Fin k → Row F n
  sigma : Fin k → Nat → Nat → F
  inv : Fin k → Nat → Nat → F
  P : Nat → Fin k → F
  Pk : Fin k → F
  dets : Fin k → F
  Px : Nat → F
  numChanged : Nat

/-- The state after construction; the given centres are used if there are any.
Models libman/gmm_coordinator.cpp:41-60 and libman/coordinator.cpp:39. -/
def construct (o : Ops F) (given : Option (Fin k → Row F n)) : St F k n :=
  { mu := given.getD fun _ _ => o.zero
    sigma := fun _ _ _ => o.zero
    inv := fun _ _ _ => o.zero
    P := fun _ _ => o.zero
    Pk := fun _ => o.zero
    dets := fun _ => o.zero
    Px := fun _ => o.zero
    numChanged := 0 }

/-! ## Initialisation -/

/-- `forgy_init`.  Models libman/gmm_coordinator.cpp:149-157. -/
def forgy (draw : S → Nat × S) (data : Nat → Row F n) (nrow nthreads : Nat) :
    List (Fin k) → S → (Fin k → Row F n) → Res (Fin k → Row F n)
  | [], _, mu => .ok mu
  | c :: l, s, mu =>
    match Init.thdRow data nrow nthreads (draw s).1 with
    | .error e => .error e
    | .ok x => forgy draw data nrow nthreads l (draw s).2 (Function.update mu c x)

/-- Divide the numbers of a line by their sum.  Models libman/gmm_coordinator.cpp:171-180 and 188-196. -/
def normalise (o : Ops F) (l : List F) : List F := l.map fun x => o.div x (l.foldl o.add o.zero)

/-- `random_prob_fill` of a matrix with `cols` columns: the lines of the result.
Models libman/gmm_coordinator.cpp:162-181. -/
def fillRows (o : Ops F) (draw : S → F × S) (cols : Nat) : Nat → S → List (List F)
  | 0, _ => []
  | r + 1, s => normalise o (Init.outputs draw cols s) :: fillRows o draw cols r (Init.skip draw cols s)

/-- Entry of a list of lines.  Models libkcommon/dense_matrix.hpp:89-91. -/
def cell (o : Ops F) (l : List (List F)) (r c : Nat) : F := (l.getD r []).getD c o.zero

/-- The numbers that the engine gives: a row, and a number of the unit interval; every function of the
initialisation starts a new engine with the default seed.
Models libman/gmm_coordinator.cpp:150-151, 165-166 and 185-186. -/
structure Rng (F S : Type _) where
  seed : S
  row : S → Nat × S
  unit : S → F × S

/-- `run_init`: given centres switch the initialisation off; `random` is Forgy with random weights,
responsibilities and covariances; k-means++ wakes the workers with a state they do not know.
Models libman/coordinator.cpp:144-160, libman/gmm_coordinator.cpp:57-60, 102-215 and libman/gmm.cpp:122-123. -/
def runInit (o : Ops F) (rng : Rng F S) (data : Nat → Row F n) (nrow nthreads : Nat) (it : Driver.InitT)
    (given : Option (Fin k → Row F n)) : Res (St F k n) :=
  let s : St F k n := construct o given
  match (if given.isSome then Driver.InitT.none else it) with
  | .random =>
    match forgy rng.row data nrow nthreads (List.finRange k) rng.seed s.mu with
    | .error e => .error e
    | .ok mu =>
      .ok { s with
        mu := mu
        Pk := fun c => cell o (fillRows o rng.unit k 1 rng.seed) 0 c.val
        P := fun r c => cell o (fillRows o rng.unit k nrow rng.seed) r c.val
        sigma := fun _ i j => cell o (fillRows o rng.unit n n rng.seed) i j }
  | .forgy =>
    match forgy rng.row data nrow nthreads (List.finRange k) rng.seed s.mu with
    | .error e => .error e
    | .ok mu => .ok { s with mu := mu }
  | .plusplus => .error .throws
  | .none => .ok s

/-! ## The E step -/

/-- The value called `gaussian_density` for a row `x` and a mean `y`.
Models libman/gmm.cpp:72-83 and libkcommon/linalg.hpp:143-149, 160-188. -/
def density (o : Ops F) (inv : Nat → Nat → F) (det : F) (x y : Row F n) : F :=
  let diff : Fin n → F := fun j => o.sub (x j) (y j)
  let resdot : Fin n → F := fun col =>
    (List.finRange n).foldl (fun s row => o.add s (o.mul (diff row) (inv row.val col.val))) o.zero
  let lhs := o.mul o.mhalf ((List.finRange n).foldl (fun s j => o.add s (o.mul (resdot j) (diff j))) o.zero)
  let rhs := o.sub (o.mul (o.mul o.half o.m) (o.log2 o.twoPi)) (o.mul o.half (o.log2 det))
  o.sub lhs rhs

/-- A pass through one of the two inner loops, for the worker's local row and a component.
Models libman/gmm.cpp:71-88 (`dens`) and libman/gmm.cpp:91-93 (`norm`). -/
inductive Op (k : Nat) where
  | dens (row : Nat) (c : Fin k)
  | norm (row : Nat) (c : Fin k)
  deriving DecidableEq

/-- What a worker with `len` rows does.  Models libman/gmm.cpp:68-98. -/
def workerOps (k len : Nat) : List (Op k) :=
  (List.range len).flatMap fun row => (List.finRange k).map (.dens row) ++ (List.finRange k).map (.norm row)

/-- State of the phase.  Models the matrices shared in libman/gmm.cpp:52-63. -/
structure EState (F : Type _) (k : Nat) where
  P : Nat → Fin k → F
  Px : Nat → F
  todo : Nat → List (Op k)

/-- Overwrite an entry of the responsibility matrix.  Models libman/gmm.cpp:87 and 92. -/
def setP (P : Nat → Fin k → F) (row : Nat) (c : Fin k) (x : F) : Nat → Fin k → F :=
  Function.update P row (Function.update (P row) c x)

/-- Worker `t` takes a step.  Both the mean and the line of the responsibility matrix are selected by the
*local* row number; behind the last mean the read is out of bounds.
Models libman/gmm.cpp:68-93. -/
def eStep (o : Ops F) (data : Nat → Row F n) (nrow nthreads : Nat) (s : St F k n) (e : EState F k) (t : Nat) :
    Res (EState F k) :=
  let start := (Partition.ridLen nrow (Partition.effThreads nthreads nrow) t).1
  match e.todo t with
  | [] => .ok e
  | .dens row c :: l =>
    if h : row < k then
      let tmp := o.mul (density o (s.inv c) (s.dets c) (Partition.localData data nrow nthreads t row)
        (s.mu ⟨row, h⟩)) (s.Pk c)
      .ok { P := setP e.P row c tmp
            Px := Function.update e.Px (start + row) (o.add (e.Px (start + row)) tmp)
            todo := Function.update e.todo t l }
    else .error .ub
  | .norm row c :: l =>
    .ok { e with
      P := setP e.P row c (o.div (e.P row c) (e.Px (start + row)))
      todo := Function.update e.todo t l }

/-- A schedule of the workers.  Models the workers that run libman/gmm.cpp:65-99 side by side. -/
def eRun (o : Ops F) (data : Nat → Row F n) (nrow nthreads : Nat) (s : St F k n) :
    EState F k → List Nat → Res (EState F k)
  | e, [] => .ok e
  | e, t :: ts =>
    match eStep o data nrow nthreads s e t with
    | .error x => .error x
    | .ok e' => eRun o data nrow nthreads s e' ts

/-- The work of every worker at the beginning of the phase.  Models libman/gmm_coordinator.cpp:65-80. -/
def todo (k nrow nthreads t : Nat) : List (Op k) :=
  if t < Partition.effThreads nthreads nrow then
    workerOps k (Partition.ridLen nrow (Partition.effThreads nthreads nrow) t).2
  else []

/-! ## The run -/

/-- `update_clusters`: `Pnk_sum` has `k` entries and is indexed by the columns of the data; the inverses and
determinants are recomputed (`shared`, any function); the M step of the workers is empty.
Models libman/gmm_coordinator.cpp:82-100, 217-226 and libman/gmm.cpp:101-103. -/
def updateClusters (o : Ops F) (shared : St F k n → (Fin k → Nat → Nat → F) × (Fin k → F)) (s : St F k n) :
    Res (St F k n) :=
  if k < n then .error .ub
  else .ok { s with inv := (shared s).1, dets := (shared s).2, Px := fun _ => o.zero }

/-- The main loop with the iterations still allowed; `stop` compares the fraction of changed rows with the
tolerance.  Models libman/gmm_coordinator.cpp:273-296. -/
def loop (o : Ops F) (shared : St F k n → (Fin k → Nat → Nat → F) × (Fin k → F)) (data : Nat → Row F n)
    (nrow nthreads : Nat) (stop : Nat → Bool) (sched : Nat → List Nat) :
    Nat → Nat → St F k n → Res (St F k n × Nat)
  | 0, iter, s => .ok (s, iter)
  | b + 1, iter, s =>
    match eRun o data nrow nthreads s ⟨s.P, s.Px, todo k nrow nthreads⟩ (sched iter) with
    | .error e => .error e
    | .ok e =>
      match updateClusters o shared { s with P := e.P, Px := e.Px } with
      | .error x => .error x
      | .ok s' =>
        if s'.numChanged = 0 ∨ stop s'.numChanged = true then .ok (s', iter)
        else loop o shared data nrow nthreads stop sched b (iter + 1) s'

/-- `gmm_t`.  Models libkcommon/types.hpp:78-92. -/
structure Result (F : Type _) (k n : Nat) where
  iters : Nat
  means : Fin k → Row F n
  cov : Fin k → Nat → Nat → F
  resp : List F
  prob : Fin k → F

/-- The constructor of `gmm_t`: of the `nrow * k` responsibilities only the first `nrow` are copied.
Models libkcommon/types.cpp:178-198. -/
def result (o : Ops F) (nrow iters : Nat) (s : St F k n) : Result F k n :=
  { iters := iters
    means := s.mu
    cov := s.sigma
    resp := (List.range nrow).map fun i =>
      if h : 0 < k then s.P (i / k) ⟨i % k, Nat.mod_lt _ h⟩ else o.zero
    prob := s.Pk }

/-- `create(...)->soft_run(...)` on rows that the workers hold.
Models libman/gmm_coordinator.hpp:57-79 and libman/gmm_coordinator.cpp:31-63, 231-327. -/
def softRun (o : Ops F) (shared : St F k n → (Fin k → Nat → Nat → F) × (Fin k → F)) (rng : Rng F S)
    (data : Nat → Row F n) (nrow nthreads maxIters : Nat) (stop : Nat → Bool) (sched : Nat → List Nat)
    (init : String) (given : Option (Fin k → Row F n)) : Res (Result F k n) :=
  match Driver.getInit init with
  | .error e => .error e
  | .ok it =>
    if k < 1 then .error .assertFail
    else match runInit o rng data nrow nthreads it given with
      | .error e => .error e
      | .ok s =>
        match (if 0 < maxIters then loop o shared data nrow nthreads stop sched maxIters 1 s
          else .ok (s, 0)) with
        | .error e => .error e
        | .ok (s', iters) => .ok (result o nrow iters s')

end Knor.Gmm
