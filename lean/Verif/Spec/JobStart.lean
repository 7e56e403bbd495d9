import Verif.Model.DistrDriver
import Verif.Spec.Start

/-!
# Specification: what a distributed k-means job returns
-/

namespace Knor.Spec

open Knor.Driver

variable {R D S : Type _} {k n : Nat}

/-- `res` is the state of the run `tr` after iteration `res.iters`, which is the first one in which no row, or at
most the fraction `tol`, changed, or the last one that is allowed. -/
structure JobEnds [Field R] [LinearOrder R] (N : Nat) (tol : R) (maxIters : Nat) (tr : Nat → Snap R k n)
    (res : JobResult R k n) : Prop where
  pos : 1 ≤ res.iters
  le : res.iters ≤ maxIters
  first : ∀ j, 1 ≤ j → j < res.iters → ¬ StopsAt N tol tr j
  stops : StopsAt N tol tr res.iters ∨ res.iters = maxIters
  assign : ∀ r, r < N → res.assign r = (tr res.iters).assign r
  means : res.means = (tr res.iters).cents
  sizes : ∀ c, res.sizes c = (Spec.count N (tr res.iters).assign c : Int)

/-- What the unpruned job promises: the result of Lloyd's algorithm on the rows `data` with the distance `dist`,
started where the initialisation `it` says; with no iteration allowed, the start itself. -/
def DeliversJob [Field R] [LinearOrder R] (it : InitT) (dist : (Fin n → R) → (Fin n → R) → R)
    (data : Nat → Fin n → R) (N : Nat) (rng : Rng R S k) (given : Option (Fin k → Fin n → R)) (tol : R)
    (maxIters : Nat) (res : JobResult R k n) : Prop :=
  ∃ c0, StartsAt it dist data N rng given c0 ∧
    (maxIters = 0 → res.iters = 0 ∧ res.means = c0) ∧
    (0 < maxIters → ∀ tr, LloydTrace dist N data c0 tr → JobEnds N tol maxIters tr res)

/-- What the pruned job delivers; `eucl` says whether the metric is the Euclidean one.  With no iteration allowed the
start itself; otherwise a partition of the rows with its sizes and means; with one iteration every row in a nearest
cluster of the start; and under the Euclidean metric the result of Lloyd's algorithm, ties broken in some way. -/
def DeliversJobPruned [Field R] [LinearOrder R] (it : InitT) (dist : (Fin n → R) → (Fin n → R) → R) (eucl : Prop)
    (data : Nat → Fin n → R) (N : Nat) (rng : Rng R S k) (given : Option (Fin k → Fin n → R)) (tol : R)
    (maxIters : Nat) (res : JobResult R k n) : Prop :=
  ∃ c0, StartsAt it dist data N rng given c0 ∧
    (maxIters = 0 → res.iters = 0 ∧ res.means = c0) ∧
    (0 < maxIters → (∀ r, r < N → ∃ c, res.assign r = some c) ∧
      (∀ c, res.sizes c = (Spec.count N res.assign c : Int)) ∧
      ∀ c j, res.means c j = memberMean N data res.assign c j) ∧
    (maxIters = 1 → ∀ r, r < N → ∃ c, res.assign r = some c ∧ IsNearest (fun c => dist (data r) (c0 c)) c) ∧
    (0 < maxIters → eucl → ∃ tr, LloydRunAnyTie dist N data c0 res.iters tr ∧ JobEnds N tol maxIters tr res)

/-- The initialisation that the options of `knord` leave: the last of them decides, and a file of centres stands for
`none`. -/
def lastInit {B : Type _} (opts : List (StartOpt B)) : String :=
  match opts.getLast? with
  | none => "kmeanspp"
  | some (.init s) => s
  | some (.centers _) => "none"

/-- The files of centres that are named, in order. -/
def centerFiles {B : Type _} (opts : List (StartOpt B)) : List (Option (List B)) :=
  opts.filterMap fun | .init _ => none | .centers f => some f

end Knor.Spec
