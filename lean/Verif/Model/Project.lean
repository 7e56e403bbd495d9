import Verif.Model.Score

/-!
# What the workers record for the decisions of x-means and g-means

Models the distances and projections that `xmeans::H_EM_step` and `gmeans::H_split_step` leave in
`partition_dist` and `nearest_cdist`, in exact arithmetic.
-/

namespace Knor.Score

open Knor Hclust Xmeans

variable {R D : Type _} {n : Nat}

/-- `linalg::dot` of two vectors, and the loop of `H_split_step`.
Models libkcommon/linalg.hpp:176-182 and libman/gmeans.cpp:53-55. -/
def dot [Zero R] [Add R] [Mul R] (x y : Row R n) : R := (List.finRange n).foldl (fun s j => s + x j * y j) 0

/-- The first `ncol` entries of `metadata`: the difference of the two centroids.
Models libman/gmeans_coordinator.cpp:187-190 and libkcommon/linalg.hpp:143-149. -/
def direction [Sub R] (nd : Node R n) : Row R n := fun j => nd.cl.means 0 j - nd.cl.means 1 j

/-- The body of `H_split_step`; `old` is the value that is there already.  If the two centroids are the same
the code stores 0/0, a NaN, which `linalg::scale` then converts to an `int`: the undefined behaviour is
attributed to this step.  Models libman/gmeans.cpp:41-57 and libman/gmeans_coordinator.cpp:192-194. -/
def projectRow [Zero R] [Add R] [Sub R] [Mul R] [Div R] [DecidableEq R] (c : Cfg R D n) (s : St R n)
    (r : Nat) (old : R) : Res R :=
  match VMap.flagsGet s.active (s.assign r) with
  | .error e => .error e
  | .ok false => .ok old
  | .ok true =>
    match s.hc (s.part r) with
    | none => .error .ub
    | some nd =>
      if dot (direction nd) (direction nd) = 0 then .error .ub
      else .ok (dot (c.data r) (direction nd) / dot (direction nd) (direction nd))

/-- `H_split_step` for a list of rows.  Every row writes its own entry only, so the interleaving of the workers
does not matter.  Models libman/gmeans.cpp:40-59. -/
def projectRows [Zero R] [Add R] [Sub R] [Mul R] [Div R] [DecidableEq R] (c : Cfg R D n) (s : St R n) :
    List Nat → (Nat → R) → Res (Nat → R)
  | [], cd => .ok cd
  | r :: rs, cd =>
    match projectRow c s r (cd r) with
    | .error e => .error e
    | .ok x => projectRows c s rs (Function.update cd r x)

/-- The decision of g-means: project, then test; `old` are the entries left from earlier rounds and `val` gives
the real number that an element of the scalar type stands for.
Models libman/gmeans_coordinator.cpp:246-252. -/
noncomputable def adDecide [Zero R] [Add R] [Sub R] [Mul R] [Div R] [DecidableEq R] (val : R → ℝ) (phi : ℝ → ℝ)
    (strict : Nat) (c : Cfg R D n) (old : Nat → R) (s : St R n) : Res (List Nat) :=
  match projectRows c s (List.range c.nrow) old with
  | .error e => .error e
  | .ok cd => adRejected phi strict c.nrow (fun r => val (cd r)) s

/-- `partition_dist` after the first iteration of a round: the distance to the mean of the row's partition.
Models libman/xmeans.cpp:98-103. -/
def partitionDist (c : Cfg R D n) (cl : Sparse R n) (part : Nat → Nat) (r : Nat) : D :=
  c.dist (c.data r) (cl.means (part r))

/-- `nearest_cdist` after one iteration that starts in state `s`: the distance of a row that is not skipped to
the side that it chooses.  Models libman/xmeans.cpp:105-130. -/
def recordRow [LT D] [DecidableLT D] (c : Cfg R D n) (s : St R n) (cd : Nat → D) (r : Nat) : D :=
  match choose c s r (s.assign r) with
  | .ok (some (nd, i)) => c.dist (c.data r) (nd.cl.means i)
  | _ => cd r

/-- The iterations of a round with `nearest_cdist`.
Models libman/xmeans_coordinator.cpp:284-299 and libman/xmeans.cpp:75-138. -/
def recordIters [Zero R] [Add R] [Div R] [NatCast R] [IntCast R] [LE R] [DecidableLE R]
    [LT D] [DecidableLT D] (c : Cfg R D n) (sched : Nat → List Nat) :
    List Nat → St R n → (Nat → D) → Res (St R n × (Nat → D))
  | [], s, cd => .ok (s, cd)
  | i :: l, s, cd =>
    match iteration c (sched i) s with
    | .error e => .error e
    | .ok s' => recordIters c sched l s' (recordRow c s cd)

end Knor.Score
