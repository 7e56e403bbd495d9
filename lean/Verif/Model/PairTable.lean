import Verif.Model.DistMatrix
import Verif.Model.DistAny

/-!
# The table of all pairwise distances of the rows

`dist_matrix::compute_pairwise_dist`, `pw_get` and `get_min_dist`.  The loop nest is inside `#pragma omp parallel`
without a `for`: every thread of the team runs all of it and writes all cells, in any interleaving.  One step is one
iteration of the inner loop: two threads may write the same cell, but a cell is one aligned `double`, whose stores
are taken to be atomic.
-/

namespace Knor.PairTable

open Knor Knor.Dist

variable {R D : Type _} {n : Nat}

/-- The three running sums of `cos_dist`, in any arithmetic.  Models libkcommon/util.hpp:117-128. -/
def cosSumsAny [Zero R] [Add R] [Mul R] (x y : Row R n) : R × R × R :=
  (List.finRange n).foldl
    (fun s col => (s.1 + x col * y col, s.2.1 + x col * x col, s.2.2 + y col * y col)) (0, 0, 0)

/-- `cos_dist`, in any arithmetic, with `std::sqrt` as parameter.  Models libkcommon/util.hpp:114-130. -/
def cosAny [Zero R] [One R] [Add R] [Sub R] [Mul R] [Div R] (sqrt : R → R) (x y : Row R n) : R :=
  let s := cosSumsAny x y
  1 - s.1 / (sqrt s.2.1 * sqrt s.2.2)

/-- The `switch` on the metric.  Models libkcommon/dist_matrix.cpp:131-157. -/
def cellDist [Zero R] [One R] [Add R] [Sub R] [Mul R] [Div R] (sqrt abs : R → R) (metric : Metric) (x y : Row R n) :
    Res R :=
  match metric with
  | .eucl => .ok (euclAny sqrt x y)
  | .cos => .ok (cosAny sqrt x y)
  | .taxi => .ok (taxiAny abs x y)
  | .sqeucl => .error .throws

/-- The table shared by the team and what each thread still has to do.
Models libkcommon/dist_matrix.cpp:126-130. -/
structure Team (D : Type _) where
  m : DistMatrix D
  todo : Nat → List (Nat × Nat)

/-- The iterations of the loop nest, in order; `rows` is the member, one less than the number of data rows.
Models libkcommon/dist_matrix.cpp:129-130. -/
def iters (rows : Nat) : List (Nat × Nat) :=
  (List.range rows).flatMap fun i => (List.range (rows - i)).map fun d => (i, i + 1 + d)

/-- Thread `t` runs its next iteration (nothing if it has finished): it computes the distance of rows `i` and `j` and
stores it with `set`, whose arguments are converted to `unsigned`; reading a data row outside the buffer is undefined.
Models libkcommon/dist_matrix.cpp:131-157. -/
def step (dist : Row R n → Row R n → Res D) (data : List (Row R n)) (s : Team D) (t : Nat) : Res (Team D) :=
  match s.todo t with
  | [] => .ok s
  | (i, j) :: l =>
    match data[i]?, data[j]? with
    | some x, some y =>
      match dist x y with
      | .error e => .error e
      | .ok d =>
        match s.m.set (u32 i) (u32 j) d with
        | .error e => .error e
        | .ok m' => .ok { m := m', todo := Function.update s.todo t l }
    | _, _ => .error .ub

/-- The team follows a schedule: the list of threads in the order of their steps.
Models libkcommon/dist_matrix.cpp:126-130. -/
def runTeam (dist : Row R n → Row R n → Res D) (data : List (Row R n)) : Team D → List Nat → Res (Team D)
  | s, [] => .ok s
  | s, t :: ts =>
    match step dist data s t with
    | .error e => .error e
    | .ok s' => runTeam dist data s' ts

/-- `compute_pairwise_dist` with a team of threads following `sched`.  Models libkcommon/dist_matrix.cpp:124-160. -/
def computePairwise [Zero R] [One R] [Add R] [Sub R] [Mul R] [Div R] (sqrt abs : R → R) (metric : Metric)
    (data : List (Row R n)) (m : DistMatrix R) (sched : List Nat) : Res (Team R) :=
  runTeam (cellDist sqrt abs metric) data { m := m, todo := fun _ => iters m.rows } sched

/-- `pw_get`: no assertions; an index outside the vectors is undefined behaviour.
Models libkcommon/dist_matrix.hpp:75-80. -/
def pwGet [Zero D] (m : DistMatrix D) (row col : Nat) : Res D :=
  let look (a b : Nat) : Res D :=
    match m.mat[a]? with
    | none => .error .ub
    | some l =>
      match l[b]? with
      | none => .error .ub
      | some v => .ok v
  if row < col then look row (col - row - 1)
  else if col < row then look col (row - col - 1)
  else .ok 0

/-- The loop of `get_min_dist` over the columns `cols`.  Models libkcommon/dist_matrix.cpp:61-66. -/
def minLoop [LT D] [DecidableLT D] (big : D) (m : DistMatrix D) (row : Nat) : List Nat → D → Res D
  | [], best => .ok best
  | col :: l, best =>
    if col ≠ row then
      match m.get big row col with
      | .error e => .error e
      | .ok val => minLoop big m row l (if val < best then val else best)
    else minLoop big m row l best

/-- `get_min_dist`.  Models libkcommon/dist_matrix.cpp:59-69. -/
def getMinDist [LT D] [DecidableLT D] (big : D) (m : DistMatrix D) (row : Nat) : Res D :=
  match minLoop big m row (List.range (m.rows + 1)) big with
  | .error e => .error e
  | .ok best => if best < big then .ok best else .error .assertFail

end Knor.PairTable
