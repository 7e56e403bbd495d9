import Mathlib.Data.List.FinRange
import Mathlib.Algebra.Field.Basic
import Verif.Model.Clusters

/-!
# The triangular table of half centroid distances (`knor::prune::dist_matrix`)

Models libkcommon/dist_matrix.cpp.  `big` stands for `std::numeric_limits<double>::max()`.
-/

namespace Knor

variable {R D : Type _} {k n : Nat}

/-- Members of `dist_matrix`: `rows` (one less than the number of clusters) and the triangular
`mat`.  Models libkcommon/dist_matrix.hpp:43-46. -/
structure DistMatrix (D : Type _) where
  rows : Nat
  mat : List (List D)
  deriving DecidableEq

namespace DistMatrix

/-- Constructor: asserts `rows > 1`; row `i` gets `rows - 1 - i` entries.
Models libkcommon/dist_matrix.cpp:30-40. -/
def create (big : D) (k : Nat) : Res (DistMatrix D) :=
  if 1 < k then
    .ok { rows := k - 1, mat := (List.range (k - 1)).map fun i => List.replicate (k - 1 - i) big }
  else .error .assertFail

/-- `translate`: order the pair, then shift the column.  Called with `row ≠ col` only, so the
`unsigned` subtraction does not wrap.  Models libkcommon/dist_matrix.cpp:42-49. -/
def translate (m : DistMatrix D) (row col : Nat) : Res (Nat × Nat) :=
  let p := if col < row then (col, row) else (row, col)
  if p.1 < m.rows then
    let c := p.2 - p.1 - 1
    if c < m.rows - p.1 then .ok (p.1, c) else .error .assertFail
  else .error .assertFail

/-- `get`.  An index outside the vectors would be undefined behaviour.
Models libkcommon/dist_matrix.cpp:52-56. -/
def get (big : D) (m : DistMatrix D) (row col : Nat) : Res D :=
  if row = col then .ok big
  else
    match m.translate row col with
    | .error e => .error e
    | .ok (r, c) =>
      match m.mat[r]? with
      | none => .error .ub
      | some l =>
        match l[c]? with
        | none => .error .ub
        | some v => .ok v

/-- `set`.  Models libkcommon/dist_matrix.cpp:72-76. -/
def set (m : DistMatrix D) (row col : Nat) (v : D) : Res (DistMatrix D) :=
  if row = col then .error .assertFail
  else
    match m.translate row col with
    | .error e => .error e
    | .ok (r, c) =>
      match m.mat[r]? with
      | none => .error .ub
      | some l =>
        if c < l.length then .ok { m with mat := m.mat.set r (l.set c v) } else .error .ub

/-- The iterations of the double loop `for i < k, for i < j < k`, in order.
Models libkcommon/dist_matrix.cpp:96-97. -/
def pairs (k : Nat) : List (Fin k × Fin k) :=
  (List.finRange k).flatMap fun i => ((List.finRange k).filter (i < ·)).map fun j => (i, j)

/-- Body of the double loop: store half the distance, lower both s-values.
Models libkcommon/dist_matrix.cpp:98-110. -/
def computeLoop [Div D] [NatCast D] [LT D] [DecidableLT D] (eucl : Row R n → Row R n → D)
    (cents : Fin k → Row R n) :
    List (Fin k × Fin k) → DistMatrix D × (Fin k → D) → Res (DistMatrix D × (Fin k → D))
  | [], st => .ok st
  | (i, j) :: l, (m, sv) =>
    let d := eucl (cents i) (cents j) / 2
    match m.set i.val j.val d with
    | .error e => .error e
    | .ok m' =>
      let sv1 := if d < sv i then Function.update sv i d else sv
      let sv2 := if d < sv1 j then Function.update sv1 j d else sv1
      computeLoop eucl cents l (m', sv2)

/-- `compute_dist`.  Models libkcommon/dist_matrix.cpp:87-120 (`reset_s_val_v` is
libkcommon/clusters.cpp:202-205). -/
def computeDist [Div D] [NatCast D] [LT D] [DecidableLT D] (big : D) (eucl : Row R n → Row R n → D)
    (cents : Fin k → Row R n) (m : DistMatrix D) (sv : Fin k → D) :
    Res (DistMatrix D × (Fin k → D)) :=
  if k ≤ 1 then .ok (m, sv)
  else if m.rows ≠ k - 1 then .error .assertFail
  else computeLoop eucl cents (pairs k) (m, fun _ => big)

end DistMatrix

end Knor
