import Mathlib.Logic.Function.Basic
import Verif.Basic

/-!
# `get_bic` and `spherical_projection`

The two functions over whole data sets in libkcommon/util.cpp.  Both have a `#pragma omp parallel for`: `owner i` is the
thread of the team that the runtime gives iteration `i` to, which is arbitrary.
-/

namespace Knor.DataUtil

open Knor

variable {R : Type _}

/-- The private sum of one thread of the reduction.  Models libkcommon/util.cpp:43-47. -/
def privateSum [Zero R] [Add R] (d : List R) (owner : Nat → Nat) (t : Nat) : R :=
  ((List.range d.length).filter fun i => owner i = t).foldl (fun s i => s + d.getD i 0) 0

/-- `get_bic` with the logarithm as parameter.  The private sums are added to the original variable, which is 0, in the
order `order` in which the threads end.  The loop counter is 32 bits wide: for longer vectors the loop has no end and no
effect, which is undefined.  Models libkcommon/util.cpp:38-53. -/
def getBic [Zero R] [Add R] [Mul R] [NatCast R] (log : R → R) (d : List R) (nrow ncol k : Nat) (owner : Nat → Nat)
    (order : List Nat) : Res R :=
  if 2 ^ 32 ≤ d.length then .error .ub
  else
    let bic := order.foldl (fun s t => s + privateSum d owner t) 0
    .ok (((2 : Nat) : R) * bic + log (nrow : R) * (ncol : R) * (k : R))

/-- The memory accesses of one iteration of `spherical_projection`: `norm2 = 0`, `norm2 += data[row]*data[row]`, and
reading and writing `data[col]`.  Models libkcommon/util.cpp:61-65. -/
inductive Op where
  | start
  | sq (row : Nat)
  | load (col : Nat)
  | store (col : Nat)

/-- The accesses of the iteration for `row`, in order.  Models libkcommon/util.cpp:61-65. -/
def rowOps (ncol row : Nat) : List Op :=
  Op.start :: (List.replicate ncol (Op.sq row) ++ (List.range ncol).flatMap fun c => [Op.load c, Op.store c])

/-- A thread: `norm2`, the number read from `data[col]`, and what is left to do.  Models libkcommon/util.cpp:60-66. -/
structure Thd (R : Type _) where
  norm : R
  tmp : R
  todo : List Op

/-- The data and the team.  Models libkcommon/util.cpp:58-66. -/
structure Team (R : Type _) where
  data : List R
  thd : Nat → Thd R

/-- One access on the data and the variables of the thread that makes it; an access outside is undefined.
Models libkcommon/util.cpp:61-65. -/
def access [Zero R] [Add R] [Mul R] [Div R] (sqrt : R → R) (data : List R) (norm tmp : R) : Op → Res (List R × R × R)
  | .start => .ok (data, 0, tmp)
  | .sq row =>
    match data[row]? with
    | none => .error .ub
    | some x => .ok (data, norm + x * x, tmp)
  | .load col =>
    match data[col]? with
    | none => .error .ub
    | some x => .ok (data, norm, x)
  | .store col => if col < data.length then .ok (data.set col (tmp / sqrt norm), norm, tmp) else .error .ub

/-- Thread `t` makes its next access.  Models libkcommon/util.cpp:60-66. -/
def step [Zero R] [Add R] [Mul R] [Div R] (sqrt : R → R) (s : Team R) (t : Nat) : Res (Team R) :=
  match (s.thd t).todo with
  | [] => .ok s
  | op :: l =>
    match access sqrt s.data (s.thd t).norm (s.thd t).tmp op with
    | .error e => .error e
    | .ok (d, nm, tp) => .ok { data := d, thd := Function.update s.thd t ⟨nm, tp, l⟩ }

/-- The team follows a schedule.  Models libkcommon/util.cpp:58-66. -/
def runTeam [Zero R] [Add R] [Mul R] [Div R] (sqrt : R → R) : Team R → List Nat → Res (Team R)
  | s, [] => .ok s
  | s, t :: ts =>
    match step sqrt s t with
    | .error e => .error e
    | .ok s' => runTeam sqrt s' ts

/-- `spherical_projection` of `nrow` rows of `ncol` numbers with a team that follows `sched`.
Models libkcommon/util.cpp:55-67. -/
def sphericalProjection [Zero R] [Add R] [Mul R] [Div R] (sqrt : R → R) (data : List R) (nrow ncol : Nat)
    (owner : Nat → Nat) (sched : List Nat) : Res (Team R) :=
  runTeam sqrt
    { data := data
      thd := fun t => ⟨0, 0, ((List.range nrow).filter fun r => owner r = t).flatMap (rowOps ncol)⟩ } sched

end Knor.DataUtil
