import Verif.Model.Io

/-!
# Comparing and filling results

`check_collection_equal`, which all release tests use to compare results, `gmm_t::operator==` and
`cluster_t::set_computed`.
-/

namespace Knor.Compare

open Knor Knor.Io

variable {R : Type _}

/-- The loop of `check_collection_equal` and the test of the lengths after it, in the arithmetic of the type `T` of the
tolerance.  The second iterator is not compared with its end inside the loop: dereferencing it there is undefined
behaviour.  Models libkcommon/util.hpp:263-283. -/
def checkLoop [Sub R] [Mul R] [Div R] [OfNat R 2] [LT R] [DecidableLT R] (tol : R) (checkAll : Bool) :
    List R → List R → Bool → Res Bool
  | [], [], allEq => .ok allEq
  | [], _ :: _, _ => .ok false
  | _ :: _, [], _ => .error .ub
  | x :: xs, y :: ys, allEq =>
    if tol < (x - y) * (x - y) / 2 then
      if checkAll then checkLoop tol checkAll xs ys false else .ok false
    else checkLoop tol checkAll xs ys allEq

/-- `check_collection_equal`.  Models libkcommon/util.hpp:258-284. -/
def checkEqual [Sub R] [Mul R] [Div R] [OfNat R 2] [LT R] [DecidableLT R] (xs ys : List R) (tol : R)
    (checkAll : Bool) : Res Bool :=
  checkLoop tol checkAll xs ys true

/-- A `gmm_t`.  Models libkcommon/types.hpp:78-84. -/
structure GmmT (R : Type _) where
  nrow : Nat
  ncol : Nat
  iters : Nat
  k : Nat
  means : List R
  cov : List (List R)
  resp : List R
  prob : List R
  deriving DecidableEq

/-- The loop over the covariance matrices; a missing one in the other object is undefined behaviour.
Models libkcommon/types.cpp:202-204. -/
def covLoop [DecidableEq R] : List (List R) → List (List R) → Res Bool
  | [], _ => .ok true
  | _ :: _, [] => .error .ub
  | x :: xs, y :: ys =>
    match vEq x y with
    | .error e => .error e
    | .ok false => .ok false
    | .ok true => covLoop xs ys

/-- `a && b` where evaluating `b` may be undefined.  Models libkcommon/types.cpp:206-210. -/
def andThen (a : Res Bool) (b : Res Bool) : Res Bool :=
  match a with
  | .error e => .error e
  | .ok false => .ok false
  | .ok true => b

/-- `gmm_t::operator==`.  Models libkcommon/types.cpp:200-211. -/
def GmmT.eq [DecidableEq R] (x y : GmmT R) : Res Bool :=
  andThen (covLoop x.cov y.cov)
    (andThen (.ok (decide (x.nrow = y.nrow ∧ x.ncol = y.ncol ∧ x.iters = y.iters ∧ x.k = y.k)))
      (andThen (vEq x.means y.means) (andThen (vEq x.resp y.resp) (vEq x.prob y.prob))))

/-- `set_params`.  Models libkcommon/types.hpp:59-65. -/
def setParams (x : ClusterT R) (nrow ncol iters k : Nat) : ClusterT R :=
  { x with nrow := nrow, ncol := ncol, iters := iters, k := k }

/-- `set_computed`: the buffers are read as far as the object's sizes say.  Models libkcommon/types.cpp:74-87. -/
def setComputed (x : ClusterT R) (asgBuf cntBuf : List Nat) (centroids : List R) : Res (ClusterT R) :=
  if x.k = 0 then .error .assertFail
  else if x.nrow = 0 then .error .assertFail
  else if asgBuf.length < x.nrow ∨ cntBuf.length < x.k then .error .ub
  else .ok { x with assignments := asgBuf.take x.nrow, counts := cntBuf.take x.k, centroids := centroids }

end Knor.Compare
