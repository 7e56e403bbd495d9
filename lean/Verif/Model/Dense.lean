import Mathlib.Algebra.Field.Defs
import Mathlib.Logic.Function.Basic
import Verif.Basic

/-!
# The dense matrix class (`knor::base::dense_matrix`) and vector helpers

Models libkcommon/dense_matrix.hpp and libkcommon/linalg.hpp:143-189.  The buffer `mat` is a list; reads
and writes outside of it are undefined behaviour.  Arithmetic is exact.  The loops marked
`omp parallel for` write disjoint rows; they are modelled in row order.  Nested loops over rows and
columns are one loop over the pairs in the same order.  `size_t` arithmetic does not wrap.
-/

namespace Knor.Dense

open Knor

variable {R σ α : Type _}

/-- Run `f` over a list from the left, stopping at the first fault.
Models the `for` loops of libkcommon/dense_matrix.hpp:80-387. -/
def forEach (f : σ → α → Res σ) : List α → σ → Res σ
  | [], s => .ok s
  | x :: l, s =>
    match f s x with
    | .error e => .error e
    | .ok s' => forEach f l s'

/-- A matrix object.  Models libkcommon/dense_matrix.hpp:38-43. -/
structure DM (R : Type _) where
  mat : List R
  nrow : Nat
  ncol : Nat
  deriving DecidableEq

/-- The index pairs of `for (row < nrow) for (col < ncol)`.
Models libkcommon/dense_matrix.hpp:105-106, 115-116, 133-134 and 139-140. -/
def cells (nrow ncol : Nat) : List (Nat × Nat) :=
  (List.range nrow).flatMap fun r => (List.range ncol).map fun c => (r, c)

/-- `v[i]` read.  Models the unchecked reads of libkcommon/dense_matrix.hpp:89-91. -/
def rd (v : List R) (i : Nat) : Res R :=
  match v[i]? with
  | none => .error .ub
  | some x => .ok x

/-- `v[i] = x`.  Models the unchecked writes of libkcommon/dense_matrix.hpp:93-95. -/
def wr (v : List R) (i : Nat) (x : R) : Res (List R) :=
  if i < v.length then .ok (v.set i x) else .error .ub

/-- `v[i] op= …`: `f` applied to the entry.  Models the unchecked updates of libkcommon/dense_matrix.hpp:203-205. -/
def upd (v : List R) (i : Nat) (f : R → Res R) : Res (List R) :=
  match rd v i with
  | .error e => .error e
  | .ok x =>
    match f x with
    | .error e => .error e
    | .ok y => wr v i y

/-- Constructor and `create(nrow, ncol, zeros)`: `assign` and `resize` both fill with zeros.
Models libkcommon/dense_matrix.hpp:50-65. -/
def create [Zero R] (nrow ncol : Nat) : DM R := ⟨List.replicate (nrow * ncol) 0, nrow, ncol⟩

/-- `get`.  Models libkcommon/dense_matrix.hpp:89-91. -/
def DM.get (m : DM R) (row col : Nat) : Res R := rd m.mat (row * m.ncol + col)

/-- `set(row, col, val)`.  Models libkcommon/dense_matrix.hpp:93-95. -/
def DM.set (m : DM R) (row col : Nat) (x : R) : Res (DM R) :=
  match wr m.mat (row * m.ncol + col) x with
  | .error e => .error e
  | .ok v => .ok { m with mat := v }

/-- `peq`.  Models libkcommon/dense_matrix.hpp:203-205. -/
def DM.peq [Add R] (m : DM R) (row col : Nat) (x : R) : Res (DM R) :=
  match upd m.mat (row * m.ncol + col) fun y => .ok (y + x) with
  | .error e => .error e
  | .ok v => .ok { m with mat := v }

/-- One element of the copy of `set_row`.  Models libkcommon/dense_matrix.hpp:85. -/
def setRowStep (m : DM R) (d : List R) (rid : Nat) (v : List R) (col : Nat) : Res (List R) :=
  match rd d col with
  | .error e => .error e
  | .ok x => wr v (rid * m.ncol + col) x

/-- `set_row`.  Models libkcommon/dense_matrix.hpp:84-86. -/
def DM.setRow (m : DM R) (d : List R) (rid : Nat) : Res (DM R) :=
  match forEach (setRowStep m d rid) (List.range m.ncol) m.mat with
  | .error e => .error e
  | .ok v => .ok { m with mat := v }

/-- The loop `for (row) for (col) acc[key] += mat[row*ncol+col]`.
Models libkcommon/dense_matrix.hpp:105-109, 115-119, 226-231 and 237-241. -/
def accumulate [Add R] (m : DM R) (key : Nat × Nat → Nat) (l : List (Nat × Nat)) (acc : List R) :
    Res (List R) :=
  forEach (fun acc p =>
    match m.get p.1 p.2 with
    | .error e => .error e
    | .ok x => upd acc (key p) fun y => .ok (y + x)) l acc

/-- `mean(mean, dim)`; other values of `dim` leave the vector as it is.
Models libkcommon/dense_matrix.hpp:100-124. -/
def DM.mean [Field R] (m : DM R) (old : List R) (dim : Nat) : Res (List R) :=
  if dim = 1 then
    match accumulate m Prod.snd (cells m.nrow m.ncol) (List.replicate m.ncol 0) with
    | .error e => .error e
    | .ok v => .ok (v.map (· / (m.nrow : R)))
  else if dim = 0 then
    match accumulate m Prod.fst (cells m.nrow m.ncol) (List.replicate m.nrow 0) with
    | .error e => .error e
    | .ok v => .ok (v.map (· / (m.ncol : R)))
  else .ok old

/-- In-place update of every cell; `f` may read another vector.
Models libkcommon/dense_matrix.hpp:133-137, 139-143, 266-270 and 272-276. -/
def eachCell (m : DM R) (f : Nat × Nat → R → Res R) : Res (DM R) :=
  match forEach (fun v p => upd v (p.1 * m.ncol + p.2) (f p)) (cells m.nrow m.ncol) m.mat with
  | .error e => .error e
  | .ok v => .ok { m with mat := v }

/-- `operator-(vector)`: the copy is updated in place.
Models libkcommon/dense_matrix.hpp:126-149. -/
def DM.minusVec [Sub R] (m : DM R) (v : List R) : Res (DM R) :=
  if m.nrow ≠ m.ncol then .error .assertFail
  else if v.length = m.nrow then
    eachCell m fun p x => match rd v p.1 with
      | .error e => .error e
      | .ok y => .ok (x - y)
  else if v.length = m.ncol then
    eachCell m fun p x => match rd v p.2 with
      | .error e => .error e
      | .ok y => .ok (x - y)
  else .error .throws

/-- Body of the loops of `operator*`.  Models libkcommon/dense_matrix.hpp:162-164. -/
def mulStep [Add R] [Mul R] (m other : DM R) (rp : List R) (q : Nat × Nat × Nat) : Res (List R) :=
  match rd m.mat (q.1 * m.ncol + q.2.1) with
  | .error e => .error e
  | .ok x =>
    match other.get q.2.1 q.2.2 with
    | .error e => .error e
    | .ok y => upd rp (q.1 * other.ncol + q.2.2) fun z => .ok (z + x * y)

/-- `operator*`: no check of the dimensions.  Models libkcommon/dense_matrix.hpp:151-169. -/
def DM.mul [Zero R] [Add R] [Mul R] (m other : DM R) : Res (DM R) :=
  match forEach (mulStep m other)
      ((List.range m.nrow).flatMap fun r => (cells other.nrow other.ncol).map fun p => (r, p))
      (create (R := R) m.nrow other.ncol).mat with
  | .error e => .error e
  | .ok v => .ok ⟨v, m.nrow, other.ncol⟩

/-- Body of the loops of `operator-`, `operator+` and `operator+=`.
Models libkcommon/dense_matrix.hpp:178-179, 190-191, 199-200. -/
def zipStep (other : DM R) (f : R → R → R) (v : List R) (i : Nat) : Res (List R) :=
  match rd other.mat i with
  | .error e => .error e
  | .ok y => upd v i fun x => .ok (f x y)

/-- The loop `for (i < nrow*ncol) rp[i] = f(mat[i], otherp[i])` into a fresh or the same buffer.
Models libkcommon/dense_matrix.hpp:172-180, 184-192 and 196-200. -/
def zipLoop (m other : DM R) (f : R → R → R) : Res (DM R) :=
  if m.nrow = other.nrow ∧ m.ncol = other.ncol then
    match forEach (zipStep other f) (List.range (m.nrow * m.ncol)) m.mat with
    | .error e => .error e
    | .ok v => .ok ⟨v, m.nrow, m.ncol⟩
  else .error .assertFail

/-- `operator-(matrix)`.  Models libkcommon/dense_matrix.hpp:171-181. -/
def DM.minus [Sub R] (m other : DM R) : Res (DM R) := zipLoop m other fun x y => x - y

/-- `operator+` and `operator+=`.  Models libkcommon/dense_matrix.hpp:183-201. -/
def DM.plus [Add R] (m other : DM R) : Res (DM R) := zipLoop m other fun x y => x + y

/-- `sum += f(v[i])`.  Models libkcommon/dense_matrix.hpp:210 and 250. -/
def sumStep [Add R] (v : List R) (f : R → R) (s : R) (i : Nat) : Res R :=
  match rd v i with
  | .error e => .error e
  | .ok x => .ok (s + f x)

/-- The sum of `f` of the entries, as computed by a loop over `i < nrow*ncol`.
Models libkcommon/dense_matrix.hpp:208-210 and 248-250. -/
def foldAll [Zero R] [Add R] (m : DM R) (f : R → R) : Res R :=
  forEach (sumStep m.mat f) (List.range (m.nrow * m.ncol)) 0

/-- `frobenius_norm`.  Models libkcommon/dense_matrix.hpp:207-212. -/
def DM.frobeniusNorm [Zero R] [Add R] [Mul R] (sqrt : R → R) (m : DM R) : Res R :=
  match foldAll m fun x => x * x with
  | .error e => .error e
  | .ok s => .ok (sqrt s)

/-- `sum()`.  Models libkcommon/dense_matrix.hpp:247-252. -/
def DM.sumAll [Zero R] [Add R] (m : DM R) : Res R := foldAll m id

/-- `sum(axis, res)`.  Axis 0 copies the first row before adding the others.
Models libkcommon/dense_matrix.hpp:218-245. -/
def DM.sumAxis [Zero R] [Add R] (m : DM R) (axis : Nat) : Res (List R) :=
  if axis = 0 then
    if m.ncol ≤ m.mat.length then
      accumulate m Prod.snd
        ((List.range' 1 (m.nrow - 1)).flatMap fun r => (List.range m.ncol).map fun c => (r, c))
        (m.mat.take m.ncol)
    else .error .ub
  else if axis = 1 then
    accumulate m Prod.fst (cells m.nrow m.ncol) (List.replicate m.nrow 0)
  else .error .throws

/-- `operator/=(val)`, `pow_eq(exp)`: every entry of the buffer.
Models libkcommon/dense_matrix.hpp:254-258, 330-333. -/
def mapAll (m : DM R) (f : R → R) : Res (DM R) :=
  match forEach (fun v i => upd v i fun x => .ok (f x)) (List.range (m.nrow * m.ncol)) m.mat with
  | .error e => .error e
  | .ok v => .ok { m with mat := v }

/-- `div_eq(v, axis)` (with `g` the identity) and `div_eq_pow(v, axis, exp)` (with `g` the power).
Models libkcommon/dense_matrix.hpp:283-327. -/
def DM.divEq [Div R] (m : DM R) (v : List R) (axis : Nat) (g : R → R) : Res (DM R) :=
  if axis = 0 ∧ v.length = m.ncol then
    eachCell m fun p x => match rd v p.2 with
      | .error e => .error e
      | .ok y => .ok (g (x / y))
  else if axis = 1 ∧ v.length = m.nrow then
    eachCell m fun p x => match rd v p.1 with
      | .error e => .error e
      | .ok y => .ok (g (x / y))
  else .error .throws

/-- `operator/=(vector)`.  Models libkcommon/dense_matrix.hpp:260-281. -/
def DM.divVec [Div R] (m : DM R) (v : List R) : Res (DM R) :=
  if m.nrow = m.ncol then .error .throws
  else if v.length = m.nrow then
    eachCell m fun p x => match rd v p.1 with
      | .error e => .error e
      | .ok y => .ok (x / y)
  else if v.length = m.ncol then
    eachCell m fun p x => match rd v p.2 with
      | .error e => .error e
      | .ok y => .ok (x / y)
  else .error .throws

/-- The comparison loop of `operator==`; it returns at the first difference.
Models libkcommon/dense_matrix.hpp:339-342. -/
def eqLoop [DecidableEq R] (a b : List R) : List Nat → Res Bool
  | [] => .ok true
  | i :: l =>
    match rd a i with
    | .error e => .error e
    | .ok x =>
      match rd b i with
      | .error e => .error e
      | .ok y => if x ≠ y then .ok false else eqLoop a b l

/-- `operator==`.  Models libkcommon/dense_matrix.hpp:335-344. -/
def DM.eq [DecidableEq R] (m other : DM R) : Res Bool :=
  if m.nrow ≠ other.nrow ∨ m.ncol ≠ other.ncol then .ok false
  else eqLoop m.mat other.mat (List.range (m.ncol * m.nrow))

/-- Body of the loops of `argmax`; the state holds `vals` and `idx` for every position.
Models libkcommon/dense_matrix.hpp:363-367, 377-381. -/
def argmaxStep [LT R] [DecidableLT R] (m : DM R) (key pos : Nat × Nat → Nat) (s : Nat → R × Nat)
    (p : Nat × Nat) : Res (Nat → R × Nat) :=
  match m.get p.1 p.2 with
  | .error e => .error e
  | .ok x => .ok (if (s (key p)).1 < x then Function.update s (key p) (x, pos p) else s)

/-- The loop of `argmax`.  Models libkcommon/dense_matrix.hpp:361-369, 375-383. -/
def argmaxLoop [LT R] [DecidableLT R] (m : DM R) (key pos : Nat × Nat → Nat)
    (l : List (Nat × Nat)) (s : Nat → R × Nat) : Res (Nat → R × Nat) :=
  forEach (argmaxStep m key pos) l s

/-- `argmax(axis, idx)`: axis 0 gives a column index for every row, axis 1 a row index for every
column; `dmin` is `std::numeric_limits<double>::min()`, the smallest *positive* normal number.
Models libkcommon/dense_matrix.hpp:353-387. -/
def DM.argmax [LT R] [DecidableLT R] (dmin : R) (m : DM R) (axis : Nat) : Res (List Nat) :=
  if axis = 0 then
    match argmaxLoop m Prod.fst Prod.snd (cells m.nrow m.ncol) (fun _ => (dmin, 0)) with
    | .error e => .error e
    | .ok s => .ok ((List.range m.nrow).map fun i => (s i).2)
  else if axis = 1 then
    match argmaxLoop m Prod.snd Prod.fst (cells m.nrow m.ncol) (fun _ => (dmin, 0)) with
    | .error e => .error e
    | .ok s => .ok ((List.range m.ncol).map fun i => (s i).2)
  else .error .throws

/-- Body of the loop of `vdiff`.  Models libkcommon/linalg.hpp:147-148. -/
def vdiffStep [Sub R] (left right v : List R) (i : Nat) : Res (List R) :=
  match rd left i with
  | .error e => .error e
  | .ok x =>
    match rd right i with
    | .error e => .error e
    | .ok y => wr v i (x - y)

/-- `linalg::vdiff(left, right, size, res)`: `res` is resized only if it is empty.
Models libkcommon/linalg.hpp:143-149. -/
def vdiff [Zero R] [Sub R] (left right : List R) (size : Nat) (res : List R) : Res (List R) :=
  forEach (vdiffStep left right) (List.range size)
    (if res.length = 0 then List.replicate size 0 else res)

/-- Body of the loops of `dot(v, mat, …)`.  Models libkcommon/linalg.hpp:165-168. -/
def vecMatStep [Add R] [Mul R] (v mat : List R) (ncol : Nat) (res : List R) (p : Nat × Nat) :
    Res (List R) :=
  match rd v p.1 with
  | .error e => .error e
  | .ok x =>
    match rd mat (p.1 * ncol + p.2) with
    | .error e => .error e
    | .ok y => upd res p.2 fun z => .ok (z + x * y)

/-- `linalg::dot(v, mat, nrow, ncol, res)`: row vector times matrix.
Models libkcommon/linalg.hpp:161-170. -/
def vecMat [Zero R] [Add R] [Mul R] (v mat : List R) (nrow ncol : Nat) : Res (List R) :=
  forEach (vecMatStep v mat ncol) (cells nrow ncol) (List.replicate ncol 0)

/-- Body of the loop of `dot(v1, v2, sz)`.  Models libkcommon/linalg.hpp:180-181. -/
def dotStep [Add R] [Mul R] (v w : List R) (s : R) (i : Nat) : Res R :=
  match rd v i with
  | .error e => .error e
  | .ok x =>
    match rd w i with
    | .error e => .error e
    | .ok y => .ok (s + x * y)

/-- `linalg::dot(v1, v2)` on vectors.  Models libkcommon/linalg.hpp:177-189. -/
def dotVec [Zero R] [Add R] [Mul R] (v w : List R) : Res R :=
  if v.length ≠ w.length then .error .assertFail
  else forEach (dotStep v w) (List.range v.length) 0

/-- `linalg::frobenius_norm(v, size)`.  Models libkcommon/linalg.hpp:151-159. -/
def normVec [Zero R] [Add R] [Mul R] (sqrt : R → R) (v : List R) : Res R :=
  match forEach (sumStep v fun x => x * x) (List.range v.length) 0 with
  | .error e => .error e
  | .ok s => .ok (sqrt s)

end Knor.Dense
