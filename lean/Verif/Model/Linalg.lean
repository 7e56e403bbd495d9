import Mathlib.Algebra.Field.Basic
import Mathlib.Algebra.Order.Floor.Defs
import Mathlib.Algebra.Order.Floor.Ring
import Verif.Basic

/-!
# Dense linear algebra (`kbase::linalg`)

Models libkcommon/linalg.hpp.  A buffer is a function from indices to values (`double` arithmetic is
exact); buffers are assumed large enough.  `getCofactor` takes its row and its dimension as `double`,
here they are natural numbers.
-/

namespace Knor.Linalg

open Knor

variable {R : Type _}

/-- Local variables of `getCofactor`.  Models libkcommon/linalg.hpp:33-34. -/
structure Cof (R : Type _) where
  i : Nat
  j : Nat
  temp : Nat → R

/-- Body of the inner loop.  Models libkcommon/linalg.hpp:41-50. -/
def cofCell (A : Nat → R) (p q n N row : Nat) (s : Cof R) (col : Nat) : Cof R :=
  if row ≠ p ∧ col ≠ q then
    let temp := Function.update s.temp (s.i * N + s.j) (A (row * N + col))
    let j := s.j + 1
    if j = n - 1 then ⟨s.i + 1, 0, temp⟩ else ⟨s.i, j, temp⟩
  else s

/-- `getCofactor`: the new contents of `temp`.  Models libkcommon/linalg.hpp:32-53. -/
def getCofactor (A temp : Nat → R) (p q n N : Nat) : Nat → R :=
  ((List.range n).foldl (fun s row => (List.range n).foldl (cofCell A p q n N row) s)
    ⟨0, 0, temp⟩).temp

/-- Local variables of `determinant`.  Models libkcommon/linalg.hpp:65-76. -/
structure DetSt (R : Type _) where
  D : R
  sign : R
  temp : Nat → R

/-- `determinant(A, n, N)`.  Models libkcommon/linalg.hpp:64-86. -/
def determinant [Ring R] (N : Nat) : Nat → (Nat → R) → R
  | 0, _ => 0
  | 1, A => A 0
  | n + 2, A =>
    ((List.range (n + 2)).foldl (fun (s : DetSt R) f =>
      let temp := getCofactor A s.temp 0 f (n + 2) N
      ⟨s.D + s.sign * A f * determinant N (n + 1) temp, -s.sign, temp⟩) ⟨0, 1, fun _ => 0⟩).D

/-- Local variables of `adjoint`: the output and the scratch matrix.  Models libkcommon/linalg.hpp:97-106. -/
structure AdjSt (R : Type _) where
  adj : Nat → R
  temp : Nat → R

/-- `adjoint(A, adj, N)`; `sign` is never changed.  Models libkcommon/linalg.hpp:97-119. -/
def adjoint [Ring R] (N : Nat) (A adj : Nat → R) : Nat → R :=
  if N = 1 then Function.update adj 0 1
  else
    let sign : R := 1
    ((List.range N).foldl (fun s i => (List.range N).foldl (fun (s : AdjSt R) j =>
      let temp := getCofactor A s.temp i j N N
      ⟨Function.update s.adj (j * N + i) (sign * determinant N (N - 1) temp), temp⟩) s)
      ⟨adj, fun _ => 0⟩).adj

/-- `inverse(A, inverse, N)`: `none` if it reports a singular matrix, else the contents of the output.
Models libkcommon/linalg.hpp:123-141. -/
def inverse [Field R] [DecidableEq R] (N : Nat) (A out : Nat → R) : Option (Nat → R) :=
  let det := determinant N N A
  if det = 0 then none
  else
    let adj := adjoint N A fun _ => 0
    some ((List.range N).foldl (fun o i => (List.range N).foldl
      (fun o j => Function.update o (i * N + j) (adj (i * N + j) / det)) o) out)

/-! ## Standardising a vector -/

/-- Conversion of a `double` to `int`: towards zero.  Models the conversion in libkcommon/linalg.hpp:198. -/
def trunc [Ring R] [LinearOrder R] [FloorRing R] (x : R) : Int := if 0 ≤ x then ⌊x⌋ else ⌈x⌉

/-- `std::accumulate(v, v+sz, 0)`: the accumulator has the type of the `0`, which is `int`, so every
partial sum is converted to `int`; out of range that is undefined.
Models libkcommon/linalg.hpp:198. -/
def accumulateInt [Ring R] [LinearOrder R] [FloorRing R] : List R → Int → Res Int
  | [], acc => .ok acc
  | x :: l, acc =>
    let t := trunc ((acc : R) + x)
    if -2147483648 ≤ t ∧ t ≤ 2147483647 then accumulateInt l t else .error .ub

/-- `scale(v, sz)`.  Models libkcommon/linalg.hpp:196-214. -/
def scale [Field R] [LinearOrder R] [FloorRing R] (sqrt : R → R) (v : List R) : Res (List R) :=
  match accumulateInt v 0 with
  | .error e => .error e
  | .ok sum =>
    let mean : R := (sum : R) / (v.length : R)
    let sq := v.foldl (fun s x => s + (x - mean) * (x - mean)) 0
    let stddev := sqrt (sq / (v.length : R))
    if stddev = 0 then .error .assertFail else .ok (v.map fun x => (x - mean) / stddev)

end Knor.Linalg
