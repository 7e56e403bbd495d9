import Mathlib.Algebra.Field.Basic
import Mathlib.Data.List.FinRange
import Mathlib.Logic.Function.Basic
import Verif.Basic

/-!
# Cluster sums, counts and centroids (`kbase::clusters`)

Models libkcommon/clusters.hpp and libkcommon/clusters.cpp.  The row-major buffer
`means[c*ncol + j]` is a function of `(c, j)`; `num_members_v` (signed 64-bit `llong_t`) is an
unbounded integer.  The operations on `double` are the operations of a type `R` that need not obey any law;
theorems that hold only for exact arithmetic assume that `R` is a field, and those in Props/Repro.lean and
Props/Rounding.lean do not.
-/

namespace Knor

variable {R : Type _} {k n : Nat}

/-- A data row / centroid.  Models the `const double*` arguments of libkcommon/clusters.hpp:128 and 157. -/
abbrev Row (R : Type _) (n : Nat) := Fin n → R

/-- State of a `clusters` object.  Models libkcommon/clusters.hpp:42-49. -/
@[ext]
structure Clusters (R : Type _) (k n : Nat) where
  means : Fin k → Row R n
  num : Fin k → Int
  complete : Fin k → Bool

namespace Clusters

/-- `clusters::clear`, also the state after construction without means.
Models libkcommon/clusters.cpp:28-32 and 158-165. -/
def empty [Zero R] : Clusters R k n :=
  { means := fun _ _ => 0, num := fun _ => 0, complete := fun _ => false }

/-- `add_member`.  Models libkcommon/clusters.hpp:128-134. -/
def addMember [Add R] (s : Clusters R k n) (x : Row R n) (c : Fin k) : Clusters R k n :=
  { s with
    means := Function.update s.means c (fun j => s.means c j + x j)
    num := Function.update s.num c (s.num c + 1) }

/-- `remove_member`.  Models libkcommon/clusters.hpp:156-163. -/
def removeMember [Sub R] (s : Clusters R k n) (x : Row R n) (c : Fin k) : Clusters R k n :=
  { s with
    means := Function.update s.means c (fun j => s.means c j - x j)
    num := Function.update s.num c (s.num c - 1) }

/-- `swap_membership`.  Models libkcommon/clusters.hpp:165-170. -/
def swapMembership [Add R] [Sub R] (s : Clusters R k n) (x : Row R n) (src dst : Fin k) :
    Clusters R k n :=
  (s.removeMember x src).addMember x dst

/-- `peq` / `operator+=`: adds sums and counts, leaves the completion flags alone.
Models libkcommon/clusters.cpp:111-127. -/
def peq [Add R] (s rhs : Clusters R k n) : Clusters R k n :=
  { s with
    means := fun c j => s.means c j + rhs.means c j
    num := fun c => s.num c + rhs.num c }

/-- `finalize`: divide by the count unless already done or the count is below 2.
Models libkcommon/clusters.cpp:55-66. -/
def finalize [Div R] [IntCast R] (s : Clusters R k n) (c : Fin k) : Clusters R k n :=
  if s.complete c then s
  else
    { s with
      means := Function.update s.means c
        (if s.num c > 1 then fun j => s.means c j / (s.num c : R) else s.means c)
      complete := Function.update s.complete c true }

/-- `unfinalize`: multiply by the count unless not finalised or the count is below 2.
Models libkcommon/clusters.cpp:68-79. -/
def unfinalize [Mul R] [IntCast R] (s : Clusters R k n) (c : Fin k) : Clusters R k n :=
  if !s.complete c then s
  else
    { s with
      means := Function.update s.means c
        (if s.num c < 2 then s.means c else fun j => s.means c j * (s.num c : R))
      complete := Function.update s.complete c false }

/-- `finalize_all`.  Models libkcommon/clusters.cpp:81-84. -/
def finalizeAll [Div R] [IntCast R] (s : Clusters R k n) : Clusters R k n :=
  (List.finRange k).foldl finalize s

/-- `unfinalize_all`.  Models libkcommon/clusters.cpp:86-89. -/
def unfinalizeAll [Mul R] [IntCast R] (s : Clusters R k n) : Clusters R k n :=
  (List.finRange k).foldl unfinalize s

/-- `set_mean(ptr, idx)` for one centroid.  Models libkcommon/clusters.cpp:45-53. -/
def setMean (s : Clusters R k n) (x : Row R n) (c : Fin k) : Clusters R k n :=
  { s with means := Function.update s.means c x }

/-- `set_mean(ptr)` for all centroids.  Models libkcommon/clusters.cpp:45-50. -/
def setMeans (s : Clusters R k n) (m : Fin k → Row R n) : Clusters R k n :=
  { s with means := m }

/-- `set_num_members_v`.  Models libkcommon/clusters.cpp:91-93. -/
def setNum (s : Clusters R k n) (v : Fin k → Int) : Clusters R k n :=
  { s with num := v }

/-- `set_complete_all`.  Models libkcommon/clusters.hpp:102-105. -/
def setCompleteAll (s : Clusters R k n) : Clusters R k n :=
  { s with complete := fun _ => true }

/-- `scale_centroid`: `mean := (1-factor)*mean + factor*member`.
Models libkcommon/clusters.cpp:192-199. -/
def scaleCentroid [One R] [Sub R] [Add R] [Mul R] (s : Clusters R k n) (factor : R) (c : Fin k) (x : Row R n) :
    Clusters R k n :=
  { s with
    means := Function.update s.means c (fun j => (1 - factor) * s.means c j + factor * x j) }

end Clusters

end Knor
