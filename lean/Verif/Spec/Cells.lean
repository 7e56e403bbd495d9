import Mathlib.Algebra.Field.Basic
import Mathlib.Logic.Function.Basic

/-!
# Specification: a container of clusters

Independent of how the numbers are stored: a container of `k` clusters over `n` columns has one cell per cluster, and
every call changes only the cells it names.
-/

namespace Knor.Spec

variable {R : Type _} {k n : Nat}

/-- What the container knows of one cluster: a sum or mean, the number of members, and whether the sum has been
divided by that number. -/
@[ext]
structure Cell (R : Type _) (n : Nat) where
  sum : Fin n → R
  cnt : Int
  done : Bool

namespace Cell

/-- A cluster without members. -/
def zero [Zero R] : Cell R n := ⟨fun _ => 0, 0, false⟩

/-- One more member. -/
def add [Add R] (s : Cell R n) (x : Fin n → R) : Cell R n := ⟨fun j => s.sum j + x j, s.cnt + 1, s.done⟩

/-- One member less. -/
def remove [Sub R] (s : Cell R n) (x : Fin n → R) : Cell R n := ⟨fun j => s.sum j - x j, s.cnt + -1, s.done⟩

/-- From sum to mean; a sum of fewer than two members is its own mean. -/
def finalize [Div R] [IntCast R] (s : Cell R n) : Cell R n :=
  if s.done then s else ⟨fun j => if s.cnt > 1 then s.sum j / (s.cnt : R) else s.sum j, s.cnt, true⟩

/-- From mean to sum. -/
def unfinalize [Mul R] [IntCast R] (s : Cell R n) : Cell R n :=
  if s.done then ⟨fun j => if s.cnt < 2 then s.sum j else s.sum j * (s.cnt : R), s.cnt, false⟩ else s

/-- Sums and counts of two cells. -/
def plus [Add R] (s t : Cell R n) : Cell R n := ⟨fun j => s.sum j + t.sum j, s.cnt + t.cnt, s.done⟩

end Cell

/-- The calls that change a container; rows have `n` numbers.  `…It` are the versions that read the row from an
iterator, `setMeanVec` and `setMean` take the row as a vector and as a pointer. -/
inductive Call (R : Type _) (k n : Nat) where
  | add (x : Fin n → R) (c : Fin k)
  | addIt (x : Fin n → R) (c : Fin k)
  | remove (x : Fin n → R) (c : Fin k)
  | removeIt (x : Fin n → R) (c : Fin k)
  | swap (x : Fin n → R) (a b : Fin k)
  | swapIt (x : Fin n → R) (a b : Fin k)
  | setMean (x : Fin n → R) (c : Fin k)
  | setMeanVec (x : Fin n → R) (c : Fin k)
  | setMeans (m : Fin k → Fin n → R)
  | setNum (v : Fin k → Int)
  | setComplete (c : Fin k) (b : Bool)
  | setCompleteAll (b : Bool)
  | finalize (c : Fin k)
  | unfinalize (c : Fin k)
  | finalizeAll
  | unfinalizeAll
  | plusEq (other : Fin k → Cell R n)
  | peq (other : Fin k → Cell R n)
  | meansPeq (m : Fin k → Fin n → R)
  | numPeq (v : Fin k → Int)
  | scale (factor : R) (c : Fin k) (x : Fin n → R)
  | clear

/-- What a call does to the cell of cluster `c`. -/
def Call.on [Zero R] [One R] [Add R] [Sub R] [Mul R] [Div R] [IntCast R] (c : Fin k) (s : Cell R n) :
    Call R k n → Cell R n
  | .add x a => if c = a then s.add x else s
  | .addIt x a => if c = a then s.add x else s
  | .remove x a => if c = a then s.remove x else s
  | .removeIt x a => if c = a then s.remove x else s
  | .swap x a b => let s := if c = a then s.remove x else s; if c = b then s.add x else s
  | .swapIt x a b => let s := if c = a then s.remove x else s; if c = b then s.add x else s
  | .setMean x a => if c = a then { s with sum := x } else s
  | .setMeanVec x a => if c = a then { s with sum := x } else s
  | .setMeans m => { s with sum := m c }
  | .setNum v => { s with cnt := v c }
  | .setComplete a b => if c = a then { s with done := b } else s
  | .setCompleteAll b => { s with done := b }
  | .finalize a => if c = a then s.finalize else s
  | .unfinalize a => if c = a then s.unfinalize else s
  | .finalizeAll => s.finalize
  | .unfinalizeAll => s.unfinalize
  | .plusEq o => s.plus (o c)
  | .peq o => s.plus (o c)
  | .meansPeq m => { s with sum := fun j => s.sum j + m c j }
  | .numPeq v => { s with cnt := s.cnt + v c }
  | .scale f a x => if c = a then { s with sum := fun j => (1 - f) * s.sum j + f * x j } else s
  | .clear => Cell.zero

/-- The cell of cluster `c` after a history of calls, starting from an empty container. -/
def cellAfter [Zero R] [One R] [Add R] [Sub R] [Mul R] [Div R] [IntCast R] (h : List (Call R k n)) (c : Fin k) :
    Cell R n :=
  h.foldl (fun s call => call.on c s) Cell.zero

/-- The calls of a container that grows: a member, a completion flag, another container of `k` clusters. -/
inductive GCall (R : Type _) (n : Nat) where
  | add (x : Fin n → R) (c : Nat)
  | setComplete (c : Nat) (b : Bool)
  | peq (k : Nat) (other : Fin k → Cell R n)

/-- What such a call does to the cell of cluster `c`. -/
def GCall.on [Add R] (c : Nat) (s : Cell R n) : GCall R n → Cell R n
  | .add x a => if c = a then s.add x else s
  | .setComplete a b => if c = a then { s with done := b } else s
  | .peq k o => if h : c < k then s.plus (o ⟨c, h⟩) else s

end Knor.Spec
