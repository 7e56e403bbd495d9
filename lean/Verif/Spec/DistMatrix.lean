import Verif.Model.DistMatrix

/-! # Specification: histories of writes to the table -/

namespace Knor.DistMatrix

open Knor

variable {D : Type _} {k : Nat}

/-- Executing a list of writes `(row, col, value)` in order. -/
def writes (m : DistMatrix D) : List (Nat × Nat × D) → Res (DistMatrix D)
  | [] => .ok m
  | (i, j, v) :: l =>
    match m.set i j v with
    | .error e => .error e
    | .ok m' => writes m' l

/-- Specification: the value last written for the unordered pair `{a, b}`, if any. -/
def lastWrite : List (Nat × Nat × D) → Nat → Nat → Option D
  | [], _, _ => none
  | (i, j, v) :: l, a, b =>
    match lastWrite l a b with
    | some w => some w
    | none => if (a = i ∧ b = j) ∨ (a = j ∧ b = i) then some v else none

/-- A table that was created for `k` clusters and then written to at pairs of distinct clusters. -/
def TableFor (big : D) (k : Nat) (m : DistMatrix D) : Prop :=
  ∃ m0 hist, create big k = .ok m0 ∧ (∀ w ∈ hist, w.1 < k ∧ w.2.1 < k ∧ w.1 ≠ w.2.1) ∧
    writes m0 hist = .ok m

end Knor.DistMatrix
