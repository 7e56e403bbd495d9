import Mathlib.Algebra.BigOperators.Group.Finset.Basic
import Mathlib.Algebra.Field.Basic
import Mathlib.Data.Finset.Card
import Mathlib.Data.Finset.SDiff

/-!
# Specification: bisecting a set of rows by two-means

Independent of the code: sets of rows, their means, and the sides of a two-means iteration.
-/

namespace Knor.Spec

open Finset

variable {R D : Type _} {n : Nat}

/-- Arithmetic mean of a set of rows (the zero vector if it is empty). -/
def meanRows [Field R] (data : Nat → Fin n → R) (S : Finset Nat) : Fin n → R :=
  fun j => if S.card = 0 then 0 else (∑ r ∈ S, data r j) / (S.card : R)

/-- The rows of `P` that are at least as near to `m0` as to `m1`. -/
def nearer [LE D] [DecidableLE D] (dist : (Fin n → R) → (Fin n → R) → D) (data : Nat → Fin n → R) (P : Finset Nat)
    (m0 m1 : Fin n → R) : Finset Nat := P.filter fun r => dist (data r) m0 ≤ dist (data r) m1

/-- The rows of `P` on the first side after `t + 1` iterations of two-means that starts at `m0` and `m1`. -/
def firstSide [Field R] [LE D] [DecidableLE D] (dist : (Fin n → R) → (Fin n → R) → D) (data : Nat → Fin n → R)
    (P : Finset Nat) (m0 m1 : Fin n → R) : Nat → Finset Nat
  | 0 => nearer dist data P m0 m1
  | t + 1 => nearer dist data P (meanRows data (firstSide dist data P m0 m1 t))
      (meanRows data (P \ firstSide dist data P m0 m1 t))

/-- The number of rows of `P` that change side in iteration `t + 1`; before the first iteration no row has a side. -/
def switched [Field R] [LE D] [DecidableLE D] (dist : (Fin n → R) → (Fin n → R) → D) (data : Nat → Fin n → R)
    (P : Finset Nat) (m0 m1 : Fin n → R) : Nat → Nat
  | 0 => P.card
  | t + 1 => (P.filter fun r =>
      ¬ (r ∈ firstSide dist data P m0 m1 (t + 1) ↔ r ∈ firstSide dist data P m0 m1 t)).card

/-- Iteration `t + 1` meets the stopping rule: no row, or at most the fraction `tol` of the rows of `P`, changed side. -/
def Rests [Field R] [LE R] [LE D] [DecidableLE D] (dist : (Fin n → R) → (Fin n → R) → D) (data : Nat → Fin n → R)
    (tol : R) (P : Finset Nat) (m0 m1 : Fin n → R) (t : Nat) : Prop :=
  switched dist data P m0 m1 t = 0 ∨ (switched dist data P m0 m1 t : R) / (P.card : R) ≤ tol

/-- `L` is the first side when two-means on `P` from `m0` and `m1` ends: at the first iteration that meets the stopping
rule, or else after `maxIters` iterations. -/
def TwoMeans [Field R] [LE R] [LE D] [DecidableLE D] (dist : (Fin n → R) → (Fin n → R) → D) (data : Nat → Fin n → R)
    (tol : R) (maxIters : Nat) (P : Finset Nat) (m0 m1 : Fin n → R) (L : Finset Nat) : Prop :=
  ∃ t, t < maxIters ∧ L = firstSide dist data P m0 m1 t ∧ (t + 1 = maxIters ∨ Rests dist data tol P m0 m1 t) ∧
    ∀ t', t' < t → ¬ Rests dist data tol P m0 m1 t'

/-- `x` and `y` are the two lowest-numbered rows of `P`. -/
def LowestTwo (P : Finset Nat) (x y : Nat) : Prop := x ∈ P ∧ y ∈ P ∧ x < y ∧ ∀ z ∈ P, z = x ∨ y ≤ z

/-- The sets of rows that arise from all rows by bisecting: all rows are split by two-means from `m0` and `m1`; a side
of at least `minSize` rows may be split again, by two-means from its two lowest-numbered rows. -/
inductive Bisected [Field R] [LE R] [LE D] [DecidableLE D] (dist : (Fin n → R) → (Fin n → R) → D)
    (data : Nat → Fin n → R) (tol : R) (maxIters minSize N : Nat) (m0 m1 : Fin n → R) : Finset Nat → Prop
  | first {L S : Finset Nat} : TwoMeans dist data tol maxIters (range N) m0 m1 L → S = L ∨ S = range N \ L →
      Bisected dist data tol maxIters minSize N m0 m1 S
  | again {P L S : Finset Nat} {x y : Nat} : Bisected dist data tol maxIters minSize N m0 m1 P → minSize ≤ P.card →
      LowestTwo P x y → TwoMeans dist data tol maxIters P (data x) (data y) L → S = L ∨ S = P \ L →
      Bisected dist data tol maxIters minSize N m0 m1 S

end Knor.Spec
