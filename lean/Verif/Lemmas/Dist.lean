import Mathlib.Algebra.Order.BigOperators.Ring.Finset
import Mathlib.Tactic.Linarith
import Mathlib.Tactic.Ring
import Verif.Model.Dist
import Verif.Lemmas.Kmeans

namespace Knor.Dist

open Knor

variable {n : Nat}

theorem sqeucl_eq (x y : Row ℝ n) : sqeucl x y = ∑ j, (x j - y j) ^ 2 := by
  unfold sqeucl
  rw [Kmeans.foldl_add_eq, Kmeans.sum_finRange, zero_add]
  exact Finset.sum_congr rfl fun j _ => (sq _).symm

theorem eucl_eq (x y : Row ℝ n) : eucl x y = Real.sqrt (∑ j, (x j - y j) ^ 2) := by
  unfold eucl
  rw [← sqeucl_eq]; rfl

theorem taxi_eq (x y : Row ℝ n) : taxi x y = ∑ j, |x j - y j| := by
  unfold taxi
  rw [Kmeans.foldl_add_eq, Kmeans.sum_finRange, zero_add]

theorem cosSums_eq (x y : Row ℝ n) :
    cosSums x y = (∑ j, x j * y j, ∑ j, x j ^ 2, ∑ j, y j ^ 2) := by
  have gen : ∀ (l : List (Fin n)) (a b c : ℝ), l.foldl
      (fun s col => (s.1 + x col * y col, s.2.1 + x col * x col, s.2.2 + y col * y col)) (a, b, c)
      = (a + (l.map fun j => x j * y j).sum, b + (l.map fun j => x j ^ 2).sum,
        c + (l.map fun j => y j ^ 2).sum) := by
    intro l
    induction l with
    | nil => simp
    | cons j l ih =>
      intro a b c
      rw [List.foldl_cons, ih]
      simp only [List.map_cons, List.sum_cons, sq, add_assoc]
  unfold cosSums
  rw [gen]
  simp only [zero_add, Kmeans.sum_finRange]

theorem sq_nonneg_sum (x y : Row ℝ n) : 0 ≤ ∑ j, (x j - y j) ^ 2 :=
  Finset.sum_nonneg fun _ _ => sq_nonneg _

theorem sum_sq_eq_zero (x y : Row ℝ n) : ∑ j, (x j - y j) ^ 2 = 0 ↔ x = y := by
  rw [Finset.sum_eq_zero_iff_of_nonneg (fun _ _ => sq_nonneg _)]
  constructor
  · intro h
    funext j
    have := h j (Finset.mem_univ j)
    rw [pow_eq_zero_iff (by norm_num)] at this
    linarith
  · rintro rfl j _; simp

/-- Minkowski's inequality. -/
theorem sqrt_sum_triangle (u v : Fin n → ℝ) :
    Real.sqrt (∑ j, (u j + v j) ^ 2) ≤ Real.sqrt (∑ j, u j ^ 2) + Real.sqrt (∑ j, v j ^ 2) := by
  set A := ∑ j, u j ^ 2
  set B := ∑ j, v j ^ 2
  have hA : 0 ≤ A := Finset.sum_nonneg fun _ _ => sq_nonneg _
  have hB : 0 ≤ B := Finset.sum_nonneg fun _ _ => sq_nonneg _
  have hcs : (∑ j, u j * v j) ≤ Real.sqrt A * Real.sqrt B := by
    have := Finset.sum_mul_sq_le_sq_mul_sq Finset.univ u v
    rw [← Real.sqrt_mul hA]
    exact Real.le_sqrt_of_sq_le this
  rw [Real.sqrt_le_left (by positivity)]
  have hexp : ∑ j, (u j + v j) ^ 2 = A + 2 * (∑ j, u j * v j) + B := by
    rw [Finset.mul_sum, ← Finset.sum_add_distrib, ← Finset.sum_add_distrib]
    exact Finset.sum_congr rfl fun j _ => by ring
  rw [hexp]
  have e1 := Real.sq_sqrt hA
  have e2 := Real.sq_sqrt hB
  nlinarith

end Knor.Dist
