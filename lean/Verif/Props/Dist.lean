import Verif.Lemmas.Dist
import Verif.Spec.Lloyd
import Verif.Props.Prune
import Verif.Props.Kmeans

/-! # Property C36: the metric facts the algorithms rely on -/

namespace Knor.Dist

open Knor Knor.Spec

variable {n : Nat}

/-- **C36 (Euclid).** Non-negative, symmetric, zero exactly on equal rows, triangle inequality. -/
theorem C36_euclid_is_metric (x y z : Row ℝ n) :
    0 ≤ eucl x y ∧ eucl x y = eucl y x ∧ (eucl x y = 0 ↔ x = y) ∧
    eucl x z ≤ eucl x y + eucl y z := by
  refine ⟨?_, ?_, ?_, ?_⟩
  · rw [eucl_eq]; exact Real.sqrt_nonneg _
  · rw [eucl_eq, eucl_eq]
    congr 1
    exact Finset.sum_congr rfl fun j _ => by ring
  · rw [eucl_eq, Real.sqrt_eq_zero (sq_nonneg_sum x y), sum_sq_eq_zero]
  · have := sqrt_sum_triangle (fun j => x j - y j) (fun j => y j - z j)
    simp only [sub_add_sub_cancel] at this
    rw [eucl_eq, eucl_eq, eucl_eq]
    exact this

/-- **C36 (taxicab).** -/
theorem C36_taxicab_is_metric (x y z : Row ℝ n) :
    0 ≤ taxi x y ∧ taxi x y = taxi y x ∧ (taxi x y = 0 ↔ x = y) ∧
    taxi x z ≤ taxi x y + taxi y z := by
  simp only [taxi_eq]
  refine ⟨Finset.sum_nonneg fun _ _ => abs_nonneg _,
    Finset.sum_congr rfl fun j _ => abs_sub_comm _ _, ?_, ?_⟩
  · rw [Finset.sum_eq_zero_iff_of_nonneg (fun _ _ => abs_nonneg _)]
    constructor
    · intro h; funext j
      have := h j (Finset.mem_univ j)
      rw [abs_eq_zero] at this
      linarith
    · rintro rfl j _; simp
  · rw [← Finset.sum_add_distrib]
    exact Finset.sum_le_sum fun j _ => abs_sub_le _ _ _

/-- **C36 (squared Euclid).** It is the square of the Euclidean distance, both order rows the same
way, and both order them like the sum of squared differences. -/
theorem C36_squared_euclid (x y z : Row ℝ n) :
    sqeucl x y = eucl x y ^ 2 ∧ sqeucl x y = ∑ j, (x j - y j) ^ 2 ∧
    (sqeucl x y ≤ sqeucl x z ↔ eucl x y ≤ eucl x z) ∧
    (sqeucl x y < sqeucl x z ↔ eucl x y < eucl x z) := by
  refine ⟨?_, sqeucl_eq x y, ?_, ?_⟩
  · rw [eucl_eq, Real.sq_sqrt (sq_nonneg_sum x y), sqeucl_eq]
  · rw [eucl_eq, eucl_eq, sqeucl_eq, sqeucl_eq, Real.sqrt_le_sqrt_iff (sq_nonneg_sum x z)]
  · rw [eucl_eq, eucl_eq, sqeucl_eq, sqeucl_eq, Real.sqrt_lt_sqrt_iff (sq_nonneg_sum x y)]

/-- **C36 (comparison).** The Euclidean distance is at most the taxicab distance, which is what the
pruning rules need (C23). -/
theorem C36_euclid_le_taxicab (x y : Row ℝ n) : eucl x y ≤ taxi x y := by
  rw [eucl_eq, taxi_eq, Real.sqrt_le_left (Finset.sum_nonneg fun _ _ => abs_nonneg _)]
  have := Finset.sum_sq_le_sq_sum_of_nonneg (s := Finset.univ) (f := fun j => |x j - y j|)
    (fun _ _ => abs_nonneg _)
  simpa [sq_abs] using this

/-- **C36 (cosine).** The cosine distance is a number exactly when both rows are non-zero (NaN
otherwise); then it is symmetric, lies in [0, 2] and is 0 for a row and itself. -/
theorem C36_cosine (x y : Row ℝ n) :
    (cos x y = none ↔ x = 0 ∨ y = 0) ∧ cos x y = cos y x ∧
    (∀ v, cos x y = some v → 0 ≤ v ∧ v ≤ 2) ∧ (x ≠ 0 → cos x x = some 0) := by
  have hz : ∀ w : Row ℝ n, ∑ j, w j ^ 2 = 0 ↔ w = 0 := by
    intro w
    have := sum_sq_eq_zero w 0
    simpa using this
  have hnn : ∀ w : Row ℝ n, 0 ≤ ∑ j, w j ^ 2 := fun w => Finset.sum_nonneg fun _ _ => sq_nonneg _
  have hzero : ∀ a b : Row ℝ n,
      Real.sqrt (∑ j, a j ^ 2) * Real.sqrt (∑ j, b j ^ 2) = 0 ↔ a = 0 ∨ b = 0 := by
    intro a b
    rw [mul_eq_zero, Real.sqrt_eq_zero (hnn a), Real.sqrt_eq_zero (hnn b), hz, hz]
  refine ⟨?_, ?_, ?_, ?_⟩
  · unfold cos
    rw [cosSums_eq]
    simp only
    by_cases h : x = 0 ∨ y = 0
    · simp [(hzero x y).2 h, h]
    · rw [if_neg (fun h' => h ((hzero x y).1 h'))]; simp [h]
  · unfold cos
    rw [cosSums_eq, cosSums_eq]
    simp only [mul_comm]
  · intro v hv
    unfold cos at hv
    rw [cosSums_eq] at hv
    simp only at hv
    set A := ∑ j, x j ^ 2
    set B := ∑ j, y j ^ 2
    split at hv
    · simp at hv
    · rename_i hne
      simp only [Option.some.injEq] at hv
      have hpos : 0 < Real.sqrt A * Real.sqrt B :=
        lt_of_le_of_ne (mul_nonneg (Real.sqrt_nonneg _) (Real.sqrt_nonneg _)) (Ne.symm hne)
      have hcs : |∑ j, x j * y j| ≤ Real.sqrt A * Real.sqrt B := by
        rw [← Real.sqrt_mul (hnn x)]
        exact Real.abs_le_sqrt (Finset.sum_mul_sq_le_sq_mul_sq Finset.univ x y)
      have hr : |(∑ j, x j * y j) / (Real.sqrt A * Real.sqrt B)| ≤ 1 := by
        rw [abs_div, abs_of_pos hpos, div_le_one hpos]; exact hcs
      rw [abs_le] at hr
      constructor <;> linarith [hr.1, hr.2]
  · intro hx
    unfold cos
    rw [cosSums_eq]
    simp only
    have hA : 0 < ∑ j, x j ^ 2 := lt_of_le_of_ne (hnn x) fun h => hx ((hz x).1 h.symm)
    rw [Real.mul_self_sqrt hA.le, if_neg (ne_of_gt hA)]
    have : ∑ j, x j * x j = ∑ j, x j ^ 2 := Finset.sum_congr rfl fun j _ => (sq _).symm
    rw [this, div_self (ne_of_gt hA), sub_self]

/-- Concrete values: rows (0,3) and (4,0). -/
example : sqeucl ![0, 3] ![4, 0] = 25 ∧ taxi ![0, 3] ![4, 0] = 7 ∧ eucl ![0, 3] ![4, 0] = 5 := by
  have h : sqeucl ![0, 3] ![4, 0] = 25 := by rw [sqeucl_eq]; simp [Fin.sum_univ_two]; norm_num
  refine ⟨h, by rw [taxi_eq]; simp [Fin.sum_univ_two]; norm_num, ?_⟩
  have h5 : (25 : ℝ) = 5 ^ 2 := by norm_num
  rw [eucl_eq, ← sqeucl_eq, h, h5, Real.sqrt_sq (by norm_num)]

/-- **C36 (dispatch).**  Each metric name selects its own formula; the cosine distance of two non-zero
rows is one minus the quotient of their inner product and the product of their lengths. -/
theorem C36_dispatch (x y : Row ℝ n) :
    distComp .eucl x y = some (Real.sqrt (∑ j, (x j - y j) ^ 2)) ∧
    distComp .sqeucl x y = some (∑ j, (x j - y j) ^ 2) ∧
    distComp .taxi x y = some (∑ j, |x j - y j|) ∧
    (x = 0 ∨ y = 0 → distComp .cos x y = none) ∧
    (x ≠ 0 → y ≠ 0 → distComp .cos x y = some (1 - (∑ j, x j * y j) /
      (Real.sqrt (∑ j, x j ^ 2) * Real.sqrt (∑ j, y j ^ 2)))) := by
  refine ⟨by rw [← eucl_eq]; rfl, by rw [← sqeucl_eq]; rfl, by rw [← taxi_eq]; rfl, ?_, ?_⟩
  · intro h
    exact (C36_cosine x y).1.2 h
  · intro hx hy
    have h : cos x y ≠ none := fun h => by
      rcases (C36_cosine x y).1.1 h with h | h
      · exact hx h
      · exact hy h
    show cos x y = _
    unfold cos at h ⊢
    rw [cosSums_eq] at h ⊢
    simp only at h ⊢
    split at h
    · exact absurd rfl h
    · rename_i h0
      rw [if_neg h0]

/-- **C36 feeds C13 and C14**: Euclidean and squared Euclidean distance order rows like the sum of
squared differences. -/
theorem C36_C13_C14_like_squares : LikeSq (n := n) eucl ∧ LikeSq (n := n) sqeucl := by
  constructor
  · intro x y z
    rw [← sqeucl_eq, ← sqeucl_eq]
    exact ((C36_squared_euclid x y z).2.2.1).symm
  · intro x y z
    rw [sqeucl_eq, sqeucl_eq]

end Knor.Dist
