import Mathlib.Analysis.SpecialFunctions.BinaryEntropy
import Mathlib.Analysis.Calculus.Deriv.MeanValue
import Mathlib.Algebra.BigOperators.Intervals
import Mathlib.Algebra.Order.BigOperators.Group.Finset

/-!
# The Anderson-Darling sum is not negative

`-n - 1/n Σ (2i+1) (log u_i + log (1 - u_(n-1-i))) ≥ 0` for every sequence of numbers in (0,1).  For each
`i` the summand is smallest where `u_i` is the midpoint of the `i`-th of `n` equal intervals (Gibbs), and
there the sum is twice the midpoint rule for the entropy function, whose integral over [0,1] is 1/2 and
which is concave.
-/

namespace Knor.Score

open Real

/-- An antiderivative of the binary entropy, continuous on [0,1]. -/
noncomputable def antiH (x : ℝ) : ℝ :=
  -(x / 2) * (x * log x) + x ^ 2 / 4 + ((1 - x) / 2) * ((1 - x) * log (1 - x)) - (1 - x) ^ 2 / 4

theorem antiH_cont : Continuous antiH := by
  unfold antiH
  have h := continuous_mul_log
  have h2 : Continuous fun x : ℝ => (1 - x) * log (1 - x) := h.comp (by fun_prop : Continuous fun x : ℝ => 1 - x)
  fun_prop

theorem antiH_deriv {x : ℝ} (h0 : 0 < x) (h1 : x < 1) : HasDerivAt antiH (binEntropy x) x := by
  have a1 : HasDerivAt (fun x : ℝ => x * log x) (log x + 1) x := hasDerivAt_mul_log h0.ne'
  have a2 : HasDerivAt (fun x : ℝ => (1 - x)) (-1) x := by
    simpa using (hasDerivAt_id x).const_sub 1
  have a3 : HasDerivAt (fun x : ℝ => (1 - x) * log (1 - x)) ((log (1 - x) + 1) * (-1)) x :=
    (hasDerivAt_mul_log (x := 1 - x) (by linarith)).comp x a2
  have a4 : HasDerivAt (fun x : ℝ => -(x / 2)) (-(1 / 2)) x := by
    exact ((hasDerivAt_id x).div_const 2).neg
  have a5 : HasDerivAt (fun x : ℝ => x ^ 2 / 4) (x / 2) x := by
    have := ((hasDerivAt_pow 2 x).div_const 4)
    refine this.congr_deriv ?_
    norm_num; ring
  have a6 : HasDerivAt (fun x : ℝ => (1 - x) / 2) (-1 / 2) x := a2.div_const 2
  have a7 : HasDerivAt (fun x : ℝ => (1 - x) ^ 2 / 4) (-(1 - x) / 2) x := by
    have := (a2.pow 2).div_const 4
    refine this.congr_deriv ?_
    norm_num; ring
  have := (((a4.mul a1).add a5).add (a6.mul a3)).sub a7
  refine this.congr_deriv ?_
  simp only [binEntropy, log_inv]
  ring

/-- The midpoint rule overestimates the integral. -/
theorem midpoint (m h : ℝ) (hh : 0 ≤ h) (h0 : 0 ≤ m - h) (h1 : m + h ≤ 1) :
    antiH (m + h) - antiH (m - h) ≤ 2 * h * binEntropy m := by
  have key : MonotoneOn (fun t => 2 * t * binEntropy m - (antiH (m + t) - antiH (m - t))) (Set.Icc 0 h) := by
    apply monotoneOn_of_deriv_nonneg (convex_Icc 0 h)
    · have := antiH_cont
      fun_prop
    · intro t ht
      rw [interior_Icc] at ht
      obtain ⟨t0, t1⟩ := ht
      apply DifferentiableAt.differentiableWithinAt
      have b1 : HasDerivAt (fun t => m + t) 1 t := by simpa using (hasDerivAt_id t).const_add m
      have b2 : HasDerivAt (fun t => m - t) (-1) t := by simpa using (hasDerivAt_id t).const_sub m
      have d1 := (antiH_deriv (x := m + t) (by linarith) (by linarith)).comp t b1
      have d2 := (antiH_deriv (x := m - t) (by linarith) (by linarith)).comp t b2
      have d3 : DifferentiableAt ℝ (fun t : ℝ => 2 * t * binEntropy m) t := by fun_prop
      exact d3.sub (d1.sub d2).differentiableAt
    · intro t ht
      rw [interior_Icc] at ht
      obtain ⟨t0, t1⟩ := ht
      have b1 : HasDerivAt (fun t => m + t) 1 t := by simpa using (hasDerivAt_id t).const_add m
      have b2 : HasDerivAt (fun t => m - t) (-1) t := by simpa using (hasDerivAt_id t).const_sub m
      have d1 := (antiH_deriv (x := m + t) (by linarith) (by linarith)).comp t b1
      have d2 := (antiH_deriv (x := m - t) (by linarith) (by linarith)).comp t b2
      have d3 : HasDerivAt (fun t : ℝ => 2 * t * binEntropy m) (2 * binEntropy m) t := by
        have := ((hasDerivAt_id t).const_mul 2).mul_const (binEntropy m)
        simpa using this
      have d := d3.sub (d1.sub d2)
      have e : deriv (fun t => 2 * t * binEntropy m - (antiH (m + t) - antiH (m - t))) t =
          2 * binEntropy m - (binEntropy (m + t) * 1 - binEntropy (m - t) * -1) := d.deriv
      rw [e]
      have hc := (And.right strictConcave_binEntropy.concaveOn) (x := m + t) (y := m - t)
        ⟨by linarith, by linarith⟩ ⟨by linarith, by linarith⟩ (a := 1 / 2) (b := 1 / 2) (by norm_num) (by norm_num)
        (by norm_num)
      simp only [smul_eq_mul] at hc
      rw [show 1 / 2 * (m + t) + 1 / 2 * (m - t) = m by ring] at hc
      linarith
  have := key (Set.left_mem_Icc.2 hh) (Set.right_mem_Icc.2 hh) hh
  simp only [mul_zero, zero_mul, add_zero, sub_zero, sub_self] at this
  linarith

/-- Gibbs' inequality for two outcomes. -/
theorem gibbs {p u : ℝ} (p0 : 0 < p) (p1 : p < 1) (u0 : 0 < u) (u1 : u < 1) :
    p * log u + (1 - p) * log (1 - u) ≤ -binEntropy p := by
  have l1 : log u - log p ≤ u / p - 1 := by
    rw [← log_div u0.ne' p0.ne']
    exact log_le_sub_one_of_pos (by positivity)
  have hp : 0 < 1 - p := by linarith
  have hu : 0 < 1 - u := by linarith
  have l2 : log (1 - u) - log (1 - p) ≤ (1 - u) / (1 - p) - 1 := by
    rw [← log_div hu.ne' hp.ne']
    exact log_le_sub_one_of_pos (by positivity)
  have m1 : p * (log u - log p) ≤ u - p := by
    calc p * (log u - log p) ≤ p * (u / p - 1) := mul_le_mul_of_nonneg_left l1 p0.le
      _ = u - p := by field_simp
  have m2 : (1 - p) * (log (1 - u) - log (1 - p)) ≤ p - u := by
    calc (1 - p) * (log (1 - u) - log (1 - p)) ≤ (1 - p) * ((1 - u) / (1 - p) - 1) :=
        mul_le_mul_of_nonneg_left l2 hp.le
      _ = p - u := by field_simp; ring
  rw [binEntropy, log_inv, log_inv]
  linarith

/-- The midpoint rule for the entropy gives at least 1/2. -/
theorem sum_entropy (n : Nat) (hn : 0 < n) :
    (n : ℝ) / 2 ≤ ∑ i ∈ Finset.range n, binEntropy ((2 * i + 1) / (2 * n)) := by
  have hn' : (0 : ℝ) < n := by exact_mod_cast hn
  have h1 : ∀ i ∈ Finset.range n, antiH ((i + 1 : ℕ) / n) - antiH ((i : ℕ) / n) ≤
      1 / n * binEntropy ((2 * i + 1) / (2 * n)) := by
    intro i hi
    have hi' : (i : ℝ) + 1 ≤ n := by exact_mod_cast (Finset.mem_range.1 hi)
    have hi0 : (0 : ℝ) ≤ i := Nat.cast_nonneg i
    have := midpoint ((2 * i + 1) / (2 * n)) (1 / (2 * n)) (by positivity)
      (by rw [← sub_div]; apply div_nonneg <;> linarith)
      (by rw [← add_div, div_le_one (by positivity)]; linarith)
    rw [show (2 * (i : ℝ) + 1) / (2 * n) + 1 / (2 * n) = (i + 1 : ℕ) / n by push_cast; field_simp; ring,
      show (2 * (i : ℝ) + 1) / (2 * n) - 1 / (2 * n) = (i : ℕ) / n by field_simp; ring,
      show 2 * (1 / (2 * (n : ℝ))) = 1 / n by field_simp] at this
    exact this
  have h2 := Finset.sum_le_sum h1
  rw [Finset.sum_range_sub (fun i => antiH ((i : ℕ) / n)), ← Finset.mul_sum, div_self hn'.ne'] at h2
  have h3 : antiH 1 - antiH ((0 : ℕ) / n) = 1 / 2 := by
    simp [antiH]; norm_num
  rw [h3] at h2
  have := mul_le_mul_of_nonneg_left h2 hn'.le
  rw [← mul_assoc, mul_one_div_cancel hn'.ne', one_mul, mul_one_div] at this
  exact this

/-- The statistic of Anderson and Darling is not negative. -/
theorem ad_nonneg (n : Nat) (hn : 0 < n) (u : Nat → ℝ) (hu : ∀ i, 0 < u i ∧ u i < 1) :
    0 ≤ -(n : ℝ) - 1 / n * ∑ i ∈ Finset.range n,
      (2 * (i : ℝ) + 1) * (log (u i) + log (1 - u (n - 1 - i))) := by
  have hn' : (0 : ℝ) < n := by exact_mod_cast hn
  have hre : ∑ i ∈ Finset.range n, (2 * (i : ℝ) + 1) * log (1 - u (n - 1 - i)) =
      ∑ i ∈ Finset.range n, (2 * (n : ℝ) - (2 * i + 1)) * log (1 - u i) := by
    rw [← Finset.sum_range_reflect]
    apply Finset.sum_congr rfl
    intro i hi
    have hi' := Finset.mem_range.1 hi
    rw [show n - 1 - (n - 1 - i) = i by omega]
    have : ((n - 1 - i : ℕ) : ℝ) = n - 1 - i := by
      rw [Nat.cast_sub (by omega), Nat.cast_sub (by omega)]; simp
    rw [this]; ring
  have hg : ∑ i ∈ Finset.range n, ((2 * (i : ℝ) + 1) * log (u i) + (2 * (n : ℝ) - (2 * i + 1)) * log (1 - u i)) ≤
      ∑ i ∈ Finset.range n, -(2 * n * binEntropy ((2 * i + 1) / (2 * n))) := by
    apply Finset.sum_le_sum
    intro i hi
    have hi' : (i : ℝ) + 1 ≤ n := by exact_mod_cast (Finset.mem_range.1 hi)
    have hi0 : (0 : ℝ) ≤ i := Nat.cast_nonneg i
    have := gibbs (p := (2 * i + 1) / (2 * n)) (by positivity) (by rw [div_lt_one (by positivity)]; linarith)
      (hu i).1 (hu i).2
    have := mul_le_mul_of_nonneg_left this (by positivity : (0 : ℝ) ≤ 2 * n)
    have e : 2 * (n : ℝ) * ((2 * i + 1) / (2 * n) * log (u i) + (1 - (2 * i + 1) / (2 * n)) * log (1 - u i)) =
        (2 * (i : ℝ) + 1) * log (u i) + (2 * (n : ℝ) - (2 * i + 1)) * log (1 - u i) := by
      field_simp
    rw [e] at this
    linarith
  have hs := sum_entropy n hn
  have e2 : ∑ i ∈ Finset.range n, (2 * (i : ℝ) + 1) * (log (u i) + log (1 - u (n - 1 - i))) =
      ∑ i ∈ Finset.range n, ((2 * (i : ℝ) + 1) * log (u i) + (2 * (n : ℝ) - (2 * i + 1)) * log (1 - u i)) := by
    rw [Finset.sum_add_distrib, ← hre, ← Finset.sum_add_distrib]
    apply Finset.sum_congr rfl
    intro i _; ring
  rw [e2]
  rw [Finset.sum_neg_distrib, ← Finset.mul_sum] at hg
  have h4 : 1 / (n : ℝ) * ∑ i ∈ Finset.range n,
      ((2 * (i : ℝ) + 1) * log (u i) + (2 * (n : ℝ) - (2 * i + 1)) * log (1 - u i)) ≤
      1 / (n : ℝ) * -(2 * n * (n / 2)) := by
    apply mul_le_mul_of_nonneg_left _ (by positivity)
    apply hg.trans
    apply neg_le_neg
    exact mul_le_mul_of_nonneg_left hs (by positivity)
  have h5 : 1 / (n : ℝ) * -(2 * n * (n / 2)) = -n := by field_simp
  linarith

end Knor.Score
