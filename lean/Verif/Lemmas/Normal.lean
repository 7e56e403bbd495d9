import Mathlib.Analysis.Real.Pi.Bounds
import Mathlib.Analysis.Complex.ExponentialBounds
import Mathlib.Probability.Distributions.Gaussian.Real
import Mathlib.Probability.CDF

/-!
# Facts about the normal distribution function (used by C80, C81)
-/

namespace Knor.Score

open MeasureTheory ProbabilityTheory

/-- The normal distribution function. -/
noncomputable abbrev Phi : ℝ → ℝ := cdf (gaussianReal 0 1)

theorem Phi_Ioi (x : ℝ) : Phi x + (gaussianReal 0 1).real (Set.Ioi x) = 1 := by
  unfold Phi
  rw [cdf_eq_real, ← Set.compl_Iic, measureReal_compl measurableSet_Iic]; simp

/-- It is strictly between 0 and 1. -/
theorem normal_between (x : ℝ) : 0 < Phi x ∧ Phi x < 1 := by
  have : (gaussianReal 0 1).IsOpenPosMeasure := (gaussianReal_absolutelyContinuous' 0 one_ne_zero).isOpenPosMeasure
  have h4 := Phi_Ioi x
  have h1 : 0 < (gaussianReal 0 1).real (Set.Iio x) := by
    rw [measureReal_def]
    exact ENNReal.toReal_pos (isOpen_Iio.measure_pos _ ⟨x - 1, by simp⟩).ne' (measure_ne_top _ _)
  have h2 : 0 < (gaussianReal 0 1).real (Set.Ioi x) := by
    rw [measureReal_def]
    exact ENNReal.toReal_pos (isOpen_Ioi.measure_pos _ ⟨x + 1, by simp⟩).ne' (measure_ne_top _ _)
  have h3 : (gaussianReal 0 1).real (Set.Iio x) ≤ (gaussianReal 0 1).real (Set.Iic x) :=
    measureReal_mono Set.Iio_subset_Iic_self
  rw [← cdf_eq_real] at h3
  constructor <;> linarith

/-- It is symmetric. -/
theorem Phi_neg (x : ℝ) : Phi (-x) = 1 - Phi x := by
  have h4 := Phi_Ioi x
  have : NullSingletonClass (gaussianReal 0 1) := nullSingletonClass_gaussianReal one_ne_zero
  have h5 : (gaussianReal 0 1).real (Set.Ioi x) = (gaussianReal 0 1).real (Set.Ici x) := by
    rw [measureReal_def, measureReal_def, measure_congr Ioi_ae_eq_Ici]
  have h6 : (gaussianReal 0 1).real (Set.Iic (-x)) = (gaussianReal 0 1).real (Set.Ici x) := by
    have e : (gaussianReal 0 1).map (fun x ↦ -x) = gaussianReal 0 1 := by
      rw [gaussianReal_map_neg, neg_zero]
    rw [measureReal_def, measureReal_def]
    nth_rewrite 1 [← e]
    rw [Measure.map_apply (by fun_prop) measurableSet_Iic]
    congr 2
    ext y
    simp
  unfold Phi at h4 ⊢
  rw [cdf_eq_real, h6, ← h5]
  linarith

/-- A crude bound for the upper tail. -/
theorem Phi_le (x : ℝ) (h0 : 0 ≤ x) (h1 : x ≤ 867 / 1000) : Phi x ≤ 18 / 19 := by
  have h4 := Phi_Ioi x
  have h2 : (1 : ℝ) / 19 ≤ (gaussianReal 0 1).real (Set.Ioi x) := by
    have hsub : Set.Ioc x (x + 1) ⊆ Set.Ioi x := fun y hy => hy.1
    refine le_trans ?_ (measureReal_mono hsub)
    rw [measureReal_def, gaussianReal_apply_eq_integral 0 one_ne_zero]
    have hb := setIntegral_ge_of_const_le_real (μ := volume) (s := Set.Ioc x (x + 1)) (f := gaussianPDFReal 0 1)
      (c := 1 / 19) measurableSet_Ioc (by simp) (by
        rintro y ⟨hy1, hy2⟩
        unfold gaussianPDFReal
        have hy : y ^ 2 ≤ 4 := by nlinarith
        have hs : √(2 * Real.pi * ((1 : NNReal) : ℝ)) ≤ 2.52 := by
          apply Real.sqrt_le_iff.2
          constructor
          · norm_num
          · have := Real.pi_lt_d2
            push_cast
            norm_num at this ⊢
            linarith
        have hs0 : 0 < √(2 * Real.pi * ((1 : NNReal) : ℝ)) := by
          apply Real.sqrt_pos.2
          have := Real.pi_pos
          push_cast
          linarith
        have he : (1 : ℝ) / 7.4 ≤ Real.exp (-(y - 0) ^ 2 / (2 * ((1 : NNReal) : ℝ))) := by
          have h7 : Real.exp (-2) ≤ Real.exp (-(y - 0) ^ 2 / (2 * ((1 : NNReal) : ℝ))) := by
            apply Real.exp_le_exp.2
            push_cast
            linarith
          refine le_trans ?_ h7
          have := Real.exp_one_lt_d9
          rw [Real.exp_neg, one_div]
          apply inv_anti₀ (Real.exp_pos _)
          rw [show (2 : ℝ) = 1 + 1 by norm_num, Real.exp_add]
          have h0 := Real.exp_pos 1
          norm_num at this ⊢
          nlinarith
        have hi : (1 : ℝ) / 2.52 ≤ (√(2 * Real.pi * ((1 : NNReal) : ℝ)))⁻¹ := by
          rw [one_div]
          exact inv_anti₀ hs0 hs
        calc (1 : ℝ) / 19 ≤ 1 / 2.52 * (1 / 7.4) := by norm_num
          _ ≤ _ := mul_le_mul hi he (by norm_num) (by positivity))
      (integrable_gaussianPDFReal 0 1).integrableOn
    rw [ENNReal.toReal_ofReal (setIntegral_nonneg measurableSet_Ioc fun y _ => gaussianPDFReal_nonneg 0 1 y)]
    refine le_trans ?_ hb
    simp
  linarith

theorem Phi_ge_half (x : ℝ) (h0 : 0 ≤ x) : 1 / 2 ≤ Phi x := by
  have h1 := Phi_neg x
  have h2 : Phi (-x) ≤ Phi x := monotone_cdf _ (by linarith)
  linarith

/-- The two logarithms that occur in the statistic of four symmetric numbers. -/
theorem log_Phi_bound (x : ℝ) (h0 : 0 ≤ x) (h1 : x ≤ 867 / 1000) :
    -(6496 / 1000 : ℝ) ≤ 2 * Real.log (1 - Phi x) + 6 * Real.log (Phi x) := by
  have hl := Phi_ge_half x h0
  have hu := Phi_le x h0 h1
  generalize Phi x = p at hl hu
  have hp : (1 : ℝ) / 24 ≤ p ^ 3 * (1 - p) := by
    have e : p ^ 3 * (1 - p) = p ^ 2 * (p * (1 - p)) := by ring
    rw [e]
    have step : ∀ a b : ℝ, 0 ≤ a → a ≤ p → 0 ≤ b → b ≤ p * (1 - p) → 1 / 24 ≤ a ^ 2 * b → 1 / 24 ≤ p ^ 2 * (p * (1 - p)) := by
      intro a b ha hap hb hbp h
      exact h.trans (mul_le_mul (by nlinarith) hbp hb (by positivity))
    by_cases c1 : p ≤ 3 / 4
    · exact step (1 / 2) (3 / 16) (by norm_num) hl (by norm_num) (by nlinarith) (by norm_num)
    by_cases c2 : p ≤ 7 / 8
    · exact step (3 / 4) (7 / 64) (by norm_num) (by linarith) (by norm_num) (by nlinarith) (by norm_num)
    by_cases c3 : p ≤ 92 / 100
    · exact step (7 / 8) (736 / 10000) (by norm_num) (by linarith) (by norm_num) (by nlinarith) (by norm_num)
    · exact step (92 / 100) (18 / 361) (by norm_num) (by linarith) (by norm_num) (by nlinarith) (by norm_num)
  have h3 : 3 * Real.log p + Real.log (1 - p) = Real.log (p ^ 3 * (1 - p)) := by
    rw [Real.log_mul (by positivity) (by linarith), Real.log_pow]
    norm_num
  have h4 : Real.log (1 / 24) ≤ Real.log (p ^ 3 * (1 - p)) := Real.log_le_log (by norm_num) hp
  have h5 : Real.log 24 ≤ 3248 / 1000 := by
    rw [Real.log_le_iff_le_exp (by norm_num)]
    have e : (3248 / 1000 : ℝ) = 1 + 1 + 1 + 248 / 1000 := by norm_num
    rw [e, Real.exp_add, Real.exp_add, Real.exp_add]
    have g := Real.exp_one_gt_d9
    have g2 := Real.add_one_le_exp (248 / 1000 : ℝ)
    generalize Real.exp 1 = a at g
    generalize Real.exp (248 / 1000) = b at g2
    norm_num at g g2
    have : (2718 / 1000 : ℝ) ≤ a := by linarith
    have h20 : (20 : ℝ) ≤ a * a * a := by
      have : (73 / 10 : ℝ) ≤ a * a := by nlinarith
      nlinarith
    nlinarith
  rw [one_div, Real.log_inv] at h4
  linarith

end Knor.Score
