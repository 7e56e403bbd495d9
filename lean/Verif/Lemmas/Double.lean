import Mathlib.Data.Int.Log
import Mathlib.Algebra.Order.Round
import Mathlib.Algebra.Order.Archimedean.Real.Basic
import Mathlib.Algebra.Order.Field.Power
import Mathlib.Tactic.NormNum
import Mathlib.Tactic.Linarith
import Mathlib.Tactic.Positivity
import Mathlib.Tactic.FieldSimp
import Verif.Spec.Double
import Verif.Spec.NearLloyd

/-!
# IEEE doubles satisfy the standard model of rounded arithmetic
-/

namespace Knor.Spec

/-- A number `x` is approximated by doubles with exponent `e`. -/
theorem double_grid {x : ℝ} {e : Int} (h1 : -1074 ≤ e) (h2 : e ≤ 971) (hx : |x| ≤ 2 ^ 53 * (2 : ℝ) ^ e)
    (hM : |x| ≤ maxDouble) : ∃ q, IsDouble q ∧ |x - q| ≤ (2 : ℝ) ^ e / 2 := by
  have h2e : (0 : ℝ) < 2 ^ e := by positivity
  set z : Int := round (x / 2 ^ e) with hz
  have hr : |x / 2 ^ e - z| ≤ 1 / 2 := abs_sub_round _
  have herr : |x - z * 2 ^ e| ≤ 2 ^ e / 2 := by
    have : x - z * 2 ^ e = (x / 2 ^ e - z) * 2 ^ e := by field_simp
    rw [this, abs_mul, abs_of_pos h2e]
    calc _ ≤ 1 / 2 * (2 : ℝ) ^ e := mul_le_mul_of_nonneg_right hr h2e.le
      _ = _ := by ring
  have hbound : ∀ b : Int, |x / 2 ^ e| ≤ b → |z| ≤ b := by
    intro b hb
    have h3 := abs_le.1 hb
    have h4 := abs_le.1 hr
    rw [abs_le]
    constructor
    · have : (-b : ℝ) - 1 < z := by linarith
      have : (-b : Int) - 1 < z := by exact_mod_cast this
      omega
    · have : (z : ℝ) < b + 1 := by linarith
      have : z < b + 1 := by exact_mod_cast this
      omega
  have hxe : |x / 2 ^ e| = |x| / 2 ^ e := by rw [abs_div, abs_of_pos h2e]
  have hz53 : |z| ≤ 2 ^ 53 := by
    apply hbound
    rw [hxe, div_le_iff₀ h2e]
    exact hx.trans (le_of_eq (by norm_num))
  by_cases hlt : |z| < 2 ^ 53
  · exact ⟨z * 2 ^ e, ⟨z, e, hlt, h1, h2, rfl⟩, herr⟩
  · have heq : |z| = 2 ^ 53 := le_antisymm hz53 (not_lt.1 hlt)
    have he : e < 971 := by
      rcases lt_or_eq_of_le h2 with h | h
      · exact h
      · exfalso
        subst h
        have : |z| ≤ 2 ^ 53 - 1 := by
          apply hbound
          rw [hxe, div_le_iff₀ h2e]
          refine hM.trans (le_of_eq ?_)
          unfold maxDouble
          norm_num
        omega
    obtain hp | hn : z = 2 ^ 53 ∨ z = -2 ^ 53 := by
      rcases abs_eq (show (0 : Int) ≤ 2 ^ 53 by norm_num) |>.1 heq with h | h
      · exact Or.inl h
      · exact Or.inr h
    · refine ⟨z * 2 ^ e, ⟨2 ^ 52, e + 1, by norm_num, by omega, by omega, ?_⟩, herr⟩
      rw [hp, zpow_add₀ (by norm_num)]
      push_cast
      ring
    · refine ⟨z * 2 ^ e, ⟨-2 ^ 52, e + 1, by norm_num, by omega, by omega, ?_⟩, herr⟩
      rw [hn, zpow_add₀ (by norm_num)]
      push_cast
      ring

theorem isDouble_zero : IsDouble 0 := ⟨0, 0, by norm_num, by norm_num, by norm_num, by norm_num⟩

theorem isDouble_neg {q : ℝ} (h : IsDouble q) : IsDouble (-q) := by
  obtain ⟨m, e, h1, h2, h3, rfl⟩ := h
  exact ⟨-m, e, by rwa [abs_neg], h2, h3, by push_cast; ring⟩

/-- Numbers in the normal range are approximated with relative error `2^-53`, smaller ones with absolute error
`2^-1075`. -/
theorem double_near {x : ℝ} (hM : |x| ≤ maxDouble) :
    (2 ^ (-1022 : Int) ≤ |x| → ∃ q, IsDouble q ∧ |x - q| ≤ 2 ^ (-53 : Int) * |x|) ∧
    (|x| < 2 ^ (-1021 : Int) → ∃ q, IsDouble q ∧ |x - q| ≤ (2 : ℝ) ^ (-1075 : Int)) := by
  constructor
  · intro hx
    have hx0 : 0 < |x| := lt_of_lt_of_le (by positivity) hx
    have hlog1 := Int.zpow_log_le_self (b := 2) (by norm_num) hx0
    have hlog2 := Int.lt_zpow_succ_log_self (b := 2) (by norm_num) |x|
    set l := Int.log 2 |x| with hl
    push_cast at hlog1 hlog2
    have hl1 : -1022 ≤ l := by
      by_contra h
      have : (2 : ℝ) ^ (l + 1) ≤ 2 ^ (-1022 : Int) := zpow_le_zpow_right₀ (by norm_num) (by omega)
      linarith
    have hl2 : l ≤ 1023 := by
      by_contra h
      have h5 : (2 : ℝ) ^ (1024 : Int) ≤ 2 ^ l := zpow_le_zpow_right₀ (by norm_num) (by omega)
      have h6 : maxDouble < (2 : ℝ) ^ (1024 : Int) := by
        unfold maxDouble
        rw [show (1024 : Int) = 53 + 971 by norm_num, zpow_add₀ (by norm_num)]
        apply mul_lt_mul_of_pos_right _ (by positivity)
        norm_num
      linarith
    obtain ⟨q, hq, he⟩ := double_grid (x := x) (e := l - 52) (by omega) (by omega)
      (by
        refine hlog2.le.trans (le_of_eq ?_)
        rw [show l + 1 = 53 + (l - 52) by ring, zpow_add₀ (by norm_num)]
        norm_num) hM
    refine ⟨q, hq, he.trans ?_⟩
    calc (2 : ℝ) ^ (l - 52) / 2 = 2 ^ (-53 : Int) * 2 ^ l := by
          rw [show l - 52 = (-53 : Int) + l + 1 by ring, zpow_add₀ (by norm_num), zpow_add₀ (by norm_num)]
          norm_num
      _ ≤ _ := mul_le_mul_of_nonneg_left hlog1 (by positivity)
  · intro hx
    obtain ⟨q, hq, he⟩ := double_grid (x := x) (e := -1074) le_rfl (by norm_num)
      (by
        refine hx.le.trans (le_of_eq ?_)
        rw [show (-1021 : Int) = 53 + (-1074) by norm_num, zpow_add₀ (by norm_num)]
        norm_num) hM
    refine ⟨q, hq, he.trans (le_of_eq ?_)⟩
    rw [show (-1074 : Int) = -1075 + 1 by norm_num, zpow_add₀ (by norm_num)]
    norm_num

theorem isDouble_le {q : ℝ} (h : IsDouble q) : |q| ≤ maxDouble := by
  obtain ⟨m, e, h1, h2, h3, rfl⟩ := h
  unfold maxDouble
  rw [abs_mul, abs_of_pos (by positivity : (0 : ℝ) < 2 ^ e)]
  have hm : |(m : ℝ)| ≤ 2 ^ 53 - 1 := by
    have : |m| ≤ 2 ^ 53 - 1 := by omega
    exact_mod_cast this
  exact mul_le_mul hm (zpow_le_zpow_right₀ (by norm_num) h3) (by positivity) (by norm_num)

/-- Every double is a multiple of `2^-1074`. -/
theorem isDouble_multiple {q : ℝ} (h : IsDouble q) : ∃ z : Int, q = z * (2 : ℝ) ^ (-1074 : Int) := by
  obtain ⟨m, e, h1, h2, h3, rfl⟩ := h
  obtain ⟨t, ht⟩ : ∃ t : Nat, e = -1074 + t := ⟨(e + 1074).toNat, by omega⟩
  refine ⟨m * 2 ^ t, ?_⟩
  rw [ht, zpow_add₀ (by norm_num), zpow_natCast]
  push_cast
  ring

/-- Small multiples of `2^-1074` are doubles. -/
theorem multiple_isDouble {z : Int} (h : |(z * (2 : ℝ) ^ (-1074 : Int))| < 2 ^ (-1021 : Int)) :
    IsDouble (z * (2 : ℝ) ^ (-1074 : Int)) := by
  refine ⟨z, -1074, ?_, le_rfl, by norm_num, rfl⟩
  rw [abs_mul, abs_of_pos (by positivity : (0 : ℝ) < 2 ^ (-1074 : Int)),
    show (-1021 : Int) = 53 + (-1074) by norm_num, zpow_add₀ (by norm_num)] at h
  have := lt_of_mul_lt_mul_right h (by positivity)
  exact_mod_cast this

theorem nearest_of_double {x q : ℝ} (h : NearestDouble x q) (hx : IsDouble x) : q = x := by
  have := h.2 x hx
  rw [sub_self, abs_zero, abs_nonpos_iff] at this
  linarith

theorem nearest_err {x q : ℝ} (hM : |x| ≤ maxDouble) (h : NearestDouble x q) :
    |q - x| ≤ 2 ^ (-53 : Int) * |x| + (2 : ℝ) ^ (-1075 : Int) := by
  have hp1 : (0 : ℝ) ≤ 2 ^ (-53 : Int) * |x| := by positivity
  have hp2 : (0 : ℝ) ≤ 2 ^ (-1075 : Int) := by positivity
  rw [abs_sub_comm]
  by_cases hx : 2 ^ (-1022 : Int) ≤ |x|
  · obtain ⟨q', h1, h2⟩ := (double_near hM).1 hx
    have := h.2 q' h1
    linarith
  · obtain ⟨q', h1, h2⟩ := (double_near hM).2 ((not_le.1 hx).trans
      (zpow_lt_zpow_right₀ (by norm_num) (by norm_num)))
    have := h.2 q' h1
    linarith

theorem nearest_rel {x q : ℝ} (hM : |x| ≤ maxDouble) (h : NearestDouble x q)
    (hz : |x| < 2 ^ (-1022 : Int) → IsDouble x) : |q - x| ≤ 2 ^ (-53 : Int) * |x| := by
  by_cases hx : 2 ^ (-1022 : Int) ≤ |x|
  · obtain ⟨q', h1, h2⟩ := (double_near hM).1 hx
    rw [abs_sub_comm]
    exact (h.2 q' h1).trans h2
  · rw [nearest_of_double h (hz (not_le.1 hx)), sub_self, abs_zero]
    positivity

theorem sum_isDouble {x y : ℝ} (hx : IsDouble x) (hy : IsDouble y) (h : |x + y| < 2 ^ (-1022 : Int)) :
    IsDouble (x + y) := by
  obtain ⟨a, rfl⟩ := isDouble_multiple hx
  obtain ⟨b, rfl⟩ := isDouble_multiple hy
  have e : (a * (2 : ℝ) ^ (-1074 : Int) + b * 2 ^ (-1074 : Int)) = ((a + b : Int) : ℝ) * 2 ^ (-1074 : Int) := by
    push_cast; ring
  rw [e] at h ⊢
  exact multiple_isDouble (h.trans (zpow_lt_zpow_right₀ (by norm_num) (by norm_num)))

theorem nearest_nonneg {x q : ℝ} (hx : 0 ≤ x) (h : NearestDouble x q) : 0 ≤ q := by
  have := h.2 0 isDouble_zero
  rw [sub_zero, abs_of_nonneg hx] at this
  have := (abs_le.1 this).2
  linarith

theorem nat_isDouble {m : Nat} (hm : m ≤ 2 ^ 53) : IsDouble m := by
  rcases lt_or_eq_of_le hm with h | h
  · exact ⟨m, 0, by rw [Nat.abs_cast]; exact_mod_cast h, by norm_num, by norm_num, by simp⟩
  · exact ⟨2 ^ 52, 1, by norm_num, by norm_num, by norm_num, by rw [h]; norm_num⟩

variable {R : Type _} [Zero R] [Add R] [Sub R] [Mul R] [Div R] [IntCast R] [NatCast R] [LT R] [LE R]
  {fin : R → Prop} {val : R → ℝ} {sqrt abs : R → R}

/-- IEEE doubles satisfy the standard model. -/
theorem IeeeDouble.rounds (h : IeeeDouble fin val sqrt abs) :
    RoundsAll fin val (2 ^ (-53 : Int)) (2 ^ (-1075 : Int)) maxDouble (2 ^ 53) where
  u_nonneg := by positivity
  eta_nonneg := by positivity
  u_le := zpow_le_one_of_nonpos₀ (by norm_num) (by norm_num)
  zero := h.zero
  add := fun x y hx hy hM => ⟨(h.add x y hx hy hM).1, nearest_rel hM (h.add x y hx hy hM).2
    (sum_isDouble (h.double x hx) (h.double y hy))⟩
  sub := fun x y hx hy hM => ⟨(h.sub x y hx hy hM).1, nearest_rel hM (h.sub x y hx hy hM).2 (by
    rw [sub_eq_add_neg]
    exact sum_isDouble (h.double x hx) (isDouble_neg (h.double y hy)))⟩
  mul := fun x y hx hy hM => ⟨(h.mul x y hx hy hM).1, nearest_err hM (h.mul x y hx hy hM).2⟩
  div := fun x y hx hy h0 hM => ⟨(h.div x y hx hy h0 hM).1, nearest_err hM (h.div x y hx hy h0 hM).2⟩
  sq := fun x hx hM => nearest_nonneg (mul_self_nonneg _) (h.mul x x hx hx hM).2
  lt := h.lt
  cast := by
    intro m hm
    have hd := nat_isDouble hm
    obtain ⟨h1, h2⟩ := h.int (m : Int) (by
      rw [Int.cast_natCast]; exact isDouble_le hd)
    rw [Int.cast_natCast] at h2
    exact ⟨h1, nearest_of_double h2 hd⟩

/-- The square root of a double is never in the subnormal range. -/
theorem IeeeDouble.sqrt_rounds (h : IeeeDouble fin val sqrt abs) (x : R) (hx : fin x) (h0 : 0 ≤ val x) :
    fin (sqrt x) ∧ |val (sqrt x) - √(val x)| ≤ 2 ^ (-53 : Int) * √(val x) := by
  obtain ⟨h1, h2⟩ := h.sqrt x hx h0
  refine ⟨h1, ?_⟩
  have hs := Real.sqrt_nonneg (val x)
  have hle : |√(val x)| ≤ maxDouble := by
    rw [abs_of_nonneg hs]
    have h1M : (1 : ℝ) ≤ maxDouble := by
      have := isDouble_le (nat_isDouble (m := 1) (by norm_num))
      simpa using this
    have hv := (le_abs_self _).trans (isDouble_le (h.double x hx))
    apply Real.sqrt_le_iff.2
    exact ⟨by linarith, by nlinarith⟩
  have := nearest_rel hle h2 (by
    intro hlt
    rw [abs_of_nonneg hs] at hlt
    rcases h0.eq_or_lt with h3 | h3
    · rw [← h3, Real.sqrt_zero]; exact isDouble_zero
    · exfalso
      obtain ⟨z, hz⟩ := isDouble_multiple (h.double x hx)
      have hz1 : 1 ≤ z := by
        by_contra hc
        have : (z : ℝ) ≤ 0 := by exact_mod_cast (by omega : z ≤ 0)
        have : val x ≤ 0 := by rw [hz]; exact mul_nonpos_of_nonpos_of_nonneg this (by positivity)
        linarith
      have hge : (2 : ℝ) ^ (-1074 : Int) ≤ val x := by
        rw [hz]
        exact le_mul_of_one_le_left (by positivity) (by exact_mod_cast hz1)
      have : (2 : ℝ) ^ (-1022 : Int) ≤ √(val x) := by
        apply Real.le_sqrt_of_sq_le
        refine le_trans ?_ hge
        rw [← zpow_natCast, ← zpow_mul]
        exact zpow_le_zpow_right₀ (by norm_num) (by norm_num)
      linarith)
  rwa [abs_of_nonneg hs] at this

end Knor.Spec

namespace Knor.Spec

/-! ### Simple bounds for doubles -/

theorem p_mul (a b : Int) : (2 : ℝ) ^ a * 2 ^ b = 2 ^ (a + b) := (zpow_add₀ (by norm_num) a b).symm

theorem p_le {a b : Int} (h : a ≤ b) : (2 : ℝ) ^ a ≤ 2 ^ b := zpow_le_zpow_right₀ (by norm_num) h

theorem p_pos (a : Int) : (0 : ℝ) < 2 ^ a := by positivity

theorem p_le_max : (2 : ℝ) ^ (1023 : Int) ≤ maxDouble := by
  unfold maxDouble
  rw [show (1023 : Int) = 52 + 971 by norm_num, zpow_add₀ (by norm_num)]
  exact mul_le_mul_of_nonneg_right (by norm_num) (p_pos _).le

theorem pow_small {v : ℝ} {m : Nat} (hv0 : 0 < v) (hv1 : v ≤ 1) (hmv : (m : ℝ) * v ≤ 1 / 2) :
    (1 + v) ^ m - 1 ≤ m * (2 * v) ∧ (1 + v) ^ m ≤ 2 := by
  have hm0 : (0 : ℝ) ≤ m := Nat.cast_nonneg m
  have hb : 1 - (m : ℝ) * v ≤ (1 - v) ^ m := by
    have := one_add_mul_le_pow (a := -v) (by linarith) m
    rw [show 1 + (m : ℝ) * -v = 1 - m * v by ring, show 1 + -v = 1 - v by ring] at this
    exact this
  have hprod : (1 + v) ^ m * (1 - v) ^ m ≤ 1 := by
    rw [← mul_pow]
    apply pow_le_one₀
    · nlinarith
    · nlinarith
  have hP : 0 ≤ (1 + v) ^ m := by positivity
  have hle : (1 + v) ^ m * (1 - m * v) ≤ 1 := (mul_le_mul_of_nonneg_left hb hP).trans hprod
  generalize (1 + v) ^ m = P at hP hle
  have h2 : P ≤ 2 := by
    have := (mul_le_mul_of_nonneg_left (by linarith : (1 : ℝ) / 2 ≤ 1 - m * v) hP).trans hle
    linarith
  refine ⟨?_, h2⟩
  have := mul_le_mul_of_nonneg_right h2 (mul_nonneg hm0 hv0.le)
  rw [mul_sub, mul_one] at hle
  linarith

/-- Many roundings. -/
theorem pow_rounds {m : Nat} (hm : m ≤ 2 ^ 52) :
    ((1 : ℝ) + 2 ^ (-53 : Int)) ^ m - 1 ≤ m * 2 ^ (-52 : Int) ∧ ((1 : ℝ) + 2 ^ (-53 : Int)) ^ m ≤ 2 := by
  have h52 : (2 : ℝ) ^ (-52 : Int) = 2 * 2 ^ (-53 : Int) := by
    rw [show (-52 : Int) = 1 + -53 by norm_num, zpow_add₀ (by norm_num)]
    norm_num
  rw [h52]
  refine pow_small (p_pos _) (zpow_le_one_of_nonpos₀ (by norm_num) (by norm_num)) ?_
  have h1 : (m : ℝ) ≤ (2 : ℝ) ^ (52 : Int) := by
    have : (m : ℝ) ≤ ((2 ^ 52 : Nat) : ℝ) := by exact_mod_cast hm
    refine this.trans (le_of_eq ?_)
    norm_num
  calc (m : ℝ) * 2 ^ (-53 : Int) ≤ (2 : ℝ) ^ (52 : Int) * 2 ^ (-53 : Int) :=
        mul_le_mul_of_nonneg_right h1 (p_pos _).le
    _ = 1 / 2 := by rw [p_mul]; norm_num

end Knor.Spec
