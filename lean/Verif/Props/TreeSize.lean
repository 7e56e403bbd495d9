import Mathlib.Analysis.SpecialFunctions.Log.Base
import Mathlib.Analysis.SpecialFunctions.Log.Deriv
import Mathlib.Analysis.Convex.SpecificFunctions.Basic
import Mathlib.Tactic.Linarith
import Mathlib.Tactic.Positivity
import Mathlib.Tactic.NormNum
import Verif.Model.TreeSize
import Verif.Model.Hclust

/-! # Property C108: sizes of binary trees -/

namespace Knor.TreeSize

open Knor

/-- What is assumed of `std::log2`: on the unsigned numbers it is off by at most `2^-34`, and exact at powers of two. -/
structure Accurate (log2 : Nat → ℝ) : Prop where
  near : ∀ k : Nat, 1 ≤ k → k < 2 ^ 32 → |log2 k - Real.logb 2 k| ≤ 1 / 2 ^ 34
  exact : ∀ m : Nat, m < 32 → log2 (2 ^ m) = m

/-- The logarithm itself is accurate. -/
example : Accurate fun k => Real.logb 2 k where
  near := fun k _ _ => by simp
  exact := fun m _ => by
    push_cast
    rw [Real.logb_pow, Real.logb_self_eq_one (by norm_num), mul_one]

theorem logb_one_add {x : ℝ} (h0 : 0 ≤ x) (h1 : x ≤ 1) : x ≤ Real.logb 2 (1 + x) := by
  rw [Real.le_logb_iff_rpow_le (by norm_num) (by linarith)]
  have h2 : (1 + 1 : ℝ) ^ x ≤ 1 + x * 1 := rpow_one_add_le_one_add_mul_self (by norm_num) h0 h1
  have e : (2 : ℝ) = 1 + 1 := by norm_num
  rw [e]
  linarith

theorem between {k : Nat} (hk : 1 ≤ k) (h32 : k < 2 ^ 32) : ∃ m, m < 32 ∧ 2 ^ m ≤ k ∧ k < 2 ^ (m + 1) := by
  refine ⟨Nat.log2 k, ?_, ?_, Nat.lt_log2_self⟩
  · exact (Nat.log2_lt (by omega)).2 h32
  · exact Nat.log2_self_le (by omega)

theorem log_between {log2 : Nat → ℝ} (hl : Accurate log2) {k m : Nat} (hm : m < 32) (h1 : 2 ^ m < k)
    (h2 : k < 2 ^ (m + 1)) : (m : ℝ) < log2 k ∧ log2 k < m + 1 := by
  have h32 : k < 2 ^ 32 := lt_of_lt_of_le h2 (Nat.pow_le_pow_right (by norm_num) (by omega))
  have hn := abs_le.1 (hl.near k (by have := Nat.one_le_two_pow (n := m); omega) h32)
  have hp : (0 : ℝ) < 2 ^ m := by positivity
  have hinv : 1 / 2 ^ 32 ≤ (1 : ℝ) / 2 ^ (m + 1) := by
    apply one_div_le_one_div_of_le (by positivity)
    exact pow_le_pow_right₀ (by norm_num) (by omega)
  have hinv' : 1 / 2 ^ 32 ≤ (1 : ℝ) / 2 ^ m := by
    apply one_div_le_one_div_of_le (by positivity)
    exact pow_le_pow_right₀ (by norm_num) (by omega)
  have hle1 : (1 : ℝ) / 2 ^ m ≤ 1 := by
    rw [div_le_one hp]; exact one_le_pow₀ (by norm_num)
  have hle2 : (1 : ℝ) / 2 ^ (m + 1) ≤ 1 := by
    rw [div_le_one (by positivity)]; exact one_le_pow₀ (by norm_num)
  have hkpos : (0 : ℝ) < k := by exact_mod_cast (by omega : 0 < k)
  have c1 : (2 : ℝ) ^ m + 1 ≤ k := by exact_mod_cast h1
  have c2 : (k : ℝ) + 1 ≤ 2 ^ (m + 1) := by exact_mod_cast h2
  have lm : ∀ j : Nat, Real.logb 2 ((2 : ℝ) ^ j) = j := fun j => by
    rw [Real.logb_pow, Real.logb_self_eq_one (by norm_num), mul_one]
  constructor
  · have e : (2 : ℝ) ^ m + 1 = 2 ^ m * (1 + 1 / 2 ^ m) := by field_simp
    have h3 : Real.logb 2 ((2 : ℝ) ^ m + 1) ≤ Real.logb 2 k :=
      Real.logb_le_logb_of_le (by norm_num) (by positivity) c1
    rw [e, Real.logb_mul (by positivity) (by positivity), lm] at h3
    have h4 := logb_one_add (x := 1 / 2 ^ m) (by positivity) hle1
    have h5 : (1 : ℝ) / 2 ^ 34 < 1 / 2 ^ 32 := by norm_num
    linarith [hn.1]
  · have e : (2 : ℝ) ^ (m + 1) = k * (1 + (2 ^ (m + 1) - k) / k) := by field_simp; ring
    have hx0 : 0 ≤ ((2 : ℝ) ^ (m + 1) - k) / k := div_nonneg (by linarith) hkpos.le
    have hx1 : ((2 : ℝ) ^ (m + 1) - k) / k ≤ 1 := by
      rw [div_le_one hkpos]
      have : (2 : ℝ) ^ (m + 1) = 2 * 2 ^ m := by ring
      linarith
    have h3 := logb_one_add hx0 hx1
    have h4 := lm (m + 1)
    rw [e, Real.logb_mul hkpos.ne' (by linarith)] at h4
    have h6 : (1 : ℝ) / 2 ^ (m + 1) ≤ (2 ^ (m + 1) - k) / k := by
      rw [div_le_div_iff₀ (by positivity) hkpos]
      nlinarith
    have h5 : (1 : ℝ) / 2 ^ 34 < 1 / 2 ^ 32 := by norm_num
    push_cast at h4
    linarith [hn.2]

theorem toUnsigned_pow {m : Nat} (hm : m < 32) : toUnsigned ((2 : ℝ) ^ m) = .ok (2 ^ m) := by
  unfold toUnsigned
  have h1 : (2 : ℝ) ^ m < 2 ^ 32 := pow_lt_pow_right₀ (by norm_num) hm
  have h2 : (-1 : ℝ) < 2 ^ m := lt_trans (by norm_num) (by positivity : (0 : ℝ) < 2 ^ m)
  rw [if_pos ⟨h2, h1⟩]
  congr 1
  have : ((2 : ℝ) ^ m) = ((2 ^ m : Nat) : ℝ) := by push_cast; rfl
  rw [this, Nat.floor_natCast]

theorem toUnsigned_of_floor {x : ℝ} {m : Nat} (hm : m < 2 ^ 32) (h1 : (m : ℝ) ≤ x) (h2 : x < m + 1) :
    toUnsigned x = .ok m := by
  unfold toUnsigned
  have h3 : (m : ℝ) + 1 ≤ 2 ^ 32 := by exact_mod_cast hm
  have h0 : (0 : ℝ) ≤ m := Nat.cast_nonneg m
  rw [if_pos ⟨by linarith, by linarith⟩]
  congr 1
  exact (Nat.floor_eq_iff (by linarith)).2 ⟨h1, h2⟩

/-- **C108 (floor).** With an accurate `std::log2`, `get_hclust_floor` returns the largest power of two that is at most
`k`, for every unsigned `k` except 0. -/
theorem C108_floor {log2 : Nat → ℝ} (hl : Accurate log2) (k : Nat) (h1 : 1 ≤ k) (h32 : k < 2 ^ 32) :
    ∃ m, hclustFloor log2 k = .ok (2 ^ m) ∧ 2 ^ m ≤ k ∧ ∀ j, 2 ^ j ≤ k → j ≤ m := by
  obtain ⟨m, hm, ha, hb⟩ := between h1 h32
  have hmax : ∀ j, 2 ^ j ≤ k → j ≤ m := fun j hj => by
    have := (Nat.pow_lt_pow_iff_right (by norm_num : 1 < 2)).1 (lt_of_le_of_lt hj hb)
    omega
  have hlog : (m : ℝ) ≤ log2 k ∧ log2 k < m + 1 := by
    rcases Nat.eq_or_lt_of_le ha with e | e
    · rw [← e, hl.exact m hm]; constructor <;> linarith
    · have := log_between hl hm e hb; exact ⟨this.1.le, this.2⟩
  refine ⟨m, ?_, ha, hmax⟩
  unfold hclustFloor powTwo
  rw [if_neg (by omega), toUnsigned_of_floor (by omega) hlog.1 hlog.2]
  exact toUnsigned_pow hm

/-- **C108 (ceiling), partial.** `get_hclust_ceil` returns the smallest power of two that is at least `k`, if `k` is at
most `2^31`.  Missing: larger `k` and 0 (see `C108_ceil_violated`, `C108_zero_violated`). -/
theorem C108_ceil_partial {log2 : Nat → ℝ} (hl : Accurate log2) (k : Nat) (h1 : 1 ≤ k) (h31 : k ≤ 2 ^ 31) :
    ∃ m, hclustCeil log2 k = .ok (2 ^ m) ∧ k ≤ 2 ^ m ∧ ∀ j, k ≤ 2 ^ j → m ≤ j := by
  obtain ⟨m, hm, ha, hb⟩ := between h1 (by omega : k < 2 ^ 32)
  have fin : ∀ c : Nat, c < 32 → ⌈log2 k⌉ = (c : ℤ) → hclustCeil log2 k = .ok (2 ^ c) := fun c hc he => by
    unfold hclustCeil powTwo
    rw [if_neg (by omega), he]
    rw [toUnsigned_of_floor (m := c) (by omega) (by push_cast; exact le_rfl) (by push_cast; linarith)]
    exact toUnsigned_pow hc
  rcases Nat.eq_or_lt_of_le ha with e | e
  · refine ⟨m, fin m hm ?_, e.ge, fun j hj => ?_⟩
    · rw [← e, hl.exact m hm]; exact_mod_cast Int.ceil_natCast m
    · rw [← e] at hj
      exact (Nat.pow_le_pow_iff_right (by norm_num : 1 < 2)).1 hj
  · have hl2 := log_between hl hm e hb
    have hm31 : m + 1 < 32 := by
      by_contra hge
      have : m = 31 := by omega
      subst this
      omega
    refine ⟨m + 1, fin (m + 1) hm31 ?_, hb.le, fun j hj => ?_⟩
    · rw [Int.ceil_eq_iff]; push_cast; constructor <;> linarith [hl2.1, hl2.2]
    · have := (Nat.pow_lt_pow_iff_right (by norm_num : 1 < 2)).1 (lt_of_lt_of_le e hj)
      omega

/-- **C108, violated above `2^31`.** The power of two does not fit into the result; the conversion is undefined. -/
theorem C108_ceil_violated {log2 : Nat → ℝ} (hl : Accurate log2) (k : Nat) (h31 : 2 ^ 31 < k) (h32 : k < 2 ^ 32) :
    hclustCeil log2 k = .error .ub := by
  have hl2 := log_between hl (by norm_num : 31 < 32) h31 (by omega)
  have he : ⌈log2 k⌉ = 32 := by
    rw [Int.ceil_eq_iff]; push_cast; push_cast at hl2; constructor <;> linarith [hl2.1, hl2.2]
  unfold hclustCeil powTwo
  rw [if_neg (by omega), he]
  rw [toUnsigned_of_floor (m := 32) (by omega) (by norm_num) (by norm_num)]
  unfold toUnsigned
  simp only
  rw [if_neg (by norm_num)]

/-- **C108, violated for no clusters.** -/
theorem C108_zero_violated (log2 : Nat → ℝ) : hclustFloor log2 0 = .error .ub ∧ hclustCeil log2 0 = .error .ub :=
  ⟨if_pos rfl, if_pos rfl⟩

/-- The smallest loss of accuracy at a power of two changes the result: with a `log2` that is right everywhere except
for an error of `2^-40` at 8, the floor of 8 is 4. -/
theorem C108_exactness_needed : ∃ log2 : Nat → ℝ,
    (∀ k : Nat, 1 ≤ k → k < 2 ^ 32 → |log2 k - Real.logb 2 k| ≤ 1 / 2 ^ 34) ∧ hclustFloor log2 8 = .ok 4 := by
  refine ⟨fun k => if k = 8 then 3 - 1 / 2 ^ 40 else Real.logb 2 k, fun k _ _ => ?_, ?_⟩
  · by_cases h : k = 8
    · subst h
      have : Real.logb 2 ((8 : Nat) : ℝ) = 3 := by
        have e : ((8 : Nat) : ℝ) = 2 ^ 3 := by norm_num
        rw [e, Real.logb_pow, Real.logb_self_eq_one (by norm_num)]; norm_num
      rw [this]
      norm_num [abs_le]
    · simp [h]
  · unfold hclustFloor powTwo
    simp only [if_true]
    rw [if_neg (by norm_num), toUnsigned_of_floor (m := 2) (by norm_num) (by norm_num) (by norm_num)]
    exact toUnsigned_pow (m := 2) (by norm_num)

/-- The hierarchical coordinator's number of clusters in terms of this function: the model of the algorithms
(Model/Hclust.lean) uses the same number. -/
theorem C108_floor_eq {log2 : Nat → ℝ} (hl : Accurate log2) (k : Nat) (h1 : 1 ≤ k) (h32 : k < 2 ^ 32) :
    hclustFloor log2 k = .ok (Hclust.hclustFloor k) := by
  obtain ⟨m, e, ha, hmax⟩ := C108_floor hl k h1 h32
  rw [e]
  unfold Hclust.hclustFloor
  have h := hmax (Nat.log2 k) (Nat.log2_self_le (by omega))
  have h' : m ≤ Nat.log2 k := (Nat.le_log2 (by omega)).2 ha
  rw [show m = Nat.log2 k by omega]

/-- Some values, for every accurate logarithm. -/
example {log2 : Nat → ℝ} (hl : Accurate log2) :
    hclustFloor log2 1 = .ok 1 ∧ hclustFloor log2 7 = .ok 4 ∧ hclustFloor log2 8 = .ok 8 ∧
      hclustFloor log2 1000 = .ok 512 := by
  refine ⟨?_, ?_, ?_, ?_⟩ <;> rw [C108_floor_eq hl _ (by norm_num) (by norm_num)] <;> rfl

theorem hnodesLoop_spec {v M : Nat} (hM : M < 31) (hv : 2 ^ M ≤ v) (hv2 : v < 2 ^ (M + 1)) : ∀ (d m : Nat), m + d = M + 1 →
    hnodesLoop v (d + 1) (2 ^ m) (2 ^ m - 1) = some (2 ^ (M + 1) - 1)
  | 0, m, h => by
    have : m = M + 1 := by omega
    subst this
    unfold hnodesLoop
    rw [if_neg (by omega)]
  | d + 1, m, h => by
    have hp : 2 ^ m ≤ 2 ^ M := Nat.pow_le_pow_right (by norm_num) (by omega)
    have hb : 2 ^ M ≤ 2 ^ 30 := Nat.pow_le_pow_right (by norm_num) (by omega)
    have h0 := Nat.one_le_two_pow (n := m)
    unfold hnodesLoop
    rw [if_pos (by omega), u32_of_lt (by omega), u32_of_lt (by omega)]
    have e1 : 2 ^ m * 2 = 2 ^ (m + 1) := by ring
    have e2 : 2 ^ m - 1 + 2 ^ m = 2 ^ (m + 1) - 1 := by omega
    rw [e1, e2]
    exact hnodesLoop_spec hM hv hv2 d (m + 1) (by omega)

/-- More rounds do not change a finished loop. -/
theorem hnodesLoop_mono {v r : Nat} : ∀ (f g i n : Nat), f ≤ g → hnodesLoop v f i n = some r → hnodesLoop v g i n = some r
  | 0, _, _, _, _, h => by simp [hnodesLoop] at h
  | f + 1, 0, _, _, h, _ => by omega
  | f + 1, g + 1, i, n, hfg, h => by
    unfold hnodesLoop at h ⊢
    split
    · rename_i hc
      rw [if_pos hc] at h
      exact hnodesLoop_mono f g _ _ (by omega) h
    · rename_i hc
      rw [if_neg hc] at h
      exact h

/-- **C108 (nodes), partial.** For arguments below `2^31`, `get_max_hnodes` ends, and with `2^m` the largest power of two
that is at most `v` it returns `2^(m+1) - 1`, the number of nodes of the complete binary tree with `2^m` leaves.
Missing: larger arguments, for which it does not end (`C108_nodes_violated`). -/
theorem C108_nodes_partial (v : Nat) (h1 : 1 ≤ v) (h31 : v < 2 ^ 31) :
    ∃ m, 2 ^ m ≤ v ∧ v < 2 ^ (m + 1) ∧ ∀ fuel, 33 ≤ fuel → maxHnodes v fuel = some (2 ^ (m + 1) - 1) := by
  obtain ⟨m, hm, ha, hb⟩ := between h1 (by omega : v < 2 ^ 32)
  have hm31 : m < 31 := by
    by_contra hge
    have : 2 ^ 31 ≤ 2 ^ m := Nat.pow_le_pow_right (by norm_num) (by omega)
    omega
  refine ⟨m, ha, hb, fun fuel hf => ?_⟩
  have := hnodesLoop_spec hm31 ha hb (m + 1) 0 (by omega)
  exact hnodesLoop_mono (m + 1 + 1) fuel _ _ (by omega) this

theorem hnodesLoop_zero (v : Nat) : ∀ fuel n, hnodesLoop v fuel 0 n = none
  | 0, _ => rfl
  | fuel + 1, n => by
    unfold hnodesLoop
    rw [if_pos (Nat.zero_le _)]
    exact hnodesLoop_zero v fuel _

theorem hnodesLoop_pow {v : Nat} (hv : 2 ^ 31 ≤ v) : ∀ (fuel d m n : Nat), m + d = 31 →
    hnodesLoop v fuel (2 ^ m) n = none
  | 0, _, _, _, _ => rfl
  | fuel + 1, d, m, n, h => by
    have hp : 2 ^ m ≤ 2 ^ 31 := Nat.pow_le_pow_right (by norm_num) (by omega)
    unfold hnodesLoop
    rw [if_pos (by omega)]
    cases d with
    | zero =>
      have : m = 31 := by omega
      subst this
      have : u32 (2 ^ 31 * 2) = 0 := by decide
      rw [this]
      exact hnodesLoop_zero v fuel _
    | succ d =>
      have hp' : 2 ^ m ≤ 2 ^ 30 := Nat.pow_le_pow_right (by norm_num) (by omega)
      rw [u32_of_lt (by omega)]
      have e1 : 2 ^ m * 2 = 2 ^ (m + 1) := by ring
      rw [e1]
      exact hnodesLoop_pow hv fuel d (m + 1) _ (by omega)

/-- **C108, violated from `2^31` on.** The counter wraps to 0 and the loop never ends: for instance the constructor of
a hierarchical coordinator asked for `2^30` clusters. -/
theorem C108_nodes_violated (v : Nat) (hv : 2 ^ 31 ≤ v) (fuel : Nat) : maxHnodes v fuel = none :=
  hnodesLoop_pow hv fuel 31 0 0 (by omega)

/-- Values below the limit. -/
example : maxHnodes 1 40 = some 1 ∧ maxHnodes 8 40 = some 15 ∧ maxHnodes 2000 40 = some 2047 ∧
    maxHnodes (2 ^ 31) 40 = none := by decide

end Knor.TreeSize
