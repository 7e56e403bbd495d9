import Mathlib.Analysis.SpecialFunctions.Log.Base
import Verif.Spec.Ieee

/-! # Exact arithmetic with infinities and NaN follows the rules of IEEE 754 for special values -/

namespace Knor.Gmm

open Knor Knor.Spec

/-- Real numbers with infinities and NaN. -/
inductive Ext where
  | nan
  | inf (neg : Bool)
  | fin (x : ℝ)

namespace Ext

open Classical in
/-- The class of a value. -/
noncomputable def cls : Ext → Cls
  | nan => .nan
  | inf true => .ninf
  | inf false => .pinf
  | fin x => if x < 0 then .neg else if x = 0 then .zero else .pos

/-- Change of sign. -/
noncomputable def opp : Ext → Ext
  | nan => nan
  | inf b => inf (!b)
  | fin x => fin (-x)

/-- Sum. -/
noncomputable def add : Ext → Ext → Ext
  | nan, _ => nan
  | _, nan => nan
  | inf a, inf b => if a = b then inf a else nan
  | inf a, fin _ => inf a
  | fin _, inf b => inf b
  | fin x, fin y => fin (x + y)

open Classical in
/-- Product. -/
noncomputable def mul : Ext → Ext → Ext
  | nan, _ => nan
  | _, nan => nan
  | inf a, inf b => inf (a != b)
  | inf a, fin x => if x = 0 then nan else inf (a != decide (x < 0))
  | fin x, inf a => if x = 0 then nan else inf (a != decide (x < 0))
  | fin x, fin y => fin (x * y)

open Classical in
/-- Quotient. -/
noncomputable def div : Ext → Ext → Ext
  | nan, _ => nan
  | _, nan => nan
  | inf _, inf _ => nan
  | inf a, fin x => inf (a != decide (x < 0))
  | fin _, inf _ => fin 0
  | fin x, fin y => if y = 0 then (if x = 0 then nan else inf (decide (x < 0))) else fin (x / y)

open Classical in
/-- Binary logarithm. -/
noncomputable def log2 : Ext → Ext
  | nan => nan
  | inf true => nan
  | inf false => inf false
  | fin x => if x < 0 then nan else if x = 0 then inf true else fin (Real.logb 2 x)

/-- The operations. -/
noncomputable def ops : Ops Ext :=
  { zero := fin 0, half := fin (1 / 2), mhalf := fin (-(1 / 2)), m := fin 5, twoPi := fin (2 * Real.pi)
    add := add, sub := fun x y => add x (opp y), mul := mul, div := div, log2 := log2 }

theorem cls_fin (x : ℝ) : (x < 0 ∧ cls (fin x) = .neg) ∨ (x = 0 ∧ cls (fin x) = .zero) ∨
    (0 < x ∧ cls (fin x) = .pos) := by
  unfold cls
  rcases lt_trichotomy x 0 with h | h | h
  · exact .inl ⟨h, by simp [h]⟩
  · exact .inr (.inl ⟨h, by simp [h]⟩)
  · exact .inr (.inr ⟨h, by simp [not_lt.2 h.le, h.ne']⟩)

theorem cls_neg {x : ℝ} (h : x < 0) : cls (fin x) = .neg := by simp [cls, h]
theorem cls_zero : cls (fin 0) = .zero := by simp [cls]
theorem cls_pos {x : ℝ} (h : 0 < x) : cls (fin x) = .pos := by simp [cls, not_lt.2 h.le, h.ne']

theorem cls_fin_mem (x : ℝ) : cls (fin x) ∈ [Cls.neg, .zero, .pos] := by
  rcases cls_fin x with ⟨-, e⟩ | ⟨-, e⟩ | ⟨-, e⟩ <;> simp [e]

theorem cls_add (x y : Ext) : cls (add x y) ∈ (cls x).add (cls y) := by
  cases x with
  | nan => cases y <;> simp [add, cls, Cls.add]
  | inf a =>
    cases y with
    | nan => cases a <;> simp [add, cls, Cls.add]
    | inf b => cases a <;> cases b <;> simp [add, cls, Cls.add]
    | fin y =>
      rcases cls_fin y with ⟨-, e⟩ | ⟨-, e⟩ | ⟨-, e⟩ <;> rw [e] <;> cases a <;> simp [add, cls, Cls.add]
  | fin x =>
    cases y with
    | nan => rcases cls_fin x with ⟨-, e⟩ | ⟨-, e⟩ | ⟨-, e⟩ <;> rw [e] <;> simp [add, cls, Cls.add]
    | inf b =>
      rcases cls_fin x with ⟨-, e⟩ | ⟨-, e⟩ | ⟨-, e⟩ <;> rw [e] <;> cases b <;> simp [add, cls, Cls.add]
    | fin y =>
      have hm := cls_fin_mem (x + y)
      rcases cls_fin x with ⟨hx, e⟩ | ⟨hx, e⟩ | ⟨hx, e⟩ <;> rcases cls_fin y with ⟨hy, e'⟩ | ⟨hy, e'⟩ | ⟨hy, e'⟩ <;>
        rw [e, e'] <;> simp only [add, Cls.add]
      · rw [cls_neg (by linarith)]; simp
      · rw [cls_neg (by linarith)]; simp
      · exact hm
      · rw [cls_neg (by linarith)]; simp
      · subst hx; subst hy; simp [cls]
      · rw [cls_pos (by linarith)]; simp
      · exact hm
      · rw [cls_pos (by linarith)]; simp
      · rw [cls_pos (by linarith)]; simp

theorem cls_opp (x : Ext) : cls (opp x) = (cls x).opp := by
  cases x with
  | nan => rfl
  | inf a => cases a <;> rfl
  | fin x =>
    rcases cls_fin x with ⟨hx, e⟩ | ⟨hx, e⟩ | ⟨hx, e⟩ <;> rw [e] <;> simp only [opp, Cls.opp]
    · exact cls_pos (by linarith)
    · subst hx; simp [cls]
    · exact cls_neg (by linarith)

theorem cls_mul (x y : Ext) : cls (mul x y) ∈ (cls x).mul (cls y) := by
  cases x with
  | nan => cases y <;> simp [mul, cls, Cls.mul]
  | inf a =>
    cases y with
    | nan => cases a <;> simp [mul, cls, Cls.mul]
    | inf b => cases a <;> cases b <;> simp [mul, cls, Cls.mul]
    | fin y =>
      rcases cls_fin y with ⟨hy, e⟩ | ⟨hy, e⟩ | ⟨hy, e⟩ <;> rw [e] <;> cases a
      · simp [mul, cls, Cls.mul, hy, hy.ne]
      · simp [mul, cls, Cls.mul, hy, hy.ne]
      · simp [mul, cls, Cls.mul, hy]
      · simp [mul, cls, Cls.mul, hy]
      · simp [mul, cls, Cls.mul, hy.ne', not_lt.2 hy.le]
      · simp [mul, cls, Cls.mul, hy.ne', not_lt.2 hy.le]
  | fin x =>
    cases y with
    | nan => rcases cls_fin x with ⟨-, e⟩ | ⟨-, e⟩ | ⟨-, e⟩ <;> rw [e] <;> simp [mul, cls, Cls.mul]
    | inf b =>
      rcases cls_fin x with ⟨hy, e⟩ | ⟨hy, e⟩ | ⟨hy, e⟩ <;> rw [e] <;> cases b
      · simp [mul, cls, Cls.mul, hy, hy.ne]
      · simp [mul, cls, Cls.mul, hy, hy.ne]
      · simp [mul, cls, Cls.mul, hy]
      · simp [mul, cls, Cls.mul, hy]
      · simp [mul, cls, Cls.mul, hy.ne', not_lt.2 hy.le]
      · simp [mul, cls, Cls.mul, hy.ne', not_lt.2 hy.le]
    | fin y =>
      rcases cls_fin x with ⟨hx, e⟩ | ⟨hx, e⟩ | ⟨hx, e⟩ <;> rcases cls_fin y with ⟨hy, e'⟩ | ⟨hy, e'⟩ | ⟨hy, e'⟩ <;>
        rw [e, e'] <;> simp only [mul, Cls.mul]
      · rw [cls_pos (mul_pos_of_neg_of_neg hx hy)]; simp
      · simp [hy, cls]
      · rw [cls_neg (mul_neg_of_neg_of_pos hx hy)]; simp
      · simp [hx, cls]
      · simp [hx, cls]
      · simp [hx, cls]
      · rw [cls_neg (mul_neg_of_pos_of_neg hx hy)]; simp
      · simp [hy, cls]
      · rw [cls_pos (mul_pos hx hy)]; simp

theorem cls_div (x y : Ext) : cls (div x y) ∈ (cls x).div (cls y) := by
  cases x with
  | nan => cases y <;> simp [div, cls, Cls.div]
  | inf a =>
    cases y with
    | nan => cases a <;> simp [div, cls, Cls.div]
    | inf b => cases a <;> cases b <;> simp [div, cls, Cls.div]
    | fin y =>
      rcases cls_fin y with ⟨hy, e⟩ | ⟨hy, e⟩ | ⟨hy, e⟩ <;> rw [e] <;> cases a <;>
        simp [div, cls, Cls.div, hy, not_lt.2 hy.le]
  | fin x =>
    cases y with
    | nan => rcases cls_fin x with ⟨-, e⟩ | ⟨-, e⟩ | ⟨-, e⟩ <;> rw [e] <;> simp [div, cls, Cls.div]
    | inf b =>
      rcases cls_fin x with ⟨hy, e⟩ | ⟨hy, e⟩ | ⟨hy, e⟩ <;> rw [e] <;> cases b <;> simp [div, cls, Cls.div]
    | fin y =>
      rcases cls_fin x with ⟨hx, e⟩ | ⟨hx, e⟩ | ⟨hx, e⟩ <;> rcases cls_fin y with ⟨hy, e'⟩ | ⟨hy, e'⟩ | ⟨hy, e'⟩ <;>
        rw [e, e'] <;> simp only [div, Cls.div]
      · rw [if_neg hy.ne, cls_pos (div_pos_of_neg_of_neg hx hy)]; simp
      · simp [hy, hx.ne, hx, cls]
      · rw [if_neg hy.ne', cls_neg (div_neg_of_neg_of_pos hx hy)]; simp
      · simp [hx, hy.ne, cls]
      · simp [hx, hy, cls]
      · simp [hx, hy.ne', cls]
      · rw [if_neg hy.ne, cls_neg (div_neg_of_pos_of_neg hx hy)]; simp
      · simp [hy, hx.ne', not_lt.2 hx.le, cls]
      · rw [if_neg hy.ne', cls_pos (div_pos hx hy)]; simp

theorem cls_log2 (x : Ext) : cls (log2 x) ∈ (cls x).log2 := by
  cases x with
  | nan => simp [log2, cls, Cls.log2]
  | inf a => cases a <;> simp [log2, cls, Cls.log2]
  | fin x =>
    rcases cls_fin x with ⟨hx, e⟩ | ⟨hx, e⟩ | ⟨hx, e⟩ <;> rw [e] <;> simp only [log2, Cls.log2]
    · simp [hx, cls]
    · simp [hx, cls]
    · rw [if_neg (not_lt.2 hx.le), if_neg hx.ne']
      exact cls_fin_mem _

/-- Exact arithmetic with special values follows the rules. -/
theorem ieee : Ieee ops cls where
  zero := cls_zero
  half := cls_pos (by norm_num)
  mhalf := cls_neg (by norm_num)
  const := by
    have : ∃ x, ops.mul (ops.mul ops.half ops.m) (ops.log2 ops.twoPi) = fin x := by
      have hp : 0 < 2 * Real.pi := by positivity
      refine ⟨1 / 2 * 5 * Real.logb 2 (2 * Real.pi), ?_⟩
      simp only [ops, log2, mul]
      rw [if_neg (not_lt.2 hp.le), if_neg hp.ne']
    obtain ⟨x, hx⟩ := this
    rw [hx]
    rcases cls_fin x with ⟨-, e⟩ | ⟨-, e⟩ | ⟨-, e⟩ <;> simp [e, Cls.Finite]
  add := cls_add
  sub := fun x y => by
    have := cls_add x (opp y)
    rwa [cls_opp] at this
  mul := cls_mul
  div := cls_div
  log2 := cls_log2

end Ext

end Knor.Gmm
