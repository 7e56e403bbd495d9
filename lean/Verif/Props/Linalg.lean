import Mathlib.Algebra.Order.Field.Rat
import Mathlib.Analysis.Real.Sqrt
import Mathlib.LinearAlgebra.Matrix.Transvection
import Mathlib.LinearAlgebra.Matrix.NonsingularInverse
import Mathlib.Tactic.FieldSimp
import Mathlib.Tactic.LinearCombination
import Mathlib.Tactic.Linarith
import Mathlib.Data.Rat.Floor
import Verif.Lemmas.Linalg

/-!
# C49 (determinant), C50 (inverse), C55 (standardising a vector)
-/

namespace Knor.Linalg

open Knor

variable {R : Type _}

/-! ## C49 -/

/-- **C49.**  The recursive determinant of the leading `n × n` block of a buffer with row length `N` is
the determinant, for every matrix over every commutative ring. -/
theorem C49_determinant [CommRing R] (N n : Nat) (hn : 1 ≤ n) (hN : n ≤ N) (A : Nat → R) :
    determinant N n A = (Matrix.of fun i j : Fin n => A (i * N + j)).det :=
  determinant_eq N n A hn hN

/-- A 4 × 4 matrix. -/
def m4 (x : Nat) : ℤ := [1, 2, 0, -1, 3, 1, 4, 1, 0, 2, 2, 5, 1, 1, 0, 3].getD x 0

example : determinant 4 4 m4 = -84 := by decide +kernel

/-! ## C50 -/

theorem inverse_loop (f : Nat → R) (N : Nat) (hN : 0 < N) (out : Nat → R) : ∀ m, m ≤ N →
    ∃ o, (List.range m).foldl (fun o i => (List.range N).foldl
      (fun o j => Function.update o (i * N + j) (f (i * N + j))) o) out = o ∧
      ∀ x, x < m * N → o x = f x := by
  have hin : ∀ (i : Nat) (m : Nat) (o : Nat → R), ∃ o', (List.range m).foldl
      (fun o j => Function.update o (i * N + j) (f (i * N + j))) o = o' ∧
      (∀ x, i * N ≤ x → x < i * N + m → o' x = f x) ∧ ∀ x, x < i * N → o' x = o x := by
    intro i m
    induction m with
    | zero => intro o; exact ⟨o, rfl, by intro x h1 h2; omega, fun _ _ => rfl⟩
    | succ m ih =>
      intro o
      obtain ⟨o', e, h1, h2⟩ := ih o
      rw [List.range_succ, List.foldl_append, e]
      refine ⟨_, rfl, ?_, ?_⟩
      · intro x hx hx'
        simp only [List.foldl_cons, List.foldl_nil]
        by_cases hxm : x = i * N + m
        · rw [hxm, Function.update_self]
        · rw [Function.update_of_ne hxm]; exact h1 x hx (by omega)
      · intro x hx
        simp only [List.foldl_cons, List.foldl_nil]
        rw [Function.update_of_ne (by omega)]; exact h2 x hx
  intro m
  induction m with
  | zero => intro _; exact ⟨_, rfl, by intro x hx; omega⟩
  | succ m ih =>
    intro hm
    obtain ⟨o, e, h⟩ := ih (by omega)
    rw [List.range_succ (n := m), List.foldl_append, e]
    obtain ⟨o', e', h1, h2⟩ := hin m N o
    refine ⟨o', e', ?_⟩
    intro x hx
    rw [Nat.add_mul] at hx
    by_cases hxm : x < m * N
    · rw [h2 x hxm, h x hxm]
    · exact h1 x (by omega) (by omega)

/-- The routine reports a singular matrix exactly when the determinant vanishes. -/
theorem C50_singular_iff_partial [Field R] [DecidableEq R] (N : Nat) (hN : 1 ≤ N) (A out : Nat → R) :
    inverse N A out = none ↔ (toMatrix N N A).det = 0 := by
  unfold inverse
  simp only
  rw [determinant_eq N N A hN (le_refl _)]
  split <;> simp_all

/-- Every entry of the result is the entry of the inverse up to the sign `(-1)^(i+j)`, which the code
leaves out. -/
theorem C50_entries_partial [Field R] [DecidableEq R] (N : Nat) (hN : 1 ≤ N) (A out res : Nat → R)
    (h : inverse N A out = some res) (i j : Fin N) :
    res (i * N + j) = (-1) ^ ((i : Nat) + j) * (toMatrix N N A)⁻¹ i j := by
  obtain ⟨n, rfl⟩ : ∃ m, N = m + 1 := ⟨N - 1, by omega⟩
  have hd : (toMatrix (n + 1) (n + 1) A).det ≠ 0 := by
    intro h0
    rw [(C50_singular_iff_partial (n + 1) hN A out).2 h0] at h
    cases h
  unfold inverse at h
  simp only at h
  rw [determinant_eq (n + 1) (n + 1) A hN (le_refl _), if_neg hd] at h
  obtain ⟨o, e, ho⟩ := inverse_loop (fun x => adjoint (n + 1) A (fun _ => 0) x /
    (toMatrix (n + 1) (n + 1) A).det) (n + 1) (by omega) out (n + 1) (le_refl _)
  obtain rfl := Option.some.inj h
  rw [e, ho _ (by
    have h1 := i.2
    have h2 := j.2
    have : (i : Nat) * (n + 1) ≤ n * (n + 1) := Nat.mul_le_mul_right _ (by omega)
    rw [Nat.add_mul]
    omega), adjoint_eq, Matrix.inv_def, Matrix.smul_apply, Ring.inverse_eq_inv', smul_eq_mul]
  field_simp

/-- **C50, exactly.**  Over a field of characteristic other than 2, the result is the inverse if and
only if the true inverse vanishes wherever row and column index have different parity. -/
theorem C50_inverse_iff_partial [Field R] [DecidableEq R] (h2 : (2 : R) ≠ 0) (N : Nat) (hN : 1 ≤ N)
    (A out res : Nat → R) (h : inverse N A out = some res) :
    toMatrix N N res * toMatrix N N A = 1 ↔
      ∀ i j : Fin N, ((i : Nat) + j) % 2 = 1 → (toMatrix N N A)⁻¹ i j = 0 := by
  have hd : (toMatrix N N A).det ≠ 0 := by
    intro h0
    rw [(C50_singular_iff_partial N hN A out).2 h0] at h
    cases h
  have hu : IsUnit (toMatrix N N A).det := isUnit_iff_ne_zero.2 hd
  constructor
  · intro he i j hij
    have hinv := Matrix.inv_eq_left_inv he
    have h1 := C50_entries_partial N hN A out res h i j
    have h3 : (toMatrix N N A)⁻¹ i j = res (i * N + j) := by rw [hinv]; rfl
    rw [← h3, Odd.neg_one_pow (Nat.odd_iff.2 hij)] at h1
    have h4 : 2 * (toMatrix N N A)⁻¹ i j = 0 := by linear_combination h1
    rcases mul_eq_zero.1 h4 with h5 | h5
    · exact absurd h5 h2
    · exact h5
  · intro hz
    have : toMatrix N N res = (toMatrix N N A)⁻¹ := by
      ext i j
      show res (i * N + j) = _
      rw [C50_entries_partial N hN A out res h i j]
      rcases Nat.mod_two_eq_zero_or_one ((i : Nat) + j) with hp | hp
      · rw [Even.neg_one_pow (Nat.even_iff.2 hp), one_mul]
      · rw [hz i j hp, mul_zero]
    rw [this]
    exact Matrix.nonsing_inv_mul _ hu

/-- **C50, partial.**  1 × 1 matrices are inverted correctly.  Missing: all larger ones, by
`C50_violated`. -/
theorem C50_inverse_one_partial [Field R] [DecidableEq R] (A out : Nat → R) (h : A 0 ≠ 0) :
    ∃ res, inverse 1 A out = some res ∧ res 0 * A 0 = 1 := by
  have hd : determinant 1 1 A ≠ 0 := by simpa [determinant] using h
  refine ⟨Function.update out 0 (1 / A 0), ?_, ?_⟩
  · unfold inverse
    simp only
    rw [if_neg hd]
    simp [adjoint, determinant]
  · rw [Function.update_self]
    field_simp

/-- **C50 is violated** in every dimension above 1: there is an invertible matrix for which the routine
reports success and returns something that is not the inverse. -/
theorem C50_violated (N : Nat) (hN : 2 ≤ N) (out : Nat → ℚ) :
    ∃ A res, IsUnit (toMatrix N N A) ∧ inverse N A out = some res ∧
      toMatrix N N res * toMatrix N N A ≠ 1 := by
  let i0 : Fin N := ⟨0, by omega⟩
  let i1 : Fin N := ⟨1, by omega⟩
  have hne : i0 ≠ i1 := by simp [i0, i1]
  let M : Matrix (Fin N) (Fin N) ℚ := Matrix.transvection i0 i1 1
  let A : Nat → ℚ := fun x => if h : x / N < N then M ⟨x / N, h⟩ ⟨x % N, Nat.mod_lt _ (by omega)⟩ else 0
  have hA : toMatrix N N A = M := by
    ext i j
    show A (i * N + j) = M i j
    have h1 : ((i : Nat) * N + j) / N = i := by
      rw [Nat.mul_comm, Nat.mul_add_div (by omega), Nat.div_eq_of_lt j.2, Nat.add_zero]
    have h2 : ((i : Nat) * N + j) % N = j := Nat.mul_add_mod_of_lt j.2
    simp only [A]
    rw [dif_pos (by rw [h1]; exact i.2)]
    congr 1 <;> exact Fin.ext (by simp [h1, h2])
  have hmul : M * Matrix.transvection i0 i1 (-1) = 1 := by
    simp only [M]
    rw [Matrix.transvection_mul_transvection_same (h := hne)]
    simp
  have hinv : M⁻¹ = Matrix.transvection i0 i1 (-1) := Matrix.inv_eq_right_inv hmul
  have hdet : M.det ≠ 0 := by
    simp only [M]
    rw [Matrix.det_transvection_of_ne _ _ hne]
    exact one_ne_zero
  cases hr : inverse N A out with
  | none =>
    rw [C50_singular_iff_partial N (by omega) A out, hA] at hr
    exact absurd hr hdet
  | some res =>
    refine ⟨A, res, ?_, hr, ?_⟩
    · rw [hA, Matrix.isUnit_iff_isUnit_det]
      exact isUnit_iff_ne_zero.2 hdet
    · intro h1
      have := (C50_inverse_iff_partial two_ne_zero N (by omega) A out res hr).1 h1 i0 i1 (by simp [i0, i1])
      rw [hA, hinv, Matrix.transvection, Matrix.add_apply, Matrix.one_apply_ne hne] at this
      simp at this

/-- A matrix for which the routine is right (diagonal), and one for which it is wrong. -/
example : (inverse 2 (fun x => ([2, 0, 0, 4].getD x 0 : ℚ)) fun _ => 0).map
    (fun r => (List.range 4).map r) = some [1/2, 0, 0, 1/4] := by decide +kernel
example : (inverse 2 (fun x => ([1, 2, 3, 4].getD x 0 : ℚ)) fun _ => 0).map
    (fun r => (List.range 4).map r) = some [-2, -1, -3/2, -1/2] := by decide +kernel

/-! ## C55 -/

/-- **C55, as it should be**: a vector that is not constant is scaled to mean 0 and mean square 1. -/
def Standardises [Field R] [LinearOrder R] [FloorRing R] (sqrt : R → R) (v : List R) : Prop :=
  ∃ w, scale sqrt v = .ok w ∧ w.length = v.length ∧ w.sum = 0 ∧
    (w.map fun x => x * x).sum = (v.length : R)

theorem foldl_sq [CommRing R] (v : List R) (m a : R) :
    v.foldl (fun s x => s + (x - m) * (x - m)) a = a + (v.map fun x => (x - m) * (x - m)).sum := by
  induction v generalizing a with
  | nil => simp
  | cons x v ih => simp only [List.foldl_cons, List.map_cons, List.sum_cons]; rw [ih]; ring

theorem sum_map_sub_div [Field R] (v : List R) (m d : R) :
    (v.map fun x => (x - m) / d).sum = (v.sum - v.length * m) / d := by
  induction v with
  | nil => simp
  | cons x v ih =>
    simp only [List.map_cons, List.sum_cons, List.length_cons]
    rw [ih]
    push_cast
    ring

theorem sum_map_sq_div [Field R] (v : List R) (m d : R) :
    (v.map fun x => (x - m) / d * ((x - m) / d)).sum
      = (v.map fun x => (x - m) * (x - m)).sum / (d * d) := by
  induction v with
  | nil => simp
  | cons x v ih =>
    simp only [List.map_cons, List.sum_cons]
    rw [ih, div_mul_div_comm]
    ring

theorem trunc_int [Ring R] [LinearOrder R] [IsStrictOrderedRing R] [FloorRing R] (z : Int) :
    trunc (z : R) = z := by
  unfold trunc
  split <;> simp

/-- The sum of integers that stay within `int` is exact. -/
theorem accumulateInt_ok [Ring R] [LinearOrder R] [IsStrictOrderedRing R] [FloorRing R] :
    ∀ (zs : List Int) (acc : Int),
      (∀ m, m ≤ zs.length → -2147483648 ≤ acc + (zs.take m).sum ∧ acc + (zs.take m).sum ≤ 2147483647) →
      accumulateInt (R := R) (zs.map fun z : Int => (z : R)) acc = .ok (acc + zs.sum) := by
  intro zs
  induction zs with
  | nil => intro acc _; simp [accumulateInt]
  | cons z zs ih =>
    intro acc h
    have h1 := h 1 (by simp)
    simp only [List.take_succ_cons, List.take_zero, List.sum_cons, List.sum_nil, add_zero] at h1
    simp only [List.map_cons]
    unfold accumulateInt
    have ht : trunc ((acc : R) + (z : R)) = acc + z := by
      rw [← Int.cast_add, trunc_int]
    simp only [ht]
    rw [if_pos h1, ih (acc + z)]
    · simp [add_assoc]
    · intro m hm
      have := h (m + 1) (by simpa using hm)
      simp only [List.take_succ_cons, List.sum_cons] at this
      rw [add_assoc]
      exact this

theorem sq_sum_nonneg [Field R] [LinearOrder R] [IsStrictOrderedRing R] (v : List R) (m : R) :
    0 ≤ (v.map fun x => (x - m) * (x - m)).sum ∧
      ((v.map fun x => (x - m) * (x - m)).sum = 0 → ∀ x ∈ v, x = m) := by
  induction v with
  | nil => simp
  | cons x v ih =>
    simp only [List.map_cons, List.sum_cons]
    have h := mul_self_nonneg (x - m)
    refine ⟨by linarith [ih.1], ?_⟩
    intro h0 y hy
    have hx : (x - m) * (x - m) = 0 := by linarith [ih.1]
    rcases List.mem_cons.1 hy with rfl | hy
    · have := mul_self_eq_zero.1 hx
      linarith
    · exact ih.2 (by linarith) y hy

/-- **C55, partial.**  Vectors of integers whose partial sums fit into `int` and that are not constant
are standardised.  Missing: vectors with fractional entries (`C55_violated`). -/
theorem C55_scale_partial [Field R] [LinearOrder R] [IsStrictOrderedRing R] [FloorRing R]
    (sqrt : R → R) (hsqrt : ∀ x, 0 ≤ x → sqrt x * sqrt x = x) (zs : List Int)
    (hrange : ∀ m, m ≤ zs.length → -2147483648 ≤ (zs.take m).sum ∧ (zs.take m).sum ≤ 2147483647)
    (hvar : ∃ x ∈ zs, ∃ y ∈ zs, x ≠ y) :
    Standardises sqrt (zs.map fun z : Int => (z : R)) := by
  obtain ⟨x, hx, y, hy, hxy⟩ := hvar
  have hlen : (0 : R) < ((zs.map fun z : Int => (z : R)).length : R) := by
    have : 0 < zs.length := List.length_pos_of_mem hx
    simpa using this
  have hacc := accumulateInt_ok (R := R) zs 0 (by simpa using hrange)
  rw [zero_add] at hacc
  have hsum : ((zs.sum : Int) : R) = (zs.map fun z : Int => (z : R)).sum := by
    clear hrange hacc hx hy hlen
    induction zs with
    | nil => simp
    | cons z zs ih => simp [ih]
  generalize hv : (zs.map fun z : Int => (z : R)) = v at *
  generalize hm : (zs.sum : R) / (v.length : R) = m
  have hnn := sq_sum_nonneg v m
  generalize hS : (v.map fun x => (x - m) * (x - m)).sum = S at *
  have hSpos : 0 < S := by
    rcases lt_or_eq_of_le hnn.1 with h | h
    · exact h
    · exfalso
      have hz := hnn.2 h.symm
      have h1 := hz (x : R) (by rw [← hv]; exact List.mem_map_of_mem (f := fun z : Int => (z : R)) hx)
      have h2 := hz (y : R) (by rw [← hv]; exact List.mem_map_of_mem (f := fun z : Int => (z : R)) hy)
      exact hxy (Int.cast_injective (h1.trans h2.symm))
  have hdd := hsqrt (S / v.length) (by positivity)
  have hd0 : sqrt (S / v.length) ≠ 0 := by
    intro h0
    rw [h0, mul_zero] at hdd
    have : 0 < S / (v.length : R) := by positivity
    linarith
  refine ⟨v.map fun x => (x - m) / sqrt (S / v.length), ?_, by simp, ?_, ?_⟩
  · unfold scale
    rw [hacc]
    simp only
    rw [hm, foldl_sq, hS, zero_add, if_neg hd0]
  · rw [sum_map_sub_div, ← hsum, ← hm]
    field_simp
    ring
  · rw [List.map_map]
    have : ((fun x => x * x) ∘ fun x => (x - m) / sqrt (S / v.length))
        = fun x => (x - m) / sqrt (S / v.length) * ((x - m) / sqrt (S / v.length)) := rfl
    rw [this, sum_map_sq_div, hS, hdd]
    field_simp

/-- **C55 is violated**: the mean of `(1/2, 3/2)` is taken to be 1/2, because the running sum is kept
in an `int`; the scaled vector is `(0, √2)` and has mean `√2/2`. -/
theorem C55_violated : scale Real.sqrt [1/2, 3/2] = .ok [0, Real.sqrt 2] ∧
    ¬ Standardises Real.sqrt [1/2, 3/2] := by
  have hs2 : Real.sqrt 2 * Real.sqrt 2 = 2 := Real.mul_self_sqrt (by norm_num)
  have hacc : accumulateInt ([1/2, 3/2] : List ℝ) 0 = .ok 1 := by
    have f1 : trunc (((0 : Int) : ℝ) + 1 / 2) = 0 := by
      unfold trunc
      rw [if_pos (by norm_num), Int.floor_eq_zero_iff]
      norm_num
    have f2 : trunc (((0 : Int) : ℝ) + 3 / 2) = 1 := by
      unfold trunc
      rw [if_pos (by norm_num), Int.floor_eq_iff]
      norm_num
    simp only [accumulateInt, f1, f2]
    norm_num
  have hsq : (1 / 2 : ℝ) = (Real.sqrt 2)⁻¹ * (Real.sqrt 2)⁻¹ := by
    rw [← mul_inv, hs2]; norm_num
  have hsd : Real.sqrt (1 / 2) = (Real.sqrt 2)⁻¹ := by
    rw [hsq, Real.sqrt_mul_self (by positivity)]
  have hval : scale Real.sqrt [1/2, 3/2] = .ok [0, Real.sqrt 2] := by
    unfold scale
    rw [hacc]
    simp only [List.length_cons, List.length_nil, List.foldl_cons, List.foldl_nil, List.map_cons,
      List.map_nil]
    norm_num
  refine ⟨hval, ?_⟩
  rintro ⟨w, hw, _, hsum, _⟩
  rw [hval] at hw
  cases hw
  simp only [List.sum_cons, List.sum_nil, zero_add, add_zero] at hsum
  rw [hsum] at hs2
  norm_num at hs2

/-- A constant vector whose true mean is found aborts the process. -/
theorem C55_limit_constant_aborts : scale Real.sqrt [3, 3] = .error .assertFail := by
  have hacc := accumulateInt_ok (R := ℝ) [3, 3] 0 (by decide)
  simp only [List.map_cons, List.map_nil, Int.cast_ofNat] at hacc
  unfold scale
  rw [hacc]
  norm_num

/-- An integer vector that meets the hypotheses of the partial theorem. -/
example : (∀ m, m ≤ [3, -1, 4, 1].length → -2147483648 ≤ ([3, -1, 4, 1].take m : List Int).sum ∧
    ([3, -1, 4, 1].take m : List Int).sum ≤ 2147483647) ∧
    ∃ x ∈ ([3, -1, 4, 1] : List Int), ∃ y ∈ ([3, -1, 4, 1] : List Int), x ≠ y := by decide

end Knor.Linalg
