import Mathlib.Algebra.Order.Field.Rat
import Mathlib.Tactic.NormNum
import Mathlib.Tactic.Linarith
import Mathlib.Tactic.FinCases
import Mathlib.LinearAlgebra.Matrix.Notation
import Verif.Lemmas.Dense

/-!
# C67 (dense matrix arithmetic), C68 (non-conforming operands), C69 (arg-max)
-/

namespace Knor.Dense

open Knor Knor.Spec

variable {R : Type _} {p q r : Nat}

/-- The 2 × 3 matrix of the examples. -/
def exA : Matrix (Fin 2) (Fin 3) ℚ := !![1, 2, 3; 4, 5, 6]
/-- The 3 × 2 matrix of the examples. -/
def exB : Matrix (Fin 3) (Fin 2) ℚ := !![1, 0; 0, 2; -1, 1]
/-- The 2 × 2 matrix of the examples. -/
def exC : Matrix (Fin 2) (Fin 2) ℚ := !![1, 2; 3, 4]

/-! ## C67 -/

/-- **C67.**  Every object whose buffer has `nrow * ncol` entries stores a matrix, and a freshly created
one stores the zero matrix. -/
theorem C67_every_object (m : DM R) (h : m.mat.length = m.nrow * m.ncol) :
    ∃ A : Matrix (Fin m.nrow) (Fin m.ncol) R, m = stored A := exists_stored m h

theorem C67_create [Zero R] (p q : Nat) :
    create (R := R) p q = stored (0 : Matrix (Fin p) (Fin q) R) := by
  have : List.replicate (p * q) (0 : R) = (stored (0 : Matrix (Fin p) (Fin q) R)).mat := by
    apply list_eq_stored _ (by simp)
    intro i j
    simp only [List.getElem?_replicate, if_pos (cell_lt i.isLt j.isLt)]
    rfl
  unfold create
  rw [this]
  rfl

/-- **C67.**  `get` reads the entry; `set` and `peq` change that entry and no other. -/
theorem C67_get (A : Matrix (Fin p) (Fin q) R) (i : Fin p) (j : Fin q) :
    (stored A).get i j = .ok (A i j) := rd_some (stored_get A i j)

theorem set_mat (A : Matrix (Fin p) (Fin q) R) (i : Fin p) (j : Fin q) (x : R) :
    (stored A).mat.set (i.val * q + j.val) x = (stored (A.updateRow i (Function.update (A i) j x))).mat := by
  apply list_eq_stored _ (by simp [stored_length])
  intro i' j'
  rw [List.getElem?_set]
  split
  · rename_i h
    obtain ⟨h1, h2⟩ := cell_inj j.isLt j'.isLt h
    have e1 : i = i' := Fin.ext h1
    have e2 : j = j' := Fin.ext h2
    subst e1; subst e2
    rw [if_pos (by rw [stored_length]; exact cell_lt i.isLt j.isLt)]
    simp
  · rename_i h
    rw [stored_get]
    by_cases hi : i' = i
    · subst hi
      have hj : j' ≠ j := by rintro rfl; exact h rfl
      simp [hj]
    · simp [Matrix.updateRow_ne hi]

theorem C67_set (A : Matrix (Fin p) (Fin q) R) (i : Fin p) (j : Fin q) (x : R) :
    (stored A).set i j x = .ok (stored (A.updateRow i (Function.update (A i) j x))) := by
  unfold DM.set
  rw [show (stored A).ncol = q from rfl, wr_lt (by rw [stored_length]; exact cell_lt i.isLt j.isLt),
    set_mat]
  rfl

theorem C67_peq [Add R] (A : Matrix (Fin p) (Fin q) R) (i : Fin p) (j : Fin q) (x : R) :
    (stored A).peq i j x = .ok (stored (A.updateRow i (Function.update (A i) j (A i j + x)))) := by
  unfold DM.peq
  rw [show (stored A).ncol = q from rfl, upd_some (y := A i j + x) (stored_get A i j) rfl, set_mat]
  rfl

/-- **C67.**  `set_row` replaces one row and no other; a source shorter than a row is read past its end. -/
theorem C67_setRow (A : Matrix (Fin p) (Fin q) R) (d : Fin q → R) (i : Fin p) :
    (stored A).setRow (List.ofFn d) i = .ok (stored (A.updateRow i d)) := by
  obtain ⟨v', e, h1, h2, h3⟩ := forEach_upd (f := setRowStep (stored A) (List.ofFn d) i)
    (idx := fun j : Nat => i.val * q + j)
    (F := fun j y => if h : j < q then d ⟨j, h⟩ else y)
    (List.range q) (stored A).mat
    (by
      rw [List.nodup_map_iff_inj_on List.nodup_range]
      intro a _ b _ hab
      omega)
    (fun j hj => by rw [stored_length]; exact cell_lt i.isLt (List.mem_range.1 hj))
    (fun j hj w hw y hy => by
      have hj' := List.mem_range.1 hj
      unfold setRowStep
      rw [rd_lt (by simpa using hj'), dif_pos hj']
      simp only [List.getElem_ofFn]
      exact wr_lt (by rw [hw, stored_length]; exact cell_lt i.isLt hj'))
  unfold DM.setRow
  rw [show (stored A).ncol = q from rfl, e]
  have : v' = (stored (A.updateRow i d)).mat := by
    apply list_eq_stored _ (by rw [h1, stored_length])
    intro i' j
    by_cases hi : i' = i
    · subst hi
      rw [h2 j.val (List.mem_range.2 j.isLt) _ (stored_get A i' j), dif_pos j.isLt]
      simp
    · rw [h3, stored_get, Matrix.updateRow_ne hi]
      intro hm
      rw [List.mem_map] at hm
      obtain ⟨j', hj', he⟩ := hm
      exact hi (Fin.ext (cell_inj (List.mem_range.1 hj') j.isLt he).1.symm)
  rw [this]
  rfl

example : (stored exA).set 1 0 9 = .ok (stored !![1, 2, 3; 9, 5, 6]) := by decide +kernel
example : (stored exA).peq 1 0 9 = .ok (stored !![1, 2, 3; 13, 5, 6]) := by decide +kernel
example : (stored exA).setRow [7, 8, 9] 0 = .ok (stored !![7, 8, 9; 4, 5, 6]) := by decide +kernel

/-- **C67.**  Matrix product, sum and difference of conforming operands. -/
theorem C67_mul [Semiring R] (A : Matrix (Fin p) (Fin q) R) (B : Matrix (Fin q) (Fin r) R) :
    (stored A).mul (stored B) = .ok (stored (A * B)) := mul_stored A B

theorem C67_plus [Add R] (A B : Matrix (Fin p) (Fin q) R) :
    (stored A).plus (stored B) = .ok (stored (A + B)) := zip_stored A B _

theorem C67_minus [Sub R] (A B : Matrix (Fin p) (Fin q) R) :
    (stored A).minus (stored B) = .ok (stored (A - B)) := zip_stored A B _

example : (stored exA).mul (stored exB) = .ok (stored !![-2, 7; -2, 16]) := by decide +kernel
example : (stored exA).minus (stored exA) = .ok (stored (0 : Matrix (Fin 2) (Fin 3) ℚ)) := by decide +kernel

/-- **C67.**  The mean of every column (`dim = 1`), of every row (`dim = 0`). -/
theorem C67_mean [Field R] (A : Matrix (Fin p) (Fin q) R) (old : List R) :
    (stored A).mean old 1 = .ok (List.ofFn fun j => (∑ i, A i j) / (p : R)) ∧
    (stored A).mean old 0 = .ok (List.ofFn fun i => (∑ j, A i j) / (q : R)) := by
  constructor
  · unfold DM.mean
    rw [if_pos rfl, show (stored A).nrow = p from rfl, show (stored A).ncol = q from rfl, colSums]
    simp only [List.map_ofFn]
    rfl
  · unfold DM.mean
    rw [if_neg (by decide), if_pos rfl, show (stored A).nrow = p from rfl,
      show (stored A).ncol = q from rfl, rowSums]
    simp only [List.map_ofFn]
    rfl

example : (stored exA).mean [] 1 = .ok [5 / 2, 7 / 2, 9 / 2] := by decide +kernel
example : (stored exA).mean [] 0 = .ok [2, 5] := by decide +kernel

/-- **C67.**  The sum of all entries; of every column (`axis = 0`, at least one row); of every row
(`axis = 1`); the Frobenius norm. -/
theorem C67_sums [AddCommMonoid R] (A : Matrix (Fin p) (Fin q) R) :
    (stored A).sumAll = .ok (∑ i, ∑ j, A i j) ∧
    (0 < p → (stored A).sumAxis 0 = .ok (List.ofFn fun j => ∑ i, A i j)) ∧
    (stored A).sumAxis 1 = .ok (List.ofFn fun i => ∑ j, A i j) :=
  ⟨foldAll_stored A id, colSums_first A, rowSums A⟩

theorem C67_frobenius [CommSemiring R] (sqrt : R → R) (A : Matrix (Fin p) (Fin q) R) :
    (stored A).frobeniusNorm sqrt = .ok (sqrt (∑ i, ∑ j, A i j ^ 2)) := by
  unfold DM.frobeniusNorm
  rw [foldAll_stored]
  simp only [pow_two]

example : (stored exA).sumAxis 0 = .ok [5, 7, 9] := by decide +kernel
example : (stored exA).sumAxis 1 = .ok [6, 15] := by decide +kernel
example : (stored exA).sumAll = .ok 21 := by decide +kernel
example : (stored exA).frobeniusNorm id = .ok 91 := by decide +kernel

/-- **C67.**  Elementwise operations: `operator/=(val)` (`f x = x / val`) and `pow_eq` (`f x = x^e`). -/
theorem C67_elementwise (A : Matrix (Fin p) (Fin q) R) (f : R → R) :
    mapAll (stored A) f = .ok (stored (A.map f)) := mapAll_stored A f

/-- **C67.**  `div_eq` divides column `j` (`axis = 0`) or row `i` (`axis = 1`) by the vector's entry, then
applies the power in `div_eq_pow`; any other length or axis is reported. -/
theorem C67_divEq [Div R] (A : Matrix (Fin p) (Fin q) R) (g : R → R) :
    (∀ v : Fin q → R, (stored A).divEq (List.ofFn v) 0 g
      = .ok (stored (Matrix.of fun i j => g (A i j / v j)))) ∧
    (∀ v : Fin p → R, (stored A).divEq (List.ofFn v) 1 g
      = .ok (stored (Matrix.of fun i j => g (A i j / v i)))) ∧
    (∀ (v : List R) (axis : Nat), ¬ (axis = 0 ∧ v.length = q) → ¬ (axis = 1 ∧ v.length = p) →
      (stored A).divEq v axis g = .error .throws) := by
  refine ⟨fun v => ?_, fun v => ?_, fun v axis h0 h1 => ?_⟩
  · unfold DM.divEq
    rw [if_pos ⟨rfl, by rw [List.length_ofFn]; rfl⟩]
    refine eachCell_stored A (F := fun i j x => g (x / v j)) fun i j x => ?_
    simp only
    rw [rd_lt (by simp [j.isLt])]
    simp
  · unfold DM.divEq
    rw [if_neg (fun h => by simp at h), if_pos ⟨rfl, by rw [List.length_ofFn]; rfl⟩]
    refine eachCell_stored A (F := fun i j x => g (x / v i)) fun i j x => ?_
    simp only
    rw [rd_lt (by simp [i.isLt])]
    simp
  · unfold DM.divEq
    rw [show (stored A).ncol = q from rfl, show (stored A).nrow = p from rfl, if_neg h0, if_neg h1]

/-- **C67.**  `operator/=(vector)` on a matrix that is not square: the length of the vector says whether
rows or columns are divided; a square matrix (where it would not) is reported. -/
theorem C67_divVec [Div R] (A : Matrix (Fin p) (Fin q) R) :
    (p ≠ q → ∀ v : Fin p → R, (stored A).divVec (List.ofFn v)
      = .ok (stored (Matrix.of fun i j => A i j / v i))) ∧
    (p ≠ q → ∀ v : Fin q → R, (stored A).divVec (List.ofFn v)
      = .ok (stored (Matrix.of fun i j => A i j / v j))) ∧
    (∀ v : List R, (p = q ∨ (v.length ≠ p ∧ v.length ≠ q)) → (stored A).divVec v = .error .throws) := by
  have hd : (stored A).nrow = p ∧ (stored A).ncol = q := ⟨rfl, rfl⟩
  refine ⟨fun h v => ?_, fun h v => ?_, fun v h => ?_⟩
  · unfold DM.divVec
    rw [hd.1, hd.2, if_neg h, if_pos (by simp)]
    refine eachCell_stored A (F := fun i j x => x / v i) fun i j x => ?_
    simp only
    rw [rd_lt (by simp [i.isLt])]
    simp
  · unfold DM.divVec
    rw [hd.1, hd.2, if_neg h, if_neg (by simpa using fun e => h e.symm), if_pos (by simp)]
    refine eachCell_stored A (F := fun i j x => x / v j) fun i j x => ?_
    simp only
    rw [rd_lt (by simp [j.isLt])]
    simp
  · unfold DM.divVec
    rw [hd.1, hd.2]
    rcases h with h | ⟨h1, h2⟩
    · rw [if_pos h]
    · rw [if_neg h1, if_neg h2]
      split <;> rfl

example : (stored exA).divVec [1, 2] = .ok (stored !![1, 2, 3; 2, 5 / 2, 3]) := by decide +kernel
example : (stored exA).divVec [1, 2, 3] = .ok (stored !![1, 1, 1; 4, 5 / 2, 2]) := by decide +kernel
example : (stored exA).divEq [1, 2] 1 (fun x => x * x)
    = .ok (stored !![1, 4, 9; 4, 25 / 4, 9]) := by decide +kernel

/-- **C67.**  `operator==` says whether the matrices are equal, and never faults. -/
theorem C67_eq [DecidableEq R] (A : Matrix (Fin p) (Fin q) R) :
    (∀ B : Matrix (Fin p) (Fin q) R, (stored A).eq (stored B) = .ok (decide (A = B))) ∧
    (∀ (p' q' : Nat) (B : Matrix (Fin p') (Fin q') R), (p ≠ p' ∨ q ≠ q') →
      (stored A).eq (stored B) = .ok false) := by
  constructor
  · intro B
    obtain ⟨x, e, h⟩ := eqLoop_spec (a := (stored A).mat) (b := (stored B).mat) (List.range (q * p))
      (fun i hi => by
        rw [stored_length, stored_length, Nat.mul_comm]
        exact ⟨List.mem_range.1 hi, List.mem_range.1 hi⟩)
    unfold DM.eq
    rw [if_neg (by rintro (h | h) <;> exact h rfl)]
    rw [show (stored A).ncol = q from rfl, show (stored A).nrow = p from rfl, e]
    congr 1
    rw [Bool.eq_iff_iff, h, decide_eq_true_iff]
    constructor
    · intro hall
      apply stored_inj
      apply List.ext_getElem?
      intro t
      by_cases ht : t < q * p
      · exact hall t (List.mem_range.2 ht)
      · rw [List.getElem?_eq_none (by rw [stored_length, Nat.mul_comm]; omega),
          List.getElem?_eq_none (by rw [stored_length, Nat.mul_comm]; omega)]
    · rintro rfl _ _
      rfl
  · intro p' q' B h
    exact if_pos h

example : (stored exA).eq (stored (exA + 0)) = .ok true := by decide +kernel
example : (stored exA).eq (stored exB) = .ok false := by decide +kernel

/-- **C67.**  Vector helpers: difference, dot product, norm, row vector times matrix. -/
theorem C67_vdiff [Zero R] [Sub R] (v w : Fin p → R) (res : List R) :
    (res.length = 0 ∨ res.length = p → vdiff (List.ofFn v) (List.ofFn w) p res = .ok (List.ofFn (v - w))) ∧
    (p < res.length → vdiff (List.ofFn v) (List.ofFn w) p res
      = .ok (List.ofFn (v - w) ++ res.drop p)) := by
  have key : ∀ l : List R, p ≤ l.length → ∃ v', forEach (vdiffStep (List.ofFn v) (List.ofFn w))
      (List.range p) l = .ok v' ∧ v' = List.ofFn (v - w) ++ l.drop p := by
    intro l hl
    obtain ⟨v', e, h1, h2, h3⟩ := forEach_upd (f := vdiffStep (List.ofFn v) (List.ofFn w))
      (idx := fun i : Nat => i) (F := fun i y => if h : i < p then v ⟨i, h⟩ - w ⟨i, h⟩ else y)
      (List.range p) l nodup_range_map
      (fun x hx => Nat.lt_of_lt_of_le (List.mem_range.1 hx) hl)
      (fun x hx u hu y hy => by
        have hx' := List.mem_range.1 hx
        unfold vdiffStep
        rw [rd_lt (by simpa using hx'), rd_lt (by simpa using hx'), dif_pos hx']
        simp only [List.getElem_ofFn]
        exact wr_lt (by omega))
    refine ⟨v', e, ?_⟩
    apply List.ext_getElem?
    intro t
    by_cases ht : t < p
    · rw [h2 t (List.mem_range.2 ht) (l[t]'(by omega)) (List.getElem?_eq_getElem _), dif_pos ht,
        List.getElem?_append_left (by simpa using ht), List.getElem?_ofFn, dif_pos ht]
      rfl
    · rw [h3 t (by simpa using ht), List.getElem?_append_right (by simp; omega), List.getElem?_drop]
      simp only [List.length_ofFn]
      congr 1
      omega
  constructor
  · intro h
    unfold vdiff
    obtain ⟨v', e, h1⟩ := key (if res.length = 0 then List.replicate p 0 else res) (by
      split
      · simp
      · rename_i h0
        rcases h with h | h
        · exact absurd h h0
        · omega)
    rw [e, h1]
    rw [List.drop_eq_nil_of_le, List.append_nil]
    split
    · simp
    · rename_i h0
      rcases h with h | h
      · exact absurd h h0
      · omega
  · intro h
    unfold vdiff
    rw [if_neg (by omega)]
    obtain ⟨v', e, h1⟩ := key res (by omega)
    rw [e, h1]

/-- A non-empty result vector that is too short is written past its end. -/
theorem C67_violation_vdiff_short :
    vdiff ([1, 2] : List ℚ) [3, 4] 2 [0] = .error .ub := by decide +kernel

theorem C67_dot [CommSemiring R] (v w : Fin p → R) :
    dotVec (List.ofFn v) (List.ofFn w) = .ok (∑ i, v i * w i) := by
  unfold dotVec
  rw [if_neg (by simp)]
  rw [forEach_ok (g := fun s i => s + if h : i < p then v ⟨i, h⟩ * w ⟨i, h⟩ else 0)]
  · rw [foldl_add, zero_add, List.length_ofFn, sum_range_list, Finset.sum_range]
    congr 1
    apply Finset.sum_congr rfl
    intro i _
    rw [dif_pos i.isLt]
  · intro s i hi
    have hi' : i < p := by simpa using hi
    unfold dotStep
    rw [rd_lt (by simpa using hi'), rd_lt (by simpa using hi'), dif_pos hi']
    simp

theorem C67_dot_mismatch [Zero R] [Add R] [Mul R] (v w : List R) (h : v.length ≠ w.length) :
    dotVec v w = .error .assertFail := by
  unfold dotVec
  rw [if_pos h]

theorem C67_norm [CommSemiring R] (sqrt : R → R) (v : Fin p → R) :
    normVec sqrt (List.ofFn v) = .ok (sqrt (∑ i, v i ^ 2)) := by
  unfold normVec
  rw [foldList rfl]
  simp only [List.map_ofFn, List.sum_ofFn, Function.comp, pow_two]

theorem C67_vecMat [CommSemiring R] (v : Fin p → R) (A : Matrix (Fin p) (Fin q) R) :
    vecMat (List.ofFn v) (stored A).mat p q = .ok (List.ofFn (Matrix.vecMul v A)) := by
  obtain ⟨u, e, h1, h2⟩ := forEach_acc (f := vecMatStep (List.ofFn v) (stored A).mat q)
    (key := Prod.snd) (val := fun x => (if h : x.1 < p then v ⟨x.1, h⟩ else 0) * ext A x)
    (cells p q) (List.replicate q 0) (fun x hx => by simpa using (mem_cells.1 hx).2)
    (fun x hx w _ y hy => by
      have hx' := mem_cells.1 hx
      unfold vecMatStep
      rw [rd_lt (by simpa using hx'.1), dif_pos hx'.1]
      have := get_ext A hx
      unfold DM.get at this
      rw [show (stored A).ncol = q from rfl] at this
      simp only [this, List.getElem_ofFn]
      exact upd_some hy rfl)
  unfold vecMat
  rw [e]
  congr 1
  apply list_eq_ofFn _ (by simpa using h1)
  intro j
  rw [h2 j.val 0 (by simp [j.isLt]), zero_add, sum_cells, Finset.sum_range]
  congr 1
  unfold Matrix.vecMul dotProduct
  apply Finset.sum_congr rfl
  intro i _
  simp only
  rw [Finset.sum_ite_eq' (Finset.range q) j.val, if_pos (Finset.mem_range.2 j.isLt), ext_fin,
    dif_pos i.isLt]

example : vecMat [1, 2] (stored exA).mat 2 3 = .ok [9, 12, 15] := by decide +kernel
example : dotVec [1, 2, 3] [4, 5, (6 : ℚ)] = .ok 32 := by decide +kernel
example : vdiff [1, 2] [3, (5 : ℚ)] 2 [] = .ok [-2, -3] := by decide +kernel

/-! ## C68 -/

/-- **C68.**  Sums and differences of matrices of different shapes abort. -/
theorem C68_plus_minus_rejected [Add R] [Sub R] (m n : DM R) (h : m.nrow ≠ n.nrow ∨ m.ncol ≠ n.ncol) :
    m.plus n = .error .assertFail ∧ m.minus n = .error .assertFail := by
  have : ¬ (m.nrow = n.nrow ∧ m.ncol = n.ncol) := by
    rintro ⟨a, b⟩
    rcases h with h | h
    · exact h a
    · exact h b
  exact ⟨if_neg this, if_neg this⟩

example : (stored exA).plus (stored exB) = .error .assertFail := by decide +kernel

/-- **C68, violated.**  The product does not look at the shapes: here a 2 × 3 times a 2 × 2 matrix is
undefined mathematically, yet a result is returned without a report. -/
theorem C68_violation_product_unchecked :
    (stored exA).mul (stored exC) = .ok (stored !![7, 10; 19, 28]) := by decide +kernel

/-- … and with a taller right operand the left buffer is read past its end. -/
theorem C68_violation_product_reads_past_end :
    (stored exC).mul (stored exB) = .error .ub := by decide +kernel

/-- **C68, partial.**  Subtracting a vector from a square matrix subtracts entry `i` from row `i`; a vector of another length is reported.
Missing: matrices that are not square (next theorem). -/
theorem C68_minus_vector_partial [Sub R] (A : Matrix (Fin p) (Fin p) R) :
    (∀ v : Fin p → R, (stored A).minusVec (List.ofFn v)
      = .ok (stored (Matrix.of fun i j => A i j - v i))) ∧
    (∀ v : List R, v.length ≠ p → (stored A).minusVec v = .error .throws) := by
  have hd : (stored A).nrow = p ∧ (stored A).ncol = p := ⟨rfl, rfl⟩
  refine ⟨fun v => ?_, fun v h => ?_⟩
  · unfold DM.minusVec
    rw [hd.1, hd.2, if_neg (by simp), if_pos (by simp)]
    refine eachCell_stored A (F := fun i j x => x - v i) fun i j x => ?_
    simp only
    rw [rd_lt (by simp [i.isLt])]
    simp
  · unfold DM.minusVec
    rw [hd.1, hd.2, if_neg (by simp), if_neg h, if_neg h]

example : (stored exC).minusVec [1, 2] = .ok (stored !![0, 1; 1, 2]) := by decide +kernel

/-- **C68, violated.**  For every matrix that is not square the subtraction aborts, whatever the vector: the
branch that would subtract along the columns is unreachable. -/
theorem C68_violation_minus_vector_not_square [Sub R] (A : Matrix (Fin p) (Fin q) R) (h : p ≠ q)
    (v : List R) : (stored A).minusVec v = .error .assertFail := by
  exact if_pos h

example : (stored exA).minusVec [1, 2, 3] = .error .assertFail :=
  C68_violation_minus_vector_not_square exA (by decide) _

/-! ## C69 -/

/-- The common part of both axes. -/
theorem argmax_line [Zero R] [LinearOrder R] (dmin : R) (f : Nat → R) (m : Nat) (hx : ∃ j, j < m ∧ dmin < f j) :
    let s := best (dmin, 0) ((List.range m).map fun j => (f j, j))
    s.2 < m ∧ (∀ j, j < m → f j ≤ f s.2) ∧ ∀ j, j < s.2 → f j < f s.2 := by
  intro s
  obtain ⟨_, h2, h3⟩ := best_spec f dmin m
  obtain ⟨j, hj, hd⟩ := hx
  rcases h3 with h3 | ⟨a, b, c, d⟩
  · exfalso
    have := h2 j hj
    rw [h3] at this
    exact absurd hd (not_lt.2 this)
  · refine ⟨a, fun t ht => ?_, d⟩
    have := h2 t ht
    rw [b] at this
    exact this

/-- **C69, partial.**  If every row (`axis = 0`) or column (`axis = 1`) has an entry above the smallest
positive normal number, `argmax` gives the first position of its largest entry.  Missing: rows and columns
without such an entry (next theorem). -/
theorem C69_argmax_partial [Zero R] [LinearOrder R] (dmin : R) (A : Matrix (Fin p) (Fin q) R) :
    ((∀ i, ∃ j, dmin < A i j) → ∃ idx : Fin p → Fin q,
      (stored A).argmax dmin 0 = .ok (List.ofFn fun i => (idx i).val) ∧
      ∀ i, (∀ j, A i j ≤ A i (idx i)) ∧ ∀ j, j < idx i → A i j < A i (idx i)) ∧
    ((∀ j, ∃ i, dmin < A i j) → ∃ idx : Fin q → Fin p,
      (stored A).argmax dmin 1 = .ok (List.ofFn fun j => (idx j).val) ∧
      ∀ j, (∀ i, A i j ≤ A (idx j) j) ∧ ∀ i, i < idx j → A i j < A (idx j) j) ∧
    ∀ axis, 1 < axis → (stored A).argmax dmin axis = .error .throws := by
  refine ⟨fun hx => ?_, fun hx => ?_, fun axis ha => ?_⟩
  · obtain ⟨s, e, h⟩ := argmaxLoop_key A Prod.fst Prod.snd (cells p q) (fun _ => (dmin, 0)) fun _ h => h
    have hs : ∀ i : Fin p, s i.val = best (dmin, 0) ((List.range q).map fun j => (ext A (i.val, j), j)) := by
      intro i
      rw [h i.val, filter_cells_fst i.isLt, List.map_map]
      rfl
    have hl : ∀ i : Fin p, (s i.val).2 < q ∧ (∀ j, j < q → ext A (i.val, j) ≤ ext A (i.val, (s i.val).2)) ∧
        ∀ j, j < (s i.val).2 → ext A (i.val, j) < ext A (i.val, (s i.val).2) := by
      intro i
      rw [hs i]
      refine argmax_line dmin (fun j => ext A (i.val, j)) q ?_
      obtain ⟨j, hj⟩ := hx i
      exact ⟨j.val, j.isLt, by rw [ext_fin]; exact hj⟩
    refine ⟨fun i => ⟨(s i.val).2, (hl i).1⟩, ?_, fun i => ⟨fun j => ?_, fun j hj => ?_⟩⟩
    · unfold DM.argmax
      rw [if_pos rfl, show (stored A).nrow = p from rfl, show (stored A).ncol = q from rfl, e]
      simp only [Except.ok.injEq]
      apply list_eq_ofFn _ (by simp)
      intro i
      simp [i.isLt]
    · have := (hl i).2.1 j.val j.isLt
      rw [ext_fin] at this
      rwa [← ext_fin A i ⟨(s i.val).2, (hl i).1⟩]
    · have := (hl i).2.2 j.val hj
      rw [ext_fin] at this
      rwa [← ext_fin A i ⟨(s i.val).2, (hl i).1⟩]
  · obtain ⟨s, e, h⟩ := argmaxLoop_key A Prod.snd Prod.fst (cells p q) (fun _ => (dmin, 0)) fun _ h => h
    have hs : ∀ j : Fin q, s j.val = best (dmin, 0) ((List.range p).map fun i => (ext A (i, j.val), i)) := by
      intro j
      rw [h j.val, filter_cells_snd j.isLt, List.map_map]
      rfl
    have hl : ∀ j : Fin q, (s j.val).2 < p ∧ (∀ i, i < p → ext A (i, j.val) ≤ ext A ((s j.val).2, j.val)) ∧
        ∀ i, i < (s j.val).2 → ext A (i, j.val) < ext A ((s j.val).2, j.val) := by
      intro j
      rw [hs j]
      refine argmax_line dmin (fun i => ext A (i, j.val)) p ?_
      obtain ⟨i, hi⟩ := hx j
      exact ⟨i.val, i.isLt, by rw [ext_fin]; exact hi⟩
    refine ⟨fun j => ⟨(s j.val).2, (hl j).1⟩, ?_, fun j => ⟨fun i => ?_, fun i hi => ?_⟩⟩
    · unfold DM.argmax
      rw [if_neg (by decide), if_pos rfl, show (stored A).nrow = p from rfl,
        show (stored A).ncol = q from rfl, e]
      simp only [Except.ok.injEq]
      apply list_eq_ofFn _ (by simp)
      intro j
      simp [j.isLt]
    · have := (hl j).2.1 i.val i.isLt
      rw [ext_fin] at this
      rwa [← ext_fin A ⟨(s j.val).2, (hl j).1⟩ j]
    · have := (hl j).2.2 i.val hi
      rw [ext_fin] at this
      rwa [← ext_fin A ⟨(s j.val).2, (hl j).1⟩ j]
  · unfold DM.argmax
    rw [if_neg (by omega), if_neg (by omega)]

example : (stored exA).argmax (1 / 1000) 0 = .ok [2, 2] := by decide +kernel
example : (stored exB).argmax (1 / 1000) 1 = .ok [0, 1] := by decide +kernel

/-- **C69, violated.**  A row of negative numbers: the largest is at position 1, position 0 is returned. -/
theorem C69_violation_negative (dmin : ℚ) (h : 0 < dmin) :
    (stored (!![-5, -1] : Matrix (Fin 1) (Fin 2) ℚ)).argmax dmin 0 = .ok [0] := by
  obtain ⟨s, e, hs⟩ := argmaxLoop_key (!![-5, -1] : Matrix (Fin 1) (Fin 2) ℚ) Prod.fst Prod.snd (cells 1 2)
    (fun _ => (dmin, 0)) fun _ h => h
  unfold DM.argmax
  rw [if_pos rfl, show (stored (!![-5, -1] : Matrix (Fin 1) (Fin 2) ℚ)).nrow = 1 from rfl,
    show (stored (!![-5, -1] : Matrix (Fin 1) (Fin 2) ℚ)).ncol = 2 from rfl, e]
  have h0 := hs 0
  rw [filter_cells_fst (by decide)] at h0
  have e0 : ext (!![-5, -1] : Matrix (Fin 1) (Fin 2) ℚ) (0, 0) = -5 := by decide +kernel
  have e1 : ext (!![-5, -1] : Matrix (Fin 1) (Fin 2) ℚ) (0, 1) = -1 := by decide +kernel
  simp only [List.range_succ, List.range_zero, List.nil_append, List.map_append, List.map_cons,
    List.map_nil, List.cons_append, best, List.foldl_cons, List.foldl_nil, e0, e1] at h0
  have d5 : ¬ dmin < -5 := by linarith
  have d1 : ¬ dmin < -1 := by linarith
  simp only [d5, if_false, d1] at h0
  simp [h0]

end Knor.Dense
