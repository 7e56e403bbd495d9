import Mathlib.Algebra.Order.Field.Rat
import Mathlib.Algebra.Order.Field.Basic
import Mathlib.Tactic.Linarith
import Mathlib.Tactic.Positivity
import Verif.Model.Compare
import Verif.Props.Io

/-! # Property C107: comparing results with a tolerance, comparing mixture results, filling a result -/

namespace Knor.Compare

open Knor Knor.Io

variable {R : Type _}

theorem checkLoop_spec [Field R] [LinearOrder R] (tol : R) (all : Bool) :
    ∀ (xs ys : List R) (a : Bool), xs.length ≤ ys.length →
      checkLoop tol all xs ys a = .ok (a && decide (List.Forall₂ (fun x y => (x - y) * (x - y) / 2 ≤ tol) xs ys)) ∨
      (a = true ∧ all = false ∧ checkLoop tol all xs ys a = .ok false ∧
        ¬ List.Forall₂ (fun x y => (x - y) * (x - y) / 2 ≤ tol) xs ys) ∨
      (all = false ∧ a = false)
  | [], [], a, _ => Or.inl (by simp [checkLoop])
  | [], y :: ys, a, _ => Or.inl (by simp [checkLoop])
  | _ :: _, [], _, h => by simp at h
  | x :: xs, y :: ys, a, h => by
    have hl : xs.length ≤ ys.length := by simpa using h
    unfold checkLoop
    by_cases hc : tol < (x - y) * (x - y) / 2
    · rw [if_pos hc]
      have hn : ¬ List.Forall₂ (fun x y => (x - y) * (x - y) / 2 ≤ tol) (x :: xs) (y :: ys) := by
        rw [List.forall₂_cons]; exact fun h => absurd h.1 (not_le.2 hc)
      cases all with
      | false =>
        cases a with
        | true => exact Or.inr (Or.inl ⟨rfl, rfl, by simp, hn⟩)
        | false => exact Or.inr (Or.inr ⟨rfl, rfl⟩)
      | true =>
        left
        rcases checkLoop_spec tol true xs ys false hl with e | ⟨h1, _⟩ | ⟨h1, _⟩
        · simp [e, hn]
        · simp at h1
        · simp at h1
    · rw [if_neg hc]
      have he : List.Forall₂ (fun x y => (x - y) * (x - y) / 2 ≤ tol) (x :: xs) (y :: ys) ↔
          List.Forall₂ (fun x y => (x - y) * (x - y) / 2 ≤ tol) xs ys := by
        rw [List.forall₂_cons]; exact and_iff_right (not_lt.1 hc)
      rcases checkLoop_spec tol all xs ys a hl with e | ⟨h1, h2, e, h3⟩ | h1
      · left; rw [e, decide_eq_decide.2 he]
      · exact Or.inr (Or.inl ⟨h1, h2, e, fun h => h3 (he.1 h)⟩)
      · exact Or.inr (Or.inr h1)

theorem half_le_iff [Field R] [LinearOrder R] [IsStrictOrderedRing R] (x y tol : R) :
    (x - y) * (x - y) / 2 ≤ tol ↔ (x - y) ^ 2 ≤ 2 * tol := by
  rw [div_le_iff₀ (by norm_num), sq, mul_comm tol]

theorem forall₂_iff_zip {P : R → R → Prop} : ∀ (xs ys : List R),
    List.Forall₂ P xs ys ↔ xs.length = ys.length ∧ ∀ p ∈ xs.zip ys, P p.1 p.2
  | [], [] => by simp
  | [], _ :: _ => by simp
  | _ :: _, [] => by simp
  | x :: xs, y :: ys => by
    rw [List.forall₂_cons, forall₂_iff_zip xs ys]
    simp only [List.length_cons, Nat.add_right_cancel_iff, List.zip_cons_cons, List.mem_cons, forall_eq_or_imp]
    tauto

/-- **C107 (tolerance), partial.** In exact arithmetic, if the second collection is at least as long as the first, the
comparison never reads past an end, whether or not it stops early, and says yes exactly if the lengths are equal and
every pair differs by at most the square root of twice the tolerance.
Missing: a second collection that is shorter, NaN, and integer types. -/
theorem C107_check_partial [Field R] [LinearOrder R] [IsStrictOrderedRing R] (xs ys : List R) (tol : R) (all : Bool)
    (h : xs.length ≤ ys.length) :
    ∃ b, checkEqual xs ys tol all = .ok b ∧
      (b = true ↔ xs.length = ys.length ∧ ∀ p ∈ xs.zip ys, (p.1 - p.2) ^ 2 ≤ 2 * tol) := by
  have hz := forall₂_iff_zip (P := fun x y : R => (x - y) * (x - y) / 2 ≤ tol) xs ys
  simp only [half_le_iff] at hz
  have hz' : List.Forall₂ (fun x y : R => (x - y) * (x - y) / 2 ≤ tol) xs ys ↔
      xs.length = ys.length ∧ ∀ p ∈ xs.zip ys, (p.1 - p.2) ^ 2 ≤ 2 * tol := by
    simp only [half_le_iff]; exact hz
  rcases checkLoop_spec tol all xs ys true h with e | ⟨_, _, e, hn⟩ | ⟨_, h2⟩
  · exact ⟨_, e, by simp only [Bool.true_and, decide_eq_true_eq]; exact hz'⟩
  · exact ⟨false, e, by simp only [Bool.false_eq_true, false_iff]; exact fun h => hn (hz'.2 h)⟩
  · simp at h2

/-- **C107 (no tolerance), partial.** With tolerance 0 the comparison decides equality (same restriction). -/
theorem C107_check_exact_partial [Field R] [LinearOrder R] [IsStrictOrderedRing R] (xs ys : List R) (all : Bool)
    (h : xs.length ≤ ys.length) : checkEqual xs ys 0 all = .ok (decide (xs = ys)) := by
  obtain ⟨b, e, hb⟩ := C107_check_partial xs ys 0 all h
  rw [e]
  congr 1
  rw [Bool.eq_iff_iff, hb, decide_eq_true_eq]
  constructor
  · rintro ⟨hl, hz⟩
    apply List.ext_getElem hl
    intro i h1 h2
    have hm : (xs[i], ys[i]) ∈ xs.zip ys := by
      rw [List.mem_iff_getElem]
      exact ⟨i, by simp; omega, by simp⟩
    have := hz _ hm
    simp only [mul_zero] at this
    have h0 := le_antisymm this (sq_nonneg _)
    exact sub_eq_zero.1 (pow_eq_zero_iff (two_ne_zero)|>.1 h0)
  · rintro rfl
    refine ⟨rfl, fun p hp => ?_⟩
    obtain ⟨i, hi, rfl⟩ := List.mem_iff_getElem.1 hp
    simp

/-- **C107, violated for collections of different lengths.** If the second collection is shorter, it is read past its
end: always when all positions are to be checked, and otherwise unless there is a mismatch before. -/
theorem C107_shorter_violated [Field R] [LinearOrder R] (tol : R) (all : Bool) : ∀ (xs ys : List R),
    ys.length < xs.length → (all = true ∨ ∀ p ∈ xs.zip ys, (p.1 - p.2) * (p.1 - p.2) / 2 ≤ tol) →
    ∀ a, checkLoop tol all xs ys a = .error .ub
  | [], _, h, _, _ => by simp at h
  | _ :: _, [], _, _, _ => rfl
  | x :: xs, y :: ys, h, hc, a => by
    have hl : ys.length < xs.length := by simpa using h
    have hc' : all = true ∨ ∀ p ∈ xs.zip ys, (p.1 - p.2) * (p.1 - p.2) / 2 ≤ tol := by
      rcases hc with hc | hc
      · exact Or.inl hc
      · exact Or.inr fun p hp => hc p (by simp [hp])
    unfold checkLoop
    by_cases hm : tol < (x - y) * (x - y) / 2
    · rw [if_pos hm]
      rcases hc with hc | hc
      · rw [if_pos hc]; exact C107_shorter_violated tol all xs ys hl hc' false
      · exact absurd (hc (x, y) (by simp)) (not_le.2 hm)
    · rw [if_neg hm]; exact C107_shorter_violated tol all xs ys hl hc' a

/-- **C107, violated for NaN.** In an arithmetic with an element that behaves like NaN, a result that consists of NaN
only passes the comparison with every result of the same length, whatever the tolerance. -/
theorem C107_nan_violated [Sub R] [Mul R] [Div R] [OfNat R 2] [LT R] [DecidableLT R] (nan tol : R)
    (hsub : ∀ x, nan - x = nan) (hmul : nan * nan = nan) (hdiv : nan / 2 = nan) (hlt : ∀ x : R, ¬ x < nan)
    (all : Bool) : ∀ ys : List R, checkEqual (List.replicate ys.length nan) ys tol all = .ok true
  | [] => rfl
  | y :: ys => by
    have ih := C107_nan_violated nan tol hsub hmul hdiv hlt all ys
    unfold checkEqual at ih ⊢
    rw [List.length_cons, List.replicate_succ]
    unfold checkLoop
    rw [hsub, hmul, hdiv, if_neg (hlt tol)]
    exact ih

/-- **C107, violated for integers.** If the tolerance is the integer 0, numbers that differ by one count as equal:
`1 * 1 / 2` is 0. -/
theorem C107_integer_violated (all : Bool) : ∀ xs : List ℤ, checkEqual xs (xs.map (· + 1)) 0 all = .ok true
  | [] => rfl
  | x :: xs => by
    have ih := C107_integer_violated all xs
    unfold checkEqual at ih ⊢
    rw [List.map_cons]
    unfold checkLoop
    have : (x - (x + 1)) * (x - (x + 1)) / 2 = 0 := by
      have : x - (x + 1) = -1 := by omega
      rw [this]; decide
    rw [this, if_neg (by omega)]
    exact ih

/-- Equal within the tolerance, not equal, longer second collection, shorter second collection. -/
example : checkEqual [1, 2, 3] [1, 2, (301 / 100 : ℚ)] (1 / 10000) true = .ok true ∧
    checkEqual [1, 2, 3] [1, 2, (31 / 10 : ℚ)] (1 / 10000) true = .ok false ∧
    checkEqual [1, 2, 3] [1, 2, (3 : ℚ), 4] 0 false = .ok false ∧
    checkEqual [1, 2, 3] [1, (2 : ℚ)] 0 true = .error .ub ∧
    checkEqual [1, 2, 3] [1, (5 : ℚ)] 0 false = .ok false := by decide +kernel

/-- Rational numbers with a NaN. -/
inductive Num where
  | num (x : ℚ)
  | nan

namespace Num

/-- An operation that yields NaN as soon as an operand is NaN. -/
def lift (f : ℚ → ℚ → ℚ) : Num → Num → Num
  | .num x, .num y => .num (f x y)
  | _, _ => .nan

/-- Comparison: false as soon as an operand is NaN. -/
def less : Num → Num → Bool
  | .num x, .num y => decide (x < y)
  | _, _ => false

/-- Subtraction. -/
instance : Sub Num := ⟨lift (· - ·)⟩
/-- Multiplication. -/
instance : Mul Num := ⟨lift (· * ·)⟩
/-- Division. -/
instance : Div Num := ⟨lift (· / ·)⟩
/-- The number two. -/
instance : OfNat Num 2 := ⟨.num 2⟩
/-- The comparison. -/
instance : LT Num := ⟨fun a b => less a b = true⟩
/-- It is decidable. -/
instance : DecidableLT Num := fun a b => inferInstanceAs (Decidable (less a b = true))

end Num

/-- Such an arithmetic exists: the hypotheses of `C107_nan_violated` are met. -/
example : (∀ x, Num.nan - x = Num.nan) ∧ Num.nan * Num.nan = Num.nan ∧ Num.nan / 2 = Num.nan ∧ ∀ x, ¬ x < Num.nan := by
  refine ⟨fun x => ?_, rfl, rfl, fun x => ?_⟩
  · cases x <;> rfl
  · intro h
    have h' : Num.less x .nan = true := h
    cases x <;> simp [Num.less] at h'

theorem covLoop_ok [DecidableEq R] : ∀ (x y : List (List R)), x.length = y.length →
    (∀ p ∈ x.zip y, p.1.length = p.2.length) → covLoop x y = .ok (decide (x = y))
  | [], [], _, _ => by simp [covLoop]
  | [], _ :: _, h, _ => by simp at h
  | _ :: _, [], h, _ => by simp at h
  | a :: x, b :: y, h, hz => by
    unfold covLoop
    rw [C75_vector_equality_partial a b (hz (a, b) (by simp))]
    by_cases hab : a = b
    · simp only [hab, decide_true]
      rw [covLoop_ok x y (by simpa using h) fun p hp => hz p (by simp [hp])]
      simp
    · simp [hab]

/-- **C107 (mixture results), partial.** Two results whose vectors have the same lengths compare equal exactly if they
are equal.  Missing: results of different shapes. -/
theorem C107_gmm_equality_partial [DecidableEq R] (x y : GmmT R) (h1 : x.means.length = y.means.length)
    (h2 : x.resp.length = y.resp.length) (h3 : x.prob.length = y.prob.length) (h4 : x.cov.length = y.cov.length)
    (h5 : ∀ p ∈ x.cov.zip y.cov, p.1.length = p.2.length) : x.eq y = .ok (decide (x = y)) := by
  unfold GmmT.eq
  rw [covLoop_ok _ _ h4 h5, C75_vector_equality_partial _ _ h1, C75_vector_equality_partial _ _ h2,
    C75_vector_equality_partial _ _ h3]
  cases x; cases y
  simp only [GmmT.mk.injEq, andThen]
  split
  · rename_i h; simp at h
  · rename_i h
    simp only [Except.ok.injEq, decide_eq_false_iff_not] at h
    simp [h]
  · rename_i h
    simp only [Except.ok.injEq, decide_eq_true_eq] at h
    split
    · rename_i h; simp at h
    · rename_i h6
      simp only [Except.ok.injEq, decide_eq_false_iff_not] at h6
      congr 1; symm
      rw [decide_eq_false_iff_not]; tauto
    · rename_i h6
      simp only [Except.ok.injEq, decide_eq_true_eq] at h6
      split
      · rename_i h; simp at h
      · rename_i h7
        simp only [Except.ok.injEq, decide_eq_false_iff_not] at h7
        simp [h7]
      · rename_i h7
        simp only [Except.ok.injEq, decide_eq_true_eq] at h7
        split
        · rename_i h; simp at h
        · rename_i h8
          simp only [Except.ok.injEq, decide_eq_false_iff_not] at h8
          simp [h8]
        · rename_i h8
          simp only [Except.ok.injEq, decide_eq_true_eq] at h8
          simp [h, h6, h7, h8]

/-- **C107, violated for mixture results of different shapes.** A result without covariance matrices compares equal to
one with them if the rest is equal, the other way round the comparison reads past the end; so the comparison is not
symmetric. -/
theorem C107_gmm_violated [DecidableEq R] (x : GmmT R) (c : List R) (cs : List (List R)) :
    ({ x with cov := [] } : GmmT R).eq { x with cov := c :: cs } = .ok true ∧
    ({ x with cov := c :: cs } : GmmT R).eq { x with cov := [] } = .error .ub := by
  have e : ∀ l : List R, vEq l l = .ok true := fun l => by rw [C75_vector_equality_partial _ _ rfl]; simp
  constructor
  · simp [GmmT.eq, covLoop, andThen, e]
  · simp [GmmT.eq, covLoop, andThen]

/-- Two mixtures of the same shape that differ in one covariance. -/
example : (GmmT.mk 2 1 5 1 [(3 : ℚ)] [[4]] [1, 1] [1]).eq (GmmT.mk 2 1 5 1 [3] [[5]] [1, 1] [1]) = .ok false ∧
    (GmmT.mk 2 1 5 1 [(3 : ℚ)] [[4]] [1, 1] [1]).eq (GmmT.mk 2 1 5 1 [3] [[4]] [1, 1] [1]) = .ok true := by
  decide +kernel

/-- **C107 (filling a result).** After `set_params` and `set_computed` with buffers of `nrow` and `k` numbers the object
holds exactly what was passed, whatever it held before; it compares equal to an object of the same sizes exactly if that
holds the same numbers. With `k = 0` or `nrow = 0` the process aborts. -/
theorem C107_set_computed [DecidableEq R] (old : ClusterT R) (nrow ncol iters k : Nat) (asg cnt : List Nat) (cents : List R) :
    (asg.length = nrow → cnt.length = k → 0 < k → 0 < nrow →
      setComputed (setParams old nrow ncol iters k) asg cnt cents = .ok ⟨nrow, ncol, iters, k, asg, cnt, cents⟩ ∧
      ∀ other : ClusterT R, other.assignments.length = nrow → other.counts.length = k →
        other.centroids.length = cents.length →
        (ClusterT.mk nrow ncol iters k asg cnt cents).eq other =
          .ok (decide (other.assignments = asg ∧ other.counts = cnt ∧ other.centroids = cents))) ∧
    (k = 0 ∨ nrow = 0 → setComputed (setParams old nrow ncol iters k) asg cnt cents = .error .assertFail) := by
  refine ⟨fun h1 h2 h3 h4 => ⟨?_, ?_⟩, fun h => ?_⟩
  · unfold setComputed setParams
    simp only
    rw [if_neg (by omega), if_neg (by omega), if_neg (by omega)]
    simp [← h1, ← h2]
  · intro other l1 l2 l3
    rw [C75_result_equality_partial _ _ (by simp [l1, h1]) (by simp [l2, h2]) (by simp [l3])]
    congr 1
    rw [decide_eq_decide]
    exact ⟨fun h => ⟨h.1.symm, h.2.1.symm, h.2.2.symm⟩, fun h => ⟨h.1.symm, h.2.1.symm, h.2.2.symm⟩⟩
  · unfold setComputed setParams
    simp only
    rcases h with h | h
    · rw [if_pos h]
    · by_cases hk : k = 0
      · rw [if_pos hk]
      · rw [if_neg hk, if_pos h]

/-- Three rows in two clusters; and no rows. -/
example : setComputed (setParams (⟨9, 9, 9, 9, [], [], []⟩ : ClusterT ℚ) 3 1 4 2) [0, 1, 1] [1, 2] [5, 7] =
      .ok ⟨3, 1, 4, 2, [0, 1, 1], [1, 2], [5, 7]⟩ ∧
    setComputed (setParams (⟨9, 9, 9, 9, [], [], []⟩ : ClusterT ℚ) 0 1 4 2) [] [1, 2] [5, 7] = .error .assertFail :=
  ⟨rfl, rfl⟩

end Knor.Compare
