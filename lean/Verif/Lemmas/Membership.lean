import Mathlib.Algebra.BigOperators.Group.Finset.Piecewise
import Mathlib.Algebra.BigOperators.Ring.Finset
import Mathlib.Tactic.Abel
import Mathlib.Tactic.Ring
import Verif.Spec.Membership

namespace Knor.Spec

open Finset

variable {R : Type _} {k n : Nat}

theorem memberSum_eq [AddCommMonoid R] (N : Nat) (data : Nat → Fin n → R)
    (assign : Nat → Option (Fin k)) (c : Fin k) (j : Fin n) :
    memberSum N data assign c j = ∑ r ∈ range N, if assign r = some c then data r j else 0 := by
  unfold memberSum; rw [sum_filter]

theorem count_eq (N : Nat) (assign : Nat → Option (Fin k)) (c : Fin k) :
    (count N assign c : Int) = ∑ r ∈ range N, if assign r = some c then (1 : Int) else 0 := by
  unfold count; rw [card_eq_sum_ones, sum_filter]; push_cast; rfl

theorem sum_change {M : Type _} [AddCommGroup M] {N r : Nat} (hr : r < N) {F G : Nat → M}
    (h : ∀ i, i ≠ r → F i = G i) : ∑ i ∈ range N, F i = ∑ i ∈ range N, G i - G r + F r := by
  have hm : r ∈ range N := mem_range.2 hr
  rw [← sum_erase_add _ _ hm, ← sum_erase_add (range N) G hm]
  have : ∑ x ∈ (range N).erase r, F x = ∑ x ∈ (range N).erase r, G x :=
    sum_congr rfl fun i hi => h i (ne_of_mem_erase hi)
  rw [this]; abel

theorem memberSum_update [AddCommGroup R] {N r : Nat} (hr : r < N) (data : Nat → Fin n → R)
    (assign : Nat → Option (Fin k)) (o : Option (Fin k)) (c : Fin k) (j : Fin n) :
    memberSum N data (Function.update assign r o) c j
      = memberSum N data assign c j - (if assign r = some c then data r j else 0)
        + (if o = some c then data r j else 0) := by
  rw [memberSum_eq, memberSum_eq]
  rw [sum_change hr (G := fun i => if assign i = some c then data i j else 0)]
  · simp
  · intro i hi; simp [Function.update_of_ne hi]

theorem count_update {N r : Nat} (hr : r < N)
    (assign : Nat → Option (Fin k)) (o : Option (Fin k)) (c : Fin k) :
    (count N (Function.update assign r o) c : Int)
      = (count N assign c : Int) - (if assign r = some c then 1 else 0)
        + (if o = some c then 1 else 0) := by
  rw [count_eq, count_eq]
  rw [sum_change hr (G := fun i => if assign i = some c then (1 : Int) else 0)]
  · simp
  · intro i hi; simp [Function.update_of_ne hi]

end Knor.Spec
