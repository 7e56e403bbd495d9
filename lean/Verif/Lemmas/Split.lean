import Mathlib.Algebra.BigOperators.Group.Finset.Basic
import Mathlib.Algebra.BigOperators.Group.List.Basic
import Verif.Lemmas.Par
import Verif.Lemmas.Partition
import Verif.Model.Kmeans

/-! Splitting rows over workers and summing per worker. -/

namespace Knor.Par

/-- The workers' rows together are rows `0 … N-1`, each exactly once. -/
structure Split (N T : Nat) (todo : Nat → List Nat) : Prop where
  perm : ((List.range T).flatMap todo).Perm (List.range N)
  idle : ∀ t, T ≤ t → todo t = []

theorem nodup_flatMap_disjoint {f : Nat → List Nat} {l : List Nat} (h : (l.flatMap f).Nodup) :
    (∀ t ∈ l, (f t).Nodup) ∧ ∀ t ∈ l, ∀ t' ∈ l, ∀ r, r ∈ f t → r ∈ f t' → t = t' := by
  induction l with
  | nil => simp
  | cons a l ih =>
    rw [List.flatMap_cons, List.nodup_append] at h
    obtain ⟨h1, h2, h3⟩ := h
    obtain ⟨i1, i2⟩ := ih h2
    have key : ∀ t ∈ l, ∀ r, r ∈ f a → r ∈ f t → False := fun t ht r hr hr' =>
      h3 r hr r (List.mem_flatMap.2 ⟨t, ht, hr'⟩) rfl
    refine ⟨?_, ?_⟩
    · intro t ht
      rcases List.mem_cons.1 ht with rfl | ht
      · exact h1
      · exact i1 t ht
    · intro t ht t' ht' r hr hr'
      rcases List.mem_cons.1 ht with e | ht1 <;> rcases List.mem_cons.1 ht' with e' | ht2
      · rw [e, e']
      · subst e; exact (key t' ht2 r hr hr').elim
      · subst e'; exact (key t ht1 r hr' hr).elim
      · exact i2 t ht1 t' ht2 r hr hr'

theorem Split.disjoint {N T : Nat} {todo : Nat → List Nat} (h : Split N T todo) :
    Disjoint todo := by
  have hn : ((List.range T).flatMap todo).Nodup := h.perm.symm.nodup List.nodup_range
  obtain ⟨h1, h2⟩ := nodup_flatMap_disjoint hn
  have hlt : ∀ t r, r ∈ todo t → t < T := by
    intro t r hr
    by_contra hge
    rw [h.idle t (by omega)] at hr
    simp at hr
  refine ⟨?_, ?_⟩
  · intro t
    by_cases ht : t < T
    · exact h1 t (List.mem_range.2 ht)
    · rw [h.idle t (by omega)]; exact List.nodup_nil
  · intro t t' r hr hr'
    exact h2 t (List.mem_range.2 (hlt _ _ hr)) t'
      (List.mem_range.2 (hlt _ _ hr')) r hr hr'

theorem Split.mem_iff {N T : Nat} {todo : Nat → List Nat} (h : Split N T todo) (r : Nat) :
    (∃ t, r ∈ todo t) ↔ r < N := by
  rw [← List.mem_range, ← h.perm.mem_iff, List.mem_flatMap]
  constructor
  · rintro ⟨t, ht⟩
    refine ⟨t, List.mem_range.2 ?_, ht⟩
    by_contra hge
    rw [h.idle t (by omega)] at ht
    simp at ht
  · rintro ⟨t, _, ht⟩; exact ⟨t, ht⟩

theorem sum_map_range {M : Type _} [AddCommMonoid M] (N : Nat) (f : Nat → M) :
    ((List.range N).map f).sum = ∑ r ∈ Finset.range N, f r := by
  induction N with
  | zero => simp
  | succ N ih => simp [List.range_succ, Finset.sum_range_succ, ih]

theorem sum_flatMap {M : Type _} [AddCommMonoid M] (f : Nat → M) (todo : Nat → List Nat)
    (l : List Nat) : (l.map fun t => ((todo t).map f).sum).sum = ((l.flatMap todo).map f).sum := by
  induction l with
  | nil => simp
  | cons a l ih => simp [ih]

theorem Split.sum {M : Type _} [AddCommMonoid M] {N T : Nat} {todo : Nat → List Nat}
    (h : Split N T todo) (f : Nat → M) :
    ((List.range T).map fun t => ((todo t).map f).sum).sum = ∑ r ∈ Finset.range N, f r := by
  rw [sum_flatMap, (h.perm.map f).sum_eq, sum_map_range]

end Knor.Par

namespace Knor.Kmeans

open Knor.Partition Knor.Par

theorem split_threadRows {N nt : Nat} (hn : 0 < N) (hnt : 0 < nt) (hlt : N < 4294967296) :
    Split N (effThreads nt N) (threadRows N nt) := by
  have h := (blocks_partition hn hnt hlt).2
  unfold blocks Spec.rowsOf at h
  refine ⟨?_, ?_⟩
  · rw [List.flatMap_map] at h
    have : (List.range (effThreads nt N)).flatMap (threadRows N nt) = List.range' 0 N := by
      rw [← h]
      apply List.flatMap_congr
      intro t ht
      unfold threadRows
      rw [if_pos (List.mem_range.1 ht)]
    rw [this, List.range_eq_range']
  · intro t ht
    unfold threadRows
    rw [if_neg (by omega)]

end Knor.Kmeans
