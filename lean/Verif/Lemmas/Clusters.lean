import Mathlib.Tactic.Ring
import Mathlib.Tactic.FieldSimp
import Mathlib.Algebra.BigOperators.Group.List.Basic
import Mathlib.Algebra.CharZero.Defs
import Mathlib.Data.Int.Cast.Lemmas
import Verif.Model.Clusters

namespace Knor.Clusters

variable {R : Type _} {k n : Nat}

/-- Value of one centroid after finalisation. -/
def finMean [Div R] [IntCast R] (s : Clusters R k n) (c : Fin k) : Row R n :=
  if s.complete c then s.means c
  else if s.num c > 1 then fun j => s.means c j / (s.num c : R) else s.means c

theorem finalize_means [Div R] [IntCast R] (s : Clusters R k n) (c c' : Fin k) :
    (s.finalize c).means c' = if c' = c then s.finMean c else s.means c' := by
  unfold finalize finMean
  by_cases h : s.complete c
  · simp only [h, if_true]; split
    · rename_i h2; rw [h2]
    · rfl
  · simp only [h]
    by_cases h2 : c' = c
    · subst h2; simp
    · simp [h2]

theorem finalize_num [Div R] [IntCast R] (s : Clusters R k n) (c : Fin k) : (s.finalize c).num = s.num := by
  unfold finalize; split <;> rfl

theorem finalize_complete [Div R] [IntCast R] (s : Clusters R k n) (c c' : Fin k) :
    (s.finalize c).complete c' = if c' = c then true else s.complete c' := by
  unfold finalize
  by_cases h : s.complete c
  · simp only [h, if_true]; split
    · rename_i h2; rw [h2, h]
    · rfl
  · simp only [h]
    by_cases h2 : c' = c
    · subst h2; simp
    · simp [h2]

theorem foldl_finalize [Div R] [IntCast R] (l : List (Fin k)) (hl : l.Nodup) : ∀ (s : Clusters R k n),
    (l.foldl finalize s).num = s.num ∧
    (∀ c, (l.foldl finalize s).means c = if c ∈ l then s.finMean c else s.means c) ∧
    (∀ c, (l.foldl finalize s).complete c = if c ∈ l then true else s.complete c) := by
  induction l with
  | nil => intro s; simp
  | cons a l ih =>
    intro s
    rw [List.nodup_cons] at hl
    obtain ⟨h1, h2, h3⟩ := ih hl.2 (s.finalize a)
    simp only [List.foldl_cons]
    refine ⟨by rw [h1, finalize_num], ?_, ?_⟩
    · intro c
      rw [h2 c]
      by_cases hc : c ∈ l
      · have hne : c ≠ a := fun h => hl.1 (h ▸ hc)
        simp only [hc, if_true, List.mem_cons, or_true]
        unfold finMean
        rw [finalize_complete, finalize_num, finalize_means]
        simp [hne]
      · simp only [hc, if_false, List.mem_cons, or_false]
        rw [finalize_means]
        by_cases hca : c = a
        · subst hca; simp
        · simp [hca]
    · intro c
      rw [h3 c, finalize_complete]
      by_cases hc : c ∈ l <;> by_cases hca : c = a <;> simp [hc, hca]

theorem finalizeAll_num [Div R] [IntCast R] (s : Clusters R k n) : s.finalizeAll.num = s.num :=
  (foldl_finalize _ (List.nodup_finRange k) s).1

theorem finalizeAll_means [Div R] [IntCast R] (s : Clusters R k n) (c : Fin k) :
    s.finalizeAll.means c = s.finMean c := by
  have := (foldl_finalize _ (List.nodup_finRange k) s).2.1 c
  simpa [finalizeAll] using this

theorem finalizeAll_complete [Div R] [IntCast R] (s : Clusters R k n) (c : Fin k) :
    s.finalizeAll.complete c = true := by
  have := (foldl_finalize _ (List.nodup_finRange k) s).2.2 c
  simpa [finalizeAll] using this

/-- Value of one centroid after un-finalisation. -/
def unfinMean [Mul R] [IntCast R] (s : Clusters R k n) (c : Fin k) : Row R n :=
  if s.complete c then (if s.num c < 2 then s.means c else fun j => s.means c j * (s.num c : R))
  else s.means c

theorem unfinalize_means [Mul R] [IntCast R] (s : Clusters R k n) (c c' : Fin k) :
    (s.unfinalize c).means c' = if c' = c then s.unfinMean c else s.means c' := by
  unfold unfinalize unfinMean
  by_cases h : s.complete c
  · simp only [h, Bool.not_true, Bool.false_eq_true, if_false, if_true]
    by_cases h2 : c' = c
    · subst h2; simp
    · simp [h2]
  · simp only [h, Bool.not_false]
    by_cases h2 : c' = c
    · subst h2; simp
    · simp [h2]

theorem unfinalize_num [Mul R] [IntCast R] (s : Clusters R k n) (c : Fin k) :
    (s.unfinalize c).num = s.num := by
  unfold unfinalize; split <;> rfl

theorem unfinalize_complete [Mul R] [IntCast R] (s : Clusters R k n) (c c' : Fin k) :
    (s.unfinalize c).complete c' = if c' = c then false else s.complete c' := by
  unfold unfinalize
  by_cases h : s.complete c
  · simp only [h, Bool.not_true, Bool.false_eq_true, if_false]
    by_cases h2 : c' = c
    · subst h2; simp
    · simp [h2]
  · simp only [h, Bool.not_false, if_true]
    by_cases h2 : c' = c
    · subst h2; simp [h]
    · simp [h2]

theorem foldl_unfinalize [Mul R] [IntCast R] (l : List (Fin k)) (hl : l.Nodup) : ∀ (s : Clusters R k n),
    (l.foldl unfinalize s).num = s.num ∧
    (∀ c, (l.foldl unfinalize s).means c = if c ∈ l then s.unfinMean c else s.means c) ∧
    (∀ c, (l.foldl unfinalize s).complete c = if c ∈ l then false else s.complete c) := by
  induction l with
  | nil => intro s; simp
  | cons a l ih =>
    intro s
    rw [List.nodup_cons] at hl
    obtain ⟨h1, h2, h3⟩ := ih hl.2 (s.unfinalize a)
    simp only [List.foldl_cons]
    refine ⟨by rw [h1, unfinalize_num], ?_, ?_⟩
    · intro c
      rw [h2 c]
      by_cases hc : c ∈ l
      · have hne : c ≠ a := fun h => hl.1 (h ▸ hc)
        simp only [hc, if_true, List.mem_cons, or_true]
        unfold unfinMean
        rw [unfinalize_complete, unfinalize_num, unfinalize_means]
        simp [hne]
      · simp only [hc, if_false, List.mem_cons, or_false]
        rw [unfinalize_means]
        by_cases hca : c = a
        · subst hca; simp
        · simp [hca]
    · intro c
      rw [h3 c, unfinalize_complete]
      by_cases hc : c ∈ l <;> by_cases hca : c = a <;> simp [hc, hca]

theorem unfinalizeAll_num [Mul R] [IntCast R] (s : Clusters R k n) : s.unfinalizeAll.num = s.num :=
  (foldl_unfinalize _ (List.nodup_finRange k) s).1

theorem unfinalizeAll_means [Mul R] [IntCast R] (s : Clusters R k n) (c : Fin k) :
    s.unfinalizeAll.means c = s.unfinMean c := by
  have := (foldl_unfinalize _ (List.nodup_finRange k) s).2.1 c
  simpa [unfinalizeAll] using this

theorem unfinalizeAll_complete [Mul R] [IntCast R] (s : Clusters R k n) (c : Fin k) :
    s.unfinalizeAll.complete c = false := by
  have := (foldl_unfinalize _ (List.nodup_finRange k) s).2.2 c
  simpa [unfinalizeAll] using this

/-! ### Merging -/

theorem foldl_peq [AddCommMonoid R] (l : List (Clusters R k n)) : ∀ (s : Clusters R k n),
    (l.foldl peq s).complete = s.complete ∧
    (∀ c j, (l.foldl peq s).means c j = s.means c j + (l.map fun x => x.means c j).sum) ∧
    (∀ c, (l.foldl peq s).num c = s.num c + (l.map fun x => x.num c).sum) := by
  induction l with
  | nil => intro s; simp
  | cons a l ih =>
    intro s
    obtain ⟨h1, h2, h3⟩ := ih (s.peq a)
    simp only [List.foldl_cons]
    refine ⟨by rw [h1]; rfl, ?_, ?_⟩
    · intro c j; rw [h2]; simp [peq, add_assoc]
    · intro c; rw [h3]; simp [peq]; ring

/-- Folding `add_member` over rows `rs` with cluster choice `ch`: closed form. -/
theorem foldl_addMember [AddCommMonoid R] (data : Nat → Row R n) (ch : Nat → Fin k)
    (rs : List Nat) : ∀ (s : Clusters R k n),
    (rs.foldl (fun s r => s.addMember (data r) (ch r)) s).complete = s.complete ∧
    (∀ c j, (rs.foldl (fun s r => s.addMember (data r) (ch r)) s).means c j
      = s.means c j + (rs.map fun r => if ch r = c then data r j else 0).sum) ∧
    (∀ c, (rs.foldl (fun s r => s.addMember (data r) (ch r)) s).num c
      = s.num c + (rs.map fun r => if ch r = c then (1 : Int) else 0).sum) := by
  induction rs with
  | nil => intro s; simp
  | cons a l ih =>
    intro s
    obtain ⟨h1, h2, h3⟩ := ih (s.addMember (data a) (ch a))
    simp only [List.foldl_cons]
    refine ⟨by rw [h1]; rfl, ?_, ?_⟩
    · intro c j
      rw [h2]
      by_cases h : ch a = c
      · subst h; simp [addMember, add_assoc]
      · have h' : c ≠ ch a := Ne.symm h
        simp [addMember, Function.update_of_ne h', h]
    · intro c
      rw [h3]
      by_cases h : ch a = c
      · subst h; simp [addMember]; ring
      · have h' : c ≠ ch a := Ne.symm h
        simp [addMember, Function.update_of_ne h', h]

end Knor.Clusters
