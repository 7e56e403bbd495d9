import Mathlib.Data.List.Nodup
import Mathlib.Data.List.GetD
import Verif.Model.VMap

/-!
# Lemmas about the vector-backed map
-/

namespace Knor.VMap

open Knor

variable {T : Type _} [DecidableEq T]

/-- The finite map a vector stands for. -/
def look (e : T) (l : List T) (i : Nat) : Option T :=
  match l[i]? with
  | some x => if e ≠ x then some x else none
  | none => none

theorem look_replicate (e : T) (n i : Nat) : look e (List.replicate n e) i = none := by
  unfold look
  rw [List.getElem?_replicate]
  split
  · rename_i h
    split at h
    · cases h; simp
    · cases h
  · rfl

theorem look_set (e : T) (l : List T) (i : Nat) (x : T) (h : i < l.length) :
    look e (l.set i x) = Function.update (look e l) i (if e ≠ x then some x else none) := by
  funext j
  unfold look
  rw [List.getElem?_set]
  by_cases hj : j = i
  · subst hj
    rw [Function.update_self, if_pos rfl, if_pos h]
  · rw [Function.update_of_ne hj, if_neg fun he => hj he.symm]

theorem look_grow (e : T) (l : List T) (n : Nat) : look e (growTo e l n) = look e l := by
  funext j
  unfold look growTo
  rw [List.getElem?_append]
  by_cases hj : j < l.length
  · rw [if_pos hj]
  · rw [if_neg hj, List.getElem?_eq_none (l := l) (by omega), List.getElem?_replicate]
    split
    · rename_i x h
      split at h
      · cases h; simp
      · cases h
    · rfl

theorem mem_keysFrom (e : T) (l : List T) (id i : Nat) :
    i ∈ keysFrom e l id ↔ id ≤ i ∧ (look e l (i - id)).isSome := by
  induction l generalizing id with
  | nil => simp [keysFrom, look]
  | cons x l ih =>
    have hs : i ∈ keysFrom e l (id + 1) ↔ id + 1 ≤ i ∧ (look e (x :: l) (i - id)).isSome := by
      rw [ih]
      refine and_congr_right fun h => ?_
      rw [show i - id = (i - (id + 1)) + 1 by omega]
      rfl
    unfold keysFrom
    by_cases hx : e ≠ x
    · rw [if_pos hx, List.mem_cons, hs]
      constructor
      · rintro (rfl | ⟨h1, h2⟩)
        · exact ⟨Nat.le_refl _, by simp [look, hx]⟩
        · exact ⟨by omega, h2⟩
      · rintro ⟨h1, h2⟩
        by_cases hi : i = id
        · exact Or.inl hi
        · exact Or.inr ⟨by omega, h2⟩
    · rw [if_neg hx, hs]
      constructor
      · rintro ⟨h1, h2⟩
        exact ⟨by omega, h2⟩
      · rintro ⟨h1, h2⟩
        by_cases hi : i = id
        · subst hi
          simp only [ne_eq, not_not] at hx
          simp [look, hx] at h2
        · exact ⟨by omega, h2⟩

theorem keysFrom_sorted (e : T) (l : List T) (id : Nat) : (keysFrom e l id).Pairwise (· < ·) := by
  induction l generalizing id with
  | nil => simp [keysFrom]
  | cons x l ih =>
    unfold keysFrom
    split
    · rw [List.pairwise_cons]
      refine ⟨fun j hj => ?_, ih _⟩
      have := ((mem_keysFrom e l _ j).1 hj).1
      omega
    · exact ih _

theorem foldl_count (e : T) (l : List T) (id m : Nat) :
    l.foldl (fun count x => if e ≠ x then count + 1 else count) m = m + (keysFrom e l id).length := by
  induction l generalizing id m with
  | nil => simp [keysFrom]
  | cons x l ih =>
    simp only [List.foldl_cons]
    unfold keysFrom
    split
    · rw [ih (id + 1), List.length_cons]; omega
    · rw [ih (id + 1)]

theorem keyless_iff (e : T) (l : List T) :
    (l.all fun x => !decide (e ≠ x)) = true ↔ ∀ i, look e l i = none := by
  constructor
  · intro h i
    unfold look
    cases hi : l[i]? with
    | none => rfl
    | some x =>
      have := List.all_eq_true.1 h x (List.mem_of_getElem? hi)
      simp only [Bool.not_eq_true', decide_eq_false_iff_not, not_not] at this
      simp [this]
  · intro h
    rw [List.all_eq_true]
    intro x hx
    obtain ⟨i, hi⟩ := List.mem_iff_getElem?.1 hx
    have := h i
    unfold look at this
    rw [hi] at this
    by_contra hc
    simp only [Bool.not_eq_true', decide_eq_false_iff_not, not_not] at hc
    simp [hc] at this

/-- Keys with values. -/
def pairsFrom (e : T) : List T → Nat → List (Nat × T)
  | [], _ => []
  | x :: l, id => if e ≠ x then (id, x) :: pairsFrom e l (id + 1) else pairsFrom e l (id + 1)

theorem pairsFrom_fst (e : T) (l : List T) (id : Nat) :
    (pairsFrom e l id).map Prod.fst = keysFrom e l id := by
  induction l generalizing id with
  | nil => rfl
  | cons x l ih =>
    unfold pairsFrom keysFrom
    split
    · rw [List.map_cons, ih]
    · exact ih _

theorem mem_pairsFrom (e : T) (l : List T) (id i : Nat) (v : T) :
    (i, v) ∈ pairsFrom e l id ↔ id ≤ i ∧ look e l (i - id) = some v := by
  induction l generalizing id with
  | nil => simp [pairsFrom, look]
  | cons x l ih =>
    have hs : (i, v) ∈ pairsFrom e l (id + 1) ↔ id + 1 ≤ i ∧ look e (x :: l) (i - id) = some v := by
      rw [ih]
      refine and_congr_right fun h => ?_
      rw [show i - id = (i - (id + 1)) + 1 by omega]
      rfl
    unfold pairsFrom
    by_cases hx : e ≠ x
    · rw [if_pos hx, List.mem_cons, hs]
      constructor
      · rintro (h | ⟨h1, h2⟩)
        · cases h
          exact ⟨Nat.le_refl _, by simp [look, hx]⟩
        · exact ⟨by omega, h2⟩
      · rintro ⟨h1, h2⟩
        by_cases hi : i = id
        · subst hi
          left
          simp [look, hx] at h2
          rw [h2]
        · exact Or.inr ⟨by omega, h2⟩
    · rw [if_neg hx, hs]
      constructor
      · rintro ⟨h1, h2⟩
        exact ⟨by omega, h2⟩
      · rintro ⟨h1, h2⟩
        by_cases hi : i = id
        · subst hi
          simp only [ne_eq, not_not] at hx
          simp [look, hx] at h2
        · exact ⟨by omega, h2⟩

theorem pairsFrom_cons_pos {e x : T} (h : e ≠ x) (l : List T) (id : Nat) :
    pairsFrom e (x :: l) id = (id, x) :: pairsFrom e l (id + 1) := by
  rw [pairsFrom, if_pos h]

theorem pairsFrom_cons_neg {e x : T} (h : ¬ e ≠ x) (l : List T) (id : Nat) :
    pairsFrom e (x :: l) id = pairsFrom e l (id + 1) := by
  rw [pairsFrom, if_neg h]

theorem seek_cases (e : T) (l : List T) (off : Nat) :
    (seek e l off = off + l.length ∧ pairsFrom e l off = []) ∨
    ∃ j x, l[j]? = some x ∧ e ≠ x ∧ seek e l off = off + j ∧
      pairsFrom e l off = (off + j, x) :: pairsFrom e (l.drop (j + 1)) (off + j + 1) := by
  induction l generalizing off with
  | nil => left; simp [seek, pairsFrom]
  | cons x l ih =>
    unfold seek
    by_cases hx : e ≠ x
    · right
      rw [if_pos hx, pairsFrom_cons_pos hx]
      exact ⟨0, x, by simp, hx, by simp, by simp⟩
    · rw [if_neg hx, pairsFrom_cons_neg hx]
      rcases ih (off + 1) with ⟨h1, h2⟩ | ⟨j, y, h1, h2, h3, h4⟩
      · left
        refine ⟨by rw [h1, List.length_cons]; omega, h2⟩
      · right
        refine ⟨j + 1, y, by simpa using h1, h2, by rw [h3]; omega, ?_⟩
        rw [h4]
        simp only [List.drop_succ_cons]
        rw [show off + 1 + j = off + (j + 1) by omega]

theorem collect_eq (m : VMap T) : ∀ (fuel off : Nat), off ≤ m.size → m.size ≤ fuel + off →
    m.collect fuel off = .ok (pairsFrom m.emptyval (m.data.drop off) off) := by
  intro fuel
  induction fuel with
  | zero =>
    intro off h1 h2
    have : off = m.size := by omega
    subst this
    unfold VMap.collect VMap.hasNext
    simp [VMap.size, pairsFrom]
  | succ fuel ih =>
    intro off h1 h2
    unfold VMap.collect
    by_cases hend : off = m.size ∨ m.size = 0
    · have : off = m.size := by omega
      have hh : m.hasNext off = (false, off) := by
        unfold VMap.hasNext
        rw [if_pos hend]
      rw [hh]
      subst this
      simp [VMap.size, pairsFrom]
    · have hlen : (m.data.drop off).length = m.size - off := by simp [VMap.size]
      rcases seek_cases m.emptyval (m.data.drop off) off with ⟨e1, e2⟩ | ⟨j, x, e1, e2, e3, e4⟩
      · have hh : m.hasNext off = (false, m.size) := by
          unfold VMap.hasNext
          rw [if_neg hend, e1, hlen]
          simp only [Prod.mk.injEq, decide_eq_false_iff_not]
          omega
        rw [hh, e2]
        rfl
      · have hj : j < m.size - off := by
          rw [← hlen]
          exact (List.getElem?_eq_some_iff.1 e1).1
        have hh : m.hasNext off = (true, off + j) := by
          unfold VMap.hasNext
          rw [if_neg hend, e3]
          simp only [Prod.mk.injEq, decide_eq_true_eq, and_true]
          omega
        have hn : m.next (off + j) = .ok ((off + j, x), off + j + 1) := by
          unfold VMap.next VMap.constRead
          rw [List.getElem?_drop] at e1
          rw [e1]
        rw [hh]
        simp only [if_true]
        rw [hn]
        simp only
        rw [ih (off + j + 1) (by omega) (by omega), e4, List.drop_drop]
        rw [show off + (j + 1) = off + j + 1 by omega]

theorem entries_eq (m : VMap T) : m.entries = .ok (pairsFrom m.emptyval m.data 0) := by
  unfold VMap.entries VMap.iterNew
  rcases seek_cases m.emptyval m.data 0 with ⟨e1, e2⟩ | ⟨j, x, e1, e2, e3, e4⟩
  · rw [e1, e2, collect_eq m m.size (0 + m.data.length) (by simp [VMap.size]) (by simp)]
    simp [pairsFrom]
  · have hj := (List.getElem?_eq_some_iff.1 e1)
    obtain ⟨hj, hx⟩ := hj
    rw [e3, e4, collect_eq m m.size (0 + j) (by simp [VMap.size]; omega) (by simp)]
    rw [Nat.zero_add, List.drop_eq_getElem_cons hj, hx, pairsFrom_cons_pos e2]

end Knor.VMap
