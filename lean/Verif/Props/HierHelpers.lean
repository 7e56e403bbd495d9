import Mathlib.Data.List.Basic
import Mathlib.Algebra.Order.Ring.Nat
import Mathlib.Tactic.Common
import Verif.Model.HierHelpers

/-! # Property C106: picking a member of a cluster, counting members, means of partitions -/

namespace Knor.HierHelpers

open Knor Knor.VMap

theorem forward_spec {asg : List Nat} {cid : Nat} : ∀ (fuel cnt : Nat), cnt + fuel ≤ asg.length →
    (∃ i, forward asg cid fuel cnt = .ok (some i) ∧ cnt ≤ i ∧ i < cnt + fuel ∧ asg[i]? = some cid ∧
      ∀ j, cnt ≤ j → j < i → asg[j]? ≠ some cid) ∨
    (forward asg cid fuel cnt = .ok none ∧ ∀ j, cnt ≤ j → j < cnt + fuel → asg[j]? ≠ some cid)
  | 0, cnt, _ => Or.inr ⟨rfl, fun j h1 h2 => by omega⟩
  | fuel + 1, cnt, h => by
    have hc : cnt < asg.length := by omega
    unfold forward
    rw [List.getElem?_eq_getElem hc]
    simp only
    by_cases he : asg[cnt] = cid
    · rw [if_pos he]
      exact Or.inl ⟨cnt, rfl, le_rfl, by omega, by rw [List.getElem?_eq_getElem hc, he], fun j h1 h2 => by omega⟩
    · rw [if_neg he]
      have hne : asg[cnt]? ≠ some cid := by rw [List.getElem?_eq_getElem hc]; simpa using he
      have split : ∀ j, cnt ≤ j → j = cnt ∨ cnt + 1 ≤ j := fun j hj => by omega
      rcases forward_spec (asg := asg) (cid := cid) fuel (cnt + 1) (by omega) with ⟨i, e, h1, h2, h3, h4⟩ | ⟨e, h4⟩
      · refine Or.inl ⟨i, e, by omega, by omega, h3, fun j hj hji => ?_⟩
        rcases split j hj with rfl | hj
        · exact hne
        · exact h4 j hj hji
      · refine Or.inr ⟨e, fun j hj hji => ?_⟩
        rcases split j hj with rfl | hj
        · exact hne
        · exact h4 j hj (by omega)

theorem backward_spec {asg : List Nat} {cid : Nat} : ∀ (cnt : Nat), cnt ≤ asg.length →
    (∃ i, backward asg cid cnt = .ok i ∧ i < cnt ∧ asg[i]? = some cid ∧ ∀ j, i < j → j < cnt → asg[j]? ≠ some cid) ∨
    (backward asg cid cnt = .error .ub ∧ ∀ j, j < cnt → asg[j]? ≠ some cid)
  | 0, _ => Or.inr ⟨rfl, fun j h => by omega⟩
  | cnt + 1, h => by
    have hc : cnt < asg.length := by omega
    unfold backward
    rw [List.getElem?_eq_getElem hc]
    simp only
    by_cases he : asg[cnt] = cid
    · rw [if_pos he]
      exact Or.inl ⟨cnt, rfl, by omega, by rw [List.getElem?_eq_getElem hc, he], fun j h1 h2 => by omega⟩
    · rw [if_neg he]
      have hne : asg[cnt]? ≠ some cid := by rw [List.getElem?_eq_getElem hc]; simpa using he
      rcases backward_spec (asg := asg) (cid := cid) cnt (by omega) with ⟨i, e, h1, h2, h3⟩ | ⟨e, h3⟩
      · refine Or.inl ⟨i, e, by omega, h2, fun j hj hji => ?_⟩
        rcases Nat.lt_or_eq_of_le (show j ≤ cnt by omega) with hl | rfl
        · exact h3 j hj hl
        · exact hne
      · refine Or.inr ⟨e, fun j hji => ?_⟩
        rcases Nat.lt_or_eq_of_le (show j ≤ cnt by omega) with hl | rfl
        · exact h3 j hl
        · exact hne

/-- **C106 (a member of a cluster), partial.** Given a row drawn at random, `forgy_select` returns a member of the
cluster whenever the cluster has a member other than the last row, or the last row was drawn and is a member: the drawn
row itself, else the next member after it, else the nearest before it.  In all other cases the behaviour is
undefined; the exception announced in the code is never thrown.
Missing: a cluster whose only member is the last row, and the exception for a cluster without members. -/
theorem C106_select_partial (asg : List Nat) (cid rand : Nat) (hr : rand < asg.length) :
    (∀ r, forgySelect asg cid rand = .ok r → asg[r]? = some cid ∧
      (asg[rand]? = some cid → r = rand) ∧
      (rand < r → ∀ j, rand ≤ j → j < r → asg[j]? ≠ some cid) ∧
      (r < rand → ∀ j, r < j → j + 1 < asg.length → asg[j]? ≠ some cid)) ∧
    ((∃ r, forgySelect asg cid rand = .ok r) ↔
      (∃ i, i + 1 < asg.length ∧ asg[i]? = some cid) ∨ asg[rand]? = some cid) ∧
    ((∃ r, forgySelect asg cid rand = .ok r) ∨ forgySelect asg cid rand = .error .ub) := by
  unfold forgySelect
  rw [List.getElem?_eq_getElem hr]
  simp only
  by_cases he : asg[rand] = cid
  · rw [if_pos he]
    refine ⟨fun r h => ?_, ⟨fun _ => Or.inr (by rw [he]), fun _ => ⟨rand, rfl⟩⟩, Or.inl ⟨rand, rfl⟩⟩
    cases h
    exact ⟨by rw [List.getElem?_eq_getElem hr, he], fun _ => rfl, fun h => absurd h (lt_irrefl _),
      fun h => absurd h (lt_irrefl _)⟩
  rw [if_neg he]
  have hne : asg[rand]? ≠ some cid := by rw [List.getElem?_eq_getElem hr]; simpa using he
  have hne' : ¬ (some asg[rand] = some cid) := by simpa using he
  by_cases hlast : rand + 1 < asg.length
  · rcases forward_spec (asg := asg) (cid := cid) (asg.length - 1 - (rand + 1)) (rand + 1) (by omega) with
      ⟨i, e, h1, h2, h3, h4⟩ | ⟨e, h4⟩
    · rw [e]
      refine ⟨fun r h => ?_, ⟨fun _ => Or.inl ⟨i, by omega, h3⟩, fun _ => ⟨i, rfl⟩⟩, Or.inl ⟨i, rfl⟩⟩
      cases h
      refine ⟨h3, fun h => absurd h hne', fun _ j hj1 hj2 => ?_, fun h => by omega⟩
      rcases Nat.eq_or_lt_of_le hj1 with rfl | hj
      · exact hne
      · exact h4 j hj hj2
    · rw [e]
      simp only
      rcases backward_spec (asg := asg) (cid := cid) rand (by omega) with ⟨i, e2, k1, k2, k3⟩ | ⟨e2, k3⟩
      · rw [e2]
        refine ⟨fun r h => ?_, ⟨fun _ => Or.inl ⟨i, by omega, k2⟩, fun _ => ⟨i, rfl⟩⟩, Or.inl ⟨i, rfl⟩⟩
        cases h
        refine ⟨k2, fun h => absurd h hne', fun h => by omega, fun _ j hj1 hj2 => ?_⟩
        rcases lt_trichotomy j rand with hl | rfl | hl
        · exact k3 j hj1 hl
        · exact hne
        · exact h4 j hl (by omega)
      · rw [e2]
        refine ⟨fun r h => (by cases h), ⟨fun h => (by obtain ⟨_, h⟩ := h; exact nomatch h), ?_⟩, Or.inr rfl⟩
        rintro (⟨i, hi, hm⟩ | h)
        · rcases lt_trichotomy i rand with hl | rfl | hl
          · exact absurd hm (k3 i hl)
          · exact absurd hm hne
          · exact absurd hm (h4 i hl (by omega))
        · exact absurd h hne'
  · have hz : asg.length - 1 - (rand + 1) = 0 := by omega
    rw [hz]
    simp only [forward]
    rcases backward_spec (asg := asg) (cid := cid) rand (by omega) with ⟨i, e2, k1, k2, k3⟩ | ⟨e2, k3⟩
    · rw [e2]
      refine ⟨fun r h => ?_, ⟨fun _ => Or.inl ⟨i, by omega, k2⟩, fun _ => ⟨i, rfl⟩⟩, Or.inl ⟨i, rfl⟩⟩
      cases h
      exact ⟨k2, fun h => absurd h hne', fun h => by omega, fun _ j hj1 hj2 => k3 j hj1 (by omega)⟩
    · rw [e2]
      refine ⟨fun r h => (by cases h), ⟨fun h => (by obtain ⟨_, h⟩ := h; exact nomatch h), ?_⟩, Or.inr rfl⟩
      rintro (⟨i, hi, hm⟩ | h)
      · exact absurd hm (k3 i (by omega))
      · exact absurd h hne'

/-- **C106, violated for a cluster without members.** Instead of the exception, memory before the assignments is read,
whatever row is drawn. -/
theorem C106_select_empty_violated (asg : List Nat) (cid rand : Nat) (hr : rand < asg.length) (hc : cid ∉ asg) :
    forgySelect asg cid rand = .error .ub := by
  have hno : ∀ i : Nat, asg[i]? ≠ some cid := fun i h => hc (List.mem_of_getElem? h)
  obtain ⟨_, h2, h3⟩ := C106_select_partial asg cid rand hr
  rcases h3 with h3 | h3
  · rcases h2.1 h3 with ⟨i, _, h⟩ | h
    · exact absurd h (hno i)
    · exact absurd h (hno rand)
  · exact h3

/-- **C106, violated for the last row.** If the last row is the only member, every draw of another row ends in
undefined behaviour, although the cluster has a member. -/
theorem C106_select_last_violated (asg : List Nat) (cid rand : Nat) (hr : rand + 1 < asg.length)
    (hl : asg[asg.length - 1]? = some cid) (hc : ∀ i, i + 1 < asg.length → asg[i]? ≠ some cid) :
    cid ∈ asg ∧ forgySelect asg cid rand = .error .ub := by
  refine ⟨List.mem_of_getElem? hl, ?_⟩
  obtain ⟨_, h2, h3⟩ := C106_select_partial asg cid rand (by omega)
  rcases h3 with h3 | h3
  · rcases h2.1 h3 with ⟨i, hi, h⟩ | h
    · exact absurd h (hc i hi)
    · exact absurd h (hc rand hr)
  · exact h3

/-- Forward, backward, the drawn row, and the two failures, on seven rows. -/
example :
    let asg := [3, 1, 3, 1, 1, 1, 4]
    (forgySelect asg 3 0, forgySelect asg 3 1, forgySelect asg 3 5, forgySelect asg 4 6, forgySelect asg 4 2,
      forgySelect asg 9 3) = (.ok 0, .ok 2, .ok 2, .ok 6, .error .ub, .error .ub) := by decide

theorem countLoop_spec : ∀ (l cnt : List Nat), (∀ c ∈ l, c < cnt.length) →
    ∃ r, countLoop l cnt = .ok r ∧ r.length = cnt.length ∧ ∀ c, c < cnt.length → r.getD c 0 = cnt.getD c 0 + l.count c
  | [], cnt, _ => ⟨cnt, rfl, rfl, fun c _ => by simp⟩
  | a :: l, cnt, h => by
    have ha := h a (by simp)
    obtain ⟨r, e, hl, hr⟩ := countLoop_spec l (cnt.set a (cnt[a] + 1)) fun c hc => by
      rw [List.length_set]; exact h c (by simp [hc])
    refine ⟨r, ?_, by rw [hl, List.length_set], fun c hc => ?_⟩
    · unfold countLoop
      rw [List.getElem?_eq_getElem ha]
      exact e
    · rw [hr c (by rwa [List.length_set])]
      simp only [List.getD_eq_getElem?_getD, List.getElem?_set]
      by_cases hca : a = c
      · subst hca
        rw [if_pos rfl, if_pos ha, List.getElem?_eq_getElem ha, List.count_cons_self]
        simp only [Option.getD_some]
        omega
      · rw [if_neg hca, List.count_cons_of_ne hca]

theorem countLoop_bad : ∀ (l cnt : List Nat), (∃ c ∈ l, cnt.length ≤ c) → countLoop l cnt = .error .ub
  | [], _, ⟨_, h, _⟩ => by simp at h
  | a :: l, cnt, ⟨c, hc, hle⟩ => by
    unfold countLoop
    by_cases ha : a < cnt.length
    · rw [List.getElem?_eq_getElem ha]
      refine countLoop_bad l _ ⟨c, ?_, by rwa [List.length_set]⟩
      rcases List.mem_cons.1 hc with rfl | h
      · omega
      · exact h
    · rw [List.getElem?_eq_none (by omega)]

/-- **C106 (sizes).** `accumulate_cluster_counts` gives every node id below `max_nodes` the number of rows assigned to
it, whatever was counted before; an id outside is undefined behaviour. -/
theorem C106_counts (maxNodes : Nat) (asg : List Nat) :
    ((∀ c ∈ asg, c < maxNodes) → accumulate maxNodes asg = .ok ((List.range maxNodes).map fun c => asg.count c)) ∧
    ((∃ c ∈ asg, maxNodes ≤ c) → accumulate maxNodes asg = .error .ub) := by
  unfold accumulate
  refine ⟨fun h => ?_, fun h => countLoop_bad _ _ (by simpa using h)⟩
  obtain ⟨r, e, hl, hr⟩ := countLoop_spec asg (List.replicate maxNodes 0) (by simpa using h)
  rw [e]
  congr 1
  simp only [List.length_replicate] at hl hr
  apply List.ext_getElem (by simp [hl])
  intro i h1 h2
  have := hr i (by omega)
  rw [List.getD_eq_getElem?_getD, List.getElem?_eq_getElem h1, List.getD_eq_getElem?_getD] at this
  simp only [Option.getD_some] at this
  rw [this, List.getElem?_replicate, if_pos (by omega)]
  simp

/-- Six rows in nodes 1 and 2 of four. -/
example : accumulate 4 [1, 2, 2, 1, 2, 2] = .ok [0, 2, 4, 0] ∧ accumulate 2 [1, 2] = .error .ub := by decide

theorem read_replicate {C : Type _} (n idx : Nat) :
    (VMap.read none (⟨List.replicate n none, none⟩ : VMap (Option C)) idx).1 = none := by
  have h : ∀ m i, (List.replicate m (none : Option C)).getD i none = none := by
    intro m i
    rw [List.getD_eq_getElem?_getD, List.getElem?_replicate]
    split <;> rfl
  unfold VMap.read VMap.touch growTo
  simp only
  split
  · simp only [List.length_replicate, List.replicate_append_replicate]; exact h _ _
  · exact h _ _

/-- **C106, violated for the means of partitions.** The map is emptied and then written through its null pointers:
as soon as one thread has one entry the behaviour is undefined, whatever was in the map. -/
theorem C106_partition_mean_violated {C : Type _} (peq : C → C → C) (fin : C → C) (maxNodes : Nat) (e : Nat × C)
    (locals : List (Nat × C)) (part : VMap (Option C)) (hp : part.emptyval = none) :
    partitionMean peq fin maxNodes (e :: locals) part = .error .ub := by
  have key : ∀ n, addPart peq (⟨List.replicate n none, none⟩ : VMap (Option C)) e = .error .ub := by
    intro n
    unfold addPart
    have := read_replicate (C := C) n e.1
    cases h : VMap.read none (⟨List.replicate n none, none⟩ : VMap (Option C)) e.1 with
    | mk a b => rw [h] at this; simp only at this; subst this; rfl
  unfold partitionMean addParts
  by_cases h0 : part.size = 0
  · simp only [h0, if_true]
    unfold VMap.setCapacity
    rw [hp]
    rw [key]
  · simp only [h0, if_false]
    unfold VMap.clear
    rw [hp]
    rw [key]

/-- One thread with the sum 5 for node 2, a map that held something for it. -/
example : partitionMean (· + ·) id 4 [(2, 5)] ⟨[none, none, some 1, none], none⟩ = .error .ub := by decide

end Knor.HierHelpers
