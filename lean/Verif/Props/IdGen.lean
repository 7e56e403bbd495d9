import Mathlib.Tactic.Ring
import Verif.Model.IdGen

/-!
# C42: ids handed out for splits are not in use
-/

namespace Knor.IdGen

open Knor

/-- A history of a generator: `Hist g used n` says that after `n` splits and any number of
reclaims, in any order, the generator is in state `g` and the ids in `used` are in use.
Id 0 (the root cluster) is in use from the start; an id is reclaimed only while it is in use and is
then no longer in use; the ids of a split are in use from then on. -/
inductive Hist : Gen → Finset Nat → Nat → Prop where
  | start : Hist create {0} 0
  | split {g used n} : Hist g used n →
      Hist g.split.2 (insert g.split.1.1 (insert g.split.1.2 used)) (n + 1)
  | reclaim {g used n id} : Hist g used n → id ∈ used → Hist (g.reclaim id) (used.erase id) n

/-- What every history maintains. -/
structure Inv (g : Gen) (used : Finset Nat) (n : Nat) : Prop where
  maxId_le : g.maxId ≤ 2 * n
  nodup : g.recycler.Nodup
  disj : ∀ i, i ∈ g.recycler → i ∉ used
  all : ∀ i, i ≤ g.maxId ↔ i ∈ used ∨ i ∈ g.recycler

theorem Inv.next {g : Gen} {used : Finset Nat} {m : Nat}
    (hm : g.maxId ≤ m) (nodup : g.recycler.Nodup) (disj : ∀ i, i ∈ g.recycler → i ∉ used)
    (all : ∀ i, i ≤ g.maxId ↔ i ∈ used ∨ i ∈ g.recycler) (hlt : m + 1 < 4294967296) :
    g.next.1 ∉ used ∧ g.next.2.maxId ≤ m + 1 ∧ g.next.2.recycler.Nodup ∧
      (∀ i, i ∈ g.next.2.recycler → i ∉ insert g.next.1 used) ∧
      ∀ i, i ≤ g.next.2.maxId ↔ i ∈ insert g.next.1 used ∨ i ∈ g.next.2.recycler := by
  unfold Gen.next
  cases hr : g.recycler with
  | nil =>
    have hw : u32 (g.maxId + 1) = g.maxId + 1 := u32_of_lt (by omega)
    simp only [hw]
    rw [hr] at all
    refine ⟨?_, by omega, by simp [hr], by simp [hr], ?_⟩
    · intro h
      have := (all (g.maxId + 1)).2 (Or.inl h)
      omega
    · intro i
      have := all i
      simp only [List.not_mem_nil, or_false] at this
      simp only [Finset.mem_insert, hr, List.not_mem_nil, or_false]
      rw [← this]
      omega
  | cons id rest =>
    rw [hr] at nodup disj all
    rw [List.nodup_cons] at nodup
    simp only
    refine ⟨disj id (by simp), by omega, nodup.2, ?_, ?_⟩
    · intro i hi
      rw [Finset.mem_insert]
      rintro (rfl | h)
      · exact nodup.1 hi
      · exact disj i (by simp [hi]) h
    · intro i
      rw [all i, Finset.mem_insert, List.mem_cons]
      tauto

theorem Inv.split {g : Gen} {used : Finset Nat} {n : Nat} (h : Inv g used n)
    (hlt : 2 * (n + 1) < 4294967296) :
    (g.split.1.1 ∉ used ∧ g.split.1.2 ∉ used ∧ g.split.1.1 ≠ g.split.1.2) ∧
      Inv g.split.2 (insert g.split.1.1 (insert g.split.1.2 used)) (n + 1) := by
  obtain ⟨a1, a2, a3, a4, a5⟩ := Inv.next h.maxId_le h.nodup h.disj h.all (by omega)
  obtain ⟨b1, b2, b3, b4, b5⟩ := Inv.next a2 a3 a4 a5 (by omega)
  unfold Gen.split
  simp only
  rw [Finset.mem_insert, not_or] at b1
  refine ⟨⟨a1, b1.2, fun e => b1.1 e.symm⟩, by omega, b3, ?_, ?_⟩
  · intro i hi
    rw [Finset.insert_comm]
    exact b4 i hi
  · intro i
    rw [Finset.insert_comm]
    exact b5 i

theorem Hist.inv {g : Gen} {used : Finset Nat} {n : Nat} (h : Hist g used n)
    (hlt : 2 * n < 4294967296) : Inv g used n := by
  induction h with
  | start => exact ⟨by simp [create], by simp [create], by simp [create], by simp [create]⟩
  | split _ ih => exact ((ih (by omega)).split hlt).2
  | @reclaim g used n id _ hid ih =>
    obtain ⟨h1, h2, h3, h4⟩ := ih hlt
    refine ⟨h1, ?_, ?_, ?_⟩
    · exact List.nodup_cons.2 ⟨fun h => h3 _ h hid, h2⟩
    · intro i hi
      rw [Finset.mem_erase]
      rintro ⟨hne, hu⟩
      rcases List.mem_cons.1 hi with rfl | hi
      · exact hne rfl
      · exact h3 i hi hu
    · intro i
      show i ≤ g.maxId ↔ i ∈ used.erase id ∨ i ∈ id :: g.recycler
      rw [h4 i, Finset.mem_erase, List.mem_cons]
      by_cases hi : i = id
      · subst hi; tauto
      · tauto

/-- **C42.**  Whatever the history of splits and reclaims (fewer than 2^31 - 1 splits), the next two
ids differ from each other and from every id in use. -/
theorem C42_ids_unique (g : Gen) (used : Finset Nat) (n : Nat) (h : Hist g used n)
    (hlt : 2 * (n + 1) < 4294967296) :
    g.split.1.1 ∉ used ∧ g.split.1.2 ∉ used ∧ g.split.1.1 ≠ g.split.1.2 :=
  ((h.inv (by omega)).split hlt).1

/-- **C42, ids stay small.**  Every id handed out is at most the number of ids that are in use
or waiting to be reused; an unused id below the largest one is always waiting, so a new id is only
made when all smaller ones are in use. -/
theorem C42_ids_compact (g : Gen) (used : Finset Nat) (n : Nat) (h : Hist g used n)
    (hlt : 2 * (n + 1) < 4294967296) :
    used.card + g.recycler.length = g.maxId + 1 ∧
      (∀ i ∈ used, i < used.card + g.recycler.length) ∧
      (g.recycler = [] → g.split.1.1 = used.card ∧ g.split.1.2 = used.card + 1) := by
  have hi := h.inv (by omega)
  have hc : used.card + g.recycler.length = g.maxId + 1 := by
    have hd : Disjoint used g.recycler.toFinset := by
      rw [Finset.disjoint_left]
      intro a ha hb
      exact hi.disj a (List.mem_toFinset.1 hb) ha
    rw [← List.toFinset_card_of_nodup hi.nodup, ← Finset.card_union_of_disjoint hd]
    have : used ∪ g.recycler.toFinset = Finset.range (g.maxId + 1) := by
      ext i
      rw [Finset.mem_union, List.mem_toFinset, Finset.mem_range, ← hi.all i]
      omega
    rw [this, Finset.card_range]
  refine ⟨hc, ?_, ?_⟩
  · intro i hu
    have := (hi.all i).2 (Or.inl hu)
    omega
  · intro hr
    have hm := hi.maxId_le
    rw [hr, List.length_nil] at hc
    have e1 : u32 (g.maxId + 1) = g.maxId + 1 := u32_of_lt (by omega)
    have e2 : u32 (g.maxId + 1 + 1) = g.maxId + 1 + 1 := u32_of_lt (by omega)
    have : g.split = ((g.maxId + 1, g.maxId + 2), ⟨g.maxId + 2, []⟩) := by
      unfold Gen.split Gen.next
      simp only [hr, e1, e2]
    rw [this]
    simp only
    omega

/-- Splitting `n` times without reclaiming. -/
def splits : Nat → Gen
  | 0 => create
  | n + 1 => (splits n).split.2

theorem splits_eq (n : Nat) : splits n = ⟨u32 (2 * n), []⟩ := by
  induction n with
  | zero => rfl
  | succ n ih =>
    unfold splits
    rw [ih]
    show (⟨u32 (u32 (u32 (2 * n) + 1) + 1), []⟩ : Gen) = _
    congr 1
    unfold u32
    omega

theorem hist_splits (n : Nat) : ∃ used, Hist (splits n) used n ∧ 0 ∈ used := by
  induction n with
  | zero => exact ⟨_, Hist.start, by simp⟩
  | succ n ih =>
    obtain ⟨used, h, h0⟩ := ih
    exact ⟨_, h.split, by simp [h0]⟩

/-- The bound of C42 is sharp: the 2^31-th split without a reclaim hands out id 0, which is in use. -/
theorem C42_limit_wraps : ∃ g used, Hist g used 2147483647 ∧ g.split.1.2 ∈ used := by
  obtain ⟨used, h, h0⟩ := hist_splits 2147483647
  refine ⟨_, used, h, ?_⟩
  rw [splits_eq]
  exact h0

/-- A history with two splits, a reclaim of the root and of a child, and a third split that
reuses both. -/
example : ∃ used, Hist ((create.split.2.split.2.reclaim 0).reclaim 3) used 2 ∧
    1 ∈ used ∧ 2 ∈ used ∧ 4 ∈ used ∧ 0 ∉ used ∧ 3 ∉ used ∧
    ((create.split.2.split.2.reclaim 0).reclaim 3).split.1 = (3, 0) := by
  refine ⟨_, ((Hist.start.split.split).reclaim (id := 0) ?_).reclaim (id := 3) ?_, ?_⟩ <;> decide

end Knor.IdGen
