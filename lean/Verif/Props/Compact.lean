import Mathlib.Algebra.Order.Field.Rat
import Mathlib.Data.Finset.Card
import Verif.Lemmas.Compact

/-!
# C43, C44: compacting the ids of a hierarchical result
-/

namespace Knor.Compact

open Knor

variable {R : Type _} {n : Nat}

/-- `counts` is the histogram of `assign`: entry `i` is the number of rows of cluster `i`, and every
cluster has an entry. -/
def IsHistogram (assign : List Nat) (counts : List Int) : Prop :=
  (∀ a ∈ assign, a < counts.length) ∧ ∀ i c, counts[i]? = some c → c = (assign.count i : Int)

theorem run_eq [Zero R] {assign : List Nat} {counts : List Int} (h : IsHistogram assign counts)
    (hlt : counts.length ≤ 4294967296) (cents : List (Nat × Row R n)) :
    ∃ Q : List Nat, Q.Nodup ∧ (∀ x, x ∈ Q ↔ x ∈ assign) ∧
      hierResult assign counts cents =
        match copyRows cents.length cents (posMap Q) (fun _ _ => 0) with
        | .error e => .error e
        | .ok buf => .ok ⟨assign.map fun x => Q.idxOf x, Q.map fun q => assign.count q, buf,
            cents.length⟩ := by
  have hp : ∀ c ∈ counts, 0 ≤ c := by
    intro c hc
    obtain ⟨i, hi⟩ := List.mem_iff_getElem?.1 hc
    rw [h.2 i c hi]
    omega
  have hmem : ∀ x, x ∈ posIds counts 0 ↔ x ∈ assign := by
    intro x
    rw [mem_posIds]
    constructor
    · rintro ⟨_, c, hc, hpos⟩
      rw [Nat.sub_zero] at hc
      have := h.2 x c hc
      rw [← List.count_pos_iff]
      omega
    · intro hx
      have hl := h.1 x hx
      refine ⟨Nat.zero_le _, counts[x], ?_, ?_⟩
      · rw [Nat.sub_zero, List.getElem?_eq_getElem hl]
      · rw [h.2 x _ (List.getElem?_eq_getElem hl)]
        have := List.count_pos_iff.2 hx
        omega
  refine ⟨posIds counts 0, posIds_nodup _ _, hmem, ?_⟩
  have hr := remapLoop_eq (cs := counts) (f := fun i => counts.getD i 0) hp (i := 0) (Q := [])
    (by simp) (by simp) (by omega) (by
      intro j c hj
      simp only [Nat.zero_add, List.getD_eq_getElem?_getD, hj, Option.getD_some])
  have hempty : posMap [] = fun _ => none := by
    funext x
    simp [posMap]
  rw [List.map_nil, hempty, List.nil_append] at hr
  unfold hierResult
  rw [hr]
  simp only
  rw [relabel_eq fun x hx => (hmem x).2 hx]
  have hm : (posIds counts 0).map (fun q => (counts.getD q 0).toNat)
      = (posIds counts 0).map fun q => assign.count q := by
    apply List.map_congr_left
    intro q hq
    obtain ⟨_, c, hc, _⟩ := mem_posIds.1 hq
    rw [Nat.sub_zero] at hc
    rw [List.getD_eq_getElem?_getD, hc, Option.getD_some, h.2 q c hc]
    simp
  rw [hm]
  cases copyRows cents.length cents (posMap (posIds counts 0)) (fun _ _ => (0 : R)) <;> rfl

/-- **C43.**  Whenever the counts are the histogram of the assignment, the compacted result
* puts two rows into the same cluster exactly if they were in the same cluster,
* names clusters below the number of reported clusters, every such name being used, and
* reports for every name the number of rows that carry it. -/
theorem C43_compaction_bijective [Zero R] (assign : List Nat) (counts : List Int)
    (cents : List (Nat × Row R n)) (h : IsHistogram assign counts)
    (hlt : counts.length ≤ 4294967296) (res : Result R n)
    (hres : hierResult assign counts cents = .ok res) :
    res.assignments.length = assign.length ∧
    (∀ i j : Nat, i < assign.length → j < assign.length →
      (res.assignments[i]? = res.assignments[j]? ↔ assign[i]? = assign[j]?)) ∧
    (∀ a ∈ res.assignments, a < res.counts.length) ∧
    (∀ c, c < res.counts.length → c ∈ res.assignments) ∧
    ∀ c m, res.counts[c]? = some m → m = res.assignments.count c := by
  obtain ⟨Q, hnd, hmem, e⟩ := run_eq h hlt cents
  rw [e] at hres
  cases hc : copyRows cents.length cents (posMap Q) (fun _ _ => (0 : R)) with
  | error _ => rw [hc] at hres; cases hres
  | ok buf =>
    rw [hc] at hres
    cases hres
    simp only [List.length_map]
    refine ⟨trivial, ?_, ?_, ?_, ?_⟩
    · intro i j hi hj
      rw [List.getElem?_map, List.getElem?_map, List.getElem?_eq_getElem hi,
        List.getElem?_eq_getElem hj]
      simp only [Option.map_some, Option.some.injEq]
      exact List.idxOf_inj ((hmem _).2 (List.getElem_mem hi))
    · intro a ha
      obtain ⟨x, hx, rfl⟩ := List.mem_map.1 ha
      exact List.idxOf_lt_length_of_mem ((hmem x).2 hx)
    · intro c hc
      refine List.mem_map.2 ⟨Q[c], (hmem _).1 (List.getElem_mem hc), ?_⟩
      exact hnd.idxOf_getElem c hc
    · intro c m hm
      have hc : c < Q.length := by
        by_contra hcon
        rw [List.getElem?_eq_none (by simpa using hcon)] at hm
        cases hm
      rw [List.getElem?_map, List.getElem?_eq_getElem hc] at hm
      simp only [Option.map_some, Option.some.injEq] at hm
      rw [← hm, List.count_eq_countP, List.count_eq_countP, List.countP_map]
      apply List.countP_congr
      intro x hx
      have hq := (hmem x).2 hx
      simp only [beq_iff_eq, Function.comp_apply]
      constructor
      · rintro rfl
        exact hnd.idxOf_getElem c hc
      · intro he
        rw [← List.getElem_idxOf (List.idxOf_lt_length_of_mem hq)]
        simp only [he]

/-- Three live clusters 1, 3 and 4 of six ids. -/
example : IsHistogram [3, 1, 4, 1, 3, 3] [0, 2, 0, 3, 1, 0] := by
  constructor
  · decide
  · intro i c
    have : i < 6 ∨ 6 ≤ i := by omega
    rcases this with hi | hi
    · have : i = 0 ∨ i = 1 ∨ i = 2 ∨ i = 3 ∨ i = 4 ∨ i = 5 := by omega
      rcases this with rfl | rfl | rfl | rfl | rfl | rfl <;>
        (intro h; simp at h; subst h; decide)
    · intro h
      rw [List.getElem?_eq_none (by simpa using hi)] at h
      cases h

/-- What the witnesses show. -/
structure Seen where
  assignments : List Nat
  counts : List Nat
  centroids : List ℚ
  k : Nat
  deriving DecidableEq, Repr

/-- Run a witness with one column. -/
def show1 (assign : List Nat) (counts : List Int) (cents : List (Nat × Row ℚ 1)) : Res Seen :=
  match hierResult assign counts cents with
  | .error e => .error e
  | .ok r => .ok ⟨r.assignments, r.counts, (List.range r.k).map fun c => r.centroids c 0, r.k⟩

example : show1 [3, 1, 4, 1, 3, 3] [0, 2, 0, 3, 1, 0]
    [(4, fun _ => 40), (1, fun _ => 10), (3, fun _ => 30)]
    = .ok ⟨[1, 0, 2, 0, 1, 1], [2, 3, 1], [10, 30, 40], 3⟩ := by decide +kernel

/-! ## C44 -/

/-- **C44, as it should be**: for every histogram, and every centroid map that has an entry for every
cluster with rows, the centroid reported for the compacted cluster of a row is the entry of the
row's original cluster. -/
def CentroidsMatch (R : Type _) [Zero R] (n : Nat) : Prop :=
  ∀ (assign : List Nat) (counts : List Int) (cents : List (Nat × Row R n)),
    IsHistogram assign counts → (cents.map Prod.fst).Nodup →
    (∀ a ∈ assign, a ∈ cents.map Prod.fst) →
    ∃ res, hierResult assign counts cents = .ok res ∧
      ∀ (i a c : Nat) (v : Row R n), assign[i]? = some a → res.assignments[i]? = some c →
        (a, v) ∈ cents → res.centroids c = v

/-- **C44 is violated**: a centroid of a cluster that lost all its rows is not dropped but overwrites
the centroid of compacted cluster 0. -/
theorem C44_violated : ¬ CentroidsMatch ℚ 1 := by
  intro h
  have hh : IsHistogram [1, 1] [0, 2, 0] := by
    constructor
    · decide
    · intro i c
      have : i = 0 ∨ i = 1 ∨ i = 2 ∨ 3 ≤ i := by omega
      rcases this with rfl | rfl | rfl | hi
      · intro h; simp at h; subst h; decide
      · intro h; simp at h; subst h; decide
      · intro h; simp at h; subst h; decide
      · intro h
        rw [List.getElem?_eq_none (by simpa using hi)] at h
        cases h
  obtain ⟨res, e, hr⟩ := h [1, 1] [0, 2, 0] [(1, fun _ => 10), (2, fun _ => 20)] hh (by decide)
    (by decide)
  have hs : show1 [1, 1] [0, 2, 0] [(1, fun _ => 10), (2, fun _ => 20)]
      = .ok ⟨[0, 0], [2], [20, 0], 2⟩ := by decide +kernel
  unfold show1 at hs
  rw [e] at hs
  simp only [Except.ok.injEq, Seen.mk.injEq] at hs
  obtain ⟨h1, _, h3, h4⟩ := hs
  have := hr 0 1 0 (fun _ => 10) (by simp) (by rw [h1]; simp) (by simp)
  rw [h4] at h3
  simp only [List.range_succ, List.range_zero, List.nil_append, List.cons_append, List.map_cons,
    List.map_nil, List.cons.injEq] at h3
  rw [this] at h3
  exact absurd h3.1 (by decide +kernel)

/-- **C44, partial.**  If in addition every centroid belongs to a cluster with rows, the result is
well defined, it has as many centroids as clusters, and every row's compacted cluster carries the
centroid of the row's original cluster, in whatever order the map is iterated.
Missing: centroid maps with entries of clusters without rows (see `C44_violated`). -/
theorem C44_centroids_match_partial [Zero R] (assign : List Nat) (counts : List Int)
    (cents : List (Nat × Row R n)) (h : IsHistogram assign counts)
    (hlt : counts.length ≤ 4294967296) (hnd : (cents.map Prod.fst).Nodup)
    (hall : ∀ a ∈ assign, a ∈ cents.map Prod.fst)
    (hlive : ∀ e ∈ cents, e.1 ∈ assign) :
    ∃ res, hierResult assign counts cents = .ok res ∧ res.k = res.counts.length ∧
      ∀ (i a c : Nat) (v : Row R n), assign[i]? = some a → res.assignments[i]? = some c →
        (a, v) ∈ cents → res.centroids c = v := by
  obtain ⟨Q, hQ, hmem, e⟩ := run_eq h hlt cents
  have hperm : Q.Perm (cents.map Prod.fst) := by
    rw [List.perm_ext_iff_of_nodup hQ hnd]
    intro x
    rw [hmem x]
    constructor
    · exact hall x
    · intro hx
      obtain ⟨e, he, rfl⟩ := List.mem_map.1 hx
      exact hlive e he
  have hlen : Q.length = cents.length := by rw [hperm.length_eq, List.length_map]
  obtain ⟨buf, e1, e2, _⟩ := copyRows_eq (Q := Q) hlen.le cents (fun _ _ => 0)
    (fun e he => (hmem _).2 (hlive e he)) hnd
  rw [e1] at e
  refine ⟨_, e, by simp [hlen], ?_⟩
  intro i a c v ha hc hv
  simp only [List.getElem?_map, ha, Option.map_some, Option.some.injEq] at hc
  rw [← hc]
  exact e2 (a, v) hv

end Knor.Compact
