import Mathlib.Algebra.Order.Field.Rat
import Mathlib.Order.WithBot
import Mathlib.Algebra.Order.Field.Basic
import Verif.Lemmas.HclustLoop
import Verif.Props.Compact

/-!
# Hierarchical clustering: C45, C56, C57, C58, C59

All theorems quantify over the data, the metric, the number of threads, the interleaving of the
workers in every iteration of every round (`sched`), the two first centroids, and the order in which
the map of centroids is iterated (`ids`).

`hbig` says that no distance between a row and a mean of rows reaches the largest `double`, and `hit` that
the run starts at two rows, or at two centres whose distances from the rows stay below it. Data whose entries
are small enough meets both, with the Euclidean distance too (see the example after C45).
-/

namespace Knor.Hclust

open Knor Knor.Par Knor.Spec Knor.Compact

variable {R D : Type _} {n : Nat}

/-! ## From the last state to the result object -/

theorem count_map (N : Nat) (a : Nat → Nat) (i : Nat) :
    ((List.range N).map a).count i = size N a i := by
  rw [← filter_range_size, List.count_eq_countP, List.countP_map, List.countP_eq_length_filter]
  congr 1

theorem Finished.hist [Field R] {m : Mode} {c : Cfg R D n} {s : St R n} (h : Finished m c s) :
    IsHistogram ((List.range c.nrow).map s.assign) s.counts := by
  constructor
  · intro a ha
    obtain ⟨r, hr, rfl⟩ := List.mem_map.1 ha
    rw [h.lenC]
    exact h.inRange r (List.mem_range.1 hr)
  · intro i v hv
    rw [count_map]
    have hi : i < c.maxNodes := by
      by_contra hc
      rw [List.getElem?_eq_none (by rw [h.lenC]; omega)] at hv
      cases hv
    rw [h.counts i hi] at hv
    exact (Option.some.inj hv).symm

/-- Copying never leaves the buffer if all names fit. -/
theorem copyRows_total {size : Nat} (hs : 0 < size) : ∀ (cents : List (Nat × Row R n)) (m : IdMap)
    (buf : Nat → Row R n), (∀ x v, m x = some v → v < size) →
      ∃ buf', copyRows size cents m buf = .ok buf' := by
  intro cents
  induction cents with
  | nil => intro m buf _; exact ⟨buf, rfl⟩
  | cons e cents ih =>
    intro m buf hm
    obtain ⟨key, v⟩ := e
    unfold copyRows
    cases hk : m key with
    | some w =>
      have e : m.at key = (w, m) := by unfold IdMap.at; rw [hk]
      rw [e]
      simp only
      rw [if_pos (hm key w hk)]
      exact ih m _ hm
    | none =>
      have e : m.at key = (0, Function.update m key (some 0)) := by unfold IdMap.at; rw [hk]
      rw [e]
      simp only
      rw [if_pos hs]
      apply ih
      intro x w hx
      by_cases hxk : x = key
      · subst hxk
        rw [Function.update_self] at hx
        cases hx; exact hs
      · rw [Function.update_of_ne hxk] at hx
        exact hm x w hx

theorem result_total [Field R] {m : Mode} {c : Cfg R D n} {s : St R n} (h : Finished m c s) (hN : 0 < c.nrow)
    (hM : c.maxNodes ≤ 4294967296) {ids : List Nat}
    (hids : ∀ i, i ∈ ids ↔ (s.final i).isSome) : ∃ res, result c ids s = .ok res ∧ res.k = ids.length := by
  unfold result
  obtain ⟨Q, hnd, hmem, e⟩ := run_eq h.hist (by rw [h.lenC]; exact hM)
    (ids.map fun i => (i, (s.final i).getD fun _ => 0))
  have hsub : Q.length ≤ ids.length := by
    apply (hnd.subperm (l₂ := ids) _).length_le
    intro q hq
    obtain ⟨r, hr, rfl⟩ := List.mem_map.1 ((hmem q).1 hq)
    exact (hids _).2 (h.named r (List.mem_range.1 hr))
  have hpos : 0 < ids.length := List.length_pos_of_mem ((hids _).2 (h.named 0 hN))
  obtain ⟨buf, hb⟩ := copyRows_total (R := R) (n := n) (size := (ids.map fun i =>
      (i, (s.final i).getD fun _ => (0 : R))).length)
    (by simpa using hpos) (ids.map fun i => (i, (s.final i).getD fun _ => 0)) (posMap Q)
    (fun _ _ => 0) (by
      intro x v hv
      unfold posMap at hv
      by_cases hx : x ∈ Q
      · rw [if_pos hx] at hv
        cases hv
        have := List.idxOf_lt_length_of_mem hx
        rw [List.length_map]
        omega
      · rw [if_neg hx] at hv; cases hv)
  rw [hb] at e
  exact ⟨_, e, by simp⟩

theorem sum_counts : ∀ (L : Nat) (l : List Nat), (∀ a ∈ l, a < L) →
    ((List.range L).map fun c => l.count c).sum = l.length := by
  intro L l
  induction l with
  | nil => intro _; simp
  | cons a l ih =>
    intro h
    have ih := ih fun x hx => h x (List.mem_cons_of_mem _ hx)
    have ha := h a (by simp)
    have key : ∀ M, ((List.range M).map fun c => (a :: l).count c).sum
        = ((List.range M).map fun c => l.count c).sum + if a < M then 1 else 0 := by
      intro M
      induction M with
      | zero => simp
      | succ M ihM =>
        rw [List.range_succ, List.map_append, List.map_append, List.sum_append, List.sum_append, ihM]
        simp only [List.map_cons, List.map_nil, List.sum_cons, List.sum_nil, Nat.add_zero]
        by_cases e : a = M
        · subst e; simp; omega
        · rw [List.count_cons_of_ne e]
          have : (a < M) ↔ (a < M + 1) := by omega
          simp only [this]
          omega
    rw [key, ih, if_pos ha, List.length_cons]

/-! ## C45 -/

/-- The result object describes all rows: one assignment per row, the sizes add up to the number of
rows, and every size is the number of rows assigned to the cluster. -/
def Conserved (N : Nat) (res : Result R n) : Prop :=
  res.assignments.length = N ∧ res.counts.sum = N ∧ (∀ a ∈ res.assignments, a < res.counts.length) ∧
    ∀ c m, res.counts[c]? = some m → m = res.assignments.count c

/-- The settings for which hierarchical clustering is used as documented: at least one row, one
thread, two clusters, one iteration; sizes that fit their types. -/
structure Sane (c : Cfg R D n) : Prop where
  rows : 0 < c.nrow
  rowsLt : c.nrow < 4294967296
  threads : 0 < c.reqThreads
  two : 2 ≤ c.kmax
  kLt : c.kmax < 1073741824

/-- The result object of a finished run describes all rows. -/
theorem Finished.conserved [Field R] {m : Mode} {c : Cfg R D n} {s : St R n} (h : Finished m c s) (hs : Sane c)
    {ids : List Nat} (hids : ∀ i, i ∈ ids ↔ (s.final i).isSome) :
    ∃ res, result c ids s = .ok res ∧ Conserved c.nrow res := by
  have hM : c.maxNodes ≤ 4294967296 := by
    have := sizes (c := c) hs.two hs.kLt
    have := hs.kLt
    omega
  obtain ⟨res, e2, _⟩ := result_total h hs.rows hM hids
  refine ⟨res, e2, ?_⟩
  obtain ⟨a1, _, a3, _, a5⟩ := C43_compaction_bijective _ _ _ h.hist (by rw [h.lenC]; exact hM) res e2
  have hlen : res.assignments.length = c.nrow := by rw [a1]; simp
  refine ⟨hlen, ?_, a3, a5⟩
  have : res.counts = (List.range res.counts.length).map fun x => res.assignments.count x := by
    apply List.ext_getElem?
    intro i
    by_cases hi : i < res.counts.length
    · rw [List.getElem?_map, List.getElem?_range hi, List.getElem?_eq_getElem hi]
      simp only [Option.map_some, Option.some.injEq]
      exact a5 i _ (List.getElem?_eq_getElem hi)
    · rw [List.getElem?_eq_none (by omega), List.getElem?_eq_none (by simp; omega)]
  rw [this, sum_counts _ _ a3, hlen]

/-- **C45, partial.**  For every data set, metric, number of threads, schedule and pair of first
centroids, hierarchical clustering ends normally after at most 1.5 `kmax` rounds, and in the result
object, whatever the iteration order of the centroid map, the sizes add up to the number of rows and
are the histogram of the assignments.
Missing: `max_iters = 0` (see `C45_violated`) and `min_clust_size < 2` (see `C56_violated`). -/
theorem C45_rows_conserved_partial [Field R] [LinearOrder R] [LinearOrder D] (c : Cfg R D n)
    (hs : Sane c) (hmin : 2 ≤ c.minSize) (hmi : 1 ≤ c.maxIters)
    (hbig : MeansWithin c.nrow c.data c.dist c.big)
    (it : HInit R n) (hit : Startable c it) (sched : Nat → Nat → List Nat)
    (hc : ∀ t i, Complete (Partition.effThreads c.reqThreads c.nrow)
      (Kmeans.threadRows c.nrow c.reqThreads) (sched t i)) :
    ∃ s, run c it sched (c.kmax + c.kmax / 2) = .ok (some s) ∧
      ∀ ids : List Nat, ids.Nodup → (∀ i, i ∈ ids ↔ (s.final i).isSome) →
        ∃ res, result c ids s = .ok res ∧ Conserved c.nrow res := by
  obtain ⟨s, e, h⟩ := run_ok hbig hs.rows hs.threads hs.rowsLt hs.two hs.kLt hmin hmi hit hc
    (Nat.le_refl _)
  exact ⟨s, e, fun ids _ hids => h.conserved hs hids⟩

/-- A configuration for the witnesses: one column, one thread, the absolute difference. -/
def demo (xs : List ℚ) (kmax maxIters minSize : Nat) : Cfg ℚ ℚ 1 :=
  { nrow := xs.length, reqThreads := 1, kmax, maxIters, minSize, tol := 0
    dist := fun a b => if a 0 ≤ b 0 then b 0 - a 0 else a 0 - b 0
    big := 1000000, data := fun r _ => xs.getD r 0 }

/-- The same with infinity as the largest distance. -/
def demoTop (xs : List ℚ) (kmax maxIters minSize : Nat) : Cfg ℚ (WithTop ℚ) 1 :=
  { nrow := xs.length, reqThreads := 1, kmax, maxIters, minSize, tol := 0
    dist := fun a b => ((if a 0 ≤ b 0 then b 0 - a 0 else a 0 - b 0 : ℚ) : WithTop ℚ)
    big := ⊤, data := fun r _ => xs.getD r 0 }

/-- The hypotheses of C45 hold for four rows and `kmax = 2`. -/
example : ∃ s, run (demoTop [0, 1, 10, 11] 2 3 2) (.forgy 0 2) (fun _ _ => [0, 0, 0, 0]) 3
    = .ok (some s) := by
  obtain ⟨s, e, _⟩ := C45_rows_conserved_partial (demoTop [0, 1, 10, 11] 2 3 2)
    ⟨by decide, by decide, by decide, by decide, by decide⟩ (by decide) (by decide)
    (fun r _ a i => WithTop.coe_lt_top _) (.forgy 0 2) ⟨by decide, by decide⟩ (fun _ _ => [0, 0, 0, 0])
    (by
      intro _ _ t ht
      have : t = 0 := by
        have h1 : Partition.effThreads (demoTop [0, 1, 10, 11] 2 3 2).reqThreads
          (demoTop [0, 1, 10, 11] 2 3 2).nrow = 1 := by decide
        omega
      subst this
      decide)
  exact ⟨s, e⟩

/-- Means of bounded rows are bounded. -/
theorem abs_meanOf_le [Field R] [LinearOrder R] [IsStrictOrderedRing R] {X : R} (hX : 0 ≤ X) {N : Nat}
    {data : Nat → Row R n} (h : ∀ r, r < N → ∀ j, |data r j| ≤ X) (a : Nat → Nat) (i : Nat) (j : Fin n) :
    |meanOf N data a i j| ≤ X := by
  unfold meanOf
  split
  · simpa using hX
  · rename_i h0
    have hp : (0 : R) < (size N a i : R) := by exact_mod_cast Nat.pos_of_ne_zero h0
    rw [abs_div, abs_of_pos hp, div_le_iff₀ hp]
    refine (Finset.abs_sum_le_sum_abs _ _).trans ?_
    refine (Finset.sum_le_card_nsmul _ _ X fun r hr => ?_).trans ?_
    · exact h r (Finset.mem_range.1 (Finset.mem_filter.1 hr).1) j
    · rw [nsmul_eq_mul, mul_comm]
      rfl

/-- The hypothesis on the distances holds for numbers of size at most 1000, with the absolute difference and a largest
number of a million; so C45 applies to the run of the same four rows in which all numbers are finite. -/
theorem meansWithin_demo (xs : List ℚ) (kmax maxIters minSize : Nat) (h : ∀ x ∈ xs, |x| ≤ 1000) :
    MeansWithin (demo xs kmax maxIters minSize).nrow (demo xs kmax maxIters minSize).data
      (demo xs kmax maxIters minSize).dist (demo xs kmax maxIters minSize).big := by
  have hd : ∀ r, r < xs.length → ∀ j : Fin 1, |(demo xs kmax maxIters minSize).data r j| ≤ 1000 := by
    intro r hr j
    refine h _ ?_
    change xs.getD r 0 ∈ xs
    rw [List.getD_eq_getElem?_getD, List.getElem?_eq_getElem hr]
    exact List.getElem_mem hr
  intro r hr a i
  have h1 := hd r hr 0
  have h2 := abs_meanOf_le (by norm_num) hd a i 0
  rw [abs_le] at h1 h2
  change (if (demo xs kmax maxIters minSize).data r 0 ≤ meanOf xs.length (demo xs kmax maxIters minSize).data a i 0
    then meanOf xs.length (demo xs kmax maxIters minSize).data a i 0 - (demo xs kmax maxIters minSize).data r 0
    else (demo xs kmax maxIters minSize).data r 0 - meanOf xs.length (demo xs kmax maxIters minSize).data a i 0)
    < (1000000 : ℚ)
  split <;> linarith [h1.1, h1.2, h2.1, h2.2]

example : ∃ s, run (demo [0, 1, 10, 11] 2 3 2) (.forgy 0 2) (fun _ _ => [0, 0, 0, 0]) 3
    = .ok (some s) := by
  obtain ⟨s, e, _⟩ := C45_rows_conserved_partial (demo [0, 1, 10, 11] 2 3 2)
    ⟨by decide, by decide, by decide, by decide, by decide⟩ (by decide) (by decide)
    (meansWithin_demo _ _ _ _ (by
      intro x hx
      simp only [List.mem_cons, List.not_mem_nil, or_false] at hx
      rcases hx with rfl | rfl | rfl | rfl <;> norm_num [abs_le])) (.forgy 0 2) ⟨by decide, by decide⟩
    (fun _ _ => [0, 0, 0, 0])
    (by
      intro _ _ t ht
      have : t = 0 := by
        have h1 : Partition.effThreads (demo [0, 1, 10, 11] 2 3 2).reqThreads
          (demo [0, 1, 10, 11] 2 3 2).nrow = 1 := by decide
        omega
      subst this
      decide)
  exact ⟨s, e⟩

/-- What the witnesses look at. -/
structure Seen where
  assign : List Nat
  counts : List Int
  final : List (Nat × ℚ)
  deriving DecidableEq, Repr

/-- Run a witness that starts from rows `i` and `j`. -/
def look (xs : List ℚ) (kmax maxIters minSize i j fuel : Nat) : Res (Option Seen) :=
  match run (demo xs kmax maxIters minSize) (.forgy i j) (fun _ _ => List.replicate xs.length 0) fuel with
  | .error e => .error e
  | .ok none => .ok none
  | .ok (some s) => .ok (some ⟨(List.range xs.length).map s.assign, s.counts,
      ((List.range 16).filter fun i => (s.final i).isSome).map fun i =>
        (i, ((s.final i).getD fun _ => 0) 0)⟩)

example : look [0, 1, 10, 11, 20, 21, 30, 31] 2 3 2 0 4 10 = .ok (some
    { assign := [3, 3, 4, 4, 5, 5, 6, 6], counts := [0, 0, 0, 2, 2, 2, 2]
      final := [(3, 1 / 2), (4, 21 / 2), (5, 41 / 2), (6, 61 / 2)] }) := by decide +kernel

/-- Run a witness up to the result object. -/
def lookResult (xs : List ℚ) (kmax maxIters minSize i j fuel : Nat) (ids : List Nat) :
    Res (Option Compact.Seen) :=
  match run (demo xs kmax maxIters minSize) (.forgy i j) (fun _ _ => List.replicate xs.length 0) fuel with
  | .error e => .error e
  | .ok none => .ok none
  | .ok (some s) =>
    match result (demo xs kmax maxIters minSize) ids s with
    | .error e => .error e
    | .ok r => .ok (some ⟨r.assignments, r.counts, (List.range r.k).map fun c => r.centroids c 0, r.k⟩)

/-- **C45 is violated** for `max_iters = 0`: all rows are reported in cluster 0, but no size is
reported at all, so the sizes add up to 0 instead of 4. -/
theorem C45_violated : ¬ ∀ (c : Cfg ℚ ℚ 1) (it : HInit ℚ 1) (sched : Nat → Nat → List Nat) (fuel : Nat)
    (s : St ℚ 1) (ids : List Nat) (res : Result ℚ 1), Sane c → 2 ≤ c.minSize →
    run c it sched fuel = .ok (some s) → result c ids s = .ok res → res.counts.sum = c.nrow := by
  intro h
  have hw : lookResult [0, 1, 10, 11] 2 0 2 0 2 10 [1, 2] = .ok (some ⟨[0, 0, 0, 0], [], [10, 0], 2⟩) := by
    decide +kernel
  unfold lookResult at hw
  cases hr : run (demo [0, 1, 10, 11] 2 0 2) (.forgy 0 2)
    (fun _ _ => List.replicate [0, 1, 10, 11].length 0) 10 with
  | error e => simp only [List.length_cons, List.length_nil] at hw hr; rw [hr] at hw; cases hw
  | ok o =>
    cases o with
    | none => simp only [List.length_cons, List.length_nil] at hw hr; rw [hr] at hw; cases hw
    | some s =>
      simp only [List.length_cons, List.length_nil] at hw hr
      rw [hr] at hw
      simp only at hw
      cases hres : result (demo [0, 1, 10, 11] 2 0 2) [1, 2] s with
      | error e => rw [hres] at hw; cases hw
      | ok res =>
        rw [hres] at hw
        simp only [Except.ok.injEq, Option.some.injEq, Seen.mk.injEq, Compact.Seen.mk.injEq] at hw
        have := h (demo [0, 1, 10, 11] 2 0 2) _ _ _ s [1, 2] res
          ⟨by decide, by decide, by decide, by decide, by decide⟩ (by decide) hr hres
        rw [hw.2.1] at this
        exact absurd this (by decide)

/-! ## C56 -/

/-- **C56, partial.**  Hierarchical clustering ends after at most 1.5 `kmax` rounds, without failing
an assertion and without touching memory outside its vectors, and the ids of the clusters stay below
the capacity that the constructor computes.
Missing: `min_clust_size < 2` (see `C56_violated`) and `max_iters = 0`. -/
theorem C56_terminates_safely_partial [Field R] [LinearOrder R] [LinearOrder D] (c : Cfg R D n)
    (hs : Sane c) (hmin : 2 ≤ c.minSize) (hmi : 1 ≤ c.maxIters)
    (hbig : MeansWithin c.nrow c.data c.dist c.big)
    (it : HInit R n) (hit : Startable c it) (sched : Nat → Nat → List Nat)
    (hc : ∀ t i, Complete (Partition.effThreads c.reqThreads c.nrow)
      (Kmeans.threadRows c.nrow c.reqThreads) (sched t i)) (fuel : Nat)
    (hf : c.kmax + c.kmax / 2 ≤ fuel) :
    ∃ s, run c it sched fuel = .ok (some s) ∧ (∀ r, r < c.nrow → s.assign r < c.maxNodes) ∧
      ∀ i, (s.final i).isSome → i < c.maxNodes := by
  obtain ⟨s, e, h⟩ := run_ok hbig hs.rows hs.threads hs.rowsLt hs.two hs.kLt hmin hmi hit hc hf
  exact ⟨s, e, h.inRange, h.idLt⟩

/-- The capacity for `kmax = 2` is 7, and all seven ids are used. -/
example : (demo [0, 1, 10, 11] 2 3 2).maxNodes = 7 ∧
    look [0, 1, 10, 11] 2 3 2 0 2 3 = .ok (some ⟨[3, 4, 5, 6], [0, 0, 0, 1, 1, 1, 1],
      [(3, 0), (4, 1), (5, 10), (6, 11)]⟩) := by
  decide +kernel

/-- **C56 is violated** for `min_clust_size = 1`, which the program accepts: a cluster of one row is
neither recorded nor split, and the next iteration dereferences a null pointer. -/
theorem C56_violated : ¬ ∀ (c : Cfg ℚ ℚ 1) (it : HInit ℚ 1) (sched : Nat → Nat → List Nat) (fuel : Nat),
    Sane c → 1 ≤ c.maxIters → it ≠ .other → run c it sched fuel ≠ .error .ub := by
  intro h
  have hw : look [0, 10, 11] 2 3 1 0 1 10 = .error .ub := by decide +kernel
  have := h (demo [0, 10, 11] 2 3 1) (.forgy 0 1) (fun _ _ => [0, 0, 0]) 10
    ⟨by decide, by decide, by decide, by decide, by decide⟩ (by decide) (by intro h; cases h)
  apply this
  unfold look at hw
  change (match run (demo [0, 10, 11] 2 3 1) (.forgy 0 1) (fun _ _ => [0, 0, 0]) 10 with
    | .error e => Except.error e
    | .ok none => .ok none
    | .ok (some s) => _) = _ at hw
  cases hr : run (demo [0, 10, 11] 2 3 1) (.forgy 0 1) (fun _ _ => [0, 0, 0]) 10 with
  | error e => rw [hr] at hw; simpa using hw
  | ok o => rw [hr] at hw; cases o <;> cases hw

/-! ## C57 -/

/-- **C57 is violated**: with `kmax = 2` four clusters are reported. -/
theorem C57_violated : ¬ ∀ (c : Cfg ℚ ℚ 1) (it : HInit ℚ 1) (sched : Nat → Nat → List Nat) (fuel : Nat)
    (s : St ℚ 1) (ids : List Nat) (res : Result ℚ 1), Sane c → 2 ≤ c.minSize → 1 ≤ c.maxIters →
    run c it sched fuel = .ok (some s) → result c ids s = .ok res → res.counts.length ≤ c.kmax := by
  intro h
  have hw : lookResult [0, 1, 10, 11] 2 3 2 0 2 10 [3, 4, 5, 6]
      = .ok (some ⟨[0, 1, 2, 3], [1, 1, 1, 1], [0, 1, 10, 11], 4⟩) := by decide +kernel
  unfold lookResult at hw
  simp only [List.length_cons, List.length_nil] at hw
  cases hr : run (demo [0, 1, 10, 11] 2 3 2) (.forgy 0 2) (fun _ _ => List.replicate (0 + 1 + 1 + 1 + 1) 0) 10 with
  | error e => rw [hr] at hw; cases hw
  | ok o =>
    cases o with
    | none => rw [hr] at hw; cases hw
    | some s =>
      rw [hr] at hw
      simp only at hw
      cases hres : result (demo [0, 1, 10, 11] 2 3 2) [3, 4, 5, 6] s with
      | error e => rw [hres] at hw; cases hw
      | ok res =>
        rw [hres] at hw
        simp only [Except.ok.injEq, Option.some.injEq, Compact.Seen.mk.injEq] at hw
        have := h (demo [0, 1, 10, 11] 2 3 2) _ _ _ s [3, 4, 5, 6] res
          ⟨by decide, by decide, by decide, by decide, by decide⟩ (by decide) (by decide) hr hres
        rw [hw.2.1] at this
        exact absurd this (by decide)

/-- **C57, partial.**  At most `kmax + kmax / 2 + 1` clusters are reported, counting those without
rows.  Missing: the promised bound `kmax` (see `C57_violated`). -/
theorem C57_cluster_bound_partial [Field R] [LinearOrder R] [LinearOrder D] (c : Cfg R D n)
    (hs : Sane c) (hmin : 2 ≤ c.minSize) (hmi : 1 ≤ c.maxIters)
    (hbig : MeansWithin c.nrow c.data c.dist c.big)
    (it : HInit R n) (hit : Startable c it) (sched : Nat → Nat → List Nat)
    (hc : ∀ t i, Complete (Partition.effThreads c.reqThreads c.nrow)
      (Kmeans.threadRows c.nrow c.reqThreads) (sched t i)) :
    ∃ s, run c it sched (c.kmax + c.kmax / 2) = .ok (some s) ∧
      ∀ ids : List Nat, ids.Nodup → (∀ i, i ∈ ids ↔ (s.final i).isSome) →
        ∃ res, result c ids s = .ok res ∧ res.k ≤ c.kmax + c.kmax / 2 + 1 := by
  obtain ⟨s, e, h⟩ := run_ok hbig hs.rows hs.threads hs.rowsLt hs.two hs.kLt hmin hmi hit hc
    (Nat.le_refl _)
  have hz := sizes (c := c) hs.two hs.kLt
  have hM : c.maxNodes ≤ 4294967296 := by
    have := hs.kLt
    omega
  refine ⟨s, e, ?_⟩
  intro ids hnd hids
  obtain ⟨res, e2, hk⟩ := result_total h hs.rows hM hids
  refine ⟨res, e2, ?_⟩
  have := h.few ids hnd fun i hi => (hids i).1 hi
  simp only [Mode.bound, reduceCtorEq, if_false] at this
  omega

/-- The bound is reached for `kmax = 2`. -/
example : 2 + 2 / 2 + 1 = [(3, 0), (4, 1), (5, 10), (6, 11)].length := rfl

/-! ## C58 -/

theorem Finished.centroids [Field R] {c : Cfg R D n} {s : St R n} (h : Finished .h c s) (hs : Sane c)
    (hne : ∀ i, (s.final i).isSome → ∃ r, r < c.nrow ∧ s.assign r = i) {ids : List Nat} (hnd : ids.Nodup)
    (hids : ∀ i, i ∈ ids ↔ (s.final i).isSome) :
    ∃ res, result c ids s = .ok res ∧ res.k = res.counts.length ∧
      ∀ x, x < res.k → res.centroids x = meanOf c.nrow c.data (fun r => res.assignments.getD r 0) x := by
  have hz := sizes (c := c) hs.two hs.kLt
  have hM : c.maxNodes ≤ 4294967296 := by
    have := hs.kLt
    omega
  have hmap : (ids.map fun i => (i, (s.final i).getD fun _ => (0 : R))).map Prod.fst = ids := by
    rw [List.map_map]
    conv => rhs; rw [← List.map_id ids]
    rfl
  obtain ⟨res, e2, hk, hcent⟩ := C44_centroids_match_partial ((List.range c.nrow).map s.assign) s.counts
    (ids.map fun i => (i, (s.final i).getD fun _ => (0 : R))) h.hist (by rw [h.lenC]; exact hM)
    (by rw [hmap]; exact hnd)
    (by
      rw [hmap]
      intro a ha
      obtain ⟨r, hr, rfl⟩ := List.mem_map.1 ha
      exact (hids _).2 (h.named r (List.mem_range.1 hr)))
    (by
      intro x hx
      obtain ⟨i, hi, rfl⟩ := List.mem_map.1 hx
      obtain ⟨r, hr, e⟩ := hne i ((hids i).1 hi)
      exact List.mem_map.2 ⟨r, List.mem_range.2 hr, e⟩)
  obtain ⟨a1, a2, a3, a4, a5⟩ := C43_compaction_bijective _ _ _ h.hist (by rw [h.lenC]; exact hM) res e2
  refine ⟨res, e2, hk, ?_⟩
  intro x hx
  obtain ⟨r, hr⟩ := List.mem_iff_getElem?.1 (a4 x (by omega))
  have hlen : res.assignments.length = c.nrow := by rw [a1]; simp
  have hrN : r < c.nrow := by
    by_contra hcon
    rw [List.getElem?_eq_none (by omega)] at hr
    cases hr
  have hass : ∀ q, q < c.nrow → ((List.range c.nrow).map s.assign)[q]? = some (s.assign q) := by
    intro q hq
    rw [List.getElem?_map, List.getElem?_range hq]
    rfl
  obtain ⟨v, hv⟩ := Option.isSome_iff_exists.1 (h.named r hrN)
  have h1 := hcent r (s.assign r) x v (hass r hrN) hr (by
    refine List.mem_map.2 ⟨s.assign r, (hids _).2 (by rw [hv]; rfl), ?_⟩
    rw [hv]; rfl)
  rw [h1, h.means rfl _ v hv]
  have hiff : ∀ q, q < c.nrow → (s.assign q = s.assign r ↔ res.assignments.getD q 0 = x) := by
    intro q hq
    have h2 := a2 q r (by simpa using hq) (by simpa using hrN)
    rw [hass q hq, hass r hrN, hr] at h2
    rw [List.getD_eq_getElem?_getD]
    have hq' : q < res.assignments.length := by omega
    rw [List.getElem?_eq_getElem hq'] at h2 ⊢
    simp only [Option.some.injEq, Option.getD_some] at h2 ⊢
    exact h2.symm
  have hsz : size c.nrow s.assign (s.assign r)
      = size c.nrow (fun r => res.assignments.getD r 0) x := by
    unfold size
    congr 1
    apply Finset.filter_congr
    intro q hq
    exact hiff q (Finset.mem_range.1 hq)
  funext j
  unfold meanOf
  rw [hsz]
  congr 2
  apply Finset.sum_congr _ fun _ _ => rfl
  apply Finset.filter_congr
  intro q hq
  exact hiff q (Finset.mem_range.1 hq)

/-- **C58, partial.**  If no recorded cluster is without rows, then in the result object the centroid
of every cluster is the arithmetic mean of the rows assigned to it.
Missing: runs that record a cluster without rows (see `C58_violated`). -/
theorem C58_centroids_are_means_partial [Field R] [LinearOrder R] [LinearOrder D] (c : Cfg R D n)
    (hs : Sane c) (hmin : 2 ≤ c.minSize) (hmi : 1 ≤ c.maxIters)
    (hbig : MeansWithin c.nrow c.data c.dist c.big)
    (it : HInit R n) (hit : Startable c it) (sched : Nat → Nat → List Nat)
    (hc : ∀ t i, Complete (Partition.effThreads c.reqThreads c.nrow)
      (Kmeans.threadRows c.nrow c.reqThreads) (sched t i)) :
    ∃ s, run c it sched (c.kmax + c.kmax / 2) = .ok (some s) ∧
      ((∀ i, (s.final i).isSome → ∃ r, r < c.nrow ∧ s.assign r = i) →
      ∀ ids : List Nat, ids.Nodup → (∀ i, i ∈ ids ↔ (s.final i).isSome) →
        ∃ res, result c ids s = .ok res ∧ res.k = res.counts.length ∧
          ∀ x, x < res.k → res.centroids x = meanOf c.nrow c.data (fun r => res.assignments.getD r 0) x) := by
  obtain ⟨s, e, h⟩ := run_ok hbig hs.rows hs.threads hs.rowsLt hs.two hs.kLt hmin hmi hit hc
    (Nat.le_refl _)
  exact ⟨s, e, fun hne ids hnd hids => h.centroids hs hne hnd hids⟩

/-- A run in which every recorded cluster has rows. -/
example : lookResult [0, 1, 10, 11, 20, 21, 30, 31] 2 3 2 0 4 3 [4, 3, 6, 5]
    = .ok (some ⟨[0, 0, 1, 1, 2, 2, 3, 3], [2, 2, 2, 2], [1/2, 21/2, 41/2, 61/2], 4⟩) := by
  decide +kernel

/-- **C58 is violated** when a split leaves one side without rows, as it does on equal rows: the
only cluster, four rows at 5, is reported with centroid 0.  Programs compiled without the macro
`BIND` fail the assertion of `verify_consistency` instead. -/
theorem C58_violated :
    (∃ (c : Cfg ℚ ℚ 1) (it : HInit ℚ 1) (sched : Nat → Nat → List Nat) (fuel : Nat) (s : St ℚ 1)
      (ids : List Nat) (res : Result ℚ 1), Sane c ∧ 2 ≤ c.minSize ∧ 1 ≤ c.maxIters ∧
      (∀ r, r < 4 → c.data r 0 = 5) ∧ run c it sched fuel = .ok (some s) ∧ result c ids s = .ok res ∧
      res.assignments = [0, 0, 0, 0] ∧ res.counts = [4] ∧ res.centroids 0 0 = 0 ∧
      (verify c ids s).toOption.isNone) := by
  have hw : (match run (demo [5, 5, 5, 5] 2 1 2) (.forgy 0 1) (fun _ _ => [0, 0, 0, 0]) 3 with
    | .ok (some s) =>
      match result (demo [5, 5, 5, 5] 2 1 2) [2, 3, 4] s with
      | .ok r => decide (r.assignments = [0, 0, 0, 0] ∧ r.counts = [4] ∧ r.centroids 0 0 = 0 ∧
          ((List.range 16).filter fun i => (s.final i).isSome) = [2, 3, 4] ∧
          ((verify (demo [5, 5, 5, 5] 2 1 2) [2, 3, 4] s).toOption.isNone) = true)
      | _ => false
    | _ => false) = true := by decide +kernel
  cases hr : run (demo [5, 5, 5, 5] 2 1 2) (.forgy 0 1) (fun _ _ => [0, 0, 0, 0]) 3 with
  | error e => rw [hr] at hw; cases hw
  | ok o =>
    cases o with
    | none => rw [hr] at hw; cases hw
    | some s =>
      rw [hr] at hw
      simp only at hw
      cases hres : result (demo [5, 5, 5, 5] 2 1 2) [2, 3, 4] s with
      | error e => rw [hres] at hw; cases hw
      | ok res =>
        rw [hres] at hw
        simp only [decide_eq_true_eq] at hw
        refine ⟨demo [5, 5, 5, 5] 2 1 2, _, _, _, s, [2, 3, 4], res,
          ⟨by decide, by decide, by decide, by decide, by decide⟩, by decide, by decide, ?_, hr, hres,
          hw.1, hw.2.1, hw.2.2.1, hw.2.2.2.2⟩
        intro r hr
        have : r = 0 ∨ r = 1 ∨ r = 2 ∨ r = 3 := by omega
        rcases this with rfl | rfl | rfl | rfl <;> rfl

/-! ## C59 -/

/-- The states between the steps of a run: after the start, after an iteration, and after splitting;
`true` marks that an iteration has been done since the last split.  This includes all states of runs
with `max_iters ≥ 1`. -/
inductive Reached [Field R] [LE R] [DecidableLE R] [LT D] [DecidableLT D] (c : Cfg R D n)
    (it : HInit R n) : Bool → St R n → Prop
  | start {s0 s} : construct c Clusters.empty = .ok s0 → runHinit c it s0 = .ok s → Reached c it false s
  | iter {b s s' sched} : Reached c it b s → Complete (Partition.effThreads c.reqThreads c.nrow)
      (Kmeans.threadRows c.nrow c.reqThreads) sched → iteration c sched s = .ok s' →
      Reached c it true s'
  | split {s s'} : Reached c it true s → c.atCap s = false → initSplits c s = .ok s' → s'.keys ≠ [] →
      Reached c it false s'

theorem Reached.inv [Field R] [LinearOrder R] [LinearOrder D] {c : Cfg R D n} {it : HInit R n}
    (hs : Sane c) (hmin : 2 ≤ c.minSize)
    (hbig : MeansWithin c.nrow c.data c.dist c.big) (hit : Startable c it) {b : Bool} {s : St R n}
    (h : Reached c it b s) :
    ∃ t d live, Bd .h c (hclustFloor c.kmax) c.maxNodes t d live s ∧
      (b = true → Settled c.nrow c.maxNodes c.data s) := by
  have hz := sizes (c := c) hs.two hs.kLt
  induction h with
  | @start s0 s e0 e1 =>
    obtain ⟨s0', m0, m1, f0, f1, hsm⟩ := init_ok (c := c) hs.two hs.kLt hbig hit
    rw [f0] at e0; cases e0
    rw [f1] at e1; cases e1
    exact ⟨0, 0, _, started_bd .h hs.rows hs.two hs.kLt m0 m1 hsm, by simp⟩
  | @iter b s s' sched _ hc e ih =>
    obtain ⟨t, d, live, hb, _⟩ := ih
    obtain ⟨s2, e2, h2⟩ := iteration_ok hb.wf hb.ready hs.rows hs.threads hs.rowsLt hc
    rw [e2] at e; cases e
    have hk := shape_keys h2.hsize h2.shape
    refine ⟨t, d, live, ⟨h2.wf hb.wf, by rw [hk]; exact hb.start, h2.settled.ready hbig, fun hm => h2.fin hb.wf (hb.fin hm),
      by rw [h2.ncl]; exact hb.ncl, by rw [hk]; exact hb.q, ?_⟩, fun _ => h2.settled⟩
    intro p nd hp
    rw [h2.part]
    obtain ⟨nd', hp', _⟩ := shape_open h2.shape hp
    exact hb.pop p nd' hp'
  | @split s s' _ hcap e hne ih =>
    obtain ⟨t, d, live, hb, hst⟩ := ih
    obtain ⟨s2, e2, _, _, live2, d2, _, _, _, _, _, hb2⟩ := initSplits_ok hb.wf hb.start hbig (hst rfl) hb.fin hb.ncl
      hb.q hz.1 hmin (by intro hm; cases hm) (by
        unfold Cfg.atCap at hcap
        simp only [decide_eq_false_iff_not] at hcap
        omega)
    rw [e2] at e; cases e
    exact ⟨t + 1, d2, live2, hb2 hne, by simp⟩

/-- **C59.** In every iteration of every run, whatever the schedule: a row of a recorded cluster or
of a partition that has converged stays where it is; every other row goes to the side of its
partition whose centroid is nearer, the first one on a tie; and afterwards each size is the number
of rows of the cluster and each centroid that takes part is the mean of its rows. -/
theorem C59_rows_go_to_nearer_side [Field R] [LinearOrder R] [LinearOrder D] (c : Cfg R D n)
    (it : HInit R n) (hs : Sane c) (hmin : 2 ≤ c.minSize)
    (hbig : MeansWithin c.nrow c.data c.dist c.big) (hit : Startable c it) (b : Bool) (s : St R n)
    (h : Reached c it b s) (sched : List Nat)
    (hc : Complete (Partition.effThreads c.reqThreads c.nrow)
      (Kmeans.threadRows c.nrow c.reqThreads) sched) :
    ∃ s', iteration c sched s = .ok s' ∧
      (∀ r, r < c.nrow → (s.final (s.assign r)).isSome → s'.assign r = s.assign r) ∧
      (∀ r, r < c.nrow → s.final (s.assign r) = none → ∃ nd, s.hc (s.part r) = some nd ∧
        (nd.conv = true → s'.assign r = s.assign r) ∧
        (nd.conv = false →
          (s'.assign r = nd.zero ∧ c.dist (c.data r) (nd.cl.means 0) ≤ c.dist (c.data r) (nd.cl.means 1)) ∨
          (s'.assign r = nd.one ∧ c.dist (c.data r) (nd.cl.means 1) < c.dist (c.data r) (nd.cl.means 0)))) ∧
      (∀ i, i < c.maxNodes → s'.counts[i]? = some (size c.nrow s'.assign i : Int)) ∧
      ∀ p nd, s'.hc p = some nd → nd.cl.means 0 = meanOf c.nrow c.data s'.assign nd.zero ∧
        nd.cl.means 1 = meanOf c.nrow c.data s'.assign nd.one := by
  obtain ⟨t, d, live, hb, _⟩ := h.inv hs hmin hbig hit
  obtain ⟨s', e, h'⟩ := iteration_ok hb.wf hb.ready hs.rows hs.threads hs.rowsLt hc
  refine ⟨s', e, h'.stay, ?_, h'.settled.counts,
    fun p nd hp => ⟨(h'.settled.nodes p nd 0 hp).2, (h'.settled.nodes p nd 1 hp).2⟩⟩
  intro r hr hf
  rcases hb.ready.rows r hr with h1 | ⟨nd, h1, _⟩
  · rw [hf] at h1; cases h1.1
  refine ⟨nd, h1, h'.conv r nd hr hf h1, ?_⟩
  intro hcv
  obtain ⟨i, h2, h3⟩ := h'.move r nd hr hf h1 hcv
  have h01 : ∀ i : Fin 2, i = 0 ∨ i = 1 := by decide
  rcases h01 i with rfl | rfl
  · left; exact ⟨h2, h3.1 1⟩
  · right
    refine ⟨h2, ?_⟩
    by_contra hcon
    rw [not_lt] at hcon
    have : (1 : Fin 2) ≤ 0 := h3.2 0 fun j => by
      rcases h01 j with rfl | rfl
      · exact le_refl _
      · exact hcon
    exact absurd this (by decide)

/-- **C59, convergence.**  After an iteration a partition counts as converged iff it was converged
before, or none of its rows changed cluster in the iteration, or the rows that did are at most the
tolerated fraction of the rows on its two sides. -/
theorem C59_convergence_test [Field R] [LinearOrder R] [LinearOrder D] (c : Cfg R D n)
    (it : HInit R n) (hs : Sane c) (hmin : 2 ≤ c.minSize)
    (hbig : MeansWithin c.nrow c.data c.dist c.big) (hit : Startable c it) (b : Bool) (s : St R n)
    (h : Reached c it b s) (sched : List Nat)
    (hc : Complete (Partition.effThreads c.reqThreads c.nrow)
      (Kmeans.threadRows c.nrow c.reqThreads) sched) :
    ∃ s', iteration c sched s = .ok s' ∧ ∀ p nd, s.hc p = some nd →
      ∃ nd', s'.hc p = some nd' ∧ nd'.zero = nd.zero ∧ nd'.one = nd.one ∧
        let changed := ((Finset.range c.nrow).filter fun r =>
          s.part r = p ∧ s'.assign r ≠ s.assign r).card
        (nd'.conv = true ↔ nd.conv = true ∨ changed = 0 ∨ (changed : R) /
          ((size c.nrow s'.assign nd.zero + size c.nrow s'.assign nd.one : Nat) : R) ≤ c.tol) := by
  obtain ⟨t, d, live, hb, _⟩ := h.inv hs hmin hbig hit
  obtain ⟨s', e, h'⟩ := iteration_ok hb.wf hb.ready hs.rows hs.threads hs.rowsLt hc
  refine ⟨s', e, fun p nd hp => ?_⟩
  obtain ⟨nd', h1, h2⟩ := shape_open (fun p => (h'.shape p).symm) hp
  exact ⟨nd', h1, (h2 0).symm, (h2 1).symm, h'.test p nd nd' hp h1⟩

/-- The state after one iteration of the witness: rows 0 and 1 are in cluster 1, the others in 2. -/
example : (match construct (demo [0, 1, 10, 11] 2 3 2) Clusters.empty with
    | .ok s0 =>
      match runHinit (demo [0, 1, 10, 11] 2 3 2) (.forgy 0 2) s0 with
      | .ok s =>
        match iteration (demo [0, 1, 10, 11] 2 3 2) [0, 0, 0, 0] s with
        | .ok s' => decide ((List.range 4).map s'.assign = [1, 1, 2, 2] ∧ s'.counts = [0, 2, 2, 0, 0, 0, 0] ∧
            s'.keys = [0])
        | _ => false
      | _ => false
    | _ => false) = true := by decide +kernel

end Knor.Hclust
