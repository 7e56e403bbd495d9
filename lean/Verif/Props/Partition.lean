import Verif.Lemmas.Partition

/-!
# Properties C01–C05: who owns which row
-/

namespace Knor.Partition

open Knor Knor.Spec

/-- **C01.** For every data set of fewer than `2^32` rows and every requested thread
count, the blocks handed to the threads are non-empty and, in thread order, are exactly
the rows `0 … nrow-1` (consecutive, disjoint, covering). -/
theorem C01_thread_blocks_partition (nrow reqThreads : Nat) (hn : 0 < nrow)
    (ht : 0 < reqThreads) (hlt : nrow < 4294967296) :
    PartitionsRange 0 nrow (blocks nrow reqThreads) :=
  blocks_partition hn ht hlt

/-- The hypotheses are met by a case with a remainder: 10 rows over 4 threads. -/
example : blocks 10 4 = [(0, 2), (2, 2), (4, 2), (6, 4)] ∧ 0 < 10 ∧ 0 < 4 ∧ 10 < 4294967296 := by
  decide

/-- More threads than rows: one row each. -/
example : blocks 3 100 = [(0, 1), (1, 1), (2, 1)] := by decide

/-- C01 limit: with `2^32` rows (accepted by the `size_t` API) on one thread the truncation
to `unsigned` leaves the single thread an empty block, so no row is processed. -/
theorem C01_limit_2pow32_rows_lost :
    blocks 4294967296 1 = [(0, 0)] ∧ ¬ PartitionsRange 0 4294967296 (blocks 4294967296 1) := by
  have h : blocks 4294967296 1 = [(0, 0)] := by decide
  refine ⟨h, ?_⟩
  rw [h]
  intro hp
  exact absurd (hp.1 (0, 0) (by simp)) (by simp)

/-- **C02.** Looking a row up by its global id returns exactly that row of the data set,
from a buffer position inside the owning thread's block. -/
theorem C02_row_lookup {α : Type _} (data : Nat → α) (nrow reqThreads row : Nat)
    (ht : 0 < reqThreads) (hrow : row < nrow) (hlt : nrow < 4294967296) :
    let p := getThdData nrow reqThreads row
    (∃ b, (blocks nrow reqThreads)[p.1]? = some b ∧ p.2 < b.2) ∧
      localData data nrow reqThreads p.1 p.2 = data row := by
  have h := getThdData_spec ht hrow hlt
  simp only at h ⊢
  obtain ⟨h1, h2, h3⟩ := h
  refine ⟨⟨ridLen nrow (effThreads reqThreads nrow) (getThdData nrow reqThreads row).1, ?_, h2⟩, ?_⟩
  · unfold blocks
    rw [List.getElem?_map, List.getElem?_range h1]
    rfl
  · unfold localData
    rw [h3]

/-- Row 7 of 10 rows over 4 threads lives in thread 3 at local position 1. -/
example : getThdData 10 4 7 = (3, 1) ∧ getThdData 10 4 5 = (2, 1) ∧ 0 < 4 ∧ 7 < 10 := by decide

/-- The sequence searched by the lookup is sorted, as `std::upper_bound` requires. -/
theorem C02_search_precondition (nrow reqThreads : Nat) (hn : 0 < nrow)
    (ht : 0 < reqThreads) (hlt : nrow < 4294967296) :
    (thdMaxRowIdx nrow reqThreads).Pairwise (· ≤ ·) :=
  thdMax_sorted hn ht hlt

example : thdMaxRowIdx 10 4 = [2, 4, 6, 10] := by decide

/-- **C03.** From any state of a queue over `nrow` rows starting at `start`, resetting it and
taking tasks until none is left succeeds (no assertion fires) within `nrow` requests; the
tasks are non-empty, of at most 8193 rows, and are exactly the rows of the block in order. -/
theorem C03_task_queue_exactly_once (q : TaskQueue) (fuel : Nat) (hn : 0 < q.nrow)
    (hw : q.nrow + 8192 < 4294967296) (hs : q.start + q.nrow < 4294967296)
    (hf : q.nrow ≤ fuel) :
    ∃ ts q', q.reset.drain fuel = .ok (ts, q') ∧ q'.hasTask = false ∧
      PartitionsRange q.start q.nrow (ts.map fun t => (t.start, t.nrow)) ∧
      ∀ t ∈ ts, t.nrow ≤ 8193 := by
  obtain ⟨ts, h1, h2, h3⟩ := drain_spec fuel q.reset (by simpa [TaskQueue.reset] using hw)
    (by simpa [TaskQueue.reset] using hs) (by simpa [TaskQueue.reset] using hn)
    (by simp [TaskQueue.reset, hn]) (by simpa [TaskQueue.reset] using hf)
  refine ⟨ts, _, h1, rfl, ?_, h3⟩
  have h2' : PartitionsRange q.start q.nrow (ts.map taskPair) := by
    simpa [TaskQueue.reset] using h2
  exact h2'

/-- 8194 rows give two tasks, 8193 rows one. -/
example :
    (TaskQueue.mk 5 8194 77 false).reset.drain 9000
      = .ok ([⟨5, 8192⟩, ⟨8197, 2⟩], ⟨5, 8194, 8193, false⟩) ∧
    (TaskQueue.mk 5 8193 77 false).reset.drain 9000
      = .ok ([⟨5, 8193⟩], ⟨5, 8193, 8192, false⟩) := by decide +kernel

/-- C03 limit: a block of `2^32-1` rows makes the `unsigned` split test wrap, and the queue
hands out a task that reaches beyond the block. -/
theorem C03_limit_wraparound_out_of_block :
    ∃ ts q', (TaskQueue.mk 0 4294967295 0 true).reset.drain 524288 = .ok (ts, q') ∧
      ∃ t ∈ ts, 4294967295 < t.start + t.nrow := by
  obtain ⟨ts, q', h1, h2⟩ := wrap_step 524287 0 (by omega)
  refine ⟨ts, q', ?_, _, h2, by simp⟩
  simpa [TaskQueue.reset] using h1

/-- **C04 (ownership).** Every global row is local to exactly one process. -/
theorem C04_unique_owner (gNrow nprocs row : Nat) (hg : gNrow < 18446744073709551616)
    (hp : 0 < nprocs) (hrow : row < gNrow) :
    ∃ rank, rank < nprocs ∧ isLocal gNrow nprocs rank row = true ∧
      ∀ r', r' < nprocs → isLocal gNrow nprocs r' row = true → r' = rank := by
  have hdm := Nat.div_add_mod gNrow nprocs
  have hex : ∃ rank, rank < nprocs ∧ isLocal gNrow nprocs rank row = true := by
    have hb := proc_blocks gNrow nprocs hp
    have hmem : row ∈ rowsOf ((List.range nprocs).map fun rank =>
        (rank * (gNrow / nprocs), procNrow gNrow nprocs rank)) := by
      rw [hb]; simp; omega
    unfold rowsOf at hmem
    rw [List.mem_flatMap] at hmem
    obtain ⟨b, hb1, hb2⟩ := hmem
    rw [List.mem_map] at hb1
    obtain ⟨rank, hr, rfl⟩ := hb1
    rw [List.mem_range] at hr
    refine ⟨rank, hr, (isLocal_iff hg hr hrow).2 ?_⟩
    simp at hb2
    omega
  obtain ⟨rank, hr, hl⟩ := hex
  refine ⟨rank, hr, hl, ?_⟩
  intro r' hr' hl'
  rw [isLocal_iff hg hr hrow] at hl
  rw [isLocal_iff hg hr' hrow] at hl'
  have key : ∀ a b : Nat, a < b → b < nprocs →
      a * (gNrow / nprocs) + procNrow gNrow nprocs a ≤ b * (gNrow / nprocs) := by
    intro a b hab hbn
    have h2 : (a + 1) * (gNrow / nprocs) ≤ b * (gNrow / nprocs) :=
      Nat.mul_le_mul_right _ (by omega)
    rw [Nat.succ_mul] at h2
    unfold procNrow
    rw [if_neg (by omega)]
    exact h2
  rcases Nat.lt_trichotomy r' rank with h | h | h
  · have := key _ _ h hr; omega
  · exact h
  · have := key _ _ h hr'; omega

/-- **C04 (inverse conversions).** On owned rows `local_rid` succeeds, stays below the local
row count and `global_rid` maps it back; conversely `local_rid` undoes `global_rid`. -/
theorem C04_conversions_inverse (gNrow nprocs rank : Nat) (hg : gNrow < 18446744073709551616)
    (hr : rank < nprocs) :
    (∀ row, row < gNrow → isLocal gNrow nprocs rank row = true →
      ∃ l, localRid gNrow nprocs rank row = .ok l ∧ l < procNrow gNrow nprocs rank ∧
        globalRid gNrow nprocs rank l = row) ∧
    (∀ l, l < procNrow gNrow nprocs rank →
      isLocal gNrow nprocs rank (globalRid gNrow nprocs rank l) = true ∧
      globalRid gNrow nprocs rank l < gNrow ∧
      localRid gNrow nprocs rank (globalRid gNrow nprocs rank l) = .ok l) := by
  have hoff := offset_le (g := gNrow) hr
  have hcomm : gNrow / nprocs * rank = rank * (gNrow / nprocs) := Nat.mul_comm _ _
  constructor
  · intro row hrow hl
    rw [isLocal_iff hg hr hrow] at hl
    refine ⟨row - rank * (gNrow / nprocs), ?_, by omega, ?_⟩
    · unfold localRid
      simp only [sub64_of_le (by omega : row < 18446744073709551616) hl.1]
      rw [if_neg (by omega)]
    · unfold globalRid
      rw [hcomm, u64_of_lt (by omega : rank * (gNrow / nprocs) < 18446744073709551616),
        u64_of_lt (by omega)]
      omega
  · intro l hl
    have e : globalRid gNrow nprocs rank l = rank * (gNrow / nprocs) + l := by
      unfold globalRid
      rw [hcomm, u64_of_lt (by omega : rank * (gNrow / nprocs) < 18446744073709551616),
        u64_of_lt (by omega)]
    rw [e]
    refine ⟨(isLocal_iff hg hr (by omega)).2 (by omega), by omega, ?_⟩
    unfold localRid
    simp only [sub64_of_le (by omega : rank * (gNrow / nprocs) + l < 18446744073709551616)
      (by omega : rank * (gNrow / nprocs) ≤ _)]
    rw [if_neg (by omega)]
    congr 1; omega

/-- **C04 (coverage).** The processes' blocks, in rank order, are exactly the global rows. -/
theorem C04_process_blocks_cover (gNrow nprocs : Nat) (hp : 0 < nprocs) :
    rowsOf ((List.range nprocs).map fun rank =>
      (rank * (gNrow / nprocs), procNrow gNrow nprocs rank)) = List.range' 0 gNrow :=
  proc_blocks gNrow nprocs hp

/-- **C04 (gather).** The slices into which the root receives the processes' assignments are
the processes' blocks: nothing overlaps, nothing is missing and every slice is inside the
result vector. -/
theorem C04_gather_slices (gNrow nprocs : Nat) (hp : 0 < nprocs) :
    gatherSlices gNrow nprocs = (List.range nprocs).map fun rank =>
      (rank * (gNrow / nprocs), procNrow gNrow nprocs rank) := by
  obtain ⟨m, rfl⟩ : ∃ m, nprocs = m + 1 := ⟨nprocs - 1, by omega⟩
  unfold gatherSlices
  rw [List.range_succ_eq_map, List.map_cons, List.map_map]
  simp only [Nat.add_sub_cancel, Nat.zero_mul, List.cons.injEq, true_and]
  apply List.map_congr_left
  intro i hi
  rw [List.mem_range] at hi
  simp only [Function.comp, procNrow, Nat.add_sub_cancel, Nat.succ_eq_add_one]
  congr 1
  have hm : ¬ (0 = m) := by omega
  rw [if_neg hm]

/-- 11 rows over 3 processes: row 3 belongs to rank 1 only (the subtraction wraps on rank 2). -/
example : isLocal 11 3 1 3 = true ∧ isLocal 11 3 0 3 = false ∧ isLocal 11 3 2 3 = false ∧
    localRid 11 3 1 3 = .ok 0 ∧ globalRid 11 3 1 0 = 3 ∧
    gatherSlices 11 3 = [(0, 3), (3, 3), (6, 5)] := by decide

/-- The full statement of **C05**: converting a row the process does not own throws. -/
def C05_full (gNrow nprocs rank row : Nat) : Prop :=
  isLocal gNrow nprocs rank row = false → localRid gNrow nprocs rank row = .error .throws

/-- **C05 is false of the code**: the id one past the process's block is accepted (and yields
a local id equal to the number of local rows, i.e. out of range). -/
theorem C05_violation :
    ¬ C05_full 10 2 0 5 ∧ localRid 10 2 0 5 = .ok (procNrow 10 2 0) := by
  refine ⟨?_, by decide⟩
  intro h
  exact absurd (h (by decide)) (by decide)

/-- **C05, partial.** Every non-owned row other than the one directly after the block is
rejected.  Missing from the full property: that one row. -/
theorem C05_rejects_unowned_partial (gNrow nprocs rank row : Nat)
    (hg : gNrow < 18446744073709551616) (hr : rank < nprocs) (hrow : row < gNrow)
    (hne : row ≠ rank * (gNrow / nprocs) + procNrow gNrow nprocs rank) :
    C05_full gNrow nprocs rank row := by
  intro hl
  have hoff := offset_le (g := gNrow) hr
  have hl' : ¬ (rank * (gNrow / nprocs) ≤ row ∧
      row < rank * (gNrow / nprocs) + procNrow gNrow nprocs rank) := by
    intro h
    rw [(isLocal_iff hg hr hrow).2 h] at hl
    exact absurd hl (by simp)
  unfold localRid
  by_cases h : rank * (gNrow / nprocs) ≤ row
  · simp only [sub64_of_le (by omega : row < 18446744073709551616) h]
    rw [if_pos (by omega)]
  · simp only [sub64_of_lt (by omega : rank * (gNrow / nprocs) < 18446744073709551616)
      (by omega : row < rank * (gNrow / nprocs))]
    rw [if_pos (by omega)]

example : isLocal 10 2 1 4 = false ∧ localRid 10 2 1 4 = .error .throws ∧
    4 ≠ 1 * (10 / 2) + procNrow 10 2 1 := by decide

end Knor.Partition
