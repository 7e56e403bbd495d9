import Mathlib.Tactic.Ring
import Mathlib.Tactic.Linarith
import Mathlib.Data.List.Basic
import Verif.Model.Partition
import Verif.Spec.Partition

namespace Knor.Partition

open Knor Knor.Spec

theorem effThreads_pos {nt n : Nat} (h : 0 < nt) (hn : 0 < n) : 0 < effThreads nt n := by
  unfold effThreads; omega

theorem effThreads_le {nt n : Nat} : effThreads nt n ≤ n := by unfold effThreads; omega

theorem quot_pos {nt n : Nat} (h : 0 < nt) (hn : 0 < n) : 0 < n / effThreads nt n :=
  Nat.div_pos effThreads_le (effThreads_pos h hn)

/-- Truncation is harmless below `2^32` rows. -/
theorem ridLen_eq {n t i : Nat} (hn : n < 4294967296) (ht : 0 < t) (hi : i < t) :
    ridLen n t i = (i * (n / t), if i = t - 1 then n / t + n % t else n / t) := by
  have h1 : n / t ≤ n := Nat.div_le_self n t
  have hdm := Nat.div_add_mod n t
  have h2 : i * (n / t) ≤ t * (n / t) := Nat.mul_le_mul_right _ (by omega)
  have h3 : n / t + n % t ≤ n := by
    have : n / t ≤ t * (n / t) := Nat.le_mul_of_pos_left _ ht
    omega
  have e1 : u32 (n / t) = n / t := u32_of_lt (by omega)
  unfold ridLen
  rw [e1]
  simp only
  rw [u32_of_lt (by omega : i * (n / t) < 4294967296),
    u32_of_lt (by omega : n / t + n % t < 4294967296)]

theorem rowsOf_prefix (q : Nat) (m : Nat) :
    rowsOf ((List.range m).map fun i => (i * q, q)) = List.range' 0 (m * q) := by
  induction m with
  | zero => simp [rowsOf]
  | succ m ih =>
    rw [List.range_succ, List.map_append, rowsOf, List.flatMap_append]
    unfold rowsOf at ih
    rw [ih]
    simp only [List.map_cons, List.map_nil, List.flatMap_cons, List.flatMap_nil,
      List.append_nil]
    rw [Nat.succ_mul]
    have := List.range'_append (s := 0) (m := m * q) (n := q) (step := 1)
    simpa using this

theorem blocks_partition {n nt : Nat} (hn : 0 < n) (hnt : 0 < nt) (hlt : n < 4294967296) :
    PartitionsRange 0 n (blocks n nt) := by
  have ht := effThreads_pos hnt hn
  have hq := quot_pos hnt hn
  unfold blocks
  set t := effThreads nt n with htdef
  have hdm := Nat.div_add_mod n t
  constructor
  · intro b hb
    rw [List.mem_map] at hb
    obtain ⟨i, hi, rfl⟩ := hb
    rw [List.mem_range] at hi
    rw [ridLen_eq hlt ht hi]
    simp only
    split <;> omega
  · clear_value t
    obtain ⟨m, rfl⟩ : ∃ m, t = m + 1 := ⟨t - 1, by omega⟩
    rw [List.range_succ, List.map_append, rowsOf, List.flatMap_append]
    have e : (List.range m).map (ridLen n (m + 1))
        = (List.range m).map fun i => (i * (n / (m + 1)), n / (m + 1)) := by
      apply List.map_congr_left
      intro i hi
      rw [List.mem_range] at hi
      rw [ridLen_eq hlt ht (by omega)]
      simp only [Nat.add_sub_cancel]
      rw [if_neg (by omega)]
    rw [e]
    have hp := rowsOf_prefix (n / (m + 1)) m
    unfold rowsOf at hp
    rw [hp]
    simp only [List.map_cons, List.map_nil, List.flatMap_cons, List.flatMap_nil,
      List.append_nil]
    rw [ridLen_eq hlt ht (by omega)]
    simp only [Nat.add_sub_cancel, if_true]
    have h2 := List.range'_append (s := 0) (m := m * (n / (m + 1)))
      (n := n / (m + 1) + n % (m + 1)) (step := 1)
    simp only [Nat.one_mul, Nat.zero_add] at h2
    rw [h2]
    congr 1
    rw [Nat.succ_mul] at hdm
    omega

theorem thdMax_eq {n nt : Nat} (hn : 0 < n) (hnt : 0 < nt) (hlt : n < 4294967296) :
    thdMaxRowIdx n nt = (List.range (effThreads nt n)).map fun i =>
      if i = effThreads nt n - 1 then n else (i + 1) * (n / effThreads nt n) := by
  have ht := effThreads_pos hnt hn
  unfold thdMaxRowIdx
  set t := effThreads nt n
  apply List.map_congr_left
  intro i hi
  rw [List.mem_range] at hi
  have hdm := Nat.div_add_mod n t
  have h1 : n / t ≤ n := Nat.div_le_self n t
  rw [ridLen_eq hlt ht hi, u32_of_lt (by omega : n / t < 4294967296)]
  simp only
  have hle : (i + 1) * (n / t) ≤ t * (n / t) := Nat.mul_le_mul_right _ (by omega)
  rw [Nat.succ_mul] at hle
  split
  · rename_i h
    have h4 : i * (n / t) + (n / t) = t * (n / t) := by
      rw [← Nat.succ_mul]; congr 1; omega
    rw [u32_of_lt (by omega)]; omega
  · rw [u32_of_lt (by omega), Nat.succ_mul]

/-- The searched sequence is sorted, so the binary search of `std::upper_bound` is
well defined. -/
theorem thdMax_sorted {n nt : Nat} (hn : 0 < n) (hnt : 0 < nt) (hlt : n < 4294967296) :
    (thdMaxRowIdx n nt).Pairwise (· ≤ ·) := by
  rw [thdMax_eq hn hnt hlt, List.pairwise_map]
  have ht := effThreads_pos hnt hn
  set t := effThreads nt n
  have hdm := Nat.div_add_mod n t
  refine List.Pairwise.imp_of_mem ?_ List.pairwise_lt_range
  intro a b ha hb hab
  rw [List.mem_range] at ha hb
  rw [if_neg (by omega)]
  have h1 : (a + 1) * (n / t) ≤ t * (n / t) := Nat.mul_le_mul_right _ (by omega)
  split
  · omega
  · exact Nat.mul_le_mul_right _ (by omega)

theorem getThdData_spec {n nt r : Nat} (hnt : 0 < nt) (hr : r < n) (hlt : n < 4294967296) :
    let t := effThreads nt n
    let p := getThdData n nt r
    p.1 < t ∧ p.2 < (ridLen n t p.1).2 ∧ (ridLen n t p.1).1 + p.2 = r := by
  have hn : 0 < n := by omega
  have ht := effThreads_pos hnt hn
  have hq := quot_pos hnt hn
  simp only
  have hdm := Nat.div_add_mod n (effThreads nt n)
  have h1 : n / effThreads nt n ≤ n := Nat.div_le_self _ _
  unfold getThdData upperBound
  rw [thdMax_eq hn hnt hlt]
  simp only
  set t := effThreads nt n
  rw [u32_of_lt (by omega : n / t < 4294967296)]
  set f : Nat → Nat := fun i => if i = t - 1 then n else (i + 1) * (n / t) with hf
  set k := List.findIdx (fun e => decide (r < e)) (List.map f (List.range t)) with hk
  have hlen : (List.map f (List.range t)).length = t := by simp
  have hklt : k < t := by
    have : k < (List.map f (List.range t)).length := by
      rw [hk]
      apply List.findIdx_lt_length_of_exists
      refine ⟨f (t - 1), List.mem_map.2 ⟨t - 1, by rw [List.mem_range]; omega, rfl⟩, ?_⟩
      simp [hf, hr]
    omega
  have hkspec : r < f k := by
    have := List.findIdx_getElem (p := fun e => decide (r < e)) (xs := List.map f (List.range t))
      (w := by rw [← hk, hlen]; exact hklt)
    simpa [← hk] using this
  have hprev : 0 < k → f (k - 1) ≤ r := by
    intro h0
    have := List.not_of_lt_findIdx (p := fun e => decide (r < e))
      (xs := List.map f (List.range t)) (i := k - 1) (by rw [← hk]; omega)
    simpa using this
  have hlow : k * (n / t) ≤ r := by
    rcases Nat.eq_zero_or_pos k with h0 | h0
    · rw [h0]; omega
    · have h5 := hprev h0
      simp only [hf] at h5
      rw [if_neg (by omega)] at h5
      have : k - 1 + 1 = k := by omega
      rwa [this] at h5
  refine ⟨hklt, ?_, ?_⟩
  · rw [ridLen_eq hlt ht hklt]
    simp only
    simp only [hf] at hkspec
    by_cases hkt : k = t - 1
    · rw [if_pos hkt] at hkspec ⊢
      have : (k + 1) * (n / t) = t * (n / t) := by congr 1; omega
      rw [Nat.succ_mul] at this
      omega
    · rw [if_neg hkt] at hkspec ⊢
      rw [Nat.succ_mul] at hkspec
      omega
  · rw [ridLen_eq hlt ht hklt]
    simp only
    omega

/-! ### Task queue -/

def taskPair (t : Task) : Nat × Nat := (t.start, t.nrow)

theorem getTask_big {q : TaskQueue} (hw : q.nrow + 8192 < 4294967296)
    (hs : q.start + q.nrow < 4294967296) (hc : q.curr < q.nrow) (hh : q.hasTask = true)
    (hb : q.curr + 8192 < q.nrow - 1) :
    q.getTask = .ok (⟨q.start + q.curr, 8192⟩, { q with curr := q.curr + 8192 }) := by
  have e1 : u32 (q.curr + minTaskRows) = q.curr + minTaskRows :=
    u32_of_lt (by unfold minTaskRows; omega)
  have e2 : u32 (q.start + q.curr) = q.start + q.curr := u32_of_lt (by omega)
  unfold TaskQueue.getTask
  rw [e1, e2]
  have hb' : q.curr + minTaskRows < q.nrow - 1 := hb
  simp only [hh, Bool.not_true, Bool.false_eq_true, if_false, hc, not_true_eq_false, hb', if_true]
  rfl

theorem getTask_last {q : TaskQueue} (hw : q.nrow + 8192 < 4294967296)
    (hs : q.start + q.nrow < 4294967296) (hc : q.curr < q.nrow) (hh : q.hasTask = true)
    (hb : ¬ q.curr + 8192 < q.nrow - 1) :
    q.getTask = .ok (⟨q.start + q.curr, q.nrow - q.curr⟩,
      { q with curr := q.nrow - 1, hasTask := false }) := by
  have e1 : u32 (q.curr + minTaskRows) = q.curr + minTaskRows :=
    u32_of_lt (by unfold minTaskRows; omega)
  have e2 : u32 (q.start + q.curr) = q.start + q.curr := u32_of_lt (by omega)
  unfold TaskQueue.getTask
  rw [e1, e2]
  have hb' : ¬ q.curr + minTaskRows < q.nrow - 1 := hb
  have hc' : 0 < q.nrow - q.curr := by omega
  simp only [hh, Bool.not_true, Bool.false_eq_true, if_false, hc, not_true_eq_false, hb', hc']

theorem range'_glue {s a n s' n' : Nat} (h : s' = s + a) (h2 : n = a + n') :
    List.range' s a ++ List.range' s' n' = List.range' s n := by
  subst h; subst h2
  simp

theorem drain_step {fuel : Nat} {q q' q'' : TaskQueue} {t : Task} {ts : List Task}
    (hh : q.hasTask = true) (hg : q.getTask = .ok (t, q')) (h0 : t.nrow ≠ 0)
    (hle : t.nrow ≤ q.nrow) (hd : q'.drain fuel = .ok (ts, q'')) :
    q.drain (fuel + 1) = .ok (t :: ts, q'') := by
  rw [TaskQueue.drain, if_pos hh, hg]
  simp only
  rw [if_neg (by omega), hd]

theorem drain_spec (fuel : Nat) : ∀ (q : TaskQueue),
    q.nrow + 8192 < 4294967296 → q.start + q.nrow < 4294967296 →
    q.curr < q.nrow → q.hasTask = true → q.nrow - q.curr ≤ fuel →
    ∃ ts, q.drain fuel = .ok (ts, { q with curr := q.nrow - 1, hasTask := false }) ∧
      PartitionsRange (q.start + q.curr) (q.nrow - q.curr) (ts.map taskPair) ∧
      ∀ t ∈ ts, t.nrow ≤ 8193 := by
  induction fuel with
  | zero => intro q _ _ h _ h2; omega
  | succ fuel ih =>
    intro q hw hs hc hh hf
    by_cases hb : q.curr + 8192 < q.nrow - 1
    · obtain ⟨ts, h1, h2, h3⟩ := ih { q with curr := q.curr + 8192 } (by simpa using hw)
        (by simpa using hs) (by simp; omega) (by simpa using hh) (by simp; omega)
      refine ⟨⟨q.start + q.curr, 8192⟩ :: ts,
        drain_step hh (getTask_big hw hs hc hh hb) (Nat.succ_ne_zero _)
          (by show (8192 : Nat) ≤ q.nrow; omega) h1, ?_, ?_⟩
      · obtain ⟨h2a, h2b⟩ := h2
        refine ⟨?_, ?_⟩
        · intro b hb'
          rw [List.map_cons, List.mem_cons] at hb'
          rcases hb' with rfl | hb'
          · simp [taskPair]
          · exact h2a b hb'
        · simp only [rowsOf, List.map_cons, List.flatMap_cons, taskPair] at h2b ⊢
          rw [h2b]
          exact range'_glue (by omega) (by omega)
      · intro t ht
        rw [List.mem_cons] at ht
        rcases ht with rfl | ht
        · simp
        · exact h3 t ht
    · have hd : TaskQueue.drain fuel { q with curr := q.nrow - 1, hasTask := false }
          = .ok ([], { q with curr := q.nrow - 1, hasTask := false }) := by
        cases fuel <;> simp [TaskQueue.drain]
      refine ⟨[⟨q.start + q.curr, q.nrow - q.curr⟩],
        drain_step hh (getTask_last hw hs hc hh hb) (by simp; omega) (by simp) hd,
        ⟨?_, ?_⟩, ?_⟩
      · simp [taskPair]; omega
      · simp [rowsOf, taskPair]
      · simp; omega

theorem wrap_step (m : Nat) : ∀ A, A + 8192 * (m + 1) = 4294967296 →
    ∃ ts q', (TaskQueue.mk 0 4294967295 A true).drain (m + 1)
      = .ok (ts, q') ∧ (⟨4294959104, 8192⟩ : Task) ∈ ts := by
  induction m with
  | zero =>
    intro A hA
    have : A = 4294959104 := by omega
    subst this
    refine ⟨[⟨4294959104, 8192⟩], ⟨0, 4294967295, 0, true⟩, by decide +kernel, by simp⟩
  | succ m ih =>
    intro A hA
    obtain ⟨B, hB⟩ : ∃ B, B = A + minTaskRows := ⟨_, rfl⟩
    have hB' : B = A + 8192 := by simpa [minTaskRows] using hB
    have hx : B + 8192 * (m + 1) = 4294967296 := by
      clear ih hB
      rw [hB', Nat.add_assoc, ← hA]
      ring
    obtain ⟨ts, q', h1, h2⟩ := ih B hx
    clear ih
    have e1 : u32 (A + minTaskRows) = B := by
      rw [← hB, u32_of_lt (by omega)]
    have e2 : u32 (0 + A) = A := by
      rw [u32_of_lt (by omega)]; omega
    have h3 : A < 4294967295 := by omega
    have h4 : B < 4294967295 - 1 := by omega
    have hg : (TaskQueue.mk 0 4294967295 A true).getTask
        = .ok (⟨A, minTaskRows⟩, TaskQueue.mk 0 4294967295 B true) := by
      unfold TaskQueue.getTask
      rw [e1, e2]
      simp only [Bool.not_true, Bool.false_eq_true, if_false, h3, not_true_eq_false, h4, if_true]
    have h5 : minTaskRows ≠ 0 := by simp [minTaskRows]
    have h6 : minTaskRows ≤ 4294967295 := by simp [minTaskRows]
    exact ⟨⟨A, minTaskRows⟩ :: ts, q', drain_step rfl hg h5 h6 h1, List.mem_cons_of_mem _ h2⟩

/-! ### MPI -/

theorem sub64_of_le {a b : Nat} (ha : a < 18446744073709551616) (hb : b ≤ a) :
    sub64 a b = a - b := by
  unfold sub64
  rw [u64_of_lt ha, u64_of_lt (by omega : b < 18446744073709551616)]
  unfold u64
  omega

theorem sub64_of_lt {a b : Nat} (hb : b < 18446744073709551616) (hab : a < b) :
    sub64 a b = 18446744073709551616 + a - b := by
  unfold sub64
  rw [u64_of_lt hb, u64_of_lt (by omega : a < 18446744073709551616)]
  unfold u64
  omega

theorem offset_le {g p rank : Nat} (hr : rank < p) :
    rank * (g / p) + procNrow g p rank ≤ g := by
  have hdm := Nat.div_add_mod g p
  have h2 : (rank + 1) * (g / p) ≤ p * (g / p) := Nat.mul_le_mul_right _ (by omega)
  rw [Nat.succ_mul] at h2
  unfold procNrow
  split <;> omega

theorem isLocal_iff {g p rank r : Nat} (hg : g < 18446744073709551616) (hr : rank < p)
    (hrow : r < g) :
    isLocal g p rank r = true ↔
      rank * (g / p) ≤ r ∧ r < rank * (g / p) + procNrow g p rank := by
  have hoff := offset_le (g := g) hr
  unfold isLocal
  by_cases h : rank * (g / p) ≤ r
  · simp only [sub64_of_le (by omega : r < 18446744073709551616) h]
    split
    · simp; omega
    · simp; omega
  · simp only [sub64_of_lt (by omega : rank * (g / p) < 18446744073709551616)
      (by omega : r < rank * (g / p))]
    rw [if_pos (by omega)]
    simp; omega

theorem proc_blocks (g p : Nat) (hp : 0 < p) :
    rowsOf ((List.range p).map fun rank => (rank * (g / p), procNrow g p rank))
      = List.range' 0 g := by
  obtain ⟨m, rfl⟩ : ∃ m, p = m + 1 := ⟨p - 1, by omega⟩
  have hdm := Nat.div_add_mod g (m + 1)
  rw [List.range_succ, List.map_append, rowsOf, List.flatMap_append]
  have e : (List.range m).map (fun rank => (rank * (g / (m + 1)), procNrow g (m + 1) rank))
      = (List.range m).map fun i => (i * (g / (m + 1)), g / (m + 1)) := by
    apply List.map_congr_left
    intro i hi
    rw [List.mem_range] at hi
    simp only [procNrow, Nat.add_sub_cancel]
    rw [if_neg (by omega)]
  rw [e]
  have hpre := rowsOf_prefix (g / (m + 1)) m
  unfold rowsOf at hpre
  rw [hpre]
  simp only [List.map_cons, List.map_nil, List.flatMap_cons, List.flatMap_nil,
    List.append_nil, procNrow, Nat.add_sub_cancel, if_true]
  have h2 := List.range'_append (s := 0) (m := m * (g / (m + 1)))
    (n := g / (m + 1) + g % (m + 1)) (step := 1)
  simp only [Nat.one_mul, Nat.zero_add] at h2
  rw [h2]
  congr 1
  rw [Nat.succ_mul] at hdm
  omega

end Knor.Partition
