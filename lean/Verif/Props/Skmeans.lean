import Mathlib.Algebra.Order.Field.Rat
import Mathlib.Tactic.Linarith
import Mathlib.Algebra.BigOperators.Fin
import Verif.Lemmas.Skmeans

/-!
# Property C38: column scaling of `skmeans`

`big` and `tiny` are `numeric_limits<double>::max()` and `numeric_limits<double>::min()`; the latter
is the smallest positive normal number, not the most negative one.
-/

namespace Knor.Skmeans

open Knor Knor.Par Knor.Partition Knor.Kmeans Knor.Spec

variable {R D : Type _} {k n : Nat}

/-! ### Witness: three rows, two threads; columns (0, 2, 4), (-3, -1, -2) and (5, 5, 5). -/

/-- Rows of the witness. -/
def demo (r : Nat) : Row ℚ 3 := fun j =>
  if j = 0 then (if r = 0 then 0 else if r = 1 then 2 else 4)
  else if j = 1 then (if r = 0 then -3 else if r = 1 then -1 else -2)
  else 5

/-- Interleavings of the witness. -/
def demoS : List Nat := [1, 0, 1, 0]

example : Complete (effThreads 2 3) (threadRows 3 2) demoS := by
  intro t ht
  have h2 : effThreads 2 3 = 2 := by decide
  have : t = 0 ∨ t = 1 := by omega
  rcases this with rfl | rfl <;> decide

/-- What the code computes for the witness with `tiny = 1/1000`: the first column becomes
0, 1/2, 1; the second 0, 2000/3001, 1000/3001; the third is not a number. -/
example : (preprocess 1000 (1/1000) demo 3 2 demoS demoS).map
    (fun rows => (List.range 3).map fun r => (rows r 0, rows r 1, rows r 2)) =
    .ok [(.fin 0, .fin 0, .nan), (.fin (1/2), .fin (2000/3001), .nan),
      (.fin 1, .fin (1000/3001), .nan)] := by decide +kernel

/-- **C38 (partial).** If a column is not constant, or has an entry below `tiny`, then under every
number of threads and every interleaving its entries are mapped to numbers between 0 and 1, in
the same order, and its smallest entry is mapped to 0.  Missing: constant positive columns
(`C38_violated_constant`), and the largest entry being mapped to 1 (`C38_minmax_partial`,
`C38_violated_negative`). -/
theorem C38_unit_interval_partial [Field R] [LinearOrder R] [IsStrictOrderedRing R] (big tiny : R)
    (data : Nat → Row R n) (N nt : Nat) (s1 s2 : List Nat) (hn : 0 < N) (hnt : 0 < nt)
    (hlt : N < 4294967296) (hc1 : Complete (effThreads nt N) (threadRows N nt) s1)
    (hc2 : Complete (effThreads nt N) (threadRows N nt) s2) (j : Fin n)
    (hbig : ∀ r, r < N → data r j ≤ big)
    (hcol : (∃ r r', r < N ∧ r' < N ∧ data r j ≠ data r' j) ∨ ∃ r, r < N ∧ data r j < tiny) :
    ∃ rows, preprocess big tiny data N nt s1 s2 = .ok rows ∧ ∃ v : Nat → R,
      ∀ r, r < N → rows r j = .fin (v r) ∧ 0 ≤ v r ∧ v r ≤ 1 ∧
        (∀ r', r' < N → (v r ≤ v r' ↔ data r j ≤ data r' j)) ∧
        (IsColMin N data j (data r j) → v r = 0) := by
  obtain ⟨rows, g, h1, hg, h2, -⟩ := preprocess_closed (big := big) (tiny := tiny) (data := data)
    hn hnt hlt hc1 hc2
  obtain ⟨l1, l2, l3⟩ := hg.lo j
  obtain ⟨u1, u2, u3⟩ := hg.hi j
  have hlt' : (g j).1 < (g j).2 := by
    rcases hcol with ⟨r, r', hr, hr', hne⟩ | ⟨r, hr, hx⟩
    · rcases lt_or_gt_of_ne hne with h | h
      · exact lt_of_le_of_lt (l2 r hr) (lt_of_lt_of_le h (u2 r' hr'))
      · exact lt_of_le_of_lt (l2 r' hr') (lt_of_lt_of_le h (u2 r hr))
    · exact lt_of_le_of_lt (l2 r hr) (lt_of_lt_of_le hx u1)
  have hpos : 0 < (g j).2 - (g j).1 := sub_pos.2 hlt'
  refine ⟨rows, h1, fun r => (data r j - (g j).1) / ((g j).2 - (g j).1), ?_⟩
  intro r hr
  refine ⟨?_, ?_, ?_, ?_, ?_⟩
  · rw [h2 r hr]; simp [scaleEntry, ne_of_gt hpos]
  · exact div_nonneg (sub_nonneg.2 (l2 r hr)) hpos.le
  · rw [div_le_one₀ hpos]; exact sub_le_sub_right (u2 r hr) _
  · intro r' hr'
    rw [div_le_div_iff_of_pos_right hpos]
    exact sub_le_sub_iff_right _
  · rintro ⟨hm, -⟩
    have : (g j).1 = data r j := by
      apply le_antisymm (l2 r hr)
      rcases l3 with h | ⟨r', hr', h⟩
      · rw [h]; exact hbig r hr
      · rw [h]; exact hm r' hr'
    simp only
    rw [this, sub_self, zero_div]

/-- The second column of the witness (all negative) meets the hypotheses. -/
example : (∀ r, r < 3 → demo r 1 ≤ 1000) ∧ ∃ r, r < 3 ∧ demo r 1 < 1 / 1000 := by
  refine ⟨?_, 0, by decide, by decide +kernel⟩
  intro r hr
  have : r = 0 ∨ r = 1 ∨ r = 2 := by omega
  rcases this with rfl | rfl | rfl <;> decide +kernel

/-- **C38 (partial).** If a column is not constant and its largest entry is at least `tiny`, the
scaling is exactly min-max normalisation: the smallest entry goes to 0 and the largest to 1.
Missing: columns without positive entries. -/
theorem C38_minmax_partial [Field R] [LinearOrder R] [IsStrictOrderedRing R] (big tiny : R)
    (data : Nat → Row R n) (N nt : Nat) (s1 s2 : List Nat) (hn : 0 < N) (hnt : 0 < nt)
    (hlt : N < 4294967296) (hc1 : Complete (effThreads nt N) (threadRows N nt) s1)
    (hc2 : Complete (effThreads nt N) (threadRows N nt) s2) (j : Fin n)
    (hbig : ∀ r, r < N → data r j ≤ big) (m M : R) (hm : IsColMin N data j m)
    (hM : IsColMax N data j M) (hmM : m < M) (htiny : tiny ≤ M) :
    ∃ rows, preprocess big tiny data N nt s1 s2 = .ok rows ∧ ∀ r, r < N →
      rows r j = .fin ((data r j - m) / (M - m)) ∧
      (data r j = m → rows r j = .fin 0) ∧ (data r j = M → rows r j = .fin 1) := by
  obtain ⟨rows, g, h1, hg, h2, -⟩ := preprocess_closed (big := big) (tiny := tiny) (data := data)
    hn hnt hlt hc1 hc2
  obtain ⟨l1, l2, l3⟩ := hg.lo j
  obtain ⟨u1, u2, u3⟩ := hg.hi j
  have e1 : (g j).1 = m := by
    obtain ⟨r0, hr0, h0⟩ := hm.2
    apply le_antisymm (h0 ▸ l2 r0 hr0)
    rcases l3 with h | ⟨r', hr', h⟩
    · rw [h, ← h0]; exact hbig r0 hr0
    · rw [h]; exact hm.1 r' hr'
  have e2 : (g j).2 = M := by
    obtain ⟨r0, hr0, h0⟩ := hM.2
    refine le_antisymm ?_ (h0 ▸ u2 r0 hr0)
    rcases u3 with h | ⟨r', hr', h⟩
    · rw [h]; exact htiny
    · rw [h]; exact hM.1 r' hr'
  have hpos : 0 < M - m := sub_pos.2 hmM
  have key : ∀ r, r < N → rows r j = .fin ((data r j - m) / (M - m)) := by
    intro r hr
    rw [h2 r hr, e1, e2]
    simp [scaleEntry, ne_of_gt hpos]
  refine ⟨rows, h1, fun r hr => ⟨key r hr, ?_, ?_⟩⟩
  · intro h; rw [key r hr, h, sub_self, zero_div]
  · intro h; rw [key r hr, h, div_self (ne_of_gt hpos)]

/-- The first column of the witness meets the hypotheses with `m = 0`, `M = 4`. -/
example : IsColMin 3 demo 0 0 ∧ IsColMax 3 demo 0 4 ∧ (1 / 1000 : ℚ) ≤ 4 := by
  refine ⟨⟨?_, 0, by decide, by decide +kernel⟩, ⟨?_, 2, by decide, by decide +kernel⟩,
    by decide +kernel⟩ <;>
  · intro r hr
    have : r = 0 ∨ r = 1 ∨ r = 2 := by omega
    rcases this with rfl | rfl | rfl <;> decide +kernel

/-- **C38 violated (columns without positive entries).**  If every entry of a column is below `tiny`
(for instance negative), then no entry of the column is mapped to 1, whatever the number of threads
and interleaving: the running maximum starts at the smallest *positive* number. -/
theorem C38_violated_negative [Field R] [LinearOrder R] [IsStrictOrderedRing R] (big tiny : R)
    (data : Nat → Row R n) (N nt : Nat) (s1 s2 : List Nat) (hn : 0 < N) (hnt : 0 < nt)
    (hlt : N < 4294967296) (hc1 : Complete (effThreads nt N) (threadRows N nt) s1)
    (hc2 : Complete (effThreads nt N) (threadRows N nt) s2) (j : Fin n)
    (hneg : ∀ r, r < N → data r j < tiny) :
    ∃ rows, preprocess big tiny data N nt s1 s2 = .ok rows ∧ ∀ r, r < N → rows r j ≠ .fin 1 := by
  obtain ⟨rows, g, h1, hg, h2, -⟩ := preprocess_closed (big := big) (tiny := tiny) (data := data)
    hn hnt hlt hc1 hc2
  obtain ⟨l1, l2, l3⟩ := hg.lo j
  obtain ⟨u1, u2, u3⟩ := hg.hi j
  refine ⟨rows, h1, ?_⟩
  intro r hr h
  rw [h2 r hr] at h
  have hpos : 0 < (g j).2 - (g j).1 :=
    sub_pos.2 (lt_of_le_of_lt (l2 r hr) (lt_of_lt_of_le (hneg r hr) u1))
  simp only [scaleEntry, ne_of_gt hpos, if_false, Fl.fin.injEq] at h
  rw [div_eq_one_iff_eq (ne_of_gt hpos)] at h
  have h3 : data r j = (g j).2 := by linarith
  exact absurd (hneg r hr) (not_lt.2 (h3 ▸ u1))

example : ∀ r, r < 3 → demo r 1 < 1 / 1000 := by
  intro r hr
  have : r = 0 ∨ r = 1 ∨ r = 2 := by omega
  rcases this with rfl | rfl | rfl <;> decide +kernel

/-- **C38 violated (constant columns).**  If some column is constant with a value of at least `tiny`,
every entry of it becomes NaN, and then the first EM phase aborts on the assertion in `EM_step`,
whatever the metric (all of them propagate NaN), the centroids, the number of threads and the
interleavings. -/
theorem C38_violated_constant [Field R] [LinearOrder R] [LinearOrder D]
    (big tiny : R) (data : Nat → Row R n) (N nt : Nat) (s1 s2 s3 : List Nat) (hn : 0 < N)
    (hnt : 0 < nt) (hlt : N < 4294967296)
    (hc1 : Complete (effThreads nt N) (threadRows N nt) s1)
    (hc2 : Complete (effThreads nt N) (threadRows N nt) s2)
    (hc3 : Complete (effThreads nt N) (threadRows N nt) s3) (j : Fin n) (v : R)
    (hbig : v ≤ big) (htiny : tiny ≤ v) (hconst : ∀ r, r < N → data r j = v)
    (dist : (Fin n → Fl R) → (Fin n → Fl R) → Fl D) (hdist : Propagates dist) (bigD : Fl D)
    (cents : Fin k → Fin n → Fl R) (zero : Clusters (Fl R) k n) (assign : Nat → Option (Fin k)) :
    ∃ rows, preprocess big tiny data N nt s1 s2 = .ok rows ∧ (∀ r, r < N → rows r j = .nan) ∧
      emPhase dist bigD rows cents zero N nt s3 assign = .error .assertFail := by
  obtain ⟨rows, g, h1, hg, h2, -⟩ := preprocess_closed (big := big) (tiny := tiny) (data := data)
    hn hnt hlt hc1 hc2
  obtain ⟨l1, l2, l3⟩ := hg.lo j
  obtain ⟨u1, u2, u3⟩ := hg.hi j
  have e1 : (g j).1 = v := by
    apply le_antisymm (hconst 0 hn ▸ l2 0 hn)
    rcases l3 with h | ⟨r', hr', h⟩
    · rw [h]; exact hbig
    · rw [h, hconst r' hr']
  have e2 : (g j).2 = v := by
    refine le_antisymm ?_ (hconst 0 hn ▸ u2 0 hn)
    rcases u3 with h | ⟨r', hr', h⟩
    · rw [h]; exact htiny
    · rw [h, hconst r' hr']
  have hnan : ∀ r, r < N → rows r j = .nan := by
    intro r hr
    rw [h2 r hr, e1, e2]
    simp [scaleEntry]
  refine ⟨rows, h1, hnan, ?_⟩
  have hscan : ∀ r, r < N → Kmeans.emScan bigD (fun c => dist (rows r) (cents c)) = none := by
    intro r hr
    have hd : (fun c => dist (rows r) (cents c)) = fun _ => Fl.nan := by
      funext c
      exact hdist _ _ ⟨j, hnan r hr⟩
    rw [hd]
    unfold Kmeans.emScan
    have : ∀ (l : List (Fin k)), l.foldl (Kmeans.scanStep fun _ => (Fl.nan : Fl D)) (bigD, none) =
        (bigD, none) := by
      intro l
      induction l with
      | nil => rfl
      | cons c l ih =>
        rw [List.foldl_cons]
        have : Kmeans.scanStep (fun _ => (Fl.nan : Fl D)) (bigD, none) c = (bigD, none) := by
          unfold Kmeans.scanStep
          exact if_neg fun h => h
        rw [this, ih]
    rw [this]
  unfold emPhase
  refine run_det_fails (g := fun r _ => match Kmeans.emScan bigD (fun c => dist (rows r) (cents c)) with
      | none => .error .assertFail
      | some c => .ok (some c))
    (h := fun r m m' a => ⟨if m' ≠ m then a.changed + 1 else a.changed,
      match m' with
      | some c => a.loc.addMember (rows r) c
      | none => a.loc⟩)
    ?_ (split_threadRows hn hnt hlt) hc3 ?_ (r0 := 0) hn ?_
  · intro r m a
    unfold Kmeans.emRow
    cases Kmeans.emScan bigD (fun c => dist (rows r) (cents c)) <;> rfl
  · intro r e hr he
    simp only [hscan r hr, Except.error.injEq] at he
    exact he.symm
  · intro m'
    simp [hscan 0 hn]

/-- The third column of the witness is such a column; the sum of squared differences, with NaN
propagated, is such a metric. -/
example : (∀ r, r < 3 → demo r 2 = 5) ∧ (1 / 1000 : ℚ) ≤ 5 ∧ (5 : ℚ) ≤ 1000 := by
  refine ⟨fun r _ => rfl, by decide +kernel, by decide +kernel⟩

open Classical in
example : Propagates (R := ℚ) (D := ℚ) (n := 3) (fun x y =>
    if ∀ j, x j ≠ .nan ∧ y j ≠ .nan then .fin (∑ j, ((x j).val - (y j).val) ^ 2) else .nan) := by
  rintro x y ⟨j, hj⟩
  exact if_neg fun h => (h j).1 hj

/-- **C38 (composition, partial).**  If every column has a smallest entry below its largest, which is
at least `tiny`, then a whole run is the k-means run (C06–C14) on the min-max normalised rows. -/
theorem C38_run_on_scaled_rows_partial [Field R] [LinearOrder R] [IsStrictOrderedRing R] [LT D]
    [DecidableLT D] (dist : Row R n → Row R n → D) (bigD : D) (big tiny : R) (data : Nat → Row R n)
    (N nt : Nat) (tol : R) (maxIters : Nat) (s1 s2 : List Nat) (sched : Nat → List Nat)
    (init : (Nat → Row R n) → Kmeans.KState R k n) (hn : 0 < N) (hnt : 0 < nt)
    (hlt : N < 4294967296) (hc1 : Complete (effThreads nt N) (threadRows N nt) s1)
    (hc2 : Complete (effThreads nt N) (threadRows N nt) s2)
    (hbig : ∀ r j, r < N → data r j ≤ big) (m M : Fin n → R)
    (hm : ∀ j, IsColMin N data j (m j)) (hM : ∀ j, IsColMax N data j (M j))
    (hmM : ∀ j, m j < M j) (htiny : ∀ j, tiny ≤ M j) :
    ∃ scaled : Nat → Row R n,
      (∀ r j, r < N → scaled r j = (data r j - m j) / (M j - m j)) ∧
      run dist bigD big tiny data N nt tol maxIters s1 s2 sched init =
        Kmeans.run dist bigD scaled N nt tol maxIters sched (init scaled) := by
  obtain ⟨rows, g, h1, -⟩ := preprocess_closed (big := big) (tiny := tiny) (data := data)
    hn hnt hlt hc1 hc2
  have h2 : ∀ r j, r < N → rows r j = .fin ((data r j - m j) / (M j - m j)) := by
    intro r j hr
    obtain ⟨rows', h1', h2'⟩ := C38_minmax_partial big tiny data N nt s1 s2 hn hnt hlt hc1 hc2 j
      (fun r hr => hbig r j hr) (m j) (M j) (hm j) (hM j) (hmM j) (htiny j)
    rw [h1] at h1'
    simp only [Except.ok.injEq] at h1'
    subst h1'
    exact (h2' r hr).1
  refine ⟨fun r j => (rows r j).val, fun r j hr => by simp only; rw [h2 r j hr]; rfl, ?_⟩
  unfold run
  rw [h1]
  simp only
  rw [if_pos]
  simp only [List.all_eq_true, List.mem_range, List.mem_finRange, decide_eq_true_eq, forall_true_left]
  intro r hr j
  rw [h2 r j hr]
  simp

/-- A concrete whole run: rows (0,10), (2,30), (4,20) with two clusters started at the corners. -/
example :
    let data : Nat → Row ℚ 2 := fun r j => if j = 0 then 2 * r else if r = 0 then 10 else
      if r = 1 then 30 else 20
    (run (fun x y => (x 0 - y 0) ^ 2 + (x 1 - y 1) ^ 2) 1000 1000 (1/1000) data 3 2 (-1) 10 demoS
      demoS (fun _ => demoS) (fun _ =>
        ⟨Clusters.empty.setMeans fun c _ => if c = (0 : Fin 2) then 0 else 1, fun _ => none,
          fun _ => 0, 0⟩)).map (fun x => (x.iters, (List.range 3).map x.state.assign,
            x.state.cltrs.means 1 0, x.state.cltrs.means 1 1))
      = .ok (2, [some 0, some 1, some 1], 3/4, 3/4) := by decide +kernel

end Knor.Skmeans
