import Mathlib.Algebra.Order.Field.Rat
import Verif.Lemmas.Kmeans
import Verif.Lemmas.Lloyd
import Verif.Lemmas.AnyArith

/-!
# Properties C06–C14: unpruned k-means

`Complete (effThreads nt N) (threadRows N nt) sched` says that the interleaving `sched` lets every
worker finish its rows, which is what `wait4complete` waits for (C34).

C06, C07, C08 and C11 hold for any arithmetic on the coordinates (`R` has operations but no laws) and need
only that the computed distances are linearly ordered (no NaN); C11 does not even need that.  C09, C10, C12–C14
assume exact arithmetic; C78 says what remains of C09 when operations round.
-/

namespace Knor.Kmeans

open Knor Knor.Par Knor.Partition Knor.Spec

variable {R D : Type _} {k n : Nat}

/-! ### A concrete run used as witness: rows 0, 1, 10, 12 in one dimension, two clusters starting
at 0 and 1, two threads, absolute difference as distance. -/

/-- Distance of the witness. -/
def demoDist (x y : Row ℚ 1) : ℚ := if x 0 ≤ y 0 then y 0 - x 0 else x 0 - y 0
/-- Rows of the witness. -/
def demoData (r : Nat) : Row ℚ 1 := fun _ => if r = 0 then 0 else if r = 1 then 1 else
  if r = 2 then 10 else 12
/-- State after initialisation of the witness. -/
def demoInit : KState ℚ 2 1 :=
  { cltrs := Clusters.empty.setMeans fun c _ => if c = 0 then 0 else 1
    assign := fun _ => none, counts := fun _ => 0, changed := 0 }
/-- An interleaving in which thread 1 goes first. -/
def demoSched (_ : Nat) : List Nat := [1, 0, 0, 1, 1]

example : (∀ i, Complete (effThreads 2 4) (threadRows 4 2) (demoSched i)) ∧
    (List.range 2).map (threadRows 4 2) = [[0, 1], [2, 3]] := by
  refine ⟨?_, by decide⟩
  intro i t ht
  have : t = 0 ∨ t = 1 := by
    have : effThreads 2 4 = 2 := by decide
    omega
  rcases this with rfl | rfl <;> (unfold demoSched; decide)

/-- The witness's first iteration: row 0 stays with cluster 0, the others go to cluster 1 whose
mean becomes 23/3. -/
example : (iteration demoDist 1000 demoData 4 2 (demoSched 1) demoInit).map
      (fun s => ((List.range 4).map s.assign, s.counts 0, s.counts 1, s.cltrs.means 1 0, s.changed))
    = .ok ([some 0, some 1, some 1, some 1], 1, 3, 23/3, 4) := by
  decide +kernel

theorem iteration_ok_closed [Field R] [LinearOrder D] {dist : Row R n → Row R n → D} {big : D}
    {data : Nat → Row R n} {N nt : Nat} {sched : List Nat} {s s' : KState R k n}
    (hn : 0 < N) (hnt : 0 < nt) (hlt : N < 4294967296)
    (hc : Complete (effThreads nt N) (threadRows N nt) sched)
    (hok : iteration dist big data N nt sched s = .ok s') :
    (∀ r, r < N → ∃ c, dist (data r) (s.cltrs.means c) < big) ∧
    s' =
      { cltrs := clustersOf N data (newAssign dist big data N s.cltrs.means s.assign)
        assign := newAssign dist big data N s.cltrs.means s.assign
        counts := fun c =>
          (Spec.count N (newAssign dist big data N s.cltrs.means s.assign) c : Int)
        changed := numChanged N s.assign (newAssign dist big data N s.cltrs.means s.assign) } := by
  have hb : ∀ r, r < N → ∃ c, dist (data r) (s.cltrs.means c) < big := by
    by_contra hb
    simp only [not_forall, not_exists] at hb
    obtain ⟨r0, hr0, hb⟩ := hb
    rw [iteration_aborts hnt hlt hc hr0 hb] at hok
    simp at hok
  refine ⟨hb, ?_⟩
  rw [iteration_closed hn hnt hlt hc hb] at hok
  simp only [Except.ok.injEq] at hok
  exact hok.symm

theorem iteration_ok_any [Zero R] [Add R] [Div R] [IntCast R] [LinearOrder D] {dist : Row R n → Row R n → D} {big : D}
    {data : Nat → Row R n} {N nt : Nat} {sched : List Nat} {s s' : KState R k n}
    (hn : 0 < N) (hnt : 0 < nt) (hlt : N < 4294967296)
    (hc : Complete (effThreads nt N) (threadRows N nt) sched)
    (hok : iteration dist big data N nt sched s = .ok s') :
    (∀ r, r < N → ∃ c, dist (data r) (s.cltrs.means c) < big) ∧
    s' =
      { cltrs := clustersAny N (effThreads nt N) (threadRows N nt) data
          (newAssign dist big data N s.cltrs.means s.assign)
        assign := newAssign dist big data N s.cltrs.means s.assign
        counts := fun c =>
          (Spec.count N (newAssign dist big data N s.cltrs.means s.assign) c : Int)
        changed := numChanged N s.assign (newAssign dist big data N s.cltrs.means s.assign) } := by
  have hb : ∀ r, r < N → ∃ c, dist (data r) (s.cltrs.means c) < big := by
    by_contra hb
    simp only [not_forall, not_exists] at hb
    obtain ⟨r0, hr0, hb⟩ := hb
    rw [iteration_aborts hnt hlt hc hr0 hb] at hok
    simp at hok
  refine ⟨hb, ?_⟩
  rw [iteration_any hn hnt hlt hc hb] at hok
  simp only [Except.ok.injEq] at hok
  exact hok.symm

/-- **C06.** If every row is closer than `big` to some centroid, the iteration succeeds (no
assertion fires) and every row ends up at the lowest-numbered nearest of the centroids the
iteration started from; if some row is not, the iteration aborts on the assertion. -/
theorem C06_nearest_centroid [Zero R] [Add R] [Div R] [IntCast R] [LinearOrder D] (dist : Row R n → Row R n → D) (big : D)
    (data : Nat → Row R n) (N nt : Nat) (sched : List Nat) (s : KState R k n)
    (hn : 0 < N) (hnt : 0 < nt) (hlt : N < 4294967296)
    (hc : Complete (effThreads nt N) (threadRows N nt) sched) :
    ((∀ r, r < N → ∃ c, dist (data r) (s.cltrs.means c) < big) →
      ∃ s', iteration dist big data N nt sched s = .ok s' ∧
        ∀ r, r < N → ∃ c, s'.assign r = some c ∧
          IsFirstNearest (fun c => dist (data r) (s.cltrs.means c)) c) ∧
    ((∃ r, r < N ∧ ∀ c, ¬ dist (data r) (s.cltrs.means c) < big) →
      iteration dist big data N nt sched s = .error .assertFail) := by
  constructor
  · intro hb
    refine ⟨_, iteration_any hn hnt hlt hc hb, ?_⟩
    intro r hr
    obtain ⟨c, hcc⟩ := emScan_exists (hb r hr)
    exact ⟨c, by simp [newAssign, hr, hcc], emScan_some hcc⟩
  · rintro ⟨r0, hr0, hb⟩
    exact iteration_aborts hnt hlt hc hr0 hb

/-- The hypothesis of the first part is met by the witness. -/
example : ∀ r, r < 4 → ∃ c, demoDist (demoData r) (demoInit.cltrs.means c) < 1000 := by
  intro r hr
  refine ⟨0, ?_⟩
  have : r = 0 ∨ r = 1 ∨ r = 2 ∨ r = 3 := by omega
  rcases this with rfl | rfl | rfl | rfl <;> decide +kernel

/-- The abort happens when `big` is too small. -/
example : iteration demoDist 5 demoData 4 2 (demoSched 1) demoInit
    |>.map (fun s => s.changed) |> (· = .error .assertFail) := by
  decide +kernel

/-- **C07.** The coordinator's change count is the number of rows whose cluster changed. -/
theorem C07_changed_exact [Zero R] [Add R] [Div R] [IntCast R] [LinearOrder D] (dist : Row R n → Row R n → D) (big : D)
    (data : Nat → Row R n) (N nt : Nat) (sched : List Nat) (s s' : KState R k n)
    (hn : 0 < N) (hnt : 0 < nt) (hlt : N < 4294967296)
    (hc : Complete (effThreads nt N) (threadRows N nt) sched)
    (hok : iteration dist big data N nt sched s = .ok s') :
    s'.changed = ((Finset.range N).filter fun r => s.assign r ≠ s'.assign r).card := by
  rw [(iteration_ok_any hn hnt hlt hc hok).2]; rfl

/-- **C08.** Reported sizes are the assignment histogram and sum to the number of rows. -/
theorem C08_sizes_histogram [Zero R] [Add R] [Div R] [IntCast R] [LinearOrder D] (dist : Row R n → Row R n → D) (big : D)
    (data : Nat → Row R n) (N nt : Nat) (sched : List Nat) (s s' : KState R k n)
    (hn : 0 < N) (hnt : 0 < nt) (hlt : N < 4294967296)
    (hc : Complete (effThreads nt N) (threadRows N nt) sched)
    (hok : iteration dist big data N nt sched s = .ok s') :
    (∀ c, s'.counts c = (((Finset.range N).filter fun r => s'.assign r = some c).card : Int)) ∧
    ∑ c, s'.counts c = (N : Int) := by
  obtain ⟨hb, h⟩ := iteration_ok_any hn hnt hlt hc hok
  rw [h]
  refine ⟨fun c => rfl, ?_⟩
  simp only
  rw [← Nat.cast_sum, sum_count_of_all_assigned]
  intro r hr
  obtain ⟨c, hcc⟩ := emScan_exists (hb r hr)
  exact ⟨c, by simp [newAssign, hr, hcc]⟩

/-- **C09.** The centroid of a non-empty cluster is the arithmetic mean of its rows; the centroid
of an empty cluster is the zero vector. -/
theorem C09_centroid_is_mean [Field R] [LinearOrder D] (dist : Row R n → Row R n → D) (big : D)
    (data : Nat → Row R n) (N nt : Nat) (sched : List Nat) (s s' : KState R k n)
    (hn : 0 < N) (hnt : 0 < nt) (hlt : N < 4294967296)
    (hc : Complete (effThreads nt N) (threadRows N nt) sched)
    (hok : iteration dist big data N nt sched s = .ok s') (c : Fin k) (j : Fin n) :
    let members := (Finset.range N).filter fun r => s'.assign r = some c
    (members.card ≠ 0 → s'.cltrs.means c j = (∑ r ∈ members, data r j) / (members.card : R)) ∧
    (members.card = 0 → s'.cltrs.means c j = 0) := by
  rw [(iteration_ok_closed hn hnt hlt hc hok).2]
  exact ⟨fun h => if_neg h, fun h => if_pos h⟩

/-- C07–C09 speak about the successful iteration of the witness computed above. -/
example : ∃ s', iteration demoDist 1000 demoData 4 2 (demoSched 1) demoInit = .ok s' := by
  have h : (iteration demoDist 1000 demoData 4 2 (demoSched 1) demoInit).map (fun s => s.changed)
      = .ok 4 := by decide +kernel
  cases he : iteration demoDist 1000 demoData 4 2 (demoSched 1) demoInit with
  | ok s' => exact ⟨s', rfl⟩
  | error e => rw [he] at h; simp [Except.map] at h

/-- **C10 (independence).** For every data set (also one on which the run aborts), every number
of threads and every interleaving of the workers in every iteration give the same result:
assignments, sizes, centroids, iteration number. -/
theorem C10_threads_and_schedule_irrelevant [Field R] [LinearOrder R] [LinearOrder D]
    (dist : Row R n → Row R n → D) (big : D) (data : Nat → Row R n) (N : Nat) (tol : R)
    (maxIters : Nat) (s0 : KState R k n) (hn : 0 < N) (hlt : N < 4294967296)
    (nt nt' : Nat) (hnt : 0 < nt) (hnt' : 0 < nt') (sched sched' : Nat → List Nat)
    (hc : ∀ i, Complete (effThreads nt N) (threadRows N nt) (sched i))
    (hc' : ∀ i, Complete (effThreads nt' N) (threadRows N nt') (sched' i)) :
    run dist big data N nt tol maxIters sched s0 = run dist big data N nt' tol maxIters sched' s0 :=
  loop_indep hn hnt hnt' hlt hc hc' _ _ _

/-- **C10 (serial Lloyd) and C11 (iteration budget).**  Let `tr` be the Lloyd trace from the
initial centroids.  With `maxIters = 0` nothing happens.  Otherwise the run returns normally and
either stops at the first iteration `m ≤ maxIters` in which no row, or at most the fraction `tol`,
changed, reporting `m` and the trace's state after `m` iterations; or no such iteration exists, it
reports `maxIters + 1` and returns the trace's state after `maxIters` iterations. -/
theorem C10_C11_run_is_lloyd [Field R] [LinearOrder R] [LinearOrder D]
    (dist : Row R n → Row R n → D) (big : D) (data : Nat → Row R n) (N nt : Nat) (tol : R)
    (maxIters : Nat) (s0 : KState R k n) (hn : 0 < N) (hlt : N < 4294967296) (hnt : 0 < nt)
    (sched : Nat → List Nat)
    (hc : ∀ i, Complete (effThreads nt N) (threadRows N nt) (sched i))
    (tr : Nat → Snap R k n) (htr : LloydTrace dist N data s0.cltrs.means tr)
    (hb : ∀ i r, r < N → ∃ c, dist (data r) ((tr i).cents c) < big) :
    ∃ res, run dist big data N nt tol maxIters sched s0 = .ok res ∧
      (maxIters = 0 → res = ⟨0, s0⟩) ∧
      (0 < maxIters →
        (∃ m, 1 ≤ m ∧ m ≤ maxIters ∧ StopsAt N tol tr m ∧
          (∀ j, 1 ≤ j → j < m → ¬ StopsAt N tol tr j) ∧ res.iters = m ∧
          Agrees N res.state (tr (m - 1)) (tr m)) ∨
        ((∀ j, 1 ≤ j → j ≤ maxIters → ¬ StopsAt N tol tr j) ∧ res.iters = maxIters + 1 ∧
          Agrees N res.state (tr (maxIters - 1)) (tr maxIters))) := by
  unfold run
  by_cases hm : 0 < maxIters
  · rw [if_pos hm]
    obtain ⟨res, h1, h2⟩ := loop_follows (tol := tol) (maxIters := maxIters) (sched := sched)
      hn hnt hlt hc hb htr.unassigned htr.step (maxIters + 1) 0 s0 (by omega) (by omega) hm
      htr.cents.symm (fun h => absurd rfl h) (fun j h1 h2 => by omega)
    exact ⟨res, h1, fun h => by omega, fun _ => h2⟩
  · have : maxIters = 0 := by omega
    subst this
    exact ⟨⟨0, s0⟩, by simp [loop], fun _ => rfl, fun h => absurd h hm⟩

/-- The trace of the previous theorem exists for every start and is unique on the rows, so the
theorem describes the result completely. -/
theorem C10_trace_exists_unique [Field R] [LinearOrder D] (dist : Row R n → Row R n → D) (N : Nat)
    (data : Nat → Row R n) (cents0 : Fin k → Row R n) (hk : 0 < k) :
    (∃ tr, LloydTrace dist N data cents0 tr) ∧
    ∀ tr tr', LloydTrace dist N data cents0 tr → LloydTrace dist N data cents0 tr' →
      ∀ i, (tr i).cents = (tr' i).cents ∧ ∀ r, r < N → (tr i).assign r = (tr' i).assign r := by
  refine ⟨trace_exists dist N data cents0 hk, ?_⟩
  intro tr tr' h h' i
  induction i with
  | zero => exact ⟨by rw [h.cents, h'.cents], fun r _ => by rw [h.unassigned, h'.unassigned]⟩
  | succ i ih =>
    have ha : ∀ r, r < N → (tr (i + 1)).assign r = (tr' (i + 1)).assign r := by
      intro r hr
      obtain ⟨c, e, hc⟩ := (h.step i).assigned r hr
      obtain ⟨c', e', hc'⟩ := (h'.step i).assigned r hr
      rw [ih.1] at hc
      rw [e, e', firstNearest_unique hc hc']
    refine ⟨?_, ha⟩
    funext c j
    rw [(h.step i).means, (h'.step i).means, memberMean_congr ha]

/-- The witness run: converges in iteration 3 with sizes 2 and 2 and centroids 1/2 and 11.  One
allowed iteration is not enough (reported as 2), none leaves the state alone. -/
example :
    (run demoDist 1000 demoData 4 2 (-1) 100 demoSched demoInit).map (fun x =>
      (x.iters, (List.range 4).map x.state.assign, x.state.counts 0,
        x.state.cltrs.means 0 0, x.state.cltrs.means 1 0))
      = .ok (3, [some 0, some 0, some 1, some 1], 2, 1/2, 11) ∧
    (run demoDist 1000 demoData 4 2 (-1) 1 demoSched demoInit).map (fun x => x.iters) = .ok 2 ∧
    (run demoDist 1000 demoData 4 2 (-1) 0 demoSched demoInit).map (fun x => x.iters) = .ok 0 := by
  decide +kernel

/-- **C11.** The budget alone, without reference to a trace: a run that returns reports at most
`maxIters + 1`, and reports a number `≤ maxIters` (with `maxIters > 0`) only if the stopping rule
held in its last iteration; with `maxIters = 0` it returns the initial state. -/
theorem C11_budget [Zero R] [Add R] [Div R] [IntCast R] [NatCast R] [LE R] [DecidableLE R]
    [LT D] [DecidableLT D]
    (dist : Row R n → Row R n → D) (big : D) (data : Nat → Row R n) (N nt : Nat) (tol : R)
    (maxIters : Nat) (s0 : KState R k n) (sched : Nat → List Nat) (res : Result R k n)
    (hok : run dist big data N nt tol maxIters sched s0 = .ok res) :
    res.iters ≤ maxIters + 1 ∧
    (0 < maxIters → res.iters ≤ maxIters →
      res.state.changed = 0 ∨ (res.state.changed : R) / (N : R) ≤ tol) ∧
    (maxIters = 0 → res = ⟨0, s0⟩) := by
  have gen : ∀ fuel iter (s : KState R k n), iter ≤ maxIters + 1 → maxIters < iter + fuel →
      0 < maxIters →
      loop dist big data N nt tol maxIters sched fuel iter s = .ok res →
      res.iters ≤ maxIters + 1 ∧
      (res.iters ≤ maxIters →
        res.state.changed = 0 ∨ (res.state.changed : R) / (N : R) ≤ tol) := by
    intro fuel
    induction fuel with
    | zero =>
      intro iter s h1 h2 h3 h
      simp only [loop, Except.ok.injEq] at h
      subst h
      exact ⟨h1, fun h => by simp only at h; omega⟩
    | succ fuel ih =>
      intro iter s h1 h2 h3 h
      unfold loop at h
      by_cases hg : iter ≤ maxIters ∧ 0 < maxIters
      · rw [if_pos hg] at h
        simp only at h
        cases he : iteration dist big data N nt (sched iter)
          (if iter = 1 then { s with assign := fun _ => none } else s) with
        | error e => rw [he] at h; simp at h
        | ok s2 =>
          rw [he] at h
          simp only at h
          by_cases hcv : convTest N tol s2.changed = true
          · rw [if_pos hcv] at h
            simp only [Except.ok.injEq] at h
            subst h
            exact ⟨h1, fun _ => (convTest_iff N tol _).1 hcv⟩
          · rw [if_neg hcv] at h
            exact ih (iter + 1) s2 (by omega) (by omega) h3 h
      · rw [if_neg hg] at h
        simp only [Except.ok.injEq] at h
        subst h
        exact ⟨h1, fun h => by simp only at h; omega⟩
  unfold run at hok
  by_cases hm : 0 < maxIters
  · rw [if_pos hm] at hok
    obtain ⟨g1, g2⟩ := gen _ _ _ (by omega) (by omega) hm hok
    exact ⟨g1, fun _ => g2, fun h => by omega⟩
  · have h0 : maxIters = 0 := by omega
    subst h0
    simp only [loop, lt_self_iff_false, and_false, if_false, Except.ok.injEq] at hok
    subst hok
    exact ⟨by simp, fun h => absurd h hm, fun _ => rfl⟩

/-- **C12.** If a run stops because no row changed, it is at a Lloyd fixed point: every row is
assigned to the nearest (lowest-numbered) of the centroids it *returns*, and each returned centroid
is the mean of its members. -/
theorem C12_converged_is_fixed_point [Field R] [LinearOrder R] [LinearOrder D]
    (dist : Row R n → Row R n → D) (big : D) (data : Nat → Row R n) (N nt : Nat) (tol : R)
    (maxIters : Nat) (s0 : KState R k n) (hn : 0 < N) (hlt : N < 4294967296) (hnt : 0 < nt)
    (hk : 0 < k) (sched : Nat → List Nat)
    (hc : ∀ i, Complete (effThreads nt N) (threadRows N nt) (sched i))
    (hbig : ∀ i tr, LloydTrace dist N data s0.cltrs.means tr →
      ∀ r, r < N → ∃ c, dist (data r) ((tr i).cents c) < big)
    (hmax : 0 < maxIters) (res : Result R k n)
    (hok : run dist big data N nt tol maxIters sched s0 = .ok res)
    (hch : res.state.changed = 0) :
    (∀ r, r < N → ∃ c, res.state.assign r = some c ∧
      IsFirstNearest (fun c => dist (data r) (res.state.cltrs.means c)) c) ∧
    ∀ c j, res.state.cltrs.means c j = memberMean N data res.state.assign c j := by
  obtain ⟨tr, htr⟩ := trace_exists dist N data s0.cltrs.means hk
  obtain ⟨res', h1, _, h3⟩ := C10_C11_run_is_lloyd dist big data N nt tol maxIters s0 hn hlt hnt
    sched hc tr htr (fun i => hbig i tr htr)
  rw [hok] at h1
  simp only [Except.ok.injEq] at h1
  subst h1
  -- the last iteration performed
  obtain ⟨m, hm1, hag⟩ : ∃ m, 1 ≤ m ∧ Agrees N res.state (tr (m - 1)) (tr m) := by
    rcases h3 hmax with ⟨m, h, _, _, _, _, hag⟩ | ⟨_, _, hag⟩
    · exact ⟨m, h, hag⟩
    · exact ⟨maxIters, hmax, hag⟩
  have hsame : ∀ r, r < N → (tr (m - 1)).assign r = (tr m).assign r := by
    have := hag.changed
    rw [hch] at this
    unfold numChanged at this
    have he := Finset.card_eq_zero.1 this.symm
    intro r hr
    by_contra hne
    have : r ∈ (Finset.range N).filter fun r => (tr (m - 1)).assign r ≠ (tr m).assign r :=
      Finset.mem_filter.2 ⟨Finset.mem_range.2 hr, hne⟩
    rw [he] at this
    simp at this
  have hm2 : m ≠ 1 := by
    rintro rfl
    have h := hsame 0 hn
    rw [show (1 - 1 : Nat) = 0 from rfl, htr.unassigned] at h
    obtain ⟨c, hc, _⟩ := (htr.step 0).assigned 0 hn
    rw [hc] at h
    simp at h
  obtain ⟨i, rfl⟩ : ∃ i, m = i + 2 := ⟨m - 2, by omega⟩
  rw [show i + 2 - 1 = i + 1 from rfl] at hsame
  have hcents : (tr (i + 2)).cents = (tr (i + 1)).cents := by
    funext c j
    rw [(htr.step (i + 1)).means, (htr.step i).means, memberMean_congr hsame]
  refine ⟨?_, ?_⟩
  · intro r hr
    obtain ⟨c, e, hcc⟩ := (htr.step (i + 1)).assigned r hr
    refine ⟨c, by rw [hag.assign r hr]; exact e, ?_⟩
    rw [hag.means, hcents]; exact hcc
  · intro c j
    rw [hag.means, (htr.step (i + 1)).means]
    exact (memberMean_congr hag.assign c j).symm

/-- The witness run ends with no change. -/
example : (run demoDist 1000 demoData 4 2 (-1) 100 demoSched demoInit).map
    (fun x => x.state.changed) = .ok 0 := by decide +kernel

/-- **C13.** From one iteration of the code to the next the within-cluster sum of squares does not
increase, for every metric that orders rows like the squared Euclidean distance.  (`s1` is the
state after some iteration, `s2` after the next one.) -/
theorem C13_wcss_monotone [Field R] [LinearOrder R] [IsStrictOrderedRing R] [LinearOrder D]
    (dist : Row R n → Row R n → D) (hd : LikeSq dist) (big : D) (data : Nat → Row R n)
    (N nt : Nat) (hn : 0 < N) (hlt : N < 4294967296) (hnt : 0 < nt) (sched1 sched2 : List Nat)
    (hc1 : Complete (effThreads nt N) (threadRows N nt) sched1)
    (hc2 : Complete (effThreads nt N) (threadRows N nt) sched2)
    (s0 s1 s2 : KState R k n)
    (h1 : iteration dist big data N nt sched1 s0 = .ok s1)
    (h2 : iteration dist big data N nt sched2 s1 = .ok s2) :
    wcss N data ⟨s2.cltrs.means, s2.assign⟩ ≤ wcss N data ⟨s1.cltrs.means, s1.assign⟩ := by
  have conv : ∀ (s s' : KState R k n) (sched : List Nat),
      Complete (effThreads nt N) (threadRows N nt) sched →
      iteration dist big data N nt sched s = .ok s' →
      LloydStep dist N data ⟨s.cltrs.means, s.assign⟩ ⟨s'.cltrs.means, s'.assign⟩ := by
    intro s s' sched hc h
    obtain ⟨hb, rfl⟩ := iteration_ok_closed hn hnt hlt hc h
    refine ⟨?_, fun c j => rfl⟩
    intro r hr
    obtain ⟨c, hcc⟩ := emScan_exists (hb r hr)
    exact ⟨c, by simp [newAssign, hr, hcc], emScan_some hcc⟩
  exact (lloyd_pair hd (conv _ _ _ hc1 h1) (conv _ _ _ hc2 h2)).1

/-- Distance used to show that `LikeSq` can be met: the squared Euclidean distance itself. -/
example : LikeSq (n := 3) (fun x y : Row ℚ 3 => ∑ j, (x j - y j) ^ 2) := fun _ _ _ => Iff.rfl

/-- **C14.** With a negative tolerance and enough iterations allowed (`k^N + 1` suffice), the run
stops by itself within `k^N + 1` iterations, with no row changing in the last one. -/
theorem C14_terminates [Field R] [LinearOrder R] [IsStrictOrderedRing R] [LinearOrder D]
    (dist : Row R n → Row R n → D) (hd : LikeSq dist) (big : D) (data : Nat → Row R n)
    (N nt : Nat) (hn : 0 < N) (hlt : N < 4294967296) (hnt : 0 < nt) (tol : R) (htol : tol < 0)
    (s0 : KState R k n) (sched : Nat → List Nat)
    (hc : ∀ i, Complete (effThreads nt N) (threadRows N nt) (sched i))
    (tr : Nat → Snap R k n) (htr : LloydTrace dist N data s0.cltrs.means tr)
    (hb : ∀ i r, r < N → ∃ c, dist (data r) ((tr i).cents c) < big)
    (maxIters : Nat) (hmax : k ^ N + 1 ≤ maxIters) :
    ∃ res, run dist big data N nt tol maxIters sched s0 = .ok res ∧
      res.iters ≤ k ^ N + 1 ∧ res.state.changed = 0 := by
  obtain ⟨i, hi1, hi2, hi3⟩ := lloyd_terminates hd htr.step
  obtain ⟨res, h1, _, h3⟩ := C10_C11_run_is_lloyd dist big data N nt tol maxIters s0 hn hlt hnt
    sched hc tr htr hb
  have hi3' : numChanged N (tr (i - 1)).assign (tr i).assign = 0 := hi3
  have hstop : StopsAt N tol tr i := Or.inl hi3'
  rcases h3 (by omega) with ⟨m, hm1, _, hm3, hm4, hm5, hag⟩ | ⟨hno, _, _⟩
  · refine ⟨res, h1, ?_, ?_⟩
    · rw [hm5]
      by_contra hgt
      exact hm4 i hi1 (by omega) hstop
    · rw [hag.changed]
      rcases hm3 with h | h
      · exact h
      · exfalso
        have : (0 : R) ≤ (numChanged N (tr (m - 1)).assign (tr m).assign : R) / (N : R) :=
          div_nonneg (Nat.cast_nonneg _) (Nat.cast_nonneg _)
        exact absurd (lt_of_le_of_lt h htol) (not_lt.2 this)
  · exact absurd hstop (hno i hi1 (by omega))

/-- Rows of a concrete instance of the hypotheses of C14: with the squared distance in `WithTop`
and `big = ⊤` every start and data set qualify. -/
example (data : Nat → Row ℚ 2) (cents0 : Fin 3 → Row ℚ 2) :
    let dist : Row ℚ 2 → Row ℚ 2 → WithTop ℚ := fun x y => ((∑ j, (x j - y j) ^ 2 : ℚ) : WithTop ℚ)
    LikeSq dist ∧ ∃ tr, LloydTrace dist 5 data cents0 tr ∧
      ∀ i r, r < 5 → ∃ c, dist (data r) ((tr i).cents c) < ⊤ := by
  intro dist
  refine ⟨fun x y z => WithTop.coe_le_coe, ?_⟩
  obtain ⟨tr, h⟩ := trace_exists dist 5 data cents0 (by decide)
  exact ⟨tr, h, fun i r _ => ⟨0, WithTop.coe_lt_top _⟩⟩

end Knor.Kmeans
