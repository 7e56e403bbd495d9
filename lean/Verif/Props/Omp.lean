import Mathlib.Algebra.Order.Field.Rat
import Verif.Lemmas.Omp
import Verif.Props.Kmeans
import Verif.Props.Prune

/-!
# Properties C37, C62: the OpenMP variant

`owner i r < T`: in iteration `i` the OpenMP runtime gives row `r` to one of its `T` threads.
`Complete T (rows N T (owner i)) (sched i)`: the interleaving lets every thread finish its rows.
-/

namespace Knor.Omp

open Knor Knor.Par Knor.Partition Knor.Spec

variable {R D S : Type _} {k n : Nat}

/-! ### C37 -/

/-- The full statement of C37 for the unpruned variant: whenever the Lloyd iterations from the
given centres do not meet the stopping rule within `M` iterations, the centroids returned for a
budget of `M` are those after `M` iterations. -/
def BudgetUsed (R D : Type _) [Field R] [LinearOrder R] [LinearOrder D]
    (dist : Row R n → Row R n → D) (big : D) (k : Nat) : Prop :=
  ∀ (data : Nat → Row R n) (N T M : Nat) (owner : Nat → Nat → Nat) (sched : Nat → List Nat) (tol : R)
    (s0 : Kmeans.KState R k n) (tr : Nat → Snap R k n),
    0 < N → N < 4294967296 → (∀ i r, r < N → owner i r < T) →
    (∀ i, Complete T (rows N T (owner i)) (sched i)) →
    LloydTrace dist N data s0.cltrs.means tr →
    (∀ i r, r < N → ∃ c, dist (data r) ((tr i).cents c) < big) →
    (∀ j, 1 ≤ j → j ≤ M → ¬ StopsAt N tol tr j) →
    ∃ res, run dist big data N T owner tol M sched s0 = .ok res ∧
      res.state.cltrs.means = (tr M).cents

/-- **C37 (partial).**  What the unpruned OpenMP variant does for a budget of `M + 1 ≥ 2`: it
follows the Lloyd iterations and uses at most `M` of them.  Missing: the last iteration of the
budget is never performed (`C37_violation`). -/
theorem C37_budget_partial [Field R] [LinearOrder R] [LinearOrder D]
    (dist : Row R n → Row R n → D) (big : D) (data : Nat → Row R n) (N T : Nat) (tol : R)
    (M : Nat) (hM : 0 < M) (s0 : Kmeans.KState R k n) (hn : 0 < N) (hlt : N < 4294967296)
    (owner : Nat → Nat → Nat) (ho : ∀ i r, r < N → owner i r < T) (sched : Nat → List Nat)
    (hc : ∀ i, Complete T (rows N T (owner i)) (sched i))
    (tr : Nat → Snap R k n) (htr : LloydTrace dist N data s0.cltrs.means tr)
    (hb : ∀ i r, r < N → ∃ c, dist (data r) ((tr i).cents c) < big) :
    ∃ res m, run dist big data N T owner tol (M + 1) sched s0 = .ok res ∧
      1 ≤ m ∧ m ≤ M ∧
      (∀ r, r < N → res.state.assign r = (tr m).assign r) ∧
      res.state.cltrs.means = (tr m).cents ∧
      (∀ c, res.state.counts c = (Spec.count N (tr m).assign c : Int)) ∧
      (∀ j, 1 ≤ j → j < m → ¬ StopsAt N tol tr j) ∧
      ((StopsAt N tol tr m ∧ res.iters = m) ∨
        (m = M ∧ ¬ StopsAt N tol tr M ∧ res.iters = M + 1)) := by
  have hcs : ∀ i : Nat, Complete (effThreads 1 N) (Kmeans.threadRows N 1)
      ((fun _ => List.replicate N 0) i) := by
    intro _ t ht
    have e1 : effThreads 1 N = 1 := by unfold effThreads; omega
    rw [e1] at ht
    have : t = 0 := by omega
    subst this
    have hsp := Kmeans.split_threadRows (N := N) (nt := 1) hn (by omega) hlt
    have hp := hsp.perm
    rw [e1] at hp
    simp only [List.range_one, List.flatMap_cons, List.flatMap_nil, List.append_nil] at hp
    rw [hp.length_eq]
    simp
  have he := run_eq (dist := dist) (big := big) (data := data) (tol := tol) (nt := 1)
    (sched' := fun _ => List.replicate N 0) hn (by omega) hlt ho hc hcs hM s0 s0 rfl
  obtain ⟨res', e, _, h⟩ := Kmeans.C10_C11_run_is_lloyd dist big data N 1 tol M s0 hn hlt (by omega)
    (fun _ => List.replicate N 0) hcs tr htr hb
  rw [e] at he
  cases hr : run dist big data N T owner tol (M + 1) sched s0 with
  | error x => rw [hr] at he; simp [Except.map] at he
  | ok res =>
    rw [hr] at he
    simp only [Except.map, Except.ok.injEq, report, Report.mk.injEq] at he
    obtain ⟨i1, i2, i3, i4⟩ := he
    rcases h hM with ⟨m, h1, h2, h3, h4, h5, h6⟩ | ⟨h4, h5, h6⟩
    · refine ⟨res, m, rfl, h1, h2, ?_, ?_, ?_, h4, Or.inl ⟨h3, by rw [i1, h5]⟩⟩
      · intro r hr; rw [i2]; exact h6.assign r hr
      · rw [i4]; exact h6.means
      · intro c; rw [i3]; exact h6.counts c
    · refine ⟨res, M, rfl, hM, le_refl _, ?_, ?_, ?_, fun j h1 h2 => h4 j h1 (by omega),
        Or.inr ⟨rfl, h4 M hM (le_refl _), by rw [i1, h5]⟩⟩
      · intro r hr; rw [i2]; exact h6.assign r hr
      · rw [i4]; exact h6.means
      · intro c; rw [i3]; exact h6.counts c

/-- **C37 (violated).**  With a budget of 1 (or 0) the unpruned OpenMP variant performs no
iteration at all, on any data set: it returns the state left by the initialisation. -/
theorem C37_budget_one_does_nothing [Field R] [LinearOrder R] [LinearOrder D]
    (dist : Row R n → Row R n → D) (big : D) (data : Nat → Row R n) (N T : Nat) (tol : R)
    (M : Nat) (hM : M ≤ 1) (s0 : Kmeans.KState R k n) (owner : Nat → Nat → Nat)
    (sched : Nat → List Nat) :
    run dist big data N T owner tol M sched s0 = .ok ⟨M, { s0 with changed := 0 }⟩ := by
  unfold run
  have : M = 0 ∨ M = 1 := by omega
  rcases this with rfl | rfl
  · rfl
  · rw [if_pos (by omega), loop, if_neg (by omega)]

/-- Two threads, rows 0 and 3 to thread 1. -/
def demoOwner (_ r : Nat) : Nat := if r = 0 ∨ r = 3 then 1 else 0

/-- The witness of C37 meets the hypotheses about threads. -/
theorem demo_complete : (∀ i r, r < 4 → demoOwner i r < 2) ∧
    ∀ i, Complete 2 (rows 4 2 (demoOwner i)) (Kmeans.demoSched i ++ [0, 1]) := by
  refine ⟨fun i r _ => by unfold demoOwner; split <;> omega, fun i t ht => ?_⟩
  have : t = 0 ∨ t = 1 := by omega
  rcases this with rfl | rfl <;>
    (show (rows 4 2 (demoOwner 0) _).length ≤ _; simp only [Kmeans.demoSched]; decide)

/-- The witness of `C37_budget_partial`: on rows 0, 1, 10, 12 from centres 0 and 1 a budget of 4
is needed for the three iterations the pthread variant does with a budget of 3. -/
example :
    (run Kmeans.demoDist 1000 Kmeans.demoData 4 2 demoOwner (-1) 4
      (fun i => Kmeans.demoSched i ++ [0, 1]) Kmeans.demoInit).map (fun x =>
      (x.iters, (List.range 4).map x.state.assign, x.state.counts 0,
        x.state.cltrs.means 0 0, x.state.cltrs.means 1 0))
      = .ok (3, [some 0, some 0, some 1, some 1], 2, 1/2, 11) ∧
    (run Kmeans.demoDist 1000 Kmeans.demoData 4 2 demoOwner (-1) 2
      (fun i => Kmeans.demoSched i ++ [0, 1]) Kmeans.demoInit).map (fun x =>
      (x.iters, (List.range 4).map x.state.assign, x.state.counts 0))
      = .ok (2, [some 0, some 1, some 1, some 1], 1) := by
  decide +kernel

/-- **C37 (violated).**  The full statement fails: rows 0, 1, 10, 12, centres 0 and 1, budget 1. -/
theorem C37_violation : ¬ BudgetUsed ℚ ℚ Kmeans.demoDist 1000 2 := by
  intro h
  obtain ⟨tr, htr⟩ := Kmeans.trace_exists Kmeans.demoDist 4 Kmeans.demoData
    Kmeans.demoInit.cltrs.means (by omega)
  have hb : ∀ i r, r < 4 →
      ∃ c, Kmeans.demoDist (Kmeans.demoData r) ((tr i).cents c) < (1000 : ℚ) := by
    -- every centroid of the trace lies between 0 and 12
    have bound : ∀ i c, 0 ≤ (tr i).cents c 0 ∧ (tr i).cents c 0 ≤ 12 := by
      intro i
      cases i with
      | zero =>
        intro c; rw [htr.cents]
        simp only [Kmeans.demoInit, Clusters.setMeans]
        split <;> constructor <;> decide +kernel
      | succ i =>
        intro c
        rw [(htr.step i).means]
        unfold memberMean
        have hd : ∀ r, 0 ≤ Kmeans.demoData r 0 ∧ Kmeans.demoData r 0 ≤ 12 := by
          intro r; unfold Kmeans.demoData
          split
          · constructor <;> decide +kernel
          · split
            · constructor <;> decide +kernel
            · split <;> constructor <;> decide +kernel
        have hs0 : 0 ≤ memberSum 4 Kmeans.demoData (tr (i + 1)).assign c 0 :=
          Finset.sum_nonneg fun r _ => (hd r).1
        have hs1 : memberSum 4 Kmeans.demoData (tr (i + 1)).assign c 0 ≤
            (Spec.count 4 (tr (i + 1)).assign c : ℚ) * 12 := by
          unfold memberSum Spec.count
          rw [← nsmul_eq_mul]
          exact Finset.sum_le_card_nsmul _ _ _ fun r _ => (hd r).2
        split
        · exact ⟨le_refl _, by decide +kernel⟩
        · rename_i h0
          have hpos : (0 : ℚ) < (Spec.count 4 (tr (i + 1)).assign c : ℚ) := by
            exact_mod_cast Nat.pos_of_ne_zero h0
          constructor
          · exact div_nonneg hs0 hpos.le
          · rw [div_le_iff₀ hpos, mul_comm]; exact hs1
    intro i r hr
    refine ⟨0, ?_⟩
    obtain ⟨b1, b2⟩ := bound i 0
    unfold Kmeans.demoDist
    have hd : 0 ≤ Kmeans.demoData r 0 ∧ Kmeans.demoData r 0 ≤ 12 := by
      unfold Kmeans.demoData
      split
      · constructor <;> decide +kernel
      · split
        · constructor <;> decide +kernel
        · split <;> constructor <;> decide +kernel
    split <;> linarith [hd.1, hd.2]
  -- in iteration 1 all rows change
  have hns : ∀ j, 1 ≤ j → j ≤ 1 → ¬ StopsAt 4 (-1 : ℚ) tr j := by
    intro j h1 h2 hst
    have : j = 1 := by omega
    subst this
    rcases hst with h0 | h0
    · unfold numChanged at h0
      rw [Finset.card_eq_zero, Finset.filter_eq_empty_iff] at h0
      have := h0 (x := 0) (by simp)
      obtain ⟨c, e, _⟩ := (htr.step 0).assigned 0 (by omega)
      rw [show (1 : Nat) - 1 = 0 from rfl, htr.unassigned, e] at this
      simp at this
    · have : (0 : ℚ) ≤ (numChanged 4 (tr (1 - 1)).assign (tr 1).assign : ℚ) / ((4 : Nat) : ℚ) := by
        positivity
      linarith
  obtain ⟨res, e, hm⟩ := h Kmeans.demoData 4 2 1 demoOwner (fun i => Kmeans.demoSched i ++ [0, 1])
    (-1) Kmeans.demoInit tr (by omega) (by omega) demo_complete.1 demo_complete.2 htr hb hns
  rw [C37_budget_one_does_nothing Kmeans.demoDist 1000 Kmeans.demoData 4 2 (-1) 1 (le_refl _)] at e
  simp only [Except.ok.injEq] at e
  rw [← e] at hm
  -- the centroid of cluster 1 moves from 1 to 23/3
  have hit := Kmeans.iteration_follows (R := ℚ) (D := ℚ) (dist := Kmeans.demoDist) (big := 1000)
    (data := Kmeans.demoData) (N := 4) (nt := 2) (sched := Kmeans.demoSched 1)
    (s := Kmeans.demoInit) (p := tr 0) (q := tr 1) (by omega) (by omega) (by omega)
    (by
      intro t ht
      have : t = 0 ∨ t = 1 := by
        have : effThreads 2 4 = 2 := by decide
        omega
      rcases this with rfl | rfl <;> (unfold Kmeans.demoSched; decide))
    (hb 0) (htr.step 0) (fun r _ => by rw [htr.unassigned]; rfl) htr.cents.symm
  obtain ⟨s', e', ha⟩ := hit
  have hval : (Kmeans.iteration Kmeans.demoDist 1000 Kmeans.demoData 4 2 (Kmeans.demoSched 1)
      Kmeans.demoInit).map (fun s => s.cltrs.means 1 0) = .ok (23/3 : ℚ) := by decide +kernel
  rw [e'] at hval
  simp only [Except.map, Except.ok.injEq] at hval
  rw [ha.means, ← hm] at hval
  have h1 : Kmeans.demoInit.cltrs.means 1 0 = (1 : ℚ) := by decide +kernel
  have h2 : ({ Kmeans.demoInit with changed := 0 } : Kmeans.KState ℚ 2 1).cltrs.means 1 0
      = Kmeans.demoInit.cltrs.means 1 0 := rfl
  rw [h2, h1] at hval
  exact absurd hval (by decide +kernel)

/-! ### C62 -/

/-- The numbers that the generator returns are row numbers. -/
def Start.InRange (N : Nat) : Start R D S k n → Prop
  | .none _ => True
  | .forgy draw _ => ∀ s, (draw s).1 < N
  | .random _ _ => True
  | .kpp first _ => first < N

/-- **C62 (unpruned).**  For every data set and every initialisation (with the same random
numbers), the OpenMP variant with budget `M + 1` and the pthread variant with budget `M ≥ 1` return
the same iteration number, assignments, sizes and centroids (or both fail in the same way),
whatever the threads, schedules and the distribution of rows over OpenMP threads. -/
theorem C62_same_as_pthread [Field R] [LinearOrder R] [Field D] [LinearOrder D]
    (dist : Row R n → Row R n → D) (big : D) (data : Nat → Row R n) (N nt T : Nat) (tol : R)
    (M : Nat) (hM : 0 < M) (hk : 2 ≤ k) (hkN : k ≤ N) (hlt : N < 4294967296) (hnt : 0 < nt)
    (ko owner : Nat → Nat → Nat) (hko : ∀ i r, r < N → ko i r < T)
    (ho : ∀ i r, r < N → owner i r < T) (ks sched ks' sched' : Nat → List Nat)
    (hks : ∀ i, Complete T (rows N T (ko i)) (ks i))
    (hc : ∀ i, Complete T (rows N T (owner i)) (sched i))
    (hks' : ∀ i, Complete (effThreads nt N) (Kmeans.threadRows N nt) (ks' i))
    (hc' : ∀ i, Complete (effThreads nt N) (Kmeans.threadRows N nt) (sched' i))
    (start : Start R D S k n) (hst : start.InRange N) :
    (compute dist big data N T ko ks owner tol (M + 1) sched start).map report =
      (pthread dist big data N nt ks' tol M sched' start).map report := by
  have hn : 0 < N := by omega
  unfold compute pthread
  rw [if_neg (by omega)]
  cases start with
  | none centers =>
    exact run_eq hn hnt hlt ho hc hc' hM _ _ rfl
  | forgy draw seed =>
    simp only [initState]
    unfold Init.forgy
    rw [forgyLoop_eq draw hnt hlt hst]
    exact run_eq hn hnt hlt ho hc hc' hM _ _ rfl
  | random draw seed =>
    simp only [initState]
    rw [random_eq draw hnt hlt]
    exact run_eq hn hnt hlt ho hc hc' hM _ _ rfl
  | kpp first u =>
    simp only [initState]
    rw [kpp_eq (nt := nt) (sched' := ks') hnt hlt hko hks
      (Kmeans.split_threadRows hn hnt hlt) hks' hst]
    cases Init.kpp dist data N nt (effThreads nt N) (Kmeans.threadRows N nt) ks' first u
      ⟨Clusters.empty, fun _ => ⟨big, none⟩⟩ with
    | error e => rfl
    | ok s => exact run_eq hn hnt hlt ho hc hc' hM _ _ rfl

/-- Both unpruned variants on rows 0, 1, 10, 12 with k-means++ starting from row 1 and with Forgy,
two threads each: the hypotheses of C62 are met by `demo_complete` and the schedules of C10. -/
example :
    ((compute (S := Nat) (k := 2) Kmeans.demoDist 1000 Kmeans.demoData 4 2 demoOwner
      (fun i => Kmeans.demoSched i ++ [0, 1]) demoOwner (-1 : ℚ) 3
      (fun i => Kmeans.demoSched i ++ [0, 1]) (.kpp 1 fun _ => 1/2)).map report).map (fun x =>
        ((List.range 4).map x.assign, x.iters)) =
    ((pthread (S := Nat) (k := 2) Kmeans.demoDist 1000 Kmeans.demoData 4 2 Kmeans.demoSched (-1 : ℚ) 2
      Kmeans.demoSched (.kpp 1 fun _ => 1/2)).map report).map (fun x =>
        ((List.range 4).map x.assign, x.iters)) ∧
    ((compute (D := ℚ) (k := 2) Kmeans.demoDist 1000 Kmeans.demoData 4 2 demoOwner
      (fun i => Kmeans.demoSched i ++ [0, 1]) demoOwner (-1 : ℚ) 4
      (fun i => Kmeans.demoSched i ++ [0, 1]) (.forgy (fun s : Nat => (s % 4, s + 1)) 0)).map
        report).map (fun x => ((List.range 4).map x.assign, x.iters))
      = .ok ([some 0, some 0, some 1, some 1], 3) := by
  decide +kernel

/-- **C62 (argument check).**  The OpenMP variant refuses a number of clusters below 2 or above the
number of rows before it touches anything. -/
theorem C62_bad_k_rejected [Field R] [LinearOrder R] [Field D] [LinearOrder D]
    (dist eucl : Row R n → Row R n → D) (big : D) (data : Nat → Row R n) (N T M : Nat) (tol : R)
    (hk : k < 2 ∨ N < k) (ko owner : Nat → Nat → Nat) (ks sched : Nat → List Nat)
    (start : Start R D S k n) :
    compute dist big data N T ko ks owner tol M sched start = .error .throws ∧
    computeP dist eucl big data N T ko ks owner tol M sched start = .error .throws := by
  unfold compute computeP
  rw [if_pos (by omega)]
  exact ⟨rfl, by rw [if_pos (by omega)]⟩

/-- Not k-means++. -/
def Start.Plain : Start R D S k n → Prop
  | .kpp _ _ => False
  | _ => True

/-- **C62 (pruned, partial).**  The same for the pruned variants and every initialisation except
k-means++, for which the two can differ (`C62_violation_pruned_kmeanspp`). -/
theorem C62_pruned_same_as_pthread_partial [Field R] [LinearOrder R] [Field D] [LinearOrder D]
    (dist eucl : Row R n → Row R n → D) (big : D) (data : Nat → Row R n) (N nt T : Nat) (tol : R)
    (M : Nat) (hM : 0 < M) (hk : 2 ≤ k) (hkN : k ≤ N) (hlt : N + 8192 < 4294967296) (hnt : 0 < nt)
    (ko owner : Nat → Nat → Nat)
    (ho : ∀ i r, r < N → owner i r < T) (ks sched ks' sched' : Nat → List Nat)
    (hc : ∀ i, Complete T (rows N T (owner i)) (sched i))
    (hc' : ∀ i, Complete (effThreads nt N) (Prune.taskRows N nt) (sched' i))
    (start : Start R D S k n) (hst : start.InRange N) (hp : start.Plain) :
    (computeP dist eucl big data N T ko ks owner tol (M + 1) sched start).map reportP =
      (pthreadP dist eucl big data N nt ks' tol M sched' start).map reportP := by
  have hn : 0 < N := by omega
  obtain ⟨m, em, wm, _⟩ := DistMatrix.create_wf (big := big) (k := k) (by omega)
  unfold computeP pthreadP Prune.construct initStateP
  rw [if_neg (by omega), em]
  cases start with
  | none centers =>
    simp only [initState]
    obtain ⟨m1, sv1, e1, w1⟩ := Prune.computeDm_wf (eucl := eucl) (big := big)
      (s := ({ cltrs := Clusters.empty.setMeans centers
               prevMeans := fun _ _ => 0, prevDist := fun _ => 0, sval := fun _ => big, dm := m
               slots := fun _ => ⟨Option.none, big, false⟩, counts := fun _ => 0
               changed := 0 } : Prune.PState R D k n)) (by omega) wm
    rw [e1]
    exact runP_eq (by omega) hn hnt hlt ho hc hc' hM _ m1 sv1 wm w1
  | forgy draw seed =>
    simp only [initState]
    unfold Init.forgy
    rw [forgyLoop_eq draw hnt (by omega) hst]
    exact runP_eq (by omega) hn hnt hlt ho hc hc' hM
      { cltrs := forgyLoop draw data (List.finRange k) seed Clusters.empty
        prevMeans := fun _ _ => 0, prevDist := fun _ => 0, sval := fun _ => big, dm := m
        slots := fun _ => ⟨Option.none, big, false⟩
        counts := fun _ => 0, changed := 0 } m (fun _ => big) wm wm
  | random draw seed =>
    simp only [initState]
    rw [random_eq draw hnt (by omega)]
    exact runP_eq (by omega) hn hnt hlt ho hc hc' hM
      { cltrs := (randomLoop draw data (List.range N) seed Clusters.empty
          fun _ => Option.none).1.finalizeAll
        prevMeans := fun _ _ => 0, prevDist := fun _ => 0, sval := fun _ => big, dm := m
        slots := fun r => ⟨(randomLoop draw data (List.range N) seed Clusters.empty
          fun _ => Option.none).2 r, big, false⟩
        counts := fun _ => 0, changed := 0 } m (fun _ => big) wm wm
  | kpp first u => exact hp.elim

/-- What is shown of a report. -/
structure Seen where
  iters : Nat
  assign : List (Option (Fin 2))
  sizes : List Int
  cents : List ℚ
  deriving DecidableEq

/-- The visible part of a run with two clusters in one dimension. -/
def seen (N : Nat) (x : Res (Prune.Result ℚ ℚ 2 1)) : Res Seen :=
  (x.map reportP).map fun x => ⟨x.iters, (List.range N).map x.assign, [x.counts 0, x.counts 1],
    [x.means 0 0, x.means 1 0]⟩

/-- Both variants on rows 0, 1, 10, 12 from given centres: the pthread budget 2 is the OpenMP
budget 3. -/
example :
    seen 4 (computeP (S := Nat) Prune.abs1 Prune.abs1 1000 (Prune.rows1 [0, 1, 10, 12]) 4 2
      demoOwner (fun i => Kmeans.demoSched i ++ [0, 1]) demoOwner (-1 : ℚ) 3
      (fun i => Kmeans.demoSched i ++ [0, 1]) (.none (Prune.two 0 1)))
      = .ok ⟨3, [some 0, some 0, some 1, some 1], [2, 2], [1/2, 11]⟩ ∧
    seen 4 (pthreadP (S := Nat) Prune.abs1 Prune.abs1 1000 (Prune.rows1 [0, 1, 10, 12]) 4 2
      Kmeans.demoSched (-1 : ℚ) 2 Kmeans.demoSched (.none (Prune.two 0 1)))
      = .ok ⟨3, [some 0, some 0, some 1, some 1], [2, 2], [1/2, 11]⟩ := by
  decide +kernel

/-- The full statement of C62 for the pruned variant with k-means++. -/
def SamePrunedKmeanspp : Prop :=
  ∀ (data : Nat → Row ℚ 1) (N nt T M : Nat) (owner : Nat → Nat → Nat) (sched sched' : Nat → List Nat)
    (first : Nat) (u : Nat → ℚ), 2 ≤ N → N < 1000 → 0 < M → 0 < nt → first < N →
    (∀ i, 0 ≤ u i ∧ u i < 1) →
    (∀ i r, r < N → owner i r < T) → (∀ i, Complete T (rows N T (owner i)) (sched i)) →
    (∀ i, Complete (effThreads nt N) (Prune.taskRows N nt) (sched' i)) →
    (computeP (S := Nat) (k := 2) Prune.abs1 Prune.abs1 1000 data N T owner sched owner (-1 : ℚ)
      (M + 1) sched (.kpp first u)).map reportP =
    (pthreadP (S := Nat) Prune.abs1 Prune.abs1 1000 data N nt sched' (-1 : ℚ) M sched'
      (.kpp first u)).map reportP

/-- **C62 (violated for the pruned variant with k-means++).**  On three equal rows and two clusters
k-means++ picks the same row twice; the pthread variant then keeps row 0 in cluster 1, the OpenMP
variant puts every row into cluster 0. -/
theorem C62_violation_pruned_kmeanspp : ¬ SamePrunedKmeanspp := by
  intro h
  have := h (fun _ _ => 5) 3 1 1 1 (fun _ _ => 0) (fun _ => [0, 0, 0]) (fun _ => [0, 0, 0]) 0
    (fun _ => 1/2) (by omega) (by omega) (by omega) (by omega) (by omega)
    (fun _ => by constructor <;> decide +kernel) (fun _ _ _ => by omega)
    (fun i t ht => by
      have : t = 0 := by omega
      subst this; decide)
    (fun i t ht => by
      have : t = 0 := by
        have : effThreads 1 3 = 1 := by decide
        omega
      subst this; decide)
  have e := congrArg (fun x => x.map fun y => y.assign 0) this
  have e1 : ((computeP (S := Nat) (k := 2) Prune.abs1 Prune.abs1 1000 (fun _ _ => 5) 3 1
      (fun _ _ => 0) (fun _ => [0, 0, 0]) (fun _ _ => 0) (-1 : ℚ) (1 + 1) (fun _ => [0, 0, 0])
      (.kpp 0 fun _ => 1/2)).map reportP).map (fun y => y.assign 0) = .ok (some 0) := by
    decide +kernel
  have e2 : ((pthreadP (S := Nat) (k := 2) Prune.abs1 Prune.abs1 1000 (fun _ _ => 5) 3 1
      (fun _ => [0, 0, 0]) (-1 : ℚ) 1 (fun _ => [0, 0, 0])
      (.kpp 0 fun _ => 1/2)).map reportP).map (fun y => y.assign 0) = .ok (some 1) := by
    decide +kernel
  rw [e1, e2] at e
  simp at e

end Knor.Omp
