import Mathlib.Algebra.Order.Field.Rat
import Verif.Lemmas.DistrPrune
import Verif.Spec.Lloyd

/-!
# Properties C26 and C21: distributed k-means

`procs p` is the state of MPI rank `p`; its local row `r` is global row `p*(g/np) + r` (C04).
-/

namespace Knor.Distr

open Knor Knor.Par Knor.Partition Knor.Spec

variable {R D : Type _} {k n : Nat}

/-- Every interleaving of every rank's threads lets them finish. -/
def SchedOk (g np nt : Nat) (sched : Nat → Nat → List Nat) : Prop :=
  ∀ i p, p < np → Complete (effThreads nt (procNrow g np p))
    (Kmeans.threadRows (procNrow g np p) nt) (sched i p)

/-- **C26.**  Start every rank with the same centroids.  For every number of ranks not exceeding the
number of rows, every number of threads and every interleaving, the distributed run returns
normally and performs `m` iterations of the serial Lloyd run on the whole data set, where `m` is the
first iteration meeting the stopping rule, or `maxIters` if none does; afterwards *every* rank holds
the serial centroids, sizes and change count, each rank's assignments are those of its rows, and the
vector gathered by the root is the serial assignment of all rows. -/
theorem C26_distributed_is_lloyd [Field R] [LinearOrder R] [LinearOrder D]
    (dist : Row R n → Row R n → D) (big : D) (data : Nat → Row R n) (g np nt : Nat) (tol : R)
    (maxIters : Nat) (cents0 : Fin k → Row R n) (procs : Nat → Kmeans.KState R k n)
    (hnp : 0 < np) (hg : np ≤ g) (hlt : g < 4294967296) (hnt : 0 < nt)
    (hp0 : ∀ p, p < np → (procs p).cltrs.means = cents0)
    (sched : Nat → Nat → List Nat) (hc : SchedOk g np nt sched)
    (tr : Nat → Snap R k n) (htr : LloydTrace dist g data cents0 tr)
    (hb : ∀ i r, r < g → ∃ c, dist (data r) ((tr i).cents c) < big) (hmax : 0 < maxIters) :
    ∃ res v, run dist big data g np nt tol maxIters sched procs = .ok res ∧
      gather g np (fun p => (res.procs p).assign) = .ok v ∧
      1 ≤ res.iters ∧ res.iters ≤ maxIters ∧
      (∀ j, 1 ≤ j → j < res.iters → ¬ StopsAt g tol tr j) ∧
      (StopsAt g tol tr res.iters ∨ res.iters = maxIters) ∧
      (∀ r, r < g → v r = (tr res.iters).assign r) ∧
      ∀ p, p < np →
        (res.procs p).cltrs.means = (tr res.iters).cents ∧
        (∀ c, (res.procs p).counts c = (Spec.count g (tr res.iters).assign c : Int)) ∧
        (res.procs p).changed =
          numChanged g (tr (res.iters - 1)).assign (tr res.iters).assign ∧
        ∀ r, r < procNrow g np p →
          (res.procs p).assign r = (tr res.iters).assign (p * (g / np) + r) := by
  let Inv : Nat → (Nat → Kmeans.KState R k n) → Prop := fun i ps =>
    (∀ p, p < np → (ps p).cltrs.means = (tr i).cents) ∧
    (∀ j, 1 ≤ j → j < i → ¬ StopsAt g tol tr j) ∧
    (i ≠ 0 → ∀ p, p < np →
      (∀ r, r < procNrow g np p → (ps p).assign r = (tr i).assign (off g np p + r)) ∧
      (∀ c, (ps p).counts c = (Spec.count g (tr i).assign c : Int)) ∧
      (ps p).changed = numChanged g (tr (i - 1)).assign (tr i).assign)
  unfold run
  rw [construct_ok hnp hg]
  simp only
  obtain ⟨res, e, ⟨i1, i2, i3⟩, _, h2, h3⟩ := loop_inv
    (stop := fun s : Kmeans.KState R k n => Kmeans.convTest g tol s.changed)
    (body := fun i procs =>
        let procs1 := if i = 0 then fun p => { procs p with assign := fun _ => none } else procs
        iteration dist big data g np nt (sched i) procs1) hnp hmax Inv
    (by
      rintro i ps hi ⟨j1, j2, j3⟩ hst
      simp only
      set ps1 : Nat → Kmeans.KState R k n :=
        if i = 0 then fun p => { ps p with assign := fun _ => none } else ps with hps1
      have hsync : Sync g np (tr i).assign (tr i).cents ps1 := by
        by_cases hi0 : i = 0
        · subst hi0
          refine ⟨?_, ?_⟩
          · intro p r _ _; simp only [hps1, if_true]; exact (htr.unassigned _).symm
          · intro p hp; simp only [hps1, if_true]; exact j1 p hp
        · rw [hps1, if_neg hi0]
          exact ⟨fun p r hp hr => (j3 hi0 p hp).1 r hr, j1⟩
      obtain ⟨ps', e', s', c'⟩ := iteration_closed (big := big) hnp hg hnt hlt (hc i) hsync (hb i)
      have hnew : ∀ r, r < g →
          Kmeans.newAssign dist big data g (tr i).cents (tr i).assign r = (tr (i + 1)).assign r := by
        intro r hr
        obtain ⟨c, h1, h2⟩ := (htr.step i).assigned r hr
        unfold Kmeans.newAssign
        rw [if_pos hr, h1]
        exact Kmeans.emScan_eq_of_first (hb i r hr) h2
      refine ⟨ps', e', ⟨?_, ?_, ?_⟩, ?_⟩
      · intro p hp
        rw [(c' p hp).1]
        funext c j
        simp only [Kmeans.clustersOf]
        rw [(htr.step i).means c j, Kmeans.memberMean_congr' hnew]
      · intro j hj1 hj2
        by_cases hji : j = i
        · subst hji
          have hi0 : j ≠ 0 := by omega
          rcases hst with h | h
          · exact absurd h hi0
          · intro hstop
            have : Kmeans.convTest g tol (ps 0).changed = true := by
              rw [Kmeans.convTest_iff, (j3 hi0 0 hnp).2.2]; exact hstop
            rw [h] at this
            simp at this
        · exact j2 j hj1 (by omega)
      · intro _ p hp
        refine ⟨?_, ?_, ?_⟩
        · intro r hr
          rw [s'.assign p r hp hr]
          exact hnew _ (off_lt hp hr)
        · intro c; rw [(c' p hp).2.1 c, Kmeans.count_congr hnew]
        · rw [(c' p hp).2.2]
          exact Kmeans.numChanged_congr (fun _ _ => rfl) hnew
      · intro p hp
        rw [(c' p hp).2.2, (c' 0 hnp).2.2])
    maxIters 0 procs (by omega) (by omega)
    ⟨fun p hp => by rw [hp0 p hp, htr.cents], fun j h1 h2 => by omega, fun h => absurd rfl h⟩
    (Or.inl rfl)
  have hit : res.iters ≠ 0 := by
    rcases h3 with ⟨h, _⟩ | ⟨h, _⟩ <;> omega
  obtain ⟨v, ev, hv⟩ := gather_eq (g := g) hnp (fun p => (res.procs p).assign)
  refine ⟨res, v, e, ev, by omega, h2, i2, ?_, ?_, ?_⟩
  · rcases h3 with ⟨h, _⟩ | ⟨_, h⟩
    · exact Or.inr h
    · left
      have := (Kmeans.convTest_iff g tol _).1 h
      rw [(i3 hit 0 hnp).2.2] at this
      exact this
  · intro r hr
    obtain ⟨p, q, hp, hq, rfl⟩ := exists_off hnp hr
    rw [hv p q hp hq]
    exact (i3 hit p hp).1 q hq
  · intro p hp
    exact ⟨i1 p hp, (i3 hit p hp).2.1, (i3 hit p hp).2.2, (i3 hit p hp).1⟩

/-- With `maxIters = 0` nothing happens. -/
theorem C26_no_iterations [Field R] [LinearOrder R] [LinearOrder D]
    (dist : Row R n → Row R n → D) (big : D) (data : Nat → Row R n) (g np nt : Nat) (tol : R)
    (procs : Nat → Kmeans.KState R k n) (hnp : 0 < np) (hg : np ≤ g)
    (sched : Nat → Nat → List Nat) :
    run dist big data g np nt tol 0 sched procs = .ok ⟨0, procs⟩ := by
  unfold run
  rw [construct_ok hnp hg]
  rfl

/-- The restriction to at most as many ranks as rows is needed: with 3 ranks and 2 rows, rank 0 has
no row and its constructor divides by zero. -/
theorem C26_limit_fewer_rows_than_ranks [Field R] [LinearOrder R] [LinearOrder D]
    (dist : Row R n → Row R n → D) (big : D) (data : Nat → Row R n) (nt : Nat) (tol : R)
    (maxIters : Nat) (procs : Nat → Kmeans.KState R k n) (sched : Nat → Nat → List Nat) :
    run dist big data 2 3 nt tol maxIters sched procs = .error .ub := by
  unfold run
  rfl

/-! ### C21: the pruned distributed version -/

/-- Every interleaving of every rank's threads lets them finish (task queues). -/
def TaskSchedOk (g np nt : Nat) (sched : Nat → Nat → List Nat) : Prop :=
  ∀ i p, p < np → Complete (effThreads nt (procNrow g np p))
    (Prune.taskRows (procNrow g np p) nt) (sched i p)

/-- The run from any state that the ranks share and in which every row has a bound that a centroid undercuts, or
the distance to its own centroid. -/
theorem runPruned_from [Field R] [LinearOrder R] [CharZero R] [Field D]
    [LinearOrder D] [IsStrictOrderedRing D] (eucl : Row R n → Row R n → D)
    (hsym : ∀ x y, eucl x y = eucl y x) (htri : ∀ x y z, eucl x z ≤ eucl x y + eucl y z)
    (big : D) (data : Nat → Row R n) (g np nt : Nat) (tol : R) (maxIters : Nat)
    (hk : 2 ≤ k) (hnp : 0 < np) (hg : np ≤ g) (hlt : g + 8192 < 4294967296) (hnt : 0 < nt)
    (centers : Fin k → Row R n) (procs : Nat → DProc R D k n) (s0 : Prune.PState R D k n)
    (hrel0 : Rel g np procs s0) (hwf0 : DistMatrix.WF k s0.dm) (hm0 : s0.cltrs.means = centers)
    (sched : Nat → Nat → List Nat) (hc : TaskSchedOk g np nt sched)
    (hrow0 : ∀ r, r < g → (∃ c, eucl (data r) (s0.cltrs.means c) < (s0.slots r).ub) ∨
      ∃ c, (s0.slots r).assign = some c ∧ (s0.slots r).ub = eucl (data r) (s0.cltrs.means c))
    (hmax : 0 < maxIters) :
    ∃ res v tr, runPruned eucl eucl big data g np nt tol maxIters sched procs = .ok res ∧
      gather g np (fun p r => ((res.procs p).core.slots r).assign) = .ok v ∧
      1 ≤ res.iters ∧ res.iters ≤ maxIters ∧
      LloydRunAnyTie eucl g data centers res.iters tr ∧
      (∀ j, 1 ≤ j → j < res.iters → ¬ StopsAt g tol tr j) ∧
      (StopsAt g tol tr res.iters ∨ res.iters = maxIters) ∧
      (∀ r, r < g → v r = (tr res.iters).assign r) ∧
      (∀ p, p < np →
        (res.procs p).core.cltrs.means = (tr res.iters).cents ∧
        (∀ c, (res.procs p).core.counts c = (Spec.count g v c : Int)) ∧
        (res.procs p).core.changed =
          numChanged g (tr (res.iters - 1)).assign (tr res.iters).assign ∧
        (∀ r, r < procNrow g np p →
          ((res.procs p).core.slots r).assign = v (p * (g / np) + r)) ∧
        ((res.procs p).core.changed = 0 → ∀ r, r < g → ∃ a, v r = some a ∧
          IsNearest (fun c => eucl (data r) ((res.procs p).core.cltrs.means c)) a)) := by
  have hgpos : 0 < g := by omega
  let Inv : Nat → (Nat → DProc R D k n) → Prop := fun i ps =>
    ∃ s tr, Rel g np ps s ∧ DistMatrix.WF k s.dm ∧ LloydRunAnyTie eucl g data centers i tr ∧
      s.cltrs.means = (tr i).cents ∧
      (i = 0 → ∀ r, r < g → (∃ c, eucl (data r) (s.cltrs.means c) < (s.slots r).ub) ∨
        ∃ c, (s.slots r).assign = some c ∧ (s.slots r).ub = eucl (data r) (s.cltrs.means c)) ∧
      (∀ j, 1 ≤ j → j < i → ¬ StopsAt g tol tr j) ∧
      (i ≠ 0 → Prune.Good eucl data g s ∧
        (∀ r, r < g → (s.slots r).assign = (tr i).assign r) ∧
        (∀ c, s.counts c = (Spec.count g (tr i).assign c : Int)) ∧
        s.changed = numChanged g (tr (i - 1)).assign (tr i).assign ∧
        (s.changed = 0 → (tr i).cents = (tr (i - 1)).cents))
  have hstart : Inv 0 procs :=
    ⟨s0, fun _ => ⟨centers, fun _ => none⟩, hrel0, hwf0, ⟨rfl, fun _ => rfl, fun i hi => by omega⟩, hm0,
      fun _ => hrow0, fun j h1 h2 => by omega, fun h => absurd rfl h⟩
  unfold runPruned
  rw [construct_ok hnp hg]
  simp only
  obtain ⟨res, e, ⟨s, tr, hrel, hwf, htr, hmeans, _, hns, hge⟩, _, h2, h3⟩ := loop_inv
    (stop := fun s : DProc R D k n => Kmeans.convTest g tol s.core.changed)
    (body := fun i => iterationPruned eucl eucl big data g np nt (decide (i = 0)) (sched i))
    hnp hmax Inv
    (by
      rintro i ps hi ⟨s, tr, hrel, hwf, htr, hmeans, hub, hns, hge⟩ hst
      obtain ⟨s', ps', e', hrel', hgood', hpm, hcnt, hch, hnear⟩ := iterationPruned_good
        (first := decide (i = 0)) (big := big) (data := data) (nt := nt) (sched := sched i)
        (by omega) hsym htri hnp hg hnt hlt
        (hc i) hrel hwf
        (fun h r hr => by
          have h0 : i = 0 := by simpa using h
          subst h0
          exact hub rfl r hr)
        (fun h => (hge (by simpa using h)).1)
      refine ⟨ps', e', ⟨s', Function.update tr (i + 1) ⟨s'.cltrs.means, Prune.assignOf s'.slots⟩,
        hrel', hgood'.wf, ⟨?_, ?_, ?_⟩, ?_, fun h => by omega, ?_, ?_⟩, ?_⟩
      · rw [Function.update_of_ne (by omega)]; exact htr.cents
      · rw [Function.update_of_ne (by omega)]; exact htr.unassigned
      · intro j hj
        rw [Function.update_of_ne (show j ≠ i + 1 by omega)]
        by_cases hji : j = i
        · subst hji
          rw [Function.update_self]
          refine ⟨?_, ?_⟩
          · intro r hr
            obtain ⟨a, h1, h2⟩ := hnear r hr
            exact ⟨a, h1, by rw [← hmeans]; exact h2⟩
          · intro c j
            simp only
            rw [hgood'.cltrs]; rfl
        · rw [Function.update_of_ne (show j + 1 ≠ i + 1 by omega)]
          exact htr.step j (by omega)
      · rw [Function.update_self]
      · intro j hj1 hj2
        have hstops : StopsAt g tol (Function.update tr (i + 1)
            ⟨s'.cltrs.means, Prune.assignOf s'.slots⟩) j ↔ StopsAt g tol tr j := by
          unfold StopsAt
          rw [Function.update_of_ne (show j ≠ i + 1 by omega),
            Function.update_of_ne (show j - 1 ≠ i + 1 by omega)]
        rw [hstops]
        by_cases hji : j = i
        · subst hji
          have hi0 : j ≠ 0 := by omega
          rcases hst with h | h
          · exact absurd h hi0
          · intro hstop
            have : Kmeans.convTest g tol (ps 0).core.changed = true := by
              rw [Kmeans.convTest_iff, hrel.changed 0 hnp, (hge hi0).2.2.2.1]; exact hstop
            rw [h] at this
            simp at this
        · exact hns j hj1 (by omega)
      · intro _
        rw [Function.update_self, Function.update_of_ne (show i + 1 - 1 ≠ i + 1 by omega)]
        simp only [Nat.add_sub_cancel]
        have hchg : s'.changed = numChanged g (tr i).assign (Prune.assignOf s'.slots) := by
          rw [hch]
          by_cases hi0 : i = 0
          · subst hi0
            simp only [decide_true, if_true]
            unfold numChanged
            rw [Finset.filter_true_of_mem, Finset.card_range]
            intro r hr
            obtain ⟨a, h1, _⟩ := hnear r (Finset.mem_range.1 hr)
            rw [htr.unassigned r]
            unfold Prune.assignOf
            rw [h1]
            simp
          · simp only [hi0, decide_false, Bool.false_eq_true, if_false]
            exact Kmeans.numChanged_congr (fun r hr => (hge hi0).2.1 r hr) fun _ _ => rfl
        refine ⟨hgood', fun _ _ => rfl, hcnt, hchg, ?_⟩
        intro hz
        have hsame : ∀ r, r < g → (tr i).assign r = Prune.assignOf s'.slots r := by
          intro r hr
          rw [hchg] at hz
          unfold numChanged at hz
          rw [Finset.card_eq_zero] at hz
          by_contra hne
          have : r ∈ (Finset.range g).filter fun r =>
              (tr i).assign r ≠ Prune.assignOf s'.slots r :=
            Finset.mem_filter.2 ⟨Finset.mem_range.2 hr, hne⟩
          rw [hz] at this
          simp at this
        by_cases hi0 : i = 0
        · subst hi0
          have h := hsame 0 hgpos
          obtain ⟨a, h1, _⟩ := hnear 0 hgpos
          rw [htr.unassigned] at h
          unfold Prune.assignOf at h
          rw [h1] at h
          simp at h
        · rw [← hmeans, hgood'.cltrs, (hge hi0).1.cltrs]
          funext c j
          refine (Kmeans.memberMean_congr' (fun r hr => ?_) c j).symm
          rw [← hsame r hr]
          exact (hge hi0).2.1 r hr
      · intro p hp
        rw [hrel'.changed p hp, hrel'.changed 0 hnp])
    maxIters 0 procs (by omega) (by omega) hstart (Or.inl rfl)
  have hit : res.iters ≠ 0 := by
    rcases h3 with ⟨h, _⟩ | ⟨h, _⟩ <;> omega
  obtain ⟨q1, q2, q3, q4, q5⟩ := hge hit
  obtain ⟨v, ev, hv⟩ := gather_eq (g := g) hnp (fun p r => ((res.procs p).core.slots r).assign)
  have hvr : ∀ r, r < g → v r = (tr res.iters).assign r := by
    intro r hr
    obtain ⟨p, q, hp, hq, rfl⟩ := exists_off hnp hr
    rw [hv p q hp hq, hrel.slots p q hp hq, q2 _ hr]
  refine ⟨res, v, tr, e, ev, by omega, h2, htr, hns, ?_, hvr, ?_⟩
  · rcases h3 with ⟨h, _⟩ | ⟨_, h⟩
    · exact Or.inr h
    · left
      have := (Kmeans.convTest_iff g tol _).1 h
      rw [hrel.changed 0 hnp, q4] at this
      exact this
  · intro p hp
    refine ⟨by rw [hrel.cltrs p hp, hmeans], ?_, by rw [hrel.changed p hp, q4], ?_, ?_⟩
    · intro c
      rw [hrel.counts p hp, q3 c, Kmeans.count_congr hvr]
    · intro r hr
      exact (hv p r hp hr).symm
    · intro hz r hr
      rw [hrel.changed p hp] at hz
      obtain ⟨m, hm⟩ : ∃ m, res.iters = m + 1 := ⟨res.iters - 1, by omega⟩
      have hst := htr.step m (by omega)
      obtain ⟨a, h1, h2⟩ := hst.assigned r hr
      refine ⟨a, by rw [hvr r hr, hm]; exact h1, ?_⟩
      rw [hrel.cltrs p hp, hmeans, q5 hz, hm]
      exact h2

/-- **C21.**  Start every rank of the pruned version with the same centroids.  The run returns
normally and its `res.iters` iterations are Lloyd iterations: there is a sequence `tr` of centroids
and assignments in which every row is assigned to a nearest of the *previous* centroids and the new
centroids are the members' means, and every rank ends with the centroids, sizes, change count and
rows' assignments of the last of them, gathered by the root into `v`.  The run stops at the first
iteration meeting the stopping rule, or at the budget.  If it ends with no changed row, every row is
at a nearest of the *returned* centroids: a Lloyd fixed point.  (`eucl` is any symmetric distance
with the triangle inequality.) -/
theorem C21_distributed_pruned_is_exact [Field R] [LinearOrder R] [CharZero R] [Field D]
    [LinearOrder D] [IsStrictOrderedRing D] (eucl : Row R n → Row R n → D)
    (hsym : ∀ x y, eucl x y = eucl y x) (htri : ∀ x y z, eucl x z ≤ eucl x y + eucl y z)
    (big : D) (data : Nat → Row R n) (g np nt : Nat) (tol : R) (maxIters : Nat)
    (hk : 2 ≤ k) (hnp : 0 < np) (hg : np ≤ g) (hlt : g + 8192 < 4294967296) (hnt : 0 < nt)
    (centers : Fin k → Row R n) (procs : Nat → DProc R D k n)
    (hp0 : ∀ p, p < np → constructPruned big centers = .ok (procs p))
    (sched : Nat → Nat → List Nat) (hc : TaskSchedOk g np nt sched)
    (hb : ∀ r, r < g → ∃ c, eucl (data r) (centers c) < big) (hmax : 0 < maxIters) :
    ∃ res v tr, runPruned eucl eucl big data g np nt tol maxIters sched procs = .ok res ∧
      gather g np (fun p r => ((res.procs p).core.slots r).assign) = .ok v ∧
      1 ≤ res.iters ∧ res.iters ≤ maxIters ∧
      LloydRunAnyTie eucl g data centers res.iters tr ∧
      (∀ j, 1 ≤ j → j < res.iters → ¬ StopsAt g tol tr j) ∧
      (StopsAt g tol tr res.iters ∨ res.iters = maxIters) ∧
      (∀ r, r < g → v r = (tr res.iters).assign r) ∧
      (∀ p, p < np →
        (res.procs p).core.cltrs.means = (tr res.iters).cents ∧
        (∀ c, (res.procs p).core.counts c = (Spec.count g v c : Int)) ∧
        (res.procs p).core.changed =
          numChanged g (tr (res.iters - 1)).assign (tr res.iters).assign ∧
        (∀ r, r < procNrow g np p →
          ((res.procs p).core.slots r).assign = v (p * (g / np) + r)) ∧
        ((res.procs p).core.changed = 0 → ∀ r, r < g → ∃ a, v r = some a ∧
          IsNearest (fun c => eucl (data r) ((res.procs p).core.cltrs.means c)) a)) := by
  obtain ⟨m0, hm0, wf0, _⟩ := DistMatrix.create_wf (big := big) (k := k) (by omega)
  set s0 : Prune.PState R D k n :=
    { cltrs := Clusters.empty.setMeans centers
      prevMeans := fun _ _ => 0
      prevDist := fun _ => 0
      sval := fun _ => big
      dm := m0
      slots := fun _ => { assign := none, ub := big, recalc := false }
      counts := fun _ => 0
      changed := 0 } with hs0
  have hinit : ∀ p, p < np → procs p = ⟨s0, fun _ => 0⟩ := by
    intro p hp
    have h := hp0 p hp
    unfold constructPruned Prune.construct at h
    rw [hm0] at h
    simp only [Except.ok.injEq] at h
    exact h.symm
  refine runPruned_from eucl hsym htri big data g np nt tol maxIters hk hnp hg hlt hnt centers procs s0
    ⟨?_, ?_, ?_, ?_, ?_, ?_, ?_, ?_⟩ wf0 rfl sched hc (fun r hr => .inl (hb r hr)) hmax
  all_goals (intro p; intros; rw [hinit p (by assumption)])

/-! ### Witness: rows 0, 1, 10, 12, 11 on two ranks (2 and 3 rows) with two threads each -/

/-- Distance of the witness. -/
def abs1 (x y : Row ℚ 1) : ℚ := if x 0 ≤ y 0 then y 0 - x 0 else x 0 - y 0
/-- Rows of the witness. -/
def rows5 (r : Nat) : Row ℚ 1 := fun _ => ([0, 1, 10, 12, 11].getD r 0 : ℚ)
/-- Initial state of each rank of the witness. -/
def init5 (_ : Nat) : Kmeans.KState ℚ 2 1 :=
  { cltrs := Clusters.empty.setMeans fun c _ => if c = 0 then 0 else 1
    assign := fun _ => none, counts := fun _ => 0, changed := 0 }
/-- Interleavings of the witness. -/
def sched5 (_ p : Nat) : List Nat := if p = 0 then [1, 0] else [1, 0, 1]

example : SchedOk 5 2 2 sched5 := by
  intro i p hp t ht
  have hp' : p = 0 ∨ p = 1 := by omega
  rcases hp' with rfl | rfl
  · have : effThreads 2 (procNrow 5 2 0) = 2 := by decide
    have : t = 0 ∨ t = 1 := by omega
    rcases this with rfl | rfl <;> (unfold sched5; decide)
  · have : effThreads 2 (procNrow 5 2 1) = 2 := by decide
    have : t = 0 ∨ t = 1 := by omega
    rcases this with rfl | rfl <;> (unfold sched5; decide)

/-- What a witness run shows. -/
structure Seen where
  iters : Nat
  perRank : List (ℚ × ℚ × Int × Int × Nat)
  gathered : List (Option (Fin 2))
  deriving DecidableEq, Repr

/-- Run the witness. -/
def show5 (maxIters : Nat) : Res Seen :=
  match run abs1 1000 rows5 5 2 2 (-1) maxIters sched5 init5 with
  | .error e => .error e
  | .ok x =>
    match gather 5 2 fun p => (x.procs p).assign with
    | .error e => .error e
    | .ok v => .ok ⟨x.iters, (List.range 2).map fun p => ((x.procs p).cltrs.means 0 0,
        (x.procs p).cltrs.means 1 0, (x.procs p).counts 0, (x.procs p).counts 1,
        (x.procs p).changed), (List.range 5).map v⟩

/-- Both ranks end with the same centroids 1/2 and 11 after three iterations. -/
example : show5 100 = .ok ⟨3, [(1/2, 11, 2, 3, 0), (1/2, 11, 2, 3, 0)],
    [some 0, some 0, some 1, some 1, some 1]⟩ := by decide +kernel

/-- After one iteration (budget 1). -/
example : show5 1 = .ok ⟨1, [(0, 17/2, 1, 4, 5), (0, 17/2, 1, 4, 5)],
    [some 0, some 1, some 1, some 1, some 1]⟩ := by decide +kernel

/-! ### Witness for C21: rows 19, -19, 20, 21 on two ranks.  From centres 10 and 29 the
single-process pruned version stops at a wrong answer on the first three of them (C22). -/

/-- Rows of the witness. -/
def rows4 (r : Nat) : Row ℚ 1 := fun _ => ([19, -19, 20, 21].getD r 0 : ℚ)
/-- Initial centres of the witness. -/
def centers4 (c : Fin 2) : Row ℚ 1 := fun _ => if c = 0 then 10 else 29
/-- Interleavings of the witness. -/
def sched4 (_ p : Nat) : List Nat := if p = 0 then [1, 0] else [0, 1]

example : TaskSchedOk 4 2 2 sched4 := by
  intro i p hp t ht
  have hp' : p = 0 ∨ p = 1 := by omega
  rcases hp' with rfl | rfl
  · have : effThreads 2 (procNrow 4 2 0) = 2 := by decide
    have : t = 0 ∨ t = 1 := by omega
    rcases this with rfl | rfl <;> (unfold sched4; decide)
  · have : effThreads 2 (procNrow 4 2 1) = 2 := by decide
    have : t = 0 ∨ t = 1 := by omega
    rcases this with rfl | rfl <;> (unfold sched4; decide)

/-- Run the witness. -/
def show4 (maxIters : Nat) : Res Seen :=
  match constructPruned (R := ℚ) (1000 : ℚ) centers4 with
  | .error e => .error e
  | .ok s0 =>
  match runPruned abs1 abs1 1000 rows4 4 2 2 (-1) maxIters sched4 (fun _ => s0) with
  | .error e => .error e
  | .ok x =>
    match gather 4 2 fun p r => ((x.procs p).core.slots r).assign with
    | .error e => .error e
    | .ok v => .ok ⟨x.iters, (List.range 2).map fun p => ((x.procs p).core.cltrs.means 0 0,
        (x.procs p).core.cltrs.means 1 0, (x.procs p).core.counts 0, (x.procs p).core.counts 1,
        (x.procs p).core.changed), (List.range 4).map v⟩

/-- First iteration: row 19 still with centroid 0. -/
example : show4 1 = .ok ⟨1, [(0, 41/2, 2, 2, 4), (0, 41/2, 2, 2, 4)],
    [some 0, some 0, some 1, some 1]⟩ := by decide +kernel

/-- It moves in the second iteration; the run ends at the fixed point. -/
example : show4 100 = .ok ⟨3, [(-19, 20, 1, 3, 0), (-19, 20, 1, 3, 0)],
    [some 1, some 0, some 1, some 1]⟩ := by decide +kernel

/-- The remaining hypotheses of C21 hold of the witness. -/
example : (∀ x y, abs1 x y = abs1 y x) ∧ (∀ x y z, abs1 x z ≤ abs1 x y + abs1 y z) ∧
    (∀ r, r < 4 → ∃ c, abs1 (rows4 r) (centers4 c) < 1000) ∧
    ∃ s0 : DProc ℚ ℚ 2 1, constructPruned (1000 : ℚ) centers4 = .ok s0 := by
  refine ⟨?_, ?_, ?_, ?_⟩
  · intro x y
    unfold abs1
    split <;> split <;> linarith
  · intro x y z
    unfold abs1
    split <;> split <;> split <;> linarith
  · intro r hr
    have : r = 0 ∨ r = 1 ∨ r = 2 ∨ r = 3 := by omega
    rcases this with rfl | rfl | rfl | rfl <;> exact ⟨0, by decide +kernel⟩
  · exact ⟨_, rfl⟩

end Knor.Distr
