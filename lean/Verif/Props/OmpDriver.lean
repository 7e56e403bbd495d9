import Verif.Lemmas.OmpDriver

/-!
# Property C92: a whole call of the OpenMP variant

`knori -O` and the functions behind it.  The variant uses one iteration less than it is allowed (C37); what it does with
the rest is Lloyd's algorithm.
-/

namespace Knor.Driver

open Knor Knor.Spec Knor.Io Knor.Partition Knor.Par Knor.Init

variable {R S B : Type _} {k n : Nat}

/-- What the OpenMP runtime guarantees: every row is given to one of the threads, and every thread finishes. -/
structure OmpRun.Ok (o : OmpRun) (N nthreads : Nat) : Prop where
  kppOwner : ∀ i r, r < N → o.kppOwner i r < ompThreads nthreads o.avail
  kppSched : ∀ i, Complete (ompThreads nthreads o.avail)
    (Omp.rows N (ompThreads nthreads o.avail) (o.kppOwner i)) (o.kppSched i)
  owner : ∀ i r, r < N → o.owner i r < ompThreads nthreads o.avail
  sched : ∀ i, Complete (ompThreads nthreads o.avail)
    (Omp.rows N (ompThreads nthreads o.avail) (o.owner i)) (o.sched i)

/-- The names of the metrics. -/
theorem ompMetric_ok (s : String) (m : Dist.Metric) : ompMetric s = .ok m ↔
    (s = "eucl" ∧ m = .eucl) ∨ (s = "cos" ∧ m = .cos) := by
  unfold ompMetric
  split
  · subst s; cases m <;> simp
  · split
    · subst s; cases m <;> simp
    · rename_i h1 h2
      simp [h1, h2]

/-- **C92, what holds of the call without pruning.**  A number of clusters below 2 or above the number of rows, a metric
other than `eucl` and `cos` and an unknown initialisation are refused.  Every other call with a limit of `maxIters`
returns the result of `maxIters - 1` iterations of Lloyd's algorithm, or fewer if it stops before, from the centroids
that the named initialisation promises; whatever the threads do.
The full statement has `maxIters` iterations; `C92_violated` refutes it. -/
theorem C92_call_partial [Field R] [LinearOrder R] [IsStrictOrderedRing R]
    (dist : Dist.Metric → Row R n → Row R n → R) (big : R) (rng : Rng R S k) (o : OmpRun) (a : OmpCall R)
    (m : Nat → Nat → R) (given : Option (Nat → Nat → R)) (hlt : a.nrow < 4294967296)
    (hdata : a.data = rowsFrom m n 0 a.nrow) (hgiven : a.centers = given.map fun g => rowsFrom g n 0 k)
    (hnone : a.init = "none" → given.isSome) (hrng : RngOk rng a.nrow) (ho : o.Ok a.nrow a.nthreads) :
    ((k < 2 ∨ a.nrow < k ∨ a.dist ∉ ["eucl", "cos"] ∨ a.init ∉ ["random", "forgy", "kmeanspp", "none"]) →
      kmeansOmp (k := k) (n := n) dist big rng o a = .error .throws) ∧
    ∀ it met, 2 ≤ k → k ≤ a.nrow → getInit a.init = .ok it → (a.dist = "eucl" ∧ met = .eucl) ∨ (a.dist = "cos" ∧ met = .cos) →
      (it = .plusplus → Seedable (dist met) big (matRows m) a.nrow) →
      (∀ c0 tr, StartsAt it (dist met) (matRows m) a.nrow rng (givenCents given) c0 →
        LloydTrace (dist met) a.nrow (matRows m) c0 tr →
        ∀ i r, r < a.nrow → ∃ c, dist met (matRows m r) ((tr i).cents c) < big) →
      ∃ res, kmeansOmp dist big rng o a = .ok res ∧
        DeliversReport it (dist met) (matRows m) a.nrow rng (givenCents given) a.tol (a.maxIters - 1) (Omp.report res) ∧
        (a.maxIters ≤ 1 → res.iters = a.maxIters) := by
  constructor
  · intro h
    obtain ⟨q1, q2⟩ := ompChecks_refused (k := k) (n := n) a
    have : ompChecks (k := k) (n := n) a = .error .throws := by
      rcases h with h | h | h | h
      · exact q1 (.inl h)
      · exact q1 (.inr h)
      all_goals
        refine q2 (fun l hl => ?_) (fun hi => ?_) (by first | exact .inl h | exact .inr h)
        · rw [hgiven] at hl
          cases given with
          | none => cases hl
          | some g => rw [← Option.some.inj hl, length_rowsFrom]
        · rw [hgiven, Option.isSome_map]
          exact hnone hi
    unfold kmeansOmp
    rw [this]
  · intro it met hk hkN hi hm hpp hb
    have hn : 0 < a.nrow := by omega
    have hnone' : it = .none → given.isSome := by
      rintro rfl
      have := (getInit_ok a.init .none).1 hi
      simp at this
      exact hnone this
    obtain ⟨gv, ec, hgv⟩ := ompChecks_ok (n := n) a given hgiven hk hkN it met hi ((ompMetric_ok _ _).2 hm) hnone'
    have hrows : ∀ r, r < a.nrow → flatRow (n := n) a.data r = matRows m r := fun r hr => by
      rw [hdata]; exact flatRow_rowsFrom m hr
    have hrows' : ∀ r, r < a.nrow → matRows m r = flatRow (n := n) a.data r := fun r hr => (hrows r hr).symm
    obtain ⟨s, es, hst, -⟩ := ompInit_ok (dist met) big rng (flatRow a.data) (matRows m) a.nrow
      (ompThreads a.nthreads o.avail) hrows (by omega) hn hlt hrng o.kppOwner ho.kppOwner o.kppSched ho.kppSched it hpp
      (givenCents given) gv hgv
    have ecall : kmeansOmp (k := k) (n := n) dist big rng o a = Omp.run (dist met) big (flatRow a.data) a.nrow
        (ompThreads a.nthreads o.avail) o.owner a.tol a.maxIters o.sched s := by
      unfold kmeansOmp Omp.compute
      rw [ec]
      dsimp only
      rw [if_neg (by omega), es]
    rw [ecall]
    by_cases hM : a.maxIters ≤ 1
    · rw [Omp.C37_budget_one_does_nothing _ _ _ _ _ _ _ hM]
      exact ⟨_, rfl, ⟨s.cltrs.means, hst, fun _ => rfl, fun h => by omega⟩, fun _ => rfl⟩
    · obtain ⟨M, hMe⟩ : ∃ M, a.maxIters = M + 1 := ⟨a.maxIters - 1, by omega⟩
      have hM0 : 0 < M := by omega
      have key : ∀ tr, LloydTrace (dist met) a.nrow (matRows m) s.cltrs.means tr → _ := fun tr htr =>
        Omp.C37_budget_partial (dist met) big (flatRow a.data) a.nrow (ompThreads a.nthreads o.avail) a.tol M hM0 s hn hlt
          o.owner ho.owner o.sched ho.sched tr (trace_data hrows' htr) (fun i r hr => by
            rw [hrows r hr]; exact hb _ tr hst htr i r hr)
      obtain ⟨tr, htr⟩ := Kmeans.trace_exists (dist met) a.nrow (matRows m) s.cltrs.means (by omega)
      obtain ⟨res, -, er, -⟩ := key tr htr
      rw [hMe]
      refine ⟨res, er, ⟨s.cltrs.means, hst, fun h => by omega, fun _ tr' htr' => ?_⟩, fun h => by omega⟩
      obtain ⟨res', mm, er', h1, h2, h3, h4, h5, h6, h7⟩ := key tr' htr'
      rw [er] at er'
      obtain rfl := Except.ok.inj er'
      refine ⟨mm, h1, h2, ⟨h3, h4, h5⟩, h6, ?_⟩
      rcases h7 with h7 | ⟨rfl, h8, h9⟩
      · exact .inl h7
      · exact .inr ⟨rfl, h8, h9⟩

/-- **C92, what holds of the call with pruning.**  The same refusals.  A limit of 1 is used; a larger one is used but for
one iteration.  With `budget = max 1 (maxIters - 1)` the result describes a partition of the rows, it has every row in
the nearest cluster if the budget is 1, and it is the result of Lloyd's algorithm under the Euclidean metric if in the
first iteration no centroid moves further than it is away from the zero vector afterwards.  In contrast to the pthread
variant (C84) this covers k-means++ with the upper bounds it leaves unset. -/
theorem C92_pruned_call_partial [Field R] [LinearOrder R] [IsStrictOrderedRing R]
    (dist : Dist.Metric → Row R n → Row R n → R) (big : R) (rng : Rng R S k) (o : OmpRun) (a : OmpCall R)
    (m : Nat → Nat → R) (given : Option (Nat → Nat → R)) (hlt : a.nrow + 8192 < 4294967296)
    (hdata : a.data = rowsFrom m n 0 a.nrow) (hgiven : a.centers = given.map fun g => rowsFrom g n 0 k)
    (hnone : a.init = "none" → given.isSome) (hrng : RngOk rng a.nrow) (ho : o.Ok a.nrow a.nthreads) :
    ((k < 2 ∨ a.nrow < k ∨ a.dist ∉ ["eucl", "cos"] ∨ a.init ∉ ["random", "forgy", "kmeanspp", "none"]) →
      kmeansOmpPruned (k := k) (n := n) dist big rng o a = .error .throws) ∧
    ∀ it met, 2 ≤ k → k ≤ a.nrow → getInit a.init = .ok it → (a.dist = "eucl" ∧ met = .eucl) ∨ (a.dist = "cos" ∧ met = .cos) →
      (it = .plusplus → Seedable (dist met) big (matRows m) a.nrow) →
      (it ≠ .plusplus → ∀ c0, StartsAt it (dist met) (matRows m) a.nrow rng (givenCents given) c0 →
        ∀ r, r < a.nrow → ∃ c, dist met (matRows m r) (c0 c) < big) →
      ∃ res, kmeansOmpPruned dist big rng o a = .ok res ∧
        (a.maxIters = 0 → res.iters = 0 ∧
          StartsAt it (dist met) (matRows m) a.nrow rng (givenCents given) res.state.cltrs.means) ∧
        (0 < a.maxIters → DeliversReportPruned it (dist met)
          (met = .eucl ∧ (∀ x y, dist .eucl x y = dist .eucl y x) ∧
            ∀ x y z, dist .eucl x z ≤ dist .eucl x y + dist .eucl y z)
          (matRows m) a.nrow rng (givenCents given) a.tol (max 1 (a.maxIters - 1)) (Omp.reportP res)) := by
  constructor
  · intro h
    obtain ⟨q1, q2⟩ := ompChecks_refused (k := k) (n := n) a
    have : ompChecks (k := k) (n := n) a = .error .throws := by
      rcases h with h | h | h | h
      · exact q1 (.inl h)
      · exact q1 (.inr h)
      all_goals
        refine q2 (fun l hl => ?_) (fun hi => ?_) (by first | exact .inl h | exact .inr h)
        · rw [hgiven] at hl
          cases given with
          | none => cases hl
          | some g => rw [← Option.some.inj hl, length_rowsFrom]
        · rw [hgiven, Option.isSome_map]
          exact hnone hi
    unfold kmeansOmpPruned
    rw [this]
  · intro it met hk hkN hi hm hpp hb
    have hn : 0 < a.nrow := by omega
    have hnone' : it = .none → given.isSome := by
      rintro rfl
      have := (getInit_ok a.init .none).1 hi
      simp at this
      exact hnone this
    obtain ⟨gv, ec, hgv⟩ := ompChecks_ok (n := n) a given hgiven hk hkN it met hi ((ompMetric_ok _ _).2 hm) hnone'
    have hrows : ∀ r, r < a.nrow → flatRow (n := n) a.data r = matRows m r := fun r hr => by
      rw [hdata]; exact flatRow_rowsFrom m hr
    obtain ⟨s, es, hst, hkp⟩ := ompInit_ok (dist met) big rng (flatRow a.data) (matRows m) a.nrow
      (ompThreads a.nthreads o.avail) hrows (by omega) hn (by omega) hrng o.kppOwner ho.kppOwner o.kppSched ho.kppSched it
      hpp (givenCents given) gv hgv
    obtain ⟨dm, em, wm, _⟩ := DistMatrix.create_wf (big := big) (k := k) (by omega)
    -- the state after the initialisation, up to the table of centroid distances
    let p : Prune.PState R R k n :=
      { cltrs := s.cltrs
        prevMeans := fun _ _ => 0
        prevDist := fun _ => 0
        sval := fun _ => big
        dm := dm
        slots := fun r => { assign := s.assign r, ub := big, recalc := false }
        counts := fun _ => 0
        changed := 0 }
    obtain ⟨dm', sv, w', ep⟩ : ∃ (dm' : DistMatrix R) (sv : Fin k → R), DistMatrix.WF k dm' ∧
        Omp.initStateP (dist met) (dist .eucl) big (flatRow a.data) a.nrow (ompThreads a.nthreads o.avail) o.kppOwner
          o.kppSched (ompStart rng gv it) = .ok { p with dm := dm', sval := sv } := by
      unfold Omp.initStateP
      rw [em, es]
      dsimp only
      cases it with
      | none =>
        obtain ⟨m1, sv1, e1, w1⟩ := Prune.computeDm_wf (eucl := dist .eucl) (big := big) (s := p) (by omega) wm
        exact ⟨m1, sv1, w1, e1⟩
      | forgy => exact ⟨dm, fun _ => big, wm, rfl⟩
      | random => exact ⟨dm, fun _ => big, wm, rfl⟩
      | plusplus => exact ⟨dm, fun _ => big, wm, rfl⟩
    have hsd : Prune.Started (dist met) (flatRow a.data) a.nrow p := by
      refine ⟨wm, rfl, rfl, fun r hr => .inl ?_⟩
      by_cases hit : it = .plusplus
      · exact ⟨_, by rw [hrows r hr]; exact hkp hit r hr⟩
      · obtain ⟨c, h⟩ := hb hit _ hst r hr
        exact ⟨c, by rw [hrows r hr]; exact h⟩
    have ecall : kmeansOmpPruned (k := k) (n := n) dist big rng o a = Omp.runP (dist met) (dist .eucl) big
        (flatRow a.data) a.nrow (ompThreads a.nthreads o.avail) o.owner a.tol a.maxIters o.sched
        { p with dm := dm', sval := sv } := by
      unfold kmeansOmpPruned Omp.computeP
      rw [ec]
      dsimp only
      rw [if_neg (by omega), ep]
    rw [ecall]
    by_cases h0 : a.maxIters = 0
    · refine ⟨⟨0, false, { p with dm := dm', sval := sv }⟩, ?_, fun _ => ⟨rfl, hst⟩, fun h => by omega⟩
      unfold Omp.runP
      rw [if_neg (by omega)]
    -- the same run with the pthread engine
    have hlim : Omp.runP (dist met) (dist .eucl) big (flatRow a.data) a.nrow (ompThreads a.nthreads o.avail) o.owner a.tol
        a.maxIters o.sched { p with dm := dm', sval := sv } =
        Omp.runP (dist met) (dist .eucl) big (flatRow a.data) a.nrow (ompThreads a.nthreads o.avail) o.owner a.tol
        (max 1 (a.maxIters - 1) + 1) o.sched { p with dm := dm', sval := sv } := by
      rcases Nat.lt_or_ge a.maxIters 2 with h | h
      · have : a.maxIters = 1 := by omega
        rw [this]
        exact runP_one _
      · rw [Nat.max_eq_right (by omega), Nat.sub_add_cancel (by omega)]
    have hM : 0 < max 1 (a.maxIters - 1) := by omega
    generalize max 1 (a.maxIters - 1) = M at hlim hM ⊢
    rw [hlim]
    have hct : ∀ i : Nat, Complete (effThreads 1 a.nrow) (Prune.taskRows a.nrow 1)
        ((fun _ => List.replicate a.nrow 0) i) := fun _ => complete_tasks hn hlt
    have he := Omp.runP_eq (dist := dist met) (eucl := dist .eucl) (big := big) (data := flatRow a.data) (tol := a.tol)
      (nt := 1) (sched' := fun _ => List.replicate a.nrow 0) (show 1 < k by omega) hn (by omega) hlt ho.owner ho.sched hct
      hM p dm' sv wm w'
    obtain ⟨res', er', hpart, -⟩ := Prune.run_partition (dist := dist met) (eucl := dist .eucl) (big := big) (tol := a.tol)
      (sched := fun _ => List.replicate a.nrow 0) (nt := 1) (show 1 < k by omega) hn (by omega) hlt hct hsd hM
    rw [er'] at he
    cases hr : Omp.runP (dist met) (dist .eucl) big (flatRow a.data) a.nrow (ompThreads a.nthreads o.avail) o.owner a.tol
        (M + 1) o.sched { p with dm := dm', sval := sv } with
    | error x => rw [hr] at he; cases he
    | ok res =>
      rw [hr] at he
      have he : Omp.reportP res' = Omp.reportP res := (Except.ok.inj he).symm
      refine ⟨res, rfl, fun h => absurd h h0, fun _ => ⟨s.cltrs.means, hst,
        showsPartition_of he (Prune.partition_data hrows hpart), fun h1 r hr' => ?_, ?_⟩⟩
      · obtain ⟨res2, er2, hnear⟩ := Prune.run_one (dist := dist met) (eucl := dist .eucl) (big := big) (tol := a.tol)
          (sched := fun _ => List.replicate a.nrow 0) (nt := 1) hn (by omega) hlt hct hsd
        rw [h1] at er'
        rw [er'] at er2
        obtain rfl := Except.ok.inj er2
        obtain ⟨c, q1, q2⟩ := hnear r hr'
        exact ⟨c, by rw [← he]; exact q1, by rw [← hrows r hr']; exact q2⟩
      · rintro ⟨rfl, hsym, htri⟩ hmv
        obtain ⟨res2, er2, h⟩ := Prune.run_lloyd (big := big) (tol := a.tol)
          (sched := fun _ => List.replicate a.nrow 0) (nt := 1) (show 1 < k by omega) hsym htri hn (by omega) hlt hct hsd hM
          (fun tr htr => hmv tr (Prune.anyTie_data hrows htr))
        rw [er'] at er2
        obtain rfl := Except.ok.inj er2
        exact lloydReportAnyTie_of he (Prune.lloydResult_data hrows h)

/-! ### Bounded data, and `knori -O` -/

/-- **C92, the program.**  `knori -O` refuses `none` without a file of centres, and a data file whose size is not the one
that the numbers of rows and columns imply.  Otherwise, for a file that stores the matrix, a number of clusters out of
range and unknown names are refused; and with the Euclidean metric, if all entries are at most `X` in size, it returns
what the call delivers: with `-P` the result of `maxIters - 1` iterations of Lloyd's algorithm, without it that of the
pruned variant.  A file of centres replaces the initialisation. -/
theorem C92_knori_partial (big X : ℝ) (h1 : 1 ≤ big) (hl : n * (2 * X) < big) (hq : n * (2 * X) ^ 2 < big)
    {c : Codec ℝ B} (hc : CodecOk c) (rng : Rng ℝ S k) (o : OmpRun) (noPrune : Bool)
    (datafn : List B) (centersfn : Option (List B)) (nrow maxIters nthreads : Nat) (init : String) (tol : ℝ)
    (distType : String) (hk : 0 < k) (hcol : 0 < n) (hn : 0 < nrow) (hlt : nrow + 8192 < 4294967296)
    (hsz : nrow * n * c.size < 9223372036854775808) (hszk : k * n * c.size < 18446744073709551616)
    (hrng : RngOk rng nrow) (ho : o.Ok nrow nthreads) :
    (centersfn = none → init = "none" →
      knoriOmp (n := n) (realDist big) big c rng o noPrune datafn centersfn nrow maxIters nthreads init tol distType
        = .error .assertFail) ∧
    (¬ (centersfn = none ∧ init = "none") → datafn.length ≠ nrow * n * c.size →
      knoriOmp (n := n) (realDist big) big c rng o noPrune datafn centersfn nrow maxIters nthreads init tol distType
        = .error .throws) ∧
    ∀ (m : Nat → Nat → ℝ) (given : Option (Nat → Nat → ℝ)), Stores c datafn m nrow n →
      centersfn = given.map (fun g => (rowsFrom g n 0 k).flatMap c.enc) → ¬ (centersfn = none ∧ init = "none") →
      ((k < 2 ∨ nrow < k ∨ distType ∉ ["eucl", "cos"] ∨
          (given = none ∧ init ∉ ["random", "forgy", "kmeanspp", "none"])) →
        knoriOmp (n := n) (realDist big) big c rng o noPrune datafn centersfn nrow maxIters nthreads init tol distType
          = .error .throws) ∧
      ∀ it, 2 ≤ k → k ≤ nrow → distType = "eucl" →
        (∀ r j, r < nrow → j < n → |m r j| ≤ X) →
        (∀ g, given = some g → ∀ r j, r < k → j < n → |g r j| ≤ X) →
        (given.isSome → it = .none) → (given = none → getInit init = .ok it) →
        ∃ rep : Omp.Report ℝ k n,
          knoriOmp (realDist big) big c rng o noPrune datafn centersfn nrow maxIters nthreads init tol distType
            = .ok rep ∧
          (noPrune = true →
            DeliversReport it (realDist big .eucl) (matRows m) nrow rng (givenCents given) tol (maxIters - 1) rep ∧
            (maxIters ≤ 1 → rep.iters = maxIters)) ∧
          (noPrune = false →
            (maxIters = 0 → rep.iters = 0 ∧
              StartsAt it (realDist big .eucl) (matRows m) nrow rng (givenCents given) rep.means) ∧
            (0 < maxIters → DeliversReportPruned it (realDist big .eucl) True (matRows m) nrow rng (givenCents given) tol
              (max 1 (maxIters - 1)) rep)) := by
  have hu : u64 (u64 (c.size * nrow) * n) = nrow * n * c.size := by
    have h0 : c.size * nrow * n = nrow * n * c.size := by ring
    rw [u64_mul (by omega), h0]
  refine ⟨?_, ?_, ?_⟩
  · rintro rfl rfl
    unfold knoriOmp
    simp
  · intro h hne
    unfold knoriOmp
    dsimp only
    rw [if_neg, if_pos (by rw [hu]; exact hne)]
    rintro ⟨h2, h3⟩
    have h4 : centersfn = none := by simpa using h3
    subst h4
    exact h ⟨rfl, by simpa using h2⟩
  · intro m given hst hcf hno
    have hlen : datafn.length = nrow * n * c.size := by
      unfold Stores at hst
      rw [hst, length_enc hc, length_rowsFrom]
    -- the program reaches the call
    have hprog : knoriOmp (n := n) (realDist big) big c rng o noPrune datafn centersfn nrow maxIters nthreads init tol
        distType =
        if noPrune then (kmeansOmp (realDist big) big rng o ⟨rowsFrom m n 0 nrow, nrow, maxIters, nthreads,
          given.map fun g => rowsFrom g n 0 k, if given.isSome then "none" else init, tol, distType⟩).map Omp.report
        else (kmeansOmpPruned (realDist big) big rng o ⟨rowsFrom m n 0 nrow, nrow, maxIters, nthreads,
          given.map fun g => rowsFrom g n 0 k, if given.isSome then "none" else init, tol, distType⟩).map Omp.reportP := by
      obtain ⟨y, ey⟩ := read_stored (n := n) hc m nrow (Nat.mul_pos hn hcol) (by omega) hst
      unfold knoriOmp
      dsimp only
      cases given with
      | none =>
        rw [Option.map_none] at hcf
        subst hcf
        have hne : init ≠ "none" := fun h => hno ⟨rfl, h⟩
        rw [if_neg (by simp [hne]), if_neg (by rw [hu]; simp [hlen])]
        dsimp only
        rw [ey]
        rfl
      | some g =>
        rw [Option.map_some] at hcf
        subst hcf
        rw [if_neg (by simp), if_neg (by rw [hu]; simp [hlen])]
        obtain ⟨z, ez⟩ := read_stored (n := n) hc g k (Nat.mul_pos hk hcol) hszk rfl
        dsimp only
        rw [ez]
        dsimp only
        rw [ey]
        rfl
    rw [hprog]
    have hgs : (if given.isSome then "none" else init) = "none" → given.isSome := by
      cases given with
      | none =>
        rw [Option.map_none] at hcf
        intro h
        exact absurd ⟨hcf, by simpa using h⟩ hno
      | some g => intro _; rfl
    have hun := C92_call_partial (k := k) (n := n) (realDist big) big rng o ⟨rowsFrom m n 0 nrow, nrow, maxIters, nthreads,
      given.map fun g => rowsFrom g n 0 k, if given.isSome then "none" else init, tol, distType⟩ m given
      (show nrow < 4294967296 by omega) rfl rfl hgs hrng ho
    have hpr := C92_pruned_call_partial (k := k) (n := n) (realDist big) big rng o ⟨rowsFrom m n 0 nrow, nrow, maxIters,
      nthreads, given.map fun g => rowsFrom g n 0 k, if given.isSome then "none" else init, tol, distType⟩ m given
      hlt rfl rfl hgs hrng ho
    constructor
    · intro h
      have h' : k < 2 ∨ nrow < k ∨ distType ∉ ["eucl", "cos"] ∨
          (if given.isSome then "none" else init) ∉ ["random", "forgy", "kmeanspp", "none"] := by
        rcases h with h | h | h | ⟨rfl, h⟩
        · exact .inl h
        · exact .inr (.inl h)
        · exact .inr (.inr (.inl h))
        · exact .inr (.inr (.inr h))
      cases noPrune
      · simp only [Bool.false_eq_true, if_false]
        rw [hpr.1 h']
        rfl
      · simp only [if_true]
        rw [hun.1 h']
        rfl
    · intro it hk2 hkN hd hm hg his hin
      subst hd
      have hX : 0 ≤ X := (abs_nonneg _).trans (hm 0 0 hn hcol)
      have hm' : ∀ r, r < nrow → ∀ j : Fin n, |(matRows m r : Row ℝ n) j| ≤ X := fun r hr j => hm r j.val hr j.isLt
      have hi : getInit (if given.isSome then "none" else init) = .ok it := by
        cases given with
        | none => exact hin rfl
        | some g => rw [his rfl]; rfl
      have hseed : it = .plusplus → Seedable (realDist big .eucl) big (matRows m : Nat → Row ℝ n) nrow := fun _ =>
        ⟨fun q r hq' hr => (realDist_lt h1 hl hq (by decide) (hm' q hq') (hm' r hr)).1,
          fun r hr => realDist_self (by decide) _,
          fun q r hq' hr => (realDist_lt h1 hl hq (by decide) (hm' q hq') (hm' r hr)).2⟩
      have hb0 : ∀ c0, StartsAt it (realDist big .eucl) (matRows m) nrow rng (givenCents given) c0 →
          ∀ (cc : Fin k) (j : Fin n), |c0 cc j| ≤ X := fun c0 hs => start_bounded hX hm' (fun g hgv cc j => by
        cases given with
        | none => cases hgv
        | some g' =>
          rw [← Option.some.inj hgv]
          exact hg g' rfl cc.val j.val cc.isLt j.isLt) hrng hs
      cases noPrune
      · obtain ⟨res, e, w1, w2⟩ := hpr.2 it .eucl hk2 hkN hi (.inl ⟨rfl, rfl⟩) hseed (fun _ c0 hs r hr =>
          ⟨⟨0, hk⟩, (realDist_lt h1 hl hq (by decide) (hm' r hr) (fun j => hb0 c0 hs ⟨0, hk⟩ j)).2⟩)
        refine ⟨Omp.reportP res, ?_, fun h => (by cases h), fun _ => ⟨w1, fun h0 => ?_⟩⟩
        · simp only [Bool.false_eq_true, if_false]
          rw [e]
          rfl
        · obtain ⟨c0, q1, q2, q3, q4⟩ := w2 h0
          exact ⟨c0, q1, q2, q3, fun _ => q4 ⟨rfl, fun x y => (Dist.C36_euclid_is_metric x y x).2.1,
            fun x y z => (Dist.C36_euclid_is_metric x y z).2.2.2⟩⟩
      · obtain ⟨res, e, w1, w2⟩ := hun.2 it .eucl hk2 hkN hi (.inl ⟨rfl, rfl⟩) hseed (fun c0 tr hs ht i r hr =>
          ⟨⟨0, hk⟩, (realDist_lt h1 hl hq (by decide) (hm' r hr)
            (fun j => trace_bounded hX hm' (hb0 c0 hs) ht i ⟨0, hk⟩ j)).2⟩)
        refine ⟨Omp.report res, ?_, fun _ => ⟨w1, w2⟩, fun h => by cases h⟩
        simp only [if_true]
        rw [e]
        rfl

/-! ### Calls that meet the hypotheses -/

/-- A machine with two processors that gives rows 0 and 3 to thread 1. -/
def demoOmp : OmpRun := ⟨2, Omp.demoOwner, fun i => Kmeans.demoSched i ++ [0, 1], Omp.demoOwner,
  fun i => Kmeans.demoSched i ++ [0, 1]⟩

theorem demoOmp_ok : demoOmp.Ok 4 8 :=
  ⟨Omp.demo_complete.1, Omp.demo_complete.2, Omp.demo_complete.1, Omp.demo_complete.2⟩

/-- Eight threads are asked for.  `-O` and `-O -P` on the four rows with k-means++, and with a file of centres. -/
example : (∃ rep : Omp.Report ℝ 2 1, knoriOmp (realDist 1000) 1000 (oneCell ℝ) (counter ℝ) demoOmp true
      ((rowsFrom fourRows 1 0 4).flatMap (oneCell ℝ).enc) none 4 100 8 "kmeanspp" (-1) "eucl" = .ok rep ∧
      DeliversReport .plusplus (realDist 1000 .eucl) (matRows fourRows) 4 (counter ℝ) none (-1) 99 rep) ∧
    ∃ rep : Omp.Report ℝ 2 1, knoriOmp (realDist 1000) 1000 (oneCell ℝ) (counter ℝ) demoOmp false
      ((rowsFrom fourRows 1 0 4).flatMap (oneCell ℝ).enc) (some ((rowsFrom fourRows 1 0 2).flatMap (oneCell ℝ).enc))
      4 100 8 "kmeanspp" (-1) "eucl" = .ok rep ∧
      DeliversReportPruned .none (realDist 1000 .eucl) True (matRows fourRows) 4 (counter ℝ)
        (givenCents (some fourRows)) (-1) 99 rep := by
  have hb : ∀ r j, |fourRows r j| ≤ 12 := fun r j => by unfold fourRows; split_ifs <;> norm_num
  constructor
  · obtain ⟨rep, e, w, -⟩ := ((C92_knori_partial (n := 1) 1000 12 (by norm_num) (by norm_num) (by norm_num) (oneCell_ok ℝ)
      (counter ℝ) demoOmp true ((rowsFrom fourRows 1 0 4).flatMap (oneCell ℝ).enc) none 4 100 8 "kmeanspp" (-1) "eucl"
      (by decide) (by decide) (by decide) (by decide) (by decide) (by decide) (counter_ok ℝ) demoOmp_ok).2.2
      fourRows none rfl rfl (by simp)).2 .plusplus (by decide) (by decide) rfl (fun r j _ _ => hb r j)
      (fun g h => by cases h) (fun h => by cases h) (fun _ => rfl)
    exact ⟨rep, e, (w rfl).1⟩
  · obtain ⟨rep, e, -, w⟩ := ((C92_knori_partial (n := 1) 1000 12 (by norm_num) (by norm_num) (by norm_num) (oneCell_ok ℝ)
      (counter ℝ) demoOmp false ((rowsFrom fourRows 1 0 4).flatMap (oneCell ℝ).enc)
      (some ((rowsFrom fourRows 1 0 2).flatMap (oneCell ℝ).enc)) 4 100 8 "kmeanspp" (-1) "eucl"
      (by decide) (by decide) (by decide) (by decide) (by decide) (by decide) (counter_ok ℝ) demoOmp_ok).2.2
      fourRows (some fourRows) rfl rfl (by simp)).2 .none (by decide) (by decide) rfl (fun r j _ _ => hb r j)
      (fun g h r j _ _ => by rw [← Option.some.inj h]; exact hb r j) (fun _ => rfl) (fun h => by cases h)
    exact ⟨rep, e, (w rfl).2 (by decide)⟩

/-- Run `knori -O` on the four rows: iterations, assignment and centroids. -/
def showOmp (noPrune : Bool) (init dist : String) (centers : Option (List ℚ)) (maxIters : Nat) : Res SeenCall :=
  (knoriOmp (k := 2) (n := 1) (fun _ => Kmeans.demoDist) 1000 (oneCell ℚ) (counter ℚ) demoOmp noPrune [0, 1, 10, 12]
    centers 4 maxIters 8 init (-1) dist).map fun x => ⟨x.iters, (List.range 4).map x.assign,
      (List.finRange 2).map fun c => x.means c 0⟩

/-- The four initialisations from the same engine as in the example of C82, with and without pruning; `taxi` is refused,
and so is `none` without a file; a limit of 1 does nothing without pruning. -/
example : showOmp true "forgy" "eucl" none 0 = .ok ⟨0, [none, none, none, none], [1, 12]⟩ ∧
    showOmp true "random" "eucl" none 1 = .ok ⟨1, [some 0, some 1, some 0, some 1], [5, 13/2]⟩ ∧
    showOmp true "kmeanspp" "cos" none 1 = .ok ⟨1, [some 1, some 0, some 0, some 0], [1, 0]⟩ ∧
    showOmp true "forgy" "eucl" (some [0, 1]) 2 = .ok ⟨2, [some 0, some 1, some 1, some 1], [0, 23/3]⟩ ∧
    showOmp true "forgy" "eucl" (some [0, 1]) 100 = .ok ⟨3, [some 0, some 0, some 1, some 1], [1/2, 11]⟩ ∧
    showOmp false "forgy" "eucl" (some [0, 1]) 1 = .ok ⟨2, [some 0, some 1, some 1, some 1], [0, 23/3]⟩ ∧
    showOmp false "forgy" "eucl" (some [0, 1]) 2 = .ok ⟨2, [some 0, some 1, some 1, some 1], [0, 23/3]⟩ ∧
    showOmp false "random" "eucl" none 0 = .ok ⟨0, [some 0, some 1, some 0, some 1], [5, 13/2]⟩ ∧
    showOmp true "forgy" "taxi" none 100 = .error .throws ∧
    showOmp false "forgy" "sqeucl" none 100 = .error .throws ∧
    showOmp false "kmeans++" "eucl" none 100 = .error .throws ∧
    showOmp true "none" "eucl" none 100 = .error .assertFail := by
  decide +kernel

/-! ### Where it fails -/

/-- The full statement of C92: a limit of `maxIters` iterations is used if it is needed. -/
def OmpUsesTheLimit : Prop :=
  ∀ (a : OmpCall ℚ) (m g : Nat → Nat → ℚ) (o : OmpRun), a.data = rowsFrom m 1 0 a.nrow → 2 ≤ a.nrow → a.nrow < 1000 →
    a.centers = some (rowsFrom g 1 0 2) → a.init = "none" → a.dist = "eucl" → o.Ok a.nrow a.nthreads →
    (∀ r j, |m r j| ≤ 12) → (∀ r j, |g r j| ≤ 12) →
    ∃ res, kmeansOmp (k := 2) (n := 1) (fun _ => Kmeans.demoDist) 1000 (counter ℚ) o a = .ok res ∧
      DeliversReport .none Kmeans.demoDist (matRows m) a.nrow (counter ℚ) (givenCents (some g)) a.tol a.maxIters
        (Omp.report res)

/-- **C92 is violated.**  On the rows 0, 1, 10, 12 from the centres 0 and 1 a limit of 1 returns the centres 0 and 1. -/
theorem C92_violated : ¬ OmpUsesTheLimit := by
  intro h
  have hb : ∀ r j, |fourRat r j| ≤ 12 := fun r j => by unfold fourRat; split_ifs <;> norm_num
  obtain ⟨res, e, c0, hs, -, hL⟩ := h ⟨rowsFrom fourRat 1 0 4, 4, 1, 8, some (rowsFrom fourRat 1 0 2), "none", -1, "eucl"⟩
    fourRat fourRat demoOmp rfl (by decide) (by decide) rfl rfl rfl demoOmp_ok hb hb
  have hc0 : c0 = two 0 1 := by
    rw [hs.1 _ rfl]
    funext c j
    have : c = 0 ∨ c = 1 := by omega
    rcases this with rfl | rfl <;> rfl
  subst hc0
  obtain ⟨tr, htr⟩ := Kmeans.trace_exists Kmeans.demoDist 4 Kmeans.demoData (two 0 1) (by decide)
  obtain ⟨mm, q1, q2, hsh, -⟩ := hL (by decide) tr htr
  obtain rfl : mm = 1 := by
    dsimp only at q2
    omega
  have ht1 : (tr 1).cents = two 0 (23/3) :=
    demo_step (fun r => if r = 0 then 0 else 1) htr.cents (by decide +kernel) (by decide +kernel)
      ⟨fun r hr => by
        obtain ⟨c, e, hc⟩ := (htr.step 0).assigned r hr
        exact ⟨c, e, hc.1⟩, (htr.step 0).means⟩
  have hmean := congrFun (congrFun hsh.means 1) 0
  rw [ht1] at hmean
  have hval : (kmeansOmp (k := 2) (n := 1) (fun _ => Kmeans.demoDist) 1000 (counter ℚ) demoOmp
      ⟨rowsFrom fourRat 1 0 4, 4, 1, 8, some (rowsFrom fourRat 1 0 2), "none", -1, "eucl"⟩).map
      (fun x => (Omp.report x).means 1 0) = .ok 1 := by decide +kernel
  rw [e] at hval
  have hv : (Omp.report res).means 1 0 = 1 := Except.ok.inj hval
  rw [hmean] at hv
  exact absurd hv (by decide +kernel)

end Knor.Driver
