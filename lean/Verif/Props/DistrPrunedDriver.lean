import Verif.Lemmas.DistrPrunedDriver
import Verif.Props.DistrDriver

/-!
# Property C86: a whole pruned distributed k-means job

`knord` without `-P`, which is the default.
-/

namespace Knor.Driver

open Knor Knor.Spec Knor.Io Knor.Partition Knor.Par Knor.Init

variable {R S B : Type _} {k n : Nat}

/-- **C86, what holds for every metric, and for the Euclidean one.**  Unknown names throw; with one cluster the job
fails an assertion.  Every other job of at most as many processes as rows, on a file that stores an `nrow × n` matrix,
returns.  If an iteration is allowed the result is a partition of the rows with its sizes and means; with exactly one
every row is at a nearest of the centroids that the named initialisation promises; with none these centroids are
returned.  If the distance `eucl` is symmetric and satisfies the triangle inequality, a job with that metric returns
the result of Lloyd's algorithm, ties broken in some way.  This for any numbers of processes and threads, any
interleavings and any draws of the engine.  What is missing is one cluster, and the last claim for the other metrics;
it is false (`C86_violated_sqeucl`). -/
theorem C86_job_partial [Field R] [LinearOrder R] [IsStrictOrderedRing R]
    (dist : Dist.Metric → Row R n → Row R n → R) (big : R) {c : Codec R B} (hc : CodecOk c) (rng : Rng R S k)
    (sched1 sched2 : Nat → Nat → List Nat) (a : Job R B) (m : Nat → Nat → R) (given : Option (Nat → Nat → R))
    (hk : 0 < k) (hcol : 0 < n) (hnp : 0 < a.nprocs) (hn : a.nprocs ≤ a.nrow) (hnt : 0 < a.nthreads)
    (hlt : a.nrow + 8192 < 4294967296)
    (hsz : a.nrow * n * c.size < 9223372036854775808) (hst : Stores c a.bytes m a.nrow n)
    (hgiven : a.centers = given.map fun g => rowsFrom g n 0 k) (hrng : RngOk rng a.nrow)
    (hc1 : Distr.TaskSchedOk a.nrow a.nprocs a.nthreads sched1)
    (hc2 : Distr.TaskSchedOk a.nrow a.nprocs a.nthreads sched2) :
    ((a.init ∉ ["random", "forgy", "kmeanspp", "none"] ∨ a.dist ∉ ["eucl", "cos", "taxi", "sqeucl"]) →
      kmeansDistPruned dist big c rng sched1 sched2 a = .error .throws) ∧
    ∀ it met, getInit a.init = .ok it → getDist a.dist = .ok met →
      (k = 1 → kmeansDistPruned dist big c rng sched1 sched2 a = .error .assertFail) ∧
      (1 < k → (it = .plusplus → Seedable (dist met) big (matRows m) a.nrow) →
      (it ≠ .plusplus → ∀ c0, StartsAt it (dist met) (matRows m) a.nrow rng (givenCents given) c0 →
        ∀ r, r < a.nrow → ∃ c, dist met (matRows m r) (c0 c) < big) →
      ∃ res, kmeansDistPruned dist big c rng sched1 sched2 a = .ok res ∧
        DeliversJobPruned it (dist met) (met = .eucl ∧ (∀ x y, dist .eucl x y = dist .eucl y x) ∧
            ∀ x y z, dist .eucl x z ≤ dist .eucl x y + dist .eucl y z)
          (matRows m) a.nrow rng (givenCents given) a.tol a.maxIters res) := by
  constructor
  · intro h
    unfold kmeansDistPruned
    by_cases h1 : a.init ∈ ["random", "forgy", "kmeanspp", "none"]
    · obtain ⟨it, e⟩ := (names_ok a.init a.dist).2.2 h1
      rw [e]
      dsimp only
      rw [(names_ok a.init a.dist).2.1 (h.resolve_left fun hh => hh h1)]
    · rw [(names_ok a.init a.dist).1 h1]
  intro it met hi hm
  refine ⟨fun h1 => ?_, fun hk1 hpp hb => ?_⟩
  · obtain ⟨c0, e0, -⟩ := construct_ok (k := k) (n := n) hk it given
    unfold kmeansDistPruned constructPruned DistMatrix.create
    rw [hi]
    dsimp only
    rw [hm]
    dsimp only
    rw [hgiven, e0]
    dsimp only
    rw [if_neg (by omega)]
  obtain ⟨ws, el, hrows⟩ := loadRanks_ok hc m hnp hn hnt hcol (by omega) hsz hst
  obtain ⟨s0, procs, s, e0, es, hstart, hrel, hwf, hrow, _⟩ := runInitDistPruned_ok (dist met) big rng
    (rowsInRanks ws a.nrow a.nprocs a.nthreads) (matRows m) a.nrow a.nprocs a.nthreads hrows hk1 hnp hn hnt hlt hrng
    sched1 hc1 it hpp given hb
  have hcall : ∀ res v, Distr.runPruned (dist met) (dist .eucl) big (rowsInRanks ws a.nrow a.nprocs a.nthreads) a.nrow
        a.nprocs a.nthreads a.tol a.maxIters sched2 procs = .ok res →
      Distr.gather a.nrow a.nprocs (fun p r => ((res.procs p).core.slots r).assign) = .ok v →
      kmeansDistPruned dist big c rng sched1 sched2 a =
        .ok ⟨res.iters, v, (res.procs 0).core.counts, (res.procs 0).core.cltrs.means⟩ := by
    intro res v er ev
    unfold kmeansDistPruned
    rw [hi]
    dsimp only
    rw [hm]
    dsimp only
    rw [hgiven, e0]
    dsimp only
    rw [Distr.construct_ok hnp hn]
    dsimp only
    rw [el]
    dsimp only
    rw [es]
    dsimp only
    rw [er]
    dsimp only
    rw [ev]
  by_cases hmx : 0 < a.maxIters
  · obtain ⟨res, v, er, ev, q1, q2, q3, q4, q5⟩ := Distr.runPruned_partition (eucl := dist .eucl) (big := big)
      (tol := a.tol) hk1 hnp hn hlt hnt hrel hwf hc2 hrow hmx
    refine ⟨_, hcall res v er ev, s.cltrs.means, hstart, fun h => by omega, fun _ => ⟨q3, (q4 0 hnp).1, fun c j => ?_⟩,
      fun h1 r hr => ?_, ?_⟩
    · rw [← memberMean_data hrows]
      exact (q4 0 hnp).2 c j
    · rw [← hrows r hr]
      exact q5 (by omega) r hr
    · rintro _ ⟨rfl, hsym, htri⟩
      obtain ⟨res', v', tr, er', ev', w1, w2, w3, w4, w5, w6, w7⟩ := Distr.runPruned_from (dist .eucl) hsym htri big
        (rowsInRanks ws a.nrow a.nprocs a.nthreads) a.nrow a.nprocs a.nthreads a.tol a.maxIters (by omega) hnp hn hlt hnt
        s.cltrs.means procs s hrel hwf rfl sched2 hc2 hrow hmx
      rw [er] at er'
      obtain rfl := Except.ok.inj er'
      rw [ev] at ev'
      obtain rfl := Except.ok.inj ev'
      refine ⟨tr, Prune.anyTie_data hrows w3, w1, w2, w4, w5, w6, (w7 0 hnp).1, fun c => ?_⟩
      rw [← Kmeans.count_congr w6]
      exact (w7 0 hnp).2.1 c
  · have h0 : a.maxIters = 0 := by omega
    have er : Distr.runPruned (dist met) (dist .eucl) big (rowsInRanks ws a.nrow a.nprocs a.nthreads) a.nrow
        a.nprocs a.nthreads a.tol a.maxIters sched2 procs = .ok ⟨0, procs⟩ := by
      unfold Distr.runPruned
      rw [Distr.construct_ok hnp hn, h0]
      rfl
    obtain ⟨v, ev, _⟩ := Distr.gather_eq (g := a.nrow) hnp (fun p r => ((procs p).core.slots r).assign)
    refine ⟨_, hcall _ v er ev, s.cltrs.means, hstart, fun _ => ⟨rfl, ?_⟩, fun h => by omega, fun h => by omega,
      fun h => by omega⟩
    dsimp only
    rw [hrel.cltrs 0 hnp]

/-! ### Agreement with the unpruned job -/

/-- A run without ties is the run of Lloyd's algorithm. -/
theorem jobEnds_anyTie [Field R] [LinearOrder R] [IsStrictOrderedRing R] {dist : Row R n → Row R n → R} {N : Nat}
    {data : Nat → Row R n} {c0 : Fin k → Row R n} {tol : R} {maxIters : Nat} {tr tr' : Nat → Snap R k n}
    {res : JobResult R k n} (ht : LloydTrace dist N data c0 tr) (hnt : NoTies dist N data tr)
    (ht' : LloydRunAnyTie dist N data c0 res.iters tr') (h : JobEnds N tol maxIters tr' res) :
    JobEnds N tol maxIters tr res := by
  have huni := Prune.anyTie_unique ht hnt ht'
  have hstop : ∀ j, j ≤ res.iters → (StopsAt N tol tr' j ↔ StopsAt N tol tr j) := by
    intro j hj
    unfold StopsAt
    rw [Kmeans.numChanged_congr (fun r hr => (huni (j - 1) (by omega)).2 r hr) (fun r hr => (huni j hj).2 r hr)]
  refine ⟨h.pos, h.le, fun j h1 h2 => ?_, ?_, fun r hr => ?_, ?_, fun c => ?_⟩
  · rw [← hstop j (by omega)]
    exact h.first j h1 h2
  · rw [← hstop _ (le_refl _)]
    exact h.stops
  · rw [h.assign r hr]
    exact (huni _ (le_refl _)).2 r hr
  · rw [h.means]
    exact (huni _ (le_refl _)).1
  · rw [h.sizes, Kmeans.count_congr fun r hr => (huni _ (le_refl _)).2 r hr]

/-- **C86, against the unpruned job.**  Euclidean metric, at least two clusters, at least one iteration.  If no row is
ever equally far from two nearest centroids, the pruned and the unpruned job with the same options return the same
number of iterations, assignment, centroids and sizes, whatever their numbers of processes and threads and their
interleavings.  With ties the two may choose differently. -/
theorem C86_same_as_unpruned_partial [Field R] [LinearOrder R] [IsStrictOrderedRing R]
    (dist : Dist.Metric → Row R n → Row R n → R) (hsym : ∀ x y, dist .eucl x y = dist .eucl y x)
    (htri : ∀ x y z, dist .eucl x z ≤ dist .eucl x y + dist .eucl y z)
    (big : R) {c : Codec R B} (hc : CodecOk c) (rng : Rng R S k)
    (sched1 sched2 sched3 sched4 : Nat → Nat → List Nat) (a : Job R B) (np' nt' : Nat) (m : Nat → Nat → R)
    (given : Option (Nat → Nat → R)) (it : InitT)
    (hi : getInit a.init = .ok it) (hd : a.dist = "eucl") (hmx : 0 < a.maxIters)
    (hk : 1 < k) (hcol : 0 < n) (hnp : 0 < a.nprocs) (hn : a.nprocs ≤ a.nrow) (hnt : 0 < a.nthreads)
    (hnp' : 0 < np') (hn' : np' ≤ a.nrow) (hnt' : 0 < nt') (hlt : a.nrow + 8192 < 4294967296)
    (hsz : a.nrow * n * c.size < 9223372036854775808) (hst : Stores c a.bytes m a.nrow n)
    (hgiven : a.centers = given.map fun g => rowsFrom g n 0 k) (hrng : RngOk rng a.nrow)
    (hc1 : Distr.TaskSchedOk a.nrow a.nprocs a.nthreads sched1)
    (hc2 : Distr.TaskSchedOk a.nrow a.nprocs a.nthreads sched2)
    (hc3 : Distr.SchedOk a.nrow np' nt' sched3) (hc4 : Distr.SchedOk a.nrow np' nt' sched4)
    (hpp : it = .plusplus → Seedable (dist .eucl) big (matRows m) a.nrow)
    (hb : ∀ c0 tr, StartsAt it (dist .eucl) (matRows m) a.nrow rng (givenCents given) c0 →
        LloydTrace (dist .eucl) a.nrow (matRows m) c0 tr →
        ∀ i r, r < a.nrow → ∃ c, dist .eucl (matRows m r) ((tr i).cents c) < big)
    (hties : ∀ c0 tr, StartsAt it (dist .eucl) (matRows m) a.nrow rng (givenCents given) c0 →
        LloydTrace (dist .eucl) a.nrow (matRows m) c0 tr → NoTies (dist .eucl) a.nrow (matRows m) tr) :
    ∃ res res', kmeansDistPruned dist big c rng sched1 sched2 a = .ok res ∧
      kmeansDist dist big c rng sched3 sched4 { a with nprocs := np', nthreads := nt' } = .ok res' ∧
      res.iters = res'.iters ∧ (∀ r, r < a.nrow → res.assign r = res'.assign r) ∧ res.means = res'.means ∧
      res.sizes = res'.sizes := by
  have hd' : getDist a.dist = .ok .eucl := by rw [hd]; rfl
  obtain ⟨res', e', c0', hs', _, hl'⟩ := (C85_job dist big hc rng sched3 sched4
    { a with nprocs := np', nthreads := nt' } m given (by omega) hcol hnp' hn' hnt' (by dsimp only; omega) hsz hst hgiven
    hrng hc3 hc4).2 it .eucl hi hd' hpp hb
  obtain ⟨res, e, c0, hs, _, _, _, hl⟩ := ((C86_job_partial dist big hc rng sched1 sched2 a m given (by omega) hcol hnp hn
    hnt hlt hsz hst hgiven hrng hc1 hc2).2 it .eucl hi hd').2 hk hpp (fun _ c0 hs r hr => by
      obtain ⟨tr, htr⟩ := Kmeans.trace_exists (dist .eucl) a.nrow (matRows m) c0 (by omega)
      have := hb c0 tr hs htr 0 r hr
      rwa [htr.cents] at this)
  obtain rfl := startsAt_unique hs hs'
  obtain ⟨tr, htr⟩ := Kmeans.trace_exists (dist .eucl) a.nrow (matRows m) c0 (by omega)
  obtain ⟨tr', htr', he⟩ := hl hmx ⟨rfl, hsym, htri⟩
  exact ⟨res, res', e, e', jobEnds_unique (jobEnds_anyTie htr (hties c0 tr hs htr) htr' he) (hl' hmx tr htr)⟩

/-! ### Bounded data -/

/-- **C86, bounded data.**  With the Euclidean, squared Euclidean or taxicab metric over the reals nothing has to be
assumed about the initialisation: it is enough that all entries are at most `X` in size. -/
theorem C86_bounded_data_partial (big X : ℝ) (h1 : 1 ≤ big) (hl : n * (2 * X) < big) (hq : n * (2 * X) ^ 2 < big)
    {c : Codec ℝ B} (hc : CodecOk c) (rng : Rng ℝ S k)
    (sched1 sched2 : Nat → Nat → List Nat) (a : Job ℝ B) (m : Nat → Nat → ℝ) (given : Option (Nat → Nat → ℝ))
    (hk : 1 < k) (hcol : 0 < n) (hnp : 0 < a.nprocs) (hn : a.nprocs ≤ a.nrow) (hnt : 0 < a.nthreads)
    (hlt : a.nrow + 8192 < 4294967296)
    (hsz : a.nrow * n * c.size < 9223372036854775808) (hst : Stores c a.bytes m a.nrow n)
    (hgiven : a.centers = given.map fun g => rowsFrom g n 0 k) (hrng : RngOk rng a.nrow)
    (hc1 : Distr.TaskSchedOk a.nrow a.nprocs a.nthreads sched1)
    (hc2 : Distr.TaskSchedOk a.nrow a.nprocs a.nthreads sched2)
    (hm : ∀ r j, r < a.nrow → j < n → |m r j| ≤ X)
    (hg : ∀ g, given = some g → ∀ r j, r < k → j < n → |g r j| ≤ X)
    (it : InitT) (met : Dist.Metric) (hi : getInit a.init = .ok it) (hd : getDist a.dist = .ok met)
    (hcos : met ≠ .cos) :
    ∃ res : JobResult ℝ k n, kmeansDistPruned (realDist big) big c rng sched1 sched2 a = .ok res ∧
      DeliversJobPruned it (realDist big met) (met = .eucl) (matRows m) a.nrow rng (givenCents given) a.tol a.maxIters
        res := by
  have hX : 0 ≤ X := (abs_nonneg _).trans (hm 0 0 (by omega) hcol)
  have hm' : ∀ r, r < a.nrow → ∀ j : Fin n, |(matRows m r : Row ℝ n) j| ≤ X := fun r hr j => hm r j.val hr j.isLt
  obtain ⟨res, e, c0, hs, w1, w2, w3, w4⟩ := ((C86_job_partial (realDist big) big hc rng sched1 sched2 a m given
    (by omega) hcol hnp hn hnt hlt hsz hst hgiven hrng hc1 hc2).2 it met hi hd).2 hk (fun _ =>
      ⟨fun q r hq' hr => (realDist_lt h1 hl hq hcos (hm' q hq') (hm' r hr)).1,
        fun r hr => realDist_self hcos _,
        fun q r hq' hr => (realDist_lt h1 hl hq hcos (hm' q hq') (hm' r hr)).2⟩) (fun _ c0 hs r hr => by
      have hb0 := start_bounded hX hm' (fun g hgv cc j => by
        cases given with
        | none => cases hgv
        | some g' =>
          rw [← Option.some.inj hgv]
          exact hg g' rfl cc.val j.val cc.isLt j.isLt) hrng hs
      exact ⟨⟨0, by omega⟩, (realDist_lt h1 hl hq hcos (hm' r hr) (fun j => hb0 ⟨0, by omega⟩ j)).2⟩)
  exact ⟨res, e, c0, hs, w1, w2, w3, fun h0 he => w4 h0 ⟨he,
    fun x y => (Dist.C36_euclid_is_metric x y x).2.1, fun x y z => (Dist.C36_euclid_is_metric x y z).2.2.2⟩⟩

/-! ### `knord` -/

/-- **C86, the program.**  `knord` without `-P` refuses a file of centres that does not exist, `none` without a file of
centres, and a data file whose size is not the one that the numbers of rows and columns imply.  Otherwise, for a file
that stores the matrix, it does what the job with the same options does; the last of the options `-t` and `-C`
decides.  Partial as `C86_bounded_data_partial`. -/
theorem C86_knord_partial (big X : ℝ) (h1 : 1 ≤ big) (hl : n * (2 * X) < big) (hq : n * (2 * X) ^ 2 < big)
    {c : Codec ℝ B} (hc : CodecOk c) (rng : Rng ℝ S k) (sched1 sched2 : Nat → Nat → List Nat)
    (datafn : List B) (opts : List (StartOpt B)) (nrow nprocs maxIters nthreads : Nat) (tol : ℝ)
    (distType : String) (hk : 1 < k) (hcol : 0 < n) (hnp : 0 < nprocs) (hn : nprocs ≤ nrow) (hnt : 0 < nthreads)
    (hlt : nrow + 8192 < 4294967296)
    (hsz : nrow * n * c.size < 9223372036854775808) (hszk : k * n * c.size < 18446744073709551616)
    (hrng : RngOk rng nrow)
    (hc1 : Distr.TaskSchedOk nrow nprocs nthreads sched1) (hc2 : Distr.TaskSchedOk nrow nprocs nthreads sched2) :
    ((none ∈ centerFiles opts ∨ centerFiles opts = [] ∧ lastInit opts = "none") →
      knord (n := n) false (realDist big) big c rng sched1 sched2 datafn opts nrow nprocs maxIters nthreads tol distType
        = .error .assertFail) ∧
    (none ∉ centerFiles opts → ¬ (centerFiles opts = [] ∧ lastInit opts = "none") →
      datafn.length ≠ nrow * n * c.size →
      knord (n := n) false (realDist big) big c rng sched1 sched2 datafn opts nrow nprocs maxIters nthreads tol distType
        = .error .throws) ∧
    ∀ (m : Nat → Nat → ℝ) (given : Option (Nat → Nat → ℝ)) it met,
      Stores c datafn m nrow n → none ∉ centerFiles opts →
      (centerFiles opts).getLast? = given.map (fun g => some ((rowsFrom g n 0 k).flatMap c.enc)) →
      (∀ r j, r < nrow → j < n → |m r j| ≤ X) →
      (∀ g, given = some g → ∀ r j, r < k → j < n → |g r j| ≤ X) →
      getInit (lastInit opts) = .ok it → (it = .none → given.isSome) →
      getDist distType = .ok met → met ≠ .cos →
      ∃ res : JobResult ℝ k n,
        knord false (realDist big) big c rng sched1 sched2 datafn opts nrow nprocs maxIters nthreads tol distType
          = .ok res ∧
        DeliversJobPruned it (realDist big met) (met = .eucl) (matRows m) nrow rng (givenCents given) tol maxIters
          res := by
  have hu : u64 (u64 (c.size * nrow) * n) = nrow * n * c.size := by
    have h0 : c.size * nrow * n = nrow * n * c.size := by ring
    rw [u64_mul (by omega), h0]
  have hopt : none ∉ centerFiles opts → startOptions opts "kmeanspp" none =
      .ok (lastInit opts, ((centerFiles opts).getLast?).getD none) := fun h => by
    rw [(startOptions_ok opts _ _).2 h]
    by_cases hl : opts = []
    · subst hl
      rfl
    · rw [if_neg hl]
  refine ⟨?_, ?_, ?_⟩
  · intro h
    unfold knord knordWith
    by_cases hx : none ∈ centerFiles opts
    · rw [(startOptions_ok opts _ _).1 hx]
    · obtain ⟨e1, e2⟩ := h.resolve_left hx
      rw [hopt hx]
      simp [e1, e2]
  · intro hx h hne
    unfold knord knordWith
    rw [hopt hx]
    dsimp only
    rw [if_neg, if_pos (by rw [hu]; exact hne)]
    rintro ⟨h2, h3⟩
    refine h ⟨?_, h2⟩
    by_contra hcf
    rw [List.getLast?_eq_getLast_of_ne_nil hcf] at h3
    have hmem := List.getLast_mem hcf
    cases e : (centerFiles opts).getLast hcf with
    | none => rw [e] at hmem; exact hx hmem
    | some b => rw [e] at h3; simp at h3
  · intro m given it met hst hx hcf hm hg hi hnone hd hcos
    have hlen : datafn.length = nrow * n * c.size := by
      unfold Stores at hst
      rw [hst, length_enc hc, length_rowsFrom]
    unfold knord knordWith
    rw [hopt hx, hcf]
    dsimp only
    cases given with
    | none =>
      have hne : lastInit opts ≠ "none" := by
        intro he
        rw [he] at hi
        have := hnone (Except.ok.inj hi).symm
        simp at this
      rw [if_neg (by simp [hne]), if_neg (by rw [hu]; simp [hlen])]
      simp only [Option.map_none, Option.getD_none, Bool.false_eq_true, if_false]
      exact C86_bounded_data_partial big X h1 hl hq hc rng sched1 sched2
        ⟨datafn, nrow, nprocs, maxIters, nthreads, none, lastInit opts, tol, distType⟩ m none hk hcol hnp hn hnt hlt hsz
        hst rfl hrng hc1 hc2 hm hg it met hi hd hcos
    | some g =>
      rw [if_neg (by simp), if_neg (by rw [hu]; simp [hlen])]
      obtain ⟨y, ey⟩ := read_stored (n := n) hc g k (Nat.mul_pos (by omega) hcol) hszk rfl
      simp only [Option.map_some, Option.getD_some]
      rw [ey]
      simp only [Bool.false_eq_true, if_false]
      exact C86_bounded_data_partial big X h1 hl hq hc rng sched1 sched2
        ⟨datafn, nrow, nprocs, maxIters, nthreads, some (rowsFrom g n 0 k), lastInit opts, tol, distType⟩ m (some g) hk
        hcol hnp hn hnt hlt hsz hst rfl hrng hc1 hc2 hm hg it met hi hd hcos

/-! ### Concrete jobs -/

theorem demoScheds_task : Distr.TaskSchedOk 4 2 2 demoScheds := by
  intro i p hp t ht
  have hp' : p = 0 ∨ p = 1 := by omega
  rcases hp' with rfl | rfl
  · have : effThreads 2 (procNrow 4 2 0) = 2 := by decide
    have : t = 0 ∨ t = 1 := by omega
    rcases this with rfl | rfl <;> (unfold demoScheds; decide)
  · have : effThreads 2 (procNrow 4 2 1) = 2 := by decide
    have : t = 0 ∨ t = 1 := by omega
    rcases this with rfl | rfl <;> (unfold demoScheds; decide)

/-- All hypotheses hold for the default job on four rows with two processes. -/
example : ∃ res : JobResult ℝ 2 1,
    knord false (realDist 1000) 1000 (oneCell ℝ) (counter ℝ) demoScheds demoScheds
      ((rowsFrom fourRows 1 0 4).flatMap (oneCell ℝ).enc) [] 4 2 100 2 (-1) "eucl" = .ok res ∧
    DeliversJobPruned .plusplus (realDist 1000 .eucl) (Dist.Metric.eucl = .eucl) (matRows fourRows) 4 (counter ℝ) none
      (-1) 100 res := by
  have hb : ∀ r j, |fourRows r j| ≤ 12 := fun r j => by unfold fourRows; split_ifs <;> norm_num
  exact (C86_knord_partial 1000 12 (by norm_num) (by norm_num) (by norm_num) (oneCell_ok ℝ) (counter ℝ) demoScheds
    demoScheds _ _ 4 2 100 2 (-1) "eucl" (by decide) (by decide) (by decide) (by decide) (by decide) (by decide)
    (by decide) (by decide) (counter_ok ℝ) demoScheds_task demoScheds_task).2.2
    fourRows none .plusplus .eucl rfl (by simp [centerFiles]) rfl (fun r j _ _ => hb r j) (fun g h => by cases h) rfl
    (fun h => by cases h) rfl (by decide)

/-- Every hypothesis of `C86_same_as_unpruned_partial` holds for the rows 0, 1, 10, 12 and the given centres 0, 1, two
processes against one. -/
example : ∃ res res' : JobResult ℚ 2 1,
    kmeansDistPruned (fun _ => Kmeans.demoDist) 1000 (oneCell ℚ) (counter ℚ) demoScheds demoScheds
      ⟨(rowsFrom fourRat 1 0 4).flatMap (oneCell ℚ).enc, 4, 2, 100, 2, some (rowsFrom fourRat 1 0 2), "none", -1,
        "eucl"⟩ = .ok res ∧
    kmeansDist (fun _ => Kmeans.demoDist) 1000 (oneCell ℚ) (counter ℚ) (fun i _ => Kmeans.demoSched i)
      (fun i _ => Kmeans.demoSched i)
      ⟨(rowsFrom fourRat 1 0 4).flatMap (oneCell ℚ).enc, 4, 1, 100, 2, some (rowsFrom fourRat 1 0 2), "none", -1,
        "eucl"⟩ = .ok res' ∧
    res.iters = res'.iters ∧ (∀ r, r < 4 → res.assign r = res'.assign r) ∧ res.means = res'.means ∧
    res.sizes = res'.sizes := by
  have hsch : Distr.SchedOk 4 1 2 fun i _ => Kmeans.demoSched i := by
    intro i p hp t ht
    obtain rfl : p = 0 := by omega
    have : t = 0 ∨ t = 1 := by
      have : effThreads 2 (procNrow 4 1 0) = 2 := by decide
      omega
    rcases this with rfl | rfl <;> (unfold Kmeans.demoSched; dsimp only; decide)
  have hrows : matRows (n := 1) fourRat = Kmeans.demoData := rfl
  have hgiv : ∀ c0, StartsAt .none Kmeans.demoDist (matRows fourRat) 4 (counter ℚ) (givenCents (some fourRat)) c0 →
      c0 = two 0 1 := by
    intro c0 h
    rw [h.1 _ rfl]
    funext c j
    have : c = 0 ∨ c = 1 := by omega
    rcases this with rfl | rfl <;> rfl
  refine C86_same_as_unpruned_partial (fun _ => Kmeans.demoDist) ?_ ?_ 1000 (oneCell_ok ℚ) (counter ℚ) demoScheds
    demoScheds (fun i _ => Kmeans.demoSched i) (fun i _ => Kmeans.demoSched i)
    ⟨(rowsFrom fourRat 1 0 4).flatMap (oneCell ℚ).enc, 4, 2, 100, 2, some (rowsFrom fourRat 1 0 2), "none", -1, "eucl"⟩
    1 2 fourRat (some fourRat) .none rfl rfl (by decide) (by decide) (by decide) (by decide) (by decide) (by decide)
    (by decide) (by decide) (by decide) (by decide) (by decide) rfl rfl (counter_ok ℚ) demoScheds_task
    demoScheds_task hsch hsch (fun h => by cases h) ?_ ?_
  · intro x y
    unfold Kmeans.demoDist
    split_ifs <;> grind
  · intro x y z
    unfold Kmeans.demoDist
    split_ifs <;> grind
  · intro c0 tr hs ht i r hr
    rw [hgiv c0 hs, hrows] at ht
    rw [hrows]
    have hr' : ∀ x y : ℚ, (∀ r, r < 4 → Kmeans.demoDist (Kmeans.demoData r) (two x y 0) < 1000) → (tr i).cents = two x y →
        ∃ c, Kmeans.demoDist (Kmeans.demoData r) ((tr i).cents c) < 1000 := fun x y h e => ⟨0, by rw [e]; exact h r hr⟩
    rcases demo_trace ht i with e | e | e <;> exact hr' _ _ (by decide +kernel) e
  · intro c0 tr hs ht i r c c' hr h h'
    rw [hgiv c0 hs, hrows] at ht
    rw [hrows] at h h'
    have key : ∀ x y : ℚ, (∀ r, r < 4 → ∀ c c', (∀ d, Kmeans.demoDist (Kmeans.demoData r) (two x y c) ≤
        Kmeans.demoDist (Kmeans.demoData r) (two x y d)) → (∀ d, Kmeans.demoDist (Kmeans.demoData r) (two x y c') ≤
        Kmeans.demoDist (Kmeans.demoData r) (two x y d)) → c = c') → (tr i).cents = two x y → c = c' := by
      intro x y hh e
      rw [e] at h h'
      exact hh r hr c c' h h'
    rcases demo_trace ht i with e | e | e <;> exact key _ _ (by decide +kernel) e

/-- In one dimension the Euclidean and the taxicab distance are the absolute difference. -/
def demoMetrics : Dist.Metric → Row ℚ 1 → Row ℚ 1 → ℚ
  | .sqeucl => fun x y => (x 0 - y 0) * (x 0 - y 0)
  | _ => Kmeans.demoDist

/-- A `knord` job on rows of one value. -/
def showJobOn (full : Bool) (rows : List ℚ) (np : Nat) (opts : List (StartOpt ℚ)) (maxIters : Nat) (metric : String) :
    Res SeenJob :=
  match knord full demoMetrics 1000 (oneCell ℚ) (counter ℚ) demoScheds demoScheds rows opts rows.length np
    maxIters 2 (-1) metric with
  | .error e => .error e
  | .ok (res : JobResult ℚ 2 1) => .ok ⟨res.iters, (List.range rows.length).map res.assign, [res.sizes 0, res.sizes 1],
      [res.means 0 0, res.means 1 0]⟩

/-- **C86 is violated** for the squared Euclidean metric.  Rows 0, 1/5, 4/5 on two processes from the centres 0 and
1/5: the default job reports convergence with the row 1/5 in the cluster of centroid 1/2, at squared distance 9/100,
while it is at 4/100 from the centroid 0.  The job with `-P` returns other clusters. -/
theorem C86_violated_sqeucl :
    showJobOn false [0, 1/5, 4/5] 2 [.centers (some [0, 1/5])] 100 "sqeucl" =
      .ok ⟨2, [some 0, some 1, some 1], [1, 2], [0, 1/2]⟩ ∧
    demoMetrics .sqeucl (fun _ => 1/5) (fun _ => 1/2) = 9/100 ∧ demoMetrics .sqeucl (fun _ => 1/5) (fun _ => 0) = 4/100 ∧
    showJobOn true [0, 1/5, 4/5] 2 [.centers (some [0, 1/5])] 100 "sqeucl" =
      .ok ⟨3, [some 0, some 0, some 1], [2, 1], [1/10, 4/5]⟩ := by
  decide +kernel

/-- **C86 is violated without iterations.**  The default initialisation k-means++ assigns the rows, but all sizes are
reported as zero. -/
theorem C86_violated_sizes :
    showJobOn false [6, 1, -12] 2 [] 0 "eucl" = .ok ⟨0, [some 1, some 0, some 0], [0, 0], [1, 6]⟩ := by
  decide +kernel

/-- **C86 is violated with one cluster**: the default job fails an assertion where the job with `-P` returns. -/
theorem C86_violated_one_cluster :
    ((kmeansDistPruned (k := 1) (n := 1) demoMetrics 1000 (oneCell ℚ)
      (⟨0, fun s => (1, s), fun s => (0, s), fun s => (0, s)⟩ : Rng ℚ Nat 1) demoScheds demoScheds
      ⟨[6, 1, -12], 3, 2, 100, 2, none, "kmeanspp", -1, "eucl"⟩).map fun x => x.iters) = .error .assertFail ∧
    ((kmeansDist (k := 1) (n := 1) demoMetrics 1000 (oneCell ℚ)
      (⟨0, fun s => (1, s), fun s => (0, s), fun s => (0, s)⟩ : Rng ℚ Nat 1) demoScheds demoScheds
      ⟨[6, 1, -12], 3, 2, 100, 2, none, "kmeanspp", -1, "eucl"⟩).map fun x =>
        (x.iters, (List.range 3).map x.assign)) = .ok (2, [some 0, some 0, some 0]) := by
  decide +kernel

/-- The rows on which `knori` goes wrong (`C84_violated`) are clustered correctly by `knord`; and the initialisations. -/
example : showJobOn false [6, 1, -12] 2 [] 100 "eucl" = .ok ⟨3, [some 1, some 1, some 0], [1, 2], [-12, 7/2]⟩ ∧
    showJobOn true [6, 1, -12] 2 [] 100 "eucl" = .ok ⟨3, [some 1, some 1, some 0], [1, 2], [-12, 7/2]⟩ ∧
    showJobOn false [6, 1, -12] 2 [.init "random"] 0 "eucl" = .ok ⟨0, [some 0, some 1, some 0], [2, 1], [-3, 1]⟩ ∧
    showJobOn false [6, 1, -12] 2 [.init "random"] 1 "eucl" = .ok ⟨1, [some 1, some 1, some 0], [1, 2], [-12, 7/2]⟩ ∧
    showJobOn false [0, 1, 10, 12] 2 [.init "forgy"] 100 "eucl" =
      .ok ⟨2, [some 0, some 0, some 1, some 1], [2, 2], [1/2, 11]⟩ ∧
    showJobOn false [0, 1, 10, 12] 2 [.centers (some [0, 1])] 100 "eucl" =
      .ok ⟨3, [some 0, some 0, some 1, some 1], [2, 2], [1/2, 11]⟩ := by
  decide +kernel

end Knor.Driver
