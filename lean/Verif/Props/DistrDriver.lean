import Verif.Lemmas.DistrDriver

/-!
# Properties C85 and C86: a whole distributed k-means job

`knord` with and without `-P`.
-/

namespace Knor.Driver

open Knor Knor.Spec Knor.Io Knor.Partition Knor.Par Knor.Init

variable {R S B : Type _} {k n : Nat}

/-- The names of the options that are accepted. -/
theorem names_ok (s t : String) :
    (s ∉ ["random", "forgy", "kmeanspp", "none"] → getInit s = .error .throws) ∧
    (t ∉ ["eucl", "cos", "taxi", "sqeucl"] → getDist t = .error .throws) ∧
    (s ∈ ["random", "forgy", "kmeanspp", "none"] → ∃ it, getInit s = .ok it) := by
  refine ⟨fun h => ?_, fun h => ?_, fun h => ?_⟩
  · simp only [List.mem_cons, List.not_mem_nil, or_false, not_or] at h
    simp [getInit, h]
  · simp only [List.mem_cons, List.not_mem_nil, or_false, not_or] at h
    simp [getDist, h]
  · simp only [List.mem_cons, List.not_mem_nil, or_false] at h
    rcases h with rfl | rfl | rfl | rfl <;> exact ⟨_, rfl⟩

/-- **C85.**  A job whose option names are not among the documented ones throws.  Every other job of at most as many
processes as rows, on a file that stores an `nrow × n` matrix, returns the result of Lloyd's algorithm on the whole
matrix with the named metric, from the centroids that the named initialisation promises; whatever the numbers of
processes and threads, the interleavings and the draws of the engine are.  `hb` says that no distance that decides an
assignment reaches `big`, and `hpp` that the distances between rows suit k-means++. -/
theorem C85_job [Field R] [LinearOrder R] [IsStrictOrderedRing R]
    (dist : Dist.Metric → Row R n → Row R n → R) (big : R) {c : Codec R B} (hc : CodecOk c) (rng : Rng R S k)
    (sched1 sched2 : Nat → Nat → List Nat) (a : Job R B) (m : Nat → Nat → R) (given : Option (Nat → Nat → R))
    (hk : 0 < k) (hcol : 0 < n) (hnp : 0 < a.nprocs) (hn : a.nprocs ≤ a.nrow) (hnt : 0 < a.nthreads)
    (hlt : a.nrow < 4294967296)
    (hsz : a.nrow * n * c.size < 9223372036854775808) (hst : Stores c a.bytes m a.nrow n)
    (hgiven : a.centers = given.map fun g => rowsFrom g n 0 k) (hrng : RngOk rng a.nrow)
    (hc1 : Distr.SchedOk a.nrow a.nprocs a.nthreads sched1) (hc2 : Distr.SchedOk a.nrow a.nprocs a.nthreads sched2) :
    ((a.init ∉ ["random", "forgy", "kmeanspp", "none"] ∨ a.dist ∉ ["eucl", "cos", "taxi", "sqeucl"]) →
      kmeansDist dist big c rng sched1 sched2 a = .error .throws) ∧
    ∀ it met, getInit a.init = .ok it → getDist a.dist = .ok met →
      (it = .plusplus → Seedable (dist met) big (matRows m) a.nrow) →
      (∀ c0 tr, StartsAt it (dist met) (matRows m) a.nrow rng (givenCents given) c0 →
        LloydTrace (dist met) a.nrow (matRows m) c0 tr →
        ∀ i r, r < a.nrow → ∃ c, dist met (matRows m r) ((tr i).cents c) < big) →
      ∃ res, kmeansDist dist big c rng sched1 sched2 a = .ok res ∧
        DeliversJob it (dist met) (matRows m) a.nrow rng (givenCents given) a.tol a.maxIters res := by
  constructor
  · intro h
    unfold kmeansDist
    by_cases h1 : a.init ∈ ["random", "forgy", "kmeanspp", "none"]
    · obtain ⟨it, e⟩ := (names_ok a.init a.dist).2.2 h1
      rw [e]
      dsimp only
      rw [(names_ok a.init a.dist).2.1 (h.resolve_left fun hh => hh h1)]
    · rw [(names_ok a.init a.dist).1 h1]
  · intro it met hi hm hpp hb
    obtain ⟨ws, el, hrows⟩ := loadRanks_ok hc m hnp hn hnt hcol hlt hsz hst
    obtain ⟨cl, procs, c0, e0, es, hstart, hmeans⟩ := runInitDist_ok (dist met) big rng
      (rowsInRanks ws a.nrow a.nprocs a.nthreads) (matRows m) a.nrow a.nprocs a.nthreads hrows hk hnp hn hnt hlt hrng
      sched1 hc1 it hpp given
    have hrows' : ∀ r, r < a.nrow → matRows m r = rowsInRanks (n := n) ws a.nrow a.nprocs a.nthreads r :=
      fun r hr => (hrows r hr).symm
    have hcall : ∀ res v, Distr.run (dist met) big (rowsInRanks ws a.nrow a.nprocs a.nthreads) a.nrow a.nprocs
          a.nthreads a.tol a.maxIters sched2 procs = .ok res →
        Distr.gather a.nrow a.nprocs (fun p => (res.procs p).assign) = .ok v →
        kmeansDist dist big c rng sched1 sched2 a =
          .ok ⟨res.iters, v, (res.procs 0).counts, (res.procs 0).cltrs.means⟩ := by
      intro res v er ev
      unfold kmeansDist
      rw [hi]
      dsimp only
      rw [hm]
      dsimp only
      rw [hgiven, e0]
      dsimp only
      rw [Distr.construct_ok hnp hn]
      dsimp only
      rw [el]
      dsimp only
      rw [es]
      dsimp only
      rw [er]
      dsimp only
      rw [ev]
    by_cases hmx : 0 < a.maxIters
    · have key : ∀ tr, LloydTrace (dist met) a.nrow (matRows m) c0 tr → ∃ res, kmeansDist dist big c rng sched1 sched2 a
          = .ok res ∧ JobEnds a.nrow a.tol a.maxIters tr res := by
        intro tr htr
        obtain ⟨res, v, er, ev, q1, q2, q3, q4, q5, q6⟩ := Distr.C26_distributed_is_lloyd (dist met) big
          (rowsInRanks ws a.nrow a.nprocs a.nthreads) a.nrow a.nprocs a.nthreads a.tol a.maxIters c0 procs hnp hn hlt
          hnt hmeans sched2 hc2 tr (trace_data hrows' htr) (fun i r hr => by
            rw [hrows r hr]
            exact hb c0 tr hstart htr i r hr) hmx
        exact ⟨_, hcall res v er ev, q1, q2, q3, q4, q5, (q6 0 hnp).1, (q6 0 hnp).2.1⟩
      obtain ⟨tr, htr⟩ := Kmeans.trace_exists (dist met) a.nrow (matRows m) c0 hk
      obtain ⟨res, e, _⟩ := key tr htr
      refine ⟨res, e, c0, hstart, fun h => by omega, fun _ tr' htr' => ?_⟩
      obtain ⟨res', e', h'⟩ := key tr' htr'
      rw [e] at e'
      obtain rfl := Except.ok.inj e'
      exact h'
    · have h0 : a.maxIters = 0 := by omega
      have er := Distr.C26_no_iterations (dist met) big (rowsInRanks ws a.nrow a.nprocs a.nthreads) a.nrow a.nprocs
        a.nthreads a.tol procs hnp hn sched2
      rw [← h0] at er
      obtain ⟨v, ev, _⟩ := Distr.gather_eq (g := a.nrow) hnp (fun p => (procs p).assign)
      exact ⟨_, hcall _ v er ev, c0, hstart, fun _ => ⟨h0, hmeans 0 hnp⟩, fun h => by omega⟩

/-! ### The number of processes does not matter -/

/-- Two jobs that end the same run have the same result. -/
theorem jobEnds_unique [Field R] [LinearOrder R] {N : Nat} {tol : R} {maxIters : Nat} {tr : Nat → Snap R k n}
    {res res' : JobResult R k n} (h : JobEnds N tol maxIters tr res) (h' : JobEnds N tol maxIters tr res') :
    res.iters = res'.iters ∧ (∀ r, r < N → res.assign r = res'.assign r) ∧ res.means = res'.means ∧
      res.sizes = res'.sizes := by
  have hit : res.iters = res'.iters := by
    rcases lt_trichotomy res.iters res'.iters with hl | he | hg
    · rcases h.stops with hs | hs
      · exact absurd hs (h'.first _ h.pos hl)
      · have := h'.le
        omega
    · exact he
    · rcases h'.stops with hs | hs
      · exact absurd hs (h.first _ h'.pos hg)
      · have := h.le
        omega
  refine ⟨hit, fun r hr => ?_, ?_, ?_⟩
  · rw [h.assign r hr, h'.assign r hr, hit]
  · rw [h.means, h'.means, hit]
  · funext c
    rw [h.sizes, h'.sizes, hit]

theorem same_job [Field R] [LinearOrder R] {it : InitT} {dist : Row R n → Row R n → R}
    {data : Nat → Row R n} {N : Nat} {rng : Rng R S k} {given : Option (Fin k → Row R n)} {tol : R} {maxIters : Nat}
    {res res' : JobResult R k n} (hk : 0 < k) (h : DeliversJob it dist data N rng given tol maxIters res)
    (h' : DeliversJob it dist data N rng given tol maxIters res') :
    res.iters = res'.iters ∧ res.means = res'.means ∧
      (0 < maxIters → (∀ r, r < N → res.assign r = res'.assign r) ∧ res.sizes = res'.sizes) := by
  obtain ⟨c0, hs, hz, hl⟩ := h
  obtain ⟨c0', hs', hz', hl'⟩ := h'
  obtain rfl := startsAt_unique hs hs'
  by_cases hm : 0 < maxIters
  · obtain ⟨tr, htr⟩ := Kmeans.trace_exists dist N data c0 hk
    obtain ⟨q1, q2, q3, q4⟩ := jobEnds_unique (hl hm tr htr) (hl' hm tr htr)
    exact ⟨q1, q3, fun _ => ⟨q2, q4⟩⟩
  · obtain ⟨q1, q2⟩ := hz (by omega)
    obtain ⟨q1', q2'⟩ := hz' (by omega)
    exact ⟨by rw [q1, q1'], by rw [q2, q2'], fun h => absurd h hm⟩

theorem same_as_call [Field R] [LinearOrder R] {it : InitT} {dist : Row R n → Row R n → R}
    {data : Nat → Row R n} {N : Nat} {rng : Rng R S k} {given : Option (Fin k → Row R n)} {tol : R} {maxIters : Nat}
    {res : JobResult R k n} {res' : Kmeans.Result R k n} (hk : 0 < k)
    (h : DeliversJob it dist data N rng given tol maxIters res)
    (h' : Delivers it dist data N rng given tol maxIters res') :
    res.iters = min res'.iters maxIters ∧ res.means = res'.state.cltrs.means ∧
      (0 < maxIters → (∀ r, r < N → res.assign r = res'.state.assign r) ∧ res.sizes = res'.state.counts) := by
  obtain ⟨c0, hs, hz, hl⟩ := h
  obtain ⟨c0', hs', hz', hl'⟩ := h'
  obtain rfl := startsAt_unique hs hs'
  by_cases hm : 0 < maxIters
  · obtain ⟨tr, htr⟩ := Kmeans.trace_exists dist N data c0 hk
    have hj := hl hm tr htr
    have hmin : ∃ i, 1 ≤ i ∧ res.iters = i ∧ min res'.iters maxIters = i ∧
        Kmeans.Agrees N res'.state (tr (i - 1)) (tr i) := by
      rcases hl' hm tr htr with ⟨i, b1, b2, b3, b4, b5, b6⟩ | ⟨b4, b5, b6⟩
      · refine ⟨i, b1, ?_, by omega, b6⟩
        rcases lt_trichotomy res.iters i with hl | he | hg
        · rcases hj.stops with hs | hs
          · exact absurd hs (b4 _ hj.pos hl)
          · omega
        · exact he
        · exact absurd b3 (hj.first _ b1 hg)
      · refine ⟨maxIters, hm, ?_, by omega, b6⟩
        rcases hj.stops with hs | hs
        · exact absurd hs (b4 _ hj.pos hj.le)
        · exact hs
    obtain ⟨i, _, e1, e2, ha⟩ := hmin
    refine ⟨by omega, by rw [hj.means, e1, ha.means], fun _ => ⟨fun r hr => ?_, ?_⟩⟩
    · rw [hj.assign r hr, e1, ha.assign r hr]
    · funext c
      rw [hj.sizes, e1, ha.counts]
  · obtain ⟨q1, q2⟩ := hz (by omega)
    obtain ⟨q1', q2'⟩ := hz' (by omega)
    exact ⟨by omega, by rw [q2, q2'], fun h => absurd h hm⟩

/-- **C85, independence.**  Two jobs that differ only in the numbers of processes and threads and in the
interleavings return the same number of iterations and centroids and, if an iteration is allowed, the same
assignment and sizes.  A call of `kmeans_coordinator` on the same file with the same options, any number of threads
and the same engine returns them too; its number of iterations is the same if the run converges, and if it does not,
the call reports one more than was allowed. -/
theorem C85_any_processes [Field R] [LinearOrder R] [IsStrictOrderedRing R]
    (dist : Dist.Metric → Row R n → Row R n → R) (big : R) {c : Codec R B} (hc : CodecOk c) (rng : Rng R S k)
    (sched1 sched2 sched3 sched4 : Nat → Nat → List Nat) (sched5 sched6 : Nat → List Nat) (a : Job R B)
    (np' nt' nt'' : Nat) (m : Nat → Nat → R) (given : Option (Nat → Nat → R)) (it : InitT) (met : Dist.Metric)
    (hi : getInit a.init = .ok it) (hd : getDist a.dist = .ok met)
    (hk : 0 < k) (hcol : 0 < n) (hnp : 0 < a.nprocs) (hn : a.nprocs ≤ a.nrow) (hnt : 0 < a.nthreads)
    (hnp' : 0 < np') (hn' : np' ≤ a.nrow) (hnt' : 0 < nt') (hnt'' : 0 < nt'') (hlt : a.nrow < 4294967296)
    (hsz : a.nrow * n * c.size < 9223372036854775808) (hst : Stores c a.bytes m a.nrow n)
    (hgiven : a.centers = given.map fun g => rowsFrom g n 0 k) (hrng : RngOk rng a.nrow)
    (hc1 : Distr.SchedOk a.nrow a.nprocs a.nthreads sched1) (hc2 : Distr.SchedOk a.nrow a.nprocs a.nthreads sched2)
    (hc3 : Distr.SchedOk a.nrow np' nt' sched3) (hc4 : Distr.SchedOk a.nrow np' nt' sched4)
    (hc5 : ∀ i, Complete (effThreads nt'' a.nrow) (Kmeans.threadRows a.nrow nt'') (sched5 i))
    (hc6 : ∀ i, Complete (effThreads nt'' a.nrow) (Kmeans.threadRows a.nrow nt'') (sched6 i))
    (hpp : it = .plusplus → Seedable (dist met) big (matRows m) a.nrow)
    (hb : ∀ c0 tr, StartsAt it (dist met) (matRows m) a.nrow rng (givenCents given) c0 →
        LloydTrace (dist met) a.nrow (matRows m) c0 tr →
        ∀ i r, r < a.nrow → ∃ c, dist met (matRows m r) ((tr i).cents c) < big) :
    ∃ res res' res'', kmeansDist dist big c rng sched1 sched2 a = .ok res ∧
      kmeansDist dist big c rng sched3 sched4 { a with nprocs := np', nthreads := nt' } = .ok res' ∧
      kmeans dist big c rng sched5 sched6
        ⟨.file a.bytes, a.nrow, a.maxIters, nt'', a.centers, a.init, a.tol, a.dist⟩ = .ok res'' ∧
      (res.iters = res'.iters ∧ res.means = res'.means ∧
        (0 < a.maxIters → (∀ r, r < a.nrow → res.assign r = res'.assign r) ∧ res.sizes = res'.sizes)) ∧
      res.iters = min res''.iters a.maxIters ∧ res.means = res''.state.cltrs.means ∧
        (0 < a.maxIters → (∀ r, r < a.nrow → res.assign r = res''.state.assign r) ∧ res.sizes = res''.state.counts) := by
  obtain ⟨res, e, h⟩ := (C85_job dist big hc rng sched1 sched2 a m given hk hcol hnp hn hnt hlt hsz hst hgiven hrng hc1
    hc2).2 it met hi hd hpp hb
  obtain ⟨res', e', h'⟩ := (C85_job dist big hc rng sched3 sched4 { a with nprocs := np', nthreads := nt' } m given hk
    hcol hnp' hn' hnt' hlt hsz hst hgiven hrng hc3 hc4).2 it met hi hd hpp hb
  obtain ⟨res'', e'', h''⟩ := (C82_call dist big hc rng sched5 sched6
    ⟨.file a.bytes, a.nrow, a.maxIters, nt'', a.centers, a.init, a.tol, a.dist⟩ m given hk hcol (Nat.lt_of_lt_of_le hnp hn) hnt'' hlt hsz
    hst hgiven hrng hc5 hc6).2 it met hi hd hpp hb
  exact ⟨res, res', res'', e, e', e'', same_job hk h h', same_as_call hk h h''⟩

/-! ### Bounded data -/

/-- **C85, bounded data.**  With the Euclidean, squared Euclidean or taxicab metric nothing has to be assumed about
the run: it is enough that all entries of the data and of the given centres are at most `X` in size. -/
theorem C85_bounded_data (big X : ℝ) (h1 : 1 ≤ big) (hl : n * (2 * X) < big) (hq : n * (2 * X) ^ 2 < big)
    {c : Codec ℝ B} (hc : CodecOk c) (rng : Rng ℝ S k)
    (sched1 sched2 : Nat → Nat → List Nat) (a : Job ℝ B) (m : Nat → Nat → ℝ) (given : Option (Nat → Nat → ℝ))
    (hk : 0 < k) (hcol : 0 < n) (hnp : 0 < a.nprocs) (hn : a.nprocs ≤ a.nrow) (hnt : 0 < a.nthreads)
    (hlt : a.nrow < 4294967296)
    (hsz : a.nrow * n * c.size < 9223372036854775808) (hst : Stores c a.bytes m a.nrow n)
    (hgiven : a.centers = given.map fun g => rowsFrom g n 0 k) (hrng : RngOk rng a.nrow)
    (hc1 : Distr.SchedOk a.nrow a.nprocs a.nthreads sched1) (hc2 : Distr.SchedOk a.nrow a.nprocs a.nthreads sched2)
    (hm : ∀ r j, r < a.nrow → j < n → |m r j| ≤ X)
    (hg : ∀ g, given = some g → ∀ r j, r < k → j < n → |g r j| ≤ X)
    (it : InitT) (met : Dist.Metric) (hi : getInit a.init = .ok it) (hd : getDist a.dist = .ok met)
    (hcos : met ≠ .cos) :
    ∃ res : JobResult ℝ k n, kmeansDist (realDist big) big c rng sched1 sched2 a = .ok res ∧
      DeliversJob it (realDist big met) (matRows m) a.nrow rng (givenCents given) a.tol a.maxIters res := by
  have hX : 0 ≤ X := (abs_nonneg _).trans (hm 0 0 (by omega) hcol)
  have hm' : ∀ r, r < a.nrow → ∀ j : Fin n, |(matRows m r : Row ℝ n) j| ≤ X := fun r hr j => hm r j.val hr j.isLt
  refine (C85_job (realDist big) big hc rng sched1 sched2 a m given hk hcol hnp hn hnt hlt hsz hst hgiven hrng hc1
    hc2).2 it met hi hd ?_ ?_
  · intro _
    exact ⟨fun q r hq' hr => (realDist_lt h1 hl hq hcos (hm' q hq') (hm' r hr)).1,
      fun r hr => realDist_self hcos _,
      fun q r hq' hr => (realDist_lt h1 hl hq hcos (hm' q hq') (hm' r hr)).2⟩
  · intro c0 tr hs ht i r hr
    have hb0 := start_bounded hX hm' (fun g hgv cc j => by
      cases given with
      | none => cases hgv
      | some g' =>
        rw [← Option.some.inj hgv]
        exact hg g' rfl cc.val j.val cc.isLt j.isLt) hrng hs
    exact ⟨⟨0, hk⟩, (realDist_lt h1 hl hq hcos (hm' r hr) (fun j => trace_bounded hX hm' hb0 ht i ⟨0, hk⟩ j)).2⟩

/-! ### `knord -P` -/

/-- What the loop over the options leaves. -/
theorem startOptions_ok (opts : List (StartOpt B)) : ∀ (i : String) (f : Option (List B)),
    (none ∈ centerFiles opts → startOptions opts i f = .error .assertFail) ∧
    (none ∉ centerFiles opts → startOptions opts i f =
      .ok (if opts = [] then i else lastInit opts, ((centerFiles opts).getLast?).getD f)) := by
  induction opts with
  | nil => exact fun i f => ⟨fun h => by simp [centerFiles] at h, fun _ => rfl⟩
  | cons o l ih =>
    intro i f
    have hlast : l ≠ [] → lastInit (o :: l) = lastInit l := fun h => by
      unfold lastInit
      rw [List.getLast?_cons, List.getLast?_eq_getLast_of_ne_nil h]
      rfl
    cases o with
    | init s =>
      have hc : centerFiles (StartOpt.init s :: l) = centerFiles l := rfl
      rw [hc]
      refine ⟨fun h => (ih s f).1 h, fun h => ?_⟩
      have := (ih s f).2 h
      simp only [startOptions, this]
      by_cases hl : l = []
      · subst hl
        rfl
      · simp [hl, hlast hl]
    | centers g =>
      have hc : centerFiles (StartOpt.centers g :: l) = g :: centerFiles l := rfl
      rw [hc]
      cases g with
      | none => exact ⟨fun _ => rfl, fun h => absurd (List.mem_cons_self ..) h⟩
      | some b =>
        have hm : (none ∈ some b :: centerFiles l) ↔ none ∈ centerFiles l := by simp
        rw [hm]
        refine ⟨fun h => (ih "none" (some b)).1 h, fun h => ?_⟩
        have := (ih "none" (some b)).2 h
        simp only [startOptions, this]
        have e2 : ((centerFiles l).getLast?).getD (some b) = ((some b :: centerFiles l).getLast?).getD f := by
          rw [List.getLast?_cons]
          cases (centerFiles l).getLast? <;> rfl
        rw [e2]
        by_cases hl : l = []
        · subst hl
          rfl
        · simp [hl, hlast hl]

/-- **C85, the program.**  `knord -P` refuses a file of centres that does not exist, `none` without a file of centres,
and a data file whose size is not the one that the numbers of rows and columns imply.  Otherwise, for a file that
stores the matrix, it does what the job with the same options does: the last of the options `-t` and `-C` names the
initialisation, and the last file of centres holds the given centroids. -/
theorem C85_knord (big X : ℝ) (h1 : 1 ≤ big) (hl : n * (2 * X) < big) (hq : n * (2 * X) ^ 2 < big)
    {c : Codec ℝ B} (hc : CodecOk c) (rng : Rng ℝ S k) (sched1 sched2 : Nat → Nat → List Nat)
    (datafn : List B) (opts : List (StartOpt B)) (nrow nprocs maxIters nthreads : Nat) (tol : ℝ)
    (distType : String) (hk : 0 < k) (hcol : 0 < n) (hnp : 0 < nprocs) (hn : nprocs ≤ nrow) (hnt : 0 < nthreads)
    (hlt : nrow < 4294967296)
    (hsz : nrow * n * c.size < 9223372036854775808) (hszk : k * n * c.size < 18446744073709551616)
    (hrng : RngOk rng nrow)
    (hc1 : Distr.SchedOk nrow nprocs nthreads sched1) (hc2 : Distr.SchedOk nrow nprocs nthreads sched2) :
    ((none ∈ centerFiles opts ∨ centerFiles opts = [] ∧ lastInit opts = "none") →
      knord (n := n) true (realDist big) big c rng sched1 sched2 datafn opts nrow nprocs maxIters nthreads tol distType
        = .error .assertFail) ∧
    (none ∉ centerFiles opts → ¬ (centerFiles opts = [] ∧ lastInit opts = "none") →
      datafn.length ≠ nrow * n * c.size →
      knord (n := n) true (realDist big) big c rng sched1 sched2 datafn opts nrow nprocs maxIters nthreads tol distType
        = .error .throws) ∧
    ∀ (m : Nat → Nat → ℝ) (given : Option (Nat → Nat → ℝ)) it met,
      Stores c datafn m nrow n → none ∉ centerFiles opts →
      (centerFiles opts).getLast? = given.map (fun g => some ((rowsFrom g n 0 k).flatMap c.enc)) →
      (∀ r j, r < nrow → j < n → |m r j| ≤ X) →
      (∀ g, given = some g → ∀ r j, r < k → j < n → |g r j| ≤ X) →
      getInit (lastInit opts) = .ok it → (it = .none → given.isSome) →
      getDist distType = .ok met → met ≠ .cos →
      ∃ res : JobResult ℝ k n,
        knord true (realDist big) big c rng sched1 sched2 datafn opts nrow nprocs maxIters nthreads tol distType
          = .ok res ∧
        DeliversJob it (realDist big met) (matRows m) nrow rng (givenCents given) tol maxIters res := by
  have hu : u64 (u64 (c.size * nrow) * n) = nrow * n * c.size := by
    have h0 : c.size * nrow * n = nrow * n * c.size := by ring
    rw [u64_mul (by omega), h0]
  have hopt : none ∉ centerFiles opts → startOptions opts "kmeanspp" none =
      .ok (lastInit opts, ((centerFiles opts).getLast?).getD none) := fun h => by
    rw [(startOptions_ok opts _ _).2 h]
    by_cases hl : opts = []
    · subst hl
      rfl
    · rw [if_neg hl]
  refine ⟨?_, ?_, ?_⟩
  · intro h
    unfold knord knordWith
    by_cases hx : none ∈ centerFiles opts
    · rw [(startOptions_ok opts _ _).1 hx]
    · obtain ⟨e1, e2⟩ := h.resolve_left hx
      rw [hopt hx]
      simp [e1, e2]
  · intro hx h hne
    unfold knord knordWith
    rw [hopt hx]
    dsimp only
    rw [if_neg, if_pos (by rw [hu]; exact hne)]
    rintro ⟨h2, h3⟩
    refine h ⟨?_, h2⟩
    by_contra hcf
    rw [List.getLast?_eq_getLast_of_ne_nil hcf] at h3
    have hmem := List.getLast_mem hcf
    cases e : (centerFiles opts).getLast hcf with
    | none => rw [e] at hmem; exact hx hmem
    | some b => rw [e] at h3; simp at h3
  · intro m given it met hst hx hcf hm hg hi hnone hd hcos
    have hlen : datafn.length = nrow * n * c.size := by
      unfold Stores at hst
      rw [hst, length_enc hc, length_rowsFrom]
    unfold knord knordWith
    rw [hopt hx, hcf]
    dsimp only
    cases given with
    | none =>
      have hne : lastInit opts ≠ "none" := by
        intro he
        rw [he] at hi
        have := hnone (Except.ok.inj hi).symm
        simp at this
      rw [if_neg (by simp [hne]), if_neg (by rw [hu]; simp [hlen])]
      simp only [Option.map_none, Option.getD_none, if_true]
      exact C85_bounded_data big X h1 hl hq hc rng sched1 sched2
        ⟨datafn, nrow, nprocs, maxIters, nthreads, none, lastInit opts, tol, distType⟩ m none hk hcol hnp hn hnt hlt hsz
        hst rfl hrng hc1 hc2 hm hg it met hi hd hcos
    | some g =>
      rw [if_neg (by simp), if_neg (by rw [hu]; simp [hlen])]
      obtain ⟨y, ey⟩ := read_stored (n := n) hc g k (Nat.mul_pos hk hcol) hszk rfl
      simp only [Option.map_some, Option.getD_some]
      rw [ey]
      simp only [if_true]
      exact C85_bounded_data big X h1 hl hq hc rng sched1 sched2
        ⟨datafn, nrow, nprocs, maxIters, nthreads, some (rowsFrom g n 0 k), lastInit opts, tol, distType⟩ m (some g) hk
        hcol hnp hn hnt hlt hsz hst rfl hrng hc1 hc2 hm hg it met hi hd hcos

/-! ### Concrete jobs -/

/-- Two processes with two threads each, in an order that changes with the process. -/
def demoScheds (_ p : Nat) : List Nat := if p = 0 then [1, 0] else [0, 1]

theorem demoScheds_ok : Distr.SchedOk 4 2 2 demoScheds := by
  intro i p hp t ht
  have hp' : p = 0 ∨ p = 1 := by omega
  rcases hp' with rfl | rfl
  · have : effThreads 2 (procNrow 4 2 0) = 2 := by decide
    have : t = 0 ∨ t = 1 := by omega
    rcases this with rfl | rfl <;> (unfold demoScheds; decide)
  · have : effThreads 2 (procNrow 4 2 1) = 2 := by decide
    have : t = 0 ∨ t = 1 := by omega
    rcases this with rfl | rfl <;> (unfold demoScheds; decide)

/-- The given centres come first, the initialisation after them: k-means++ is used. -/
example : ∃ res : JobResult ℝ 2 1,
    knord true (realDist 1000) 1000 (oneCell ℝ) (counter ℝ) demoScheds demoScheds
      ((rowsFrom fourRows 1 0 4).flatMap (oneCell ℝ).enc)
      [.centers (some ((rowsFrom fourRows 1 0 2).flatMap (oneCell ℝ).enc)), .init "kmeanspp"] 4 2 100 2 (-1) "eucl"
        = .ok res ∧
    DeliversJob .plusplus (realDist 1000 .eucl) (matRows fourRows) 4 (counter ℝ) (givenCents (some fourRows)) (-1) 100
      res := by
  have hb : ∀ r j, |fourRows r j| ≤ 12 := fun r j => by unfold fourRows; split_ifs <;> norm_num
  exact (C85_knord 1000 12 (by norm_num) (by norm_num) (by norm_num) (oneCell_ok ℝ) (counter ℝ) demoScheds demoScheds
    _ _ 4 2 100 2 (-1) "eucl" (by decide) (by decide) (by decide) (by decide) (by decide) (by decide) (by decide)
    (by decide) (counter_ok ℝ) demoScheds_ok demoScheds_ok).2.2
    fourRows (some fourRows) .plusplus .eucl rfl (by simp [centerFiles]) rfl (fun r j _ _ => hb r j) (fun g h r j _ _ => by
      rw [← Option.some.inj h]; exact hb r j) rfl (fun h => by cases h) rfl (by decide)

/-- What a job returns, for display. -/
structure SeenJob where
  iters : Nat
  assign : List (Option (Fin 2))
  sizes : List Int
  means : List ℚ
  deriving DecidableEq

/-- A `knord` job on four rows over the rationals. -/
def showJob (full : Bool) (np : Nat) (opts : List (StartOpt ℚ)) (maxIters : Nat) : Res SeenJob :=
  match knord full (fun _ => Kmeans.demoDist) 1000 (oneCell ℚ) (counter ℚ) demoScheds demoScheds [0, 1, 10, 12] opts 4 np
    maxIters 2 (-1) "eucl" with
  | .error e => .error e
  | .ok (res : JobResult ℚ 2 1) => .ok ⟨res.iters, (List.range 4).map res.assign, [res.sizes 0, res.sizes 1],
      [res.means 0 0, res.means 1 0]⟩

/-- The four initialisations with two processes; compare `showCall` in Props/Driver.lean.  The last option decides: a
file of centres that is followed by `-t forgy` is read and not used.  Two and three processes agree. -/
example : showJob true 2 [.init "none", .centers (some [0, 1])] 0 = .ok ⟨0, [none, none, none, none], [0, 0], [0, 1]⟩ ∧
    showJob true 2 [.centers (some [0, 1]), .init "forgy"] 0 = .ok ⟨0, [none, none, none, none], [0, 0], [1, 12]⟩ ∧
    showJob true 2 [.init "random"] 0 = .ok ⟨0, [some 0, some 1, some 0, some 1], [2, 2], [5, 13/2]⟩ ∧
    showJob true 2 [] 0 = .ok ⟨0, [some 1, some 0, some 0, some 0], [0, 0], [1, 0]⟩ ∧
    showJob true 2 [] 2 = .ok ⟨2, [some 1, some 1, some 0, some 0], [2, 2], [11, 1/2]⟩ ∧
    showJob true 2 [] 100 = .ok ⟨3, [some 1, some 1, some 0, some 0], [2, 2], [11, 1/2]⟩ ∧
    showJob true 3 [] 100 = .ok ⟨3, [some 1, some 1, some 0, some 0], [2, 2], [11, 1/2]⟩ ∧
    showJob true 2 [.init "kmeans++"] 100 = .error .throws ∧
    showJob true 2 [.init "none"] 100 = .error .assertFail ∧
    showJob true 2 [.centers none] 100 = .error .assertFail := by
  decide +kernel

/-- **C85, options.**  A comment in the program says that with a file of centres it ignores whatever initialisation is
given; that depends on the order of the two options: the same two options, and two different results. -/
theorem C85_option_order :
    showJob true 2 [.init "forgy", .centers (some [0, 1])] 0 = .ok ⟨0, [none, none, none, none], [0, 0], [0, 1]⟩ ∧
    showJob true 2 [.centers (some [0, 1]), .init "forgy"] 0 = .ok ⟨0, [none, none, none, none], [0, 0], [1, 12]⟩ := by
  decide +kernel

/-- **C85, limit.**  With more processes than rows some process has no row, and starting its workers divides by
zero, whatever the other arguments are. -/
theorem C85_limit_fewer_rows_than_ranks [Field R] [LinearOrder R] (hk : 0 < k)
    (dist : Dist.Metric → Row R n → Row R n → R) (big : R) (c : Codec R B) (rng : Rng R S k)
    (sched1 sched2 : Nat → Nat → List Nat) (a : Job R B) (given : Option (Nat → Nat → R)) (it : InitT)
    (met : Dist.Metric) (hi : getInit a.init = .ok it) (hd : getDist a.dist = .ok met)
    (hgiven : a.centers = given.map fun g => rowsFrom g n 0 k) (hn : a.nrow < a.nprocs) :
    kmeansDist dist big c rng sched1 sched2 a = .error .ub := by
  have hz : a.nrow / a.nprocs = 0 := Nat.div_eq_of_lt hn
  have h0 : procNrow a.nrow a.nprocs 0 = 0 := by
    unfold procNrow
    split
    · have : a.nprocs = 1 := by omega
      have h2 : a.nrow = 0 := by omega
      rw [hz, h2]
      simp
    · exact hz
  have hcons : Distr.construct a.nrow a.nprocs (fun _ => ()) = .error .ub := by
    unfold Distr.construct
    obtain ⟨m, hm⟩ : ∃ m, a.nprocs = m + 1 := ⟨a.nprocs - 1, by omega⟩
    have : ∀ m, Distr.eachRank (fun p => if procNrow a.nrow a.nprocs p = 0 then .error .ub else .ok ()) (m + 1)
        (fun _ => ()) = .error .ub := by
      intro m
      induction m with
      | zero => simp [Distr.eachRank, h0]
      | succ m ih => rw [Distr.eachRank, ih]
    conv_lhs => rw [hm]
    rw [← this m, hm]
  obtain ⟨cl, e0, _⟩ := construct_ok (R := R) (k := k) (n := n) hk it given
  unfold kmeansDist
  rw [hi]
  dsimp only
  rw [hd]
  dsimp only
  rw [hgiven, e0]
  dsimp only
  rw [hcons]

example : showJob true 5 [] 100 = .error .ub := by decide +kernel

/-- Two processes, one process and the call, on the rows 0, 1, 10, 12 with the given centres 0 and 1: every hypothesis
of `C85_any_processes` holds. -/
example : ∃ (res res' : JobResult ℚ 2 1) (res'' : Kmeans.Result ℚ 2 1),
    kmeansDist (fun _ => Kmeans.demoDist) 1000 (oneCell ℚ) (counter ℚ) demoScheds demoScheds
      ⟨(rowsFrom fourRat 1 0 4).flatMap (oneCell ℚ).enc, 4, 2, 100, 2, some (rowsFrom fourRat 1 0 2), "none", -1,
        "eucl"⟩ = .ok res ∧
    kmeansDist (fun _ => Kmeans.demoDist) 1000 (oneCell ℚ) (counter ℚ) (fun i _ => Kmeans.demoSched i)
      (fun i _ => Kmeans.demoSched i)
      ⟨(rowsFrom fourRat 1 0 4).flatMap (oneCell ℚ).enc, 4, 1, 100, 2, some (rowsFrom fourRat 1 0 2), "none", -1,
        "eucl"⟩ = .ok res' ∧
    kmeans (fun _ => Kmeans.demoDist) 1000 (oneCell ℚ) (counter ℚ) Kmeans.demoSched Kmeans.demoSched
      ⟨.file ((rowsFrom fourRat 1 0 4).flatMap (oneCell ℚ).enc), 4, 100, 2, some (rowsFrom fourRat 1 0 2), "none", -1,
        "eucl"⟩ = .ok res'' ∧
    res.means = res'.means ∧ res.means = res''.state.cltrs.means := by
  have hsch : ∀ i, Complete (effThreads 2 4) (Kmeans.threadRows 4 2) (Kmeans.demoSched i) := by
    intro i t ht
    have : t = 0 ∨ t = 1 := by
      have : effThreads 2 4 = 2 := by decide
      omega
    rcases this with rfl | rfl <;> (unfold Kmeans.demoSched; decide)
  have hsch1 : Distr.SchedOk 4 1 2 fun i _ => Kmeans.demoSched i := by
    intro i p hp
    obtain rfl : p = 0 := by omega
    exact hsch i
  have hrows : matRows (n := 1) fourRat = Kmeans.demoData := rfl
  have hgiv : ∀ c0, StartsAt .none Kmeans.demoDist (matRows fourRat) 4 (counter ℚ) (givenCents (some fourRat)) c0 →
      c0 = two 0 1 := by
    intro c0 h
    rw [h.1 _ rfl]
    funext c j
    have : c = 0 ∨ c = 1 := by omega
    rcases this with rfl | rfl <;> rfl
  obtain ⟨res, res', res'', e1, e2, e3, ⟨_, q1, _⟩, _, q2, _⟩ := C85_any_processes (fun _ => Kmeans.demoDist) 1000
    (oneCell_ok ℚ) (counter ℚ) demoScheds demoScheds (fun i _ => Kmeans.demoSched i) (fun i _ => Kmeans.demoSched i)
    Kmeans.demoSched Kmeans.demoSched
    ⟨(rowsFrom fourRat 1 0 4).flatMap (oneCell ℚ).enc, 4, 2, 100, 2, some (rowsFrom fourRat 1 0 2), "none", -1, "eucl"⟩
    1 2 2 fourRat (some fourRat) .none .eucl rfl rfl (by decide) (by decide) (by decide) (by decide) (by decide)
    (by decide) (by decide) (by decide) (by decide) (by decide) (by decide) rfl rfl (counter_ok ℚ) demoScheds_ok
    demoScheds_ok hsch1 hsch1 hsch hsch (fun h => by cases h) (fun c0 tr hs ht i r hr => by
      rw [hgiv c0 hs, hrows] at ht
      rw [hrows]
      have hr' : ∀ x y : ℚ, (∀ r, r < 4 → Kmeans.demoDist (Kmeans.demoData r) (two x y 0) < 1000) →
          (tr i).cents = two x y → ∃ c, Kmeans.demoDist (Kmeans.demoData r) ((tr i).cents c) < 1000 :=
        fun x y h e => ⟨0, by rw [e]; exact h r hr⟩
      rcases demo_trace ht i with e | e | e <;> exact hr' _ _ (by decide +kernel) e)
  exact ⟨res, res', res'', e1, e2, e3, q1, q2⟩

end Knor.Driver
