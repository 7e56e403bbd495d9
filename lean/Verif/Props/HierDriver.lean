import Verif.Lemmas.HierDriver
import Verif.Props.ScaledDriver
import Verif.Props.Xmeans
import Verif.Props.Score
import Verif.Props.Project

/-!
# Properties C90 and C91: whole calls of hierarchical clustering, x-means and g-means

From the names of the options and the caller's data to the returned clustering, and the programs `hmeans`, `xmeans`
and `gmeans`.
-/

namespace Knor.Driver

open Knor Knor.Spec Knor.Io Knor.Partition Knor.Par Knor.Init Knor.Hclust Knor.Compact

variable {R S B : Type _} {n : Nat}

theorem enumerates_increasing : Enumerates (increasing : St R n → List Nat) := by
  intro s h
  refine ⟨List.nodup_range.filter _, fun i => ?_⟩
  unfold increasing
  rw [List.mem_filter, List.mem_range]
  exact ⟨fun h => h.2, fun hi => ⟨h i hi, hi⟩⟩

theorem Enumerates.of {order : St R n → List Nat} (ho : Enumerates order) [Field R] {mode : Mode} {cfg : Cfg R R n}
    {s : St R n} (h : Finished mode cfg s) : (order s).Nodup ∧ ∀ i, i ∈ order s ↔ (s.final i).isSome :=
  ho s fun i hi => by rw [h.lenC]; exact h.idLt i hi

/-- The initialisations that hierarchical clustering refuses. -/
theorem start_other [Field R] {cfg : Cfg R R n} (hs : Sane cfg) :
    ∃ s0, Hclust.construct cfg Clusters.empty = .ok s0 ∧ runHinit cfg .other s0 = .error .throws := by
  obtain ⟨z1, z2, z3, z4, z5, z6⟩ := sizes (c := cfg) hs.two hs.kLt
  have hlen : (VMap.flagsCreate cfg.maxNodes false).length = cfg.maxNodes := by simp [VMap.flagsCreate]
  unfold Hclust.construct
  rw [if_neg (by omega)]
  unfold St.activate
  simp only
  rw [setFlag_lt (by rw [hlen]; omega)]
  exact ⟨_, rfl, rfl⟩

theorem run_other [Field R] [LinearOrder R] {cfg : Cfg R R n} (hs : Sane cfg) {sched : Nat → Nat → List Nat} {fuel : Nat} :
    Hclust.run cfg .other sched fuel = .error .throws := by
  obtain ⟨s0, e0, e1⟩ := start_other hs
  unfold Hclust.run
  rw [e0]
  dsimp only
  rw [e1]

theorem runD_other [Field R] [LinearOrder R] {alg : Xmeans.Alg} {cfg : Cfg R R n} (hs : Sane cfg)
    {dec : Nat → St R n → Res (List Nat)} {sched : Nat → Nat → List Nat} {fuel : Nat} :
    Score.runD alg cfg .other dec sched fuel = .error .throws := by
  obtain ⟨s0, e0, e1⟩ := start_other hs
  unfold Score.runD Xmeans.start
  rw [e0]
  dsimp only
  rw [e1]

/-! ## C90 -/

/-- **C90, partial.**  A call of hierarchical clustering with an unknown name of an initialisation or a metric throws;
so does a call with the known initialisations `random` and `kmeanspp` (the latter is the library's default); with
`kmax < 2` an assertion fails.  Every other call on an `nrow × n` matrix, with at least one iteration and at least 2
as smallest size, ends after at most 1.5 `kmax` rounds.  A library built for the bindings returns a clustering that
accounts for every row; the programs return the same one if it has as many centroids as clusters, and then every
centroid is the mean of the rows of its cluster, and otherwise fail an assertion.
Missing: other values of the two settings (C45, C56), and the case of clusters without rows (C58). -/
theorem C90_call_partial [Field R] [LinearOrder R] (dist : Dist.Metric → Row R n → Row R n → R) (big : R)
    (c : Codec R B) (rng : Rng R S 2) (order : St R n → List Nat) (ho : Enumerates order)
    (sched : Nat → Nat → List Nat) (fuel kmax minSize : Nat) (a : Call R B)
    (m : Nat → Nat → R) (given : Option (Nat → Nat → R)) (h : HierReady n c rng kmax a m given)
    (hc : ∀ t i, Complete (effThreads a.nthreads a.nrow) (Kmeans.threadRows a.nrow a.nthreads) (sched t i))
    (hf : kmax + kmax / 2 ≤ fuel) (bind : Bool) :
    ((a.init ∉ ["random", "forgy", "kmeanspp", "none"] ∨ a.dist ∉ ["eucl", "cos", "taxi", "sqeucl"]) →
      hclust bind dist big c rng order sched fuel kmax minSize a = .error .throws) ∧
    ∀ it met, getInit a.init = .ok it → getDist a.dist = .ok met →
      (kmax < 2 → hclust bind dist big c rng order sched fuel kmax minSize a = .error .assertFail) ∧
      (2 ≤ kmax → it = .random ∨ it = .plusplus →
        hclust bind dist big c rng order sched fuel kmax minSize a = .error .throws) ∧
      (2 ≤ kmax → it = .forgy ∨ it = .none → MeansWithin a.nrow (matRows m) (dist met) big →
        (∀ g, it = .none → given = some g → ∀ r, r < a.nrow → ∀ i, i < 2 →
          dist met (matRows m r) (matRows g i) < big) → 2 ≤ minSize → 1 ≤ a.maxIters →
        ∃ res, hclust true dist big c rng order sched fuel kmax minSize a = .ok (some res) ∧
          Conserved a.nrow res ∧ res.k ≤ kmax + kmax / 2 + 1 ∧
          hclust false dist big c rng order sched fuel kmax minSize a
            = (if res.k = res.counts.length then .ok (some res) else .error .assertFail) ∧
          (res.k = res.counts.length → ∀ x, x < res.k →
            res.centroids x = meanOf a.nrow (matRows m) (fun r => res.assignments.getD r 0) x)) := by
  refine ⟨fun hh => hierCall_refused.1 hh, fun it met hi hd => ⟨fun hk => ?_, fun hk hit => ?_, ?_⟩⟩
  · exact hierCall_refused.2 ((initNames _).1 ⟨it, hi⟩) ((distNames _).1 ⟨met, hd⟩) hk
  · obtain ⟨cfg, hin, e, hs, -, -, -, -, -, -, -, -, -, -, hoth, -⟩ :=
      hierCall_ok (grow := false) (dist := dist) (big := big) (order := order) (minSize := minSize)
        (run := fun cfg it => Hclust.run cfg it sched fuel) h hk hi hd
    unfold hclust
    rw [e bind, hoth hit, run_other hs]
    rfl
  · intro hk hit hw hg hmin hmi
    obtain ⟨cfg, hin, e, hs, e1, e2, e3, e4, e5, -, -, -, hdata, hst, -⟩ :=
      hierCall_ok (grow := false) (dist := dist) (big := big) (order := order) (minSize := minSize)
        (run := fun cfg it => Hclust.run cfg it sched fuel) h hk hi hd
    obtain ⟨hwc, hst⟩ := hst hw hg
    obtain ⟨s, er, hfin⟩ := run_ok (c := cfg) hwc hs.rows hs.threads hs.rowsLt hs.two hs.kLt (by rw [e5]; exact hmin)
      (by rw [e4]; exact hmi) (hst hit) (sched := sched) (by rw [e1, e2]; exact hc) (fuel := fuel) (by rw [e3]; exact hf)
    obtain ⟨hnd, hids⟩ := ho.of hfin
    obtain ⟨res, f1, f2, f3, f4, f5, f6⟩ := hierFinish_ok hfin hs hnd hids
    refine ⟨res, ?_, by rw [← e1]; exact f3, ?_, ?_, ?_⟩
    · unfold hclust
      rw [e true]
      rw [er]
      exact f1
    · have hb := hfin.few _ hnd fun i hi => (hids i).1 hi
      have hz := sizes (c := cfg) hs.two hs.kLt
      simp only [Mode.bound, reduceCtorEq, if_false] at hb
      rw [← f4] at hb
      rw [e3] at hb hz
      omega
    · unfold hclust
      rw [e false]
      rw [er]
      exact f2
    · intro hq x hx
      obtain ⟨res', g1, -, g3⟩ := hfin.centroids hs (f6 hq) hnd hids
      rw [f5] at g1
      cases g1
      rw [g3 x hx, ← e1]
      exact meanOf_data (by rw [e1]; exact hdata) _ _

/-- Rows of bounded entries keep their distances to means, and to given centres, below `big`. -/
theorem within_bounded (big X : ℝ) (h1 : 1 ≤ big) (hl : n * (2 * X) < big) (hq : n * (2 * X) ^ 2 < big) {N : Nat}
    (hN : 0 < N) (hn : 0 < n) {m : Nat → Nat → ℝ} (hm : ∀ r j, r < N → j < n → |m r j| ≤ X) {met : Dist.Metric}
    (hcos : met ≠ .cos) :
    MeansWithin N (matRows m : Nat → Row ℝ n) (realDist big met) big ∧
    ∀ g : Nat → Nat → ℝ, (∀ i j, i < 2 → j < n → |g i j| ≤ X) → ∀ r, r < N → ∀ i, i < 2 →
      realDist (n := n) big met (matRows m r) (matRows g i) < big := by
  have hX : 0 ≤ X := (abs_nonneg _).trans (hm 0 0 hN hn)
  have hm' : ∀ r, r < N → ∀ j : Fin n, |(matRows m r : Row ℝ n) j| ≤ X := fun r hr j => hm r j.val hr j.isLt
  refine ⟨fun r hr a i => (realDist_lt h1 hl hq hcos (hm' r hr) (abs_meanOf_le hX hm' a i)).2, ?_⟩
  intro g hg r hr i hi
  exact (realDist_lt h1 hl hq hcos (hm' r hr) (fun j => hg i j.val hi j.isLt)).2

/-- The three programs: a data file of the wrong size is refused; otherwise the coordinator is called, with the centres
of the file and the initialisation `none`, or without a file with Forgy's method. -/
theorem hierProg_ok [Zero R] {c : Codec R B} (hc : CodecOk c) (datafn : List B) (centersfn : Option (List B))
    (nrow maxIters nthreads : Nat) (tol : R) (distType : String) (call : Call R B → Res (Option (Result R n)))
    (hcol : 0 < n) (hsz : nrow * n * c.size < 9223372036854775808) (hszk : 2 * n * c.size < 18446744073709551616) :
    (datafn.length ≠ nrow * n * c.size →
      hierProg c datafn centersfn nrow n maxIters nthreads tol distType call = .error .throws) ∧
    ∀ (given : Option (Nat → Nat → R)), datafn.length = nrow * n * c.size →
      centersfn = given.map (fun g => (rowsFrom g n 0 2).flatMap c.enc) →
      hierProg c datafn centersfn nrow n maxIters nthreads tol distType call
        = call ⟨.file datafn, nrow, maxIters, nthreads, given.map fun g => rowsFrom g n 0 2,
            if given.isSome then "none" else "forgy", tol, distType⟩ := by
  constructor
  · intro hne
    unfold hierProg
    exact (program_ok hc datafn centersfn nrow 2 "forgy" _ hcol (by decide) hsz hszk).2.1
      (fun h => absurd h.2 (by decide)) hne
  · intro given hlen hcf
    unfold hierProg
    obtain ⟨p1, p2⟩ := (program_ok hc datafn centersfn nrow 2 "forgy" (fun init centers =>
      call ⟨.file datafn, nrow, maxIters, nthreads, centers, init, tol, distType⟩) hcol (by decide) hsz hszk).2.2
      given hlen hcf
    cases given with
    | none => exact p1 rfl (by decide)
    | some g => exact p2 g rfl

/-- **C90, the program.**  `hmeans` refuses a data file of the wrong size.  On a file with entries of at most `X` in
size, starting at two rows drawn at random or at the two centres of a file, it ends after at most 1.5 `kmax` rounds.
Either it returns a clustering that accounts for every row, in which every centroid is the mean of the rows of its
cluster, or an assertion fails.
Missing: the latter (see `C90_violated`), and the settings that are missing in `C90_call_partial`. -/
theorem C90_program_partial (big X : ℝ) (h1 : 1 ≤ big) (hl : n * (2 * X) < big) (hq : n * (2 * X) ^ 2 < big)
    {c : Codec ℝ B} (hc : CodecOk c) (rng : Rng ℝ S 2) (order : St ℝ n → List Nat) (ho : Enumerates order)
    (sched : Nat → Nat → List Nat) (fuel kmax minSize : Nat) (datafn : List B) (centersfn : Option (List B))
    (nrow maxIters nthreads : Nat) (tol : ℝ) (distType : String)
    (hcol : 0 < n) (hn : 0 < nrow) (hnt : 0 < nthreads) (hlt : nrow < 4294967296)
    (hsz : nrow * n * c.size < 9223372036854775808) (hszk : 2 * n * c.size < 18446744073709551616)
    (hrng : RngOk rng nrow) (hk : 2 ≤ kmax) (hklt : kmax < 1073741824) (hmin : 2 ≤ minSize) (hmi : 1 ≤ maxIters)
    (hs : ∀ t i, Complete (effThreads nthreads nrow) (Kmeans.threadRows nrow nthreads) (sched t i))
    (hf : kmax + kmax / 2 ≤ fuel) :
    (datafn.length ≠ nrow * n * c.size →
      hierProg c datafn centersfn nrow n maxIters nthreads tol distType
        (hclust false (realDist big) big c rng order sched fuel kmax minSize) = .error .throws) ∧
    ∀ (m : Nat → Nat → ℝ) (given : Option (Nat → Nat → ℝ)), Stores c datafn m nrow n →
      centersfn = given.map (fun g => (rowsFrom g n 0 2).flatMap c.enc) →
      (∀ r j, r < nrow → j < n → |m r j| ≤ X) →
      (∀ g, given = some g → ∀ i j, i < 2 → j < n → |g i j| ≤ X) → distType ∈ ["eucl", "taxi", "sqeucl"] →
      hierProg c datafn centersfn nrow n maxIters nthreads tol distType
          (hclust false (realDist big) big c rng order sched fuel kmax minSize) = .error .assertFail ∨
      ∃ res, hierProg c datafn centersfn nrow n maxIters nthreads tol distType
          (hclust false (realDist big) big c rng order sched fuel kmax minSize) = .ok (some res) ∧
        Conserved nrow res ∧ res.k ≤ kmax + kmax / 2 + 1 ∧ res.k = res.counts.length ∧
        ∀ x, x < res.k → res.centroids x = meanOf nrow (matRows m) (fun r => res.assignments.getD r 0) x := by
  refine ⟨fun hne => (hierProg_ok hc datafn centersfn nrow maxIters nthreads tol distType _ hcol hsz hszk).1 hne, ?_⟩
  intro m given hst hcf hm hg hd
  have hlen : datafn.length = nrow * n * c.size := by
    unfold Stores at hst
    rw [hst, length_enc hc, length_rowsFrom]
  rw [(hierProg_ok hc datafn centersfn nrow maxIters nthreads tol distType _ hcol hsz hszk).2 given hlen hcf]
  obtain ⟨met, hdm, hcos⟩ : ∃ met, getDist distType = .ok met ∧ met ≠ .cos := by
    simp only [List.mem_cons, List.not_mem_nil, or_false] at hd
    rcases hd with rfl | rfl | rfl
    · exact ⟨.eucl, rfl, by decide⟩
    · exact ⟨.taxi, rfl, by decide⟩
    · exact ⟨.sqeucl, rfl, by decide⟩
  obtain ⟨hw, hgw⟩ := within_bounded big X h1 hl hq hn hcol hm hcos
  obtain ⟨it, hit, hi⟩ : ∃ it, getInit (if given.isSome then "none" else "forgy") = .ok it ∧
      (it = .forgy ∨ it = .none) := by
    cases given with
    | none => exact ⟨_, rfl, Or.inl rfl⟩
    | some g => exact ⟨_, rfl, Or.inr rfl⟩
  obtain ⟨res, -, e2, e3, e4, e5⟩ := ((C90_call_partial (realDist big) big c rng order ho sched fuel kmax minSize
    ⟨.file datafn, nrow, maxIters, nthreads, given.map fun g => rowsFrom g n 0 2,
            if given.isSome then "none" else "forgy", tol, distType⟩ m given
    ⟨hc, hcol, hn, hnt, hlt, hsz, hst, rfl, hrng, hklt⟩ hs hf false).2 it met hit hdm).2.2 hk hi hw
    (fun g _ hgv => hgw g (hg g hgv)) hmin hmi
  rw [e4]
  by_cases hq' : res.k = res.counts.length
  · rw [if_pos hq']
    exact Or.inr ⟨res, rfl, e2, e3, hq', e5 hq'⟩
  · rw [if_neg hq']
    exact Or.inl rfl

/-! ### Calls that meet the hypotheses -/

/-- One schedule for the rounds. -/
def roundSched (_ i : Nat) : List Nat := Kmeans.demoSched i

/-- `hmeans` on the four rows. -/
example : hierProg (n := 1) (oneCell ℝ) ((rowsFrom fourRows 1 0 4).flatMap (oneCell ℝ).enc) none 4 1 100 2 (-1) "eucl"
      (hclust false (realDist 1000) 1000 (oneCell ℝ) (counter ℝ) increasing roundSched 3 2 2) = .error .assertFail ∨
    ∃ res, hierProg (n := 1) (oneCell ℝ) ((rowsFrom fourRows 1 0 4).flatMap (oneCell ℝ).enc) none 4 1 100 2 (-1) "eucl"
      (hclust false (realDist 1000) 1000 (oneCell ℝ) (counter ℝ) increasing roundSched 3 2 2) = .ok (some res) ∧
      Conserved 4 res ∧ res.k ≤ 4 ∧ res.k = res.counts.length ∧
      ∀ x, x < res.k → res.centroids x = meanOf 4 (matRows fourRows) (fun r => res.assignments.getD r 0) x :=
  (C90_program_partial (n := 1) 1000 12 (by norm_num) (by norm_num) (by norm_num) (oneCell_ok ℝ) (counter ℝ) increasing
    enumerates_increasing roundSched 3 2 2 _ none 4 100 2 (-1) "eucl" (by decide) (by decide) (by decide) (by decide)
    (by decide) (by decide) (counter_ok ℝ) (by decide) (by decide) (by decide) (by decide) (fun _ => two_sched)
    (by decide)).2 fourRows none rfl rfl
    (fun r j _ _ => by unfold fourRows; split_ifs <;> norm_num) (fun g h => by cases h) (by simp)

/-- Run a call on one column. -/
def showHier (bind : Bool) (xs : List ℚ) (init : String) (centers : Option (List ℚ)) (kmax maxIters : Nat) :
    Res (Option Compact.Seen) :=
  match hclust (n := 1) bind (fun _ => Kmeans.demoDist) 1000 (oneCell ℚ) (counter ℚ) increasing roundSched 10 kmax 2
    ⟨.array xs, xs.length, maxIters, 2, centers, init, -1, "taxi"⟩ with
  | .error e => .error e
  | .ok none => .ok none
  | .ok (some r) => .ok (some ⟨r.assignments, r.counts, (List.range r.k).map fun i => r.centroids i 0, r.k⟩)

/-- Forgy's method draws the rows 1 and 3, whether centres are given or not; with `none` the run starts at the given
centres; `kmeanspp` (the default of the library) and `random` are refused, and so is a `kmax` below 2; centres that are
shorter than two rows are read past their end. -/
example : showHier false [0, 1, 10, 12] "forgy" none 2 100 = .ok (some ⟨[0, 1, 2, 3], [1, 1, 1, 1], [0, 1, 10, 12], 4⟩) ∧
    showHier false [0, 1, 10, 12] "forgy" (some [0, 1]) 2 1
      = .ok (some ⟨[0, 1, 2, 3], [1, 1, 1, 1], [0, 1, 10, 12], 4⟩) ∧
    showHier false [0, 1, 10, 12] "none" (some [0, 1]) 2 1 = .ok (some ⟨[0, 1, 2, 2], [1, 1, 2], [0, 1, 11], 3⟩) ∧
    showHier false [0, 1, 10, 12] "kmeanspp" none 2 100 = .error .throws ∧
    showHier false [0, 1, 10, 12] "random" none 2 100 = .error .throws ∧
    showHier false [0, 1, 10, 12] "forgy" none 1 100 = .error .assertFail ∧
    showHier false [0, 1, 10, 12] "none" (some [0]) 2 1 = .error .ub := by
  decide +kernel

/-- **C90 is violated** on four equal rows: the library for the bindings reports one cluster and three centroids, all
at 0, and the programs fail an assertion.  The call meets all requirements of `C90_call_partial`. -/
theorem C90_violated : ¬ ∀ (m : Nat → Nat → ℚ) (order : St ℚ 1 → List Nat) (sched : Nat → Nat → List Nat)
    (kmax : Nat) (a : Call ℚ ℚ), HierReady 1 (oneCell ℚ) (counter ℚ) kmax a m none → Enumerates order →
    (∀ t i, Complete (effThreads a.nthreads a.nrow) (Kmeans.threadRows a.nrow a.nthreads) (sched t i)) →
    MeansWithin a.nrow (matRows m : Nat → Row ℚ 1) Kmeans.demoDist 1000 → 2 ≤ kmax → 1 ≤ a.maxIters →
    a.init = "forgy" → a.dist = "taxi" →
    ∃ o, hclust false (fun _ => Kmeans.demoDist) 1000 (oneCell ℚ) (counter ℚ) order sched (kmax + kmax / 2) kmax 2 a
      = .ok o := by
  intro h
  have hw : MeansWithin 4 (matRows (fun _ _ => 5) : Nat → Row ℚ 1) Kmeans.demoDist 1000 := by
    intro r hr b i
    have h2 := abs_meanOf_le (R := ℚ) (n := 1) (X := 5) (by norm_num) (N := 4) (data := matRows fun _ _ => 5)
      (fun r _ j => by simp [matRows]) b i 0
    rw [abs_le] at h2
    have h3 : (matRows (fun _ _ => 5) r : Row ℚ 1) 0 = 5 := rfl
    unfold Kmeans.demoDist
    rw [h3]
    split <;> linarith [h2.1, h2.2]
  obtain ⟨o, e⟩ := h (fun _ _ => 5) increasing roundSched 2 ⟨.array [5, 5, 5, 5], 4, 1, 2, none, "forgy", -1, "taxi"⟩
    ⟨oneCell_ok ℚ, by decide, by decide, by decide, by decide, by decide, rfl, rfl, counter_ok ℚ, by decide⟩
    enumerates_increasing (fun _ => two_sched) hw (by decide) (by decide) rfl rfl
  have hv : (hclust (n := 1) false (fun _ => Kmeans.demoDist) 1000 (oneCell ℚ) (counter ℚ) increasing roundSched 3 2 2
    ⟨.array [5, 5, 5, 5], 4, 1, 2, none, "forgy", -1, "taxi"⟩).isOk = false := by decide +kernel
  rw [show 2 + 2 / 2 = 3 from rfl] at e
  rw [e] at hv
  cases hv

example : showHier true [5, 5, 5, 5] "forgy" none 2 1 = .ok (some ⟨[0, 0, 0, 0], [4], [0, 0, 0], 3⟩) ∧
    showHier false [5, 5, 5, 5] "forgy" none 2 1 = .error .assertFail := by
  decide +kernel

/-! ## C91 -/

/-- **C91, partial: x-means.**  Refusals are those of C90.  Every other call, with at least one iteration and at least
2 as smallest size, ends after at most 1.5 `kmax` rounds, whatever distances its workers record for the Bayesian
information criterion and in whatever order rejected splits are treated.  A library built for the bindings returns a
clustering that accounts for every row; the programs return the same one if it has as many centroids as clusters, and
otherwise fail an assertion.  Missing: other values of the two settings (C71), and the centroids (C72). -/
theorem C91_xmeans_call_partial [Field R] [LinearOrder R] (dist : Dist.Metric → Row R n → Row R n → R) (big : R)
    (c : Codec R B) (rng : Rng R S 2) (order : St R n → List Nat) (ho : Enumerates order)
    (dmin : ℝ) (pd cd : Nat → St R n → Nat → ℝ) (dec : Cfg R R n → Nat → St R n → List Nat)
    (hdec : ∀ cfg t s, (dec cfg t s).Perm (Score.bicRejected dmin cfg.nrow (pd t s) (cd t s) s))
    (sched : Nat → Nat → List Nat) (fuel kmax minSize : Nat) (a : Call R B)
    (m : Nat → Nat → R) (given : Option (Nat → Nat → R)) (h : HierReady n c rng kmax a m given)
    (hc : ∀ t i, Complete (effThreads a.nthreads a.nrow) (Kmeans.threadRows a.nrow a.nthreads) (sched t i))
    (hf : kmax + kmax / 2 ≤ fuel) (bind : Bool) :
    ((a.init ∉ ["random", "forgy", "kmeanspp", "none"] ∨ a.dist ∉ ["eucl", "cos", "taxi", "sqeucl"]) →
      xmeans bind dist big c rng order (fun cfg t s => .ok (dec cfg t s)) sched fuel kmax minSize a = .error .throws) ∧
    ∀ it met, getInit a.init = .ok it → getDist a.dist = .ok met →
      (kmax < 2 → xmeans bind dist big c rng order (fun cfg t s => .ok (dec cfg t s)) sched fuel kmax minSize a
        = .error .assertFail) ∧
      (2 ≤ kmax → it = .random ∨ it = .plusplus →
        xmeans bind dist big c rng order (fun cfg t s => .ok (dec cfg t s)) sched fuel kmax minSize a
          = .error .throws) ∧
      (2 ≤ kmax → it = .forgy ∨ it = .none → MeansWithin a.nrow (matRows m) (dist met) big →
        (∀ g, it = .none → given = some g → ∀ r, r < a.nrow → ∀ i, i < 2 →
          dist met (matRows m r) (matRows g i) < big) → 2 ≤ minSize → 1 ≤ a.maxIters →
        ∃ res, xmeans true dist big c rng order (fun cfg t s => .ok (dec cfg t s)) sched fuel kmax minSize a
            = .ok (some res) ∧
          Conserved a.nrow res ∧ res.k ≤ kmax + kmax / 2 + 1 ∧
          xmeans false dist big c rng order (fun cfg t s => .ok (dec cfg t s)) sched fuel kmax minSize a
            = (if res.k = res.counts.length then .ok (some res) else .error .assertFail)) := by
  refine ⟨fun hh => hierCall_refused.1 hh, fun it met hi hd => ⟨fun hk => ?_, fun hk hit => ?_, ?_⟩⟩
  · exact hierCall_refused.2 ((initNames _).1 ⟨it, hi⟩) ((distNames _).1 ⟨met, hd⟩) hk
  · obtain ⟨cfg, hin, e, hs, -, -, -, -, -, -, -, -, -, -, hoth, -⟩ :=
      hierCall_ok (grow := false) (dist := dist) (big := big) (order := order) (minSize := minSize)
        (run := fun cfg it => Score.runD .x cfg it (fun t s => .ok (dec cfg t s)) sched fuel) h hk hi hd
    unfold xmeans
    rw [e bind, hoth hit, runD_other hs]
    rfl
  · intro hk hit hw hg hmin hmi
    obtain ⟨cfg, hin, e, hs, e1, e2, e3, e4, e5, -, -, -, hdata, hst, -⟩ :=
      hierCall_ok (grow := false) (dist := dist) (big := big) (order := order) (minSize := minSize)
        (run := fun cfg it => Score.runD .x cfg it (fun t s => .ok (dec cfg t s)) sched fuel) h hk hi hd
    obtain ⟨hwc, hst⟩ := hst hw hg
    obtain ⟨s, er, hfin⟩ : ∃ s, Score.runD .x cfg hin (fun t s => .ok (dec cfg t s)) sched fuel = .ok (some s) ∧
        Finished .x cfg s := by
      obtain ⟨dec', hd, hh⟩ := Score.runD_sim (alg := .x) (c := cfg) (sched := sched) (dec := fun t s => .ok (dec cfg t s))
        (by
          intro t s rej h
          cases h
          obtain ⟨h1, h2⟩ := Score.bicRejected_ok dmin cfg.nrow (pd t s) (cd t s) s
          exact ⟨(hdec cfg t s).nodup_iff.2 h1, fun p hp => h2 p ((hdec cfg t s).mem_iff.1 hp)⟩) hin fuel
      rcases hh with hh | ⟨t', s', e, hh, _⟩
      · rw [hh]
        exact Xmeans.runX_ok ⟨hwc, hs.rows, hs.threads, hs.rowsLt, h.cols, by rw [e1, e2]; exact hc,
          fun t l hl => (hd t l hl).1, fun t l hl => (hd t l hl).2, (sizes (c := cfg) hs.two hs.kLt).1,
          by rw [e5]; exact hmin, by rw [e4]; exact hmi⟩ hs.two hs.kLt (hst hit) (by rw [e3]; exact hf)
      · cases hh
    obtain ⟨hnd, hids⟩ := ho.of hfin
    obtain ⟨res, f1, f2, f3, f4, f5, f6⟩ := hierFinish_ok hfin hs hnd hids
    refine ⟨res, ?_, by rw [← e1]; exact f3, ?_, ?_⟩
    · unfold xmeans
      rw [e true]
      rw [er]
      exact f1
    · have hb := hfin.few _ hnd fun i hi => (hids i).1 hi
      have hz := sizes (c := cfg) hs.two hs.kLt
      simp only [Mode.bound, reduceCtorEq, if_false] at hb
      rw [← f4] at hb
      rw [e3] at hb hz
      omega
    · unfold xmeans
      rw [e false]
      rw [er]
      exact f2

/-- **C91, partial: g-means.**  Refusals are those of C90.  In every other call, with at least one iteration and at
least 2 as smallest size, nothing is thrown in the first `3 K - 6` rounds (`K` is the largest power of two that is at
most `kmax`), and a result returned within them accounts for every row; the result of the programs has as many
centroids as clusters.  Missing: calls that abort or whose behaviour is undefined, for example all calls on equal rows
(`C91_violated_gmeans`), and later rounds (C73). -/
theorem C91_gmeans_call_partial [Field R] [LinearOrder R] (dist : Dist.Metric → Row R n → Row R n → R) (big : R)
    (c : Codec R B) (rng : Rng R S 2) (order : St R n → List Nat) (ho : Enumerates order)
    (val : R → ℝ) (phi : ℝ → ℝ) (strict : Nat) (old : Nat → Nat → R)
    (sched : Nat → Nat → List Nat) (fuel kmax minSize : Nat) (a : Call R B)
    (m : Nat → Nat → R) (given : Option (Nat → Nat → R)) (h : HierReady n c rng kmax a m given)
    (hc : ∀ t i, Complete (effThreads a.nthreads a.nrow) (Kmeans.threadRows a.nrow a.nthreads) (sched t i))
    (bind : Bool) :
    ((a.init ∉ ["random", "forgy", "kmeanspp", "none"] ∨ a.dist ∉ ["eucl", "cos", "taxi", "sqeucl"]) →
      gmeans bind dist big c rng order (fun cfg t s => Score.adDecide val phi strict cfg (old t) s) sched fuel kmax
        minSize a = .error .throws) ∧
    ∀ it met, getInit a.init = .ok it → getDist a.dist = .ok met →
      (kmax < 2 → gmeans bind dist big c rng order (fun cfg t s => Score.adDecide val phi strict cfg (old t) s) sched fuel
        kmax minSize a = .error .assertFail) ∧
      (2 ≤ kmax → it = .random ∨ it = .plusplus →
        gmeans bind dist big c rng order (fun cfg t s => Score.adDecide val phi strict cfg (old t) s) sched fuel kmax
          minSize a = .error .throws) ∧
      (2 ≤ kmax → it = .forgy ∨ it = .none → MeansWithin a.nrow (matRows m) (dist met) big →
        (∀ g, it = .none → given = some g → ∀ r, r < a.nrow → ∀ i, i < 2 →
          dist met (matRows m r) (matRows g i) < big) → 2 ≤ minSize → 1 ≤ a.maxIters →
        fuel + 6 ≤ 3 * hclustFloor kmax →
        gmeans bind dist big c rng order (fun cfg t s => Score.adDecide val phi strict cfg (old t) s) sched fuel kmax
          minSize a ≠ .error .throws ∧
        ∀ res, gmeans bind dist big c rng order (fun cfg t s => Score.adDecide val phi strict cfg (old t) s) sched fuel
            kmax minSize a = .ok (some res) →
          Conserved a.nrow res ∧ (bind = false → res.k = res.counts.length)) := by
  refine ⟨fun hh => hierCall_refused.1 hh, fun it met hi hd => ⟨fun hk => ?_, fun hk hit => ?_, ?_⟩⟩
  · exact hierCall_refused.2 ((initNames _).1 ⟨it, hi⟩) ((distNames _).1 ⟨met, hd⟩) hk
  · obtain ⟨cfg, hin, e, hs, -, -, -, -, -, -, -, -, -, -, hoth, -⟩ :=
      hierCall_ok (grow := true) (dist := dist) (big := big) (order := order) (minSize := minSize)
        (run := fun cfg it => Score.runD .g cfg it (fun t s => Score.adDecide val phi strict cfg (old t) s) sched fuel)
        h hk hi hd
    unfold gmeans
    rw [e bind, hoth hit, runD_other hs]
    rfl
  · intro hk hit hw hg hmin hmi hf
    obtain ⟨cfg, hin, e, hs, e1, e2, e3, e4, e5, -, -, -, hdata, hst, -⟩ :=
      hierCall_ok (grow := true) (dist := dist) (big := big) (order := order) (minSize := minSize)
        (run := fun cfg it => Score.runD .g cfg it (fun t s => Score.adDecide val phi strict cfg (old t) s) sched fuel)
        h hk hi hd
    obtain ⟨hwc, hst⟩ := hst hw hg
    unfold gmeans
    rw [e bind]
    have hfin : (∃ f, Score.runD .g cfg hin (fun t s => Score.adDecide val phi strict cfg (old t) s) sched fuel = .error f ∧
          f ≠ .throws) ∨
        Score.runD .g cfg hin (fun t s => Score.adDecide val phi strict cfg (old t) s) sched fuel = .ok none ∨
        ∃ s, Score.runD .g cfg hin (fun t s => Score.adDecide val phi strict cfg (old t) s) sched fuel = .ok (some s) ∧
          Finished .g cfg s := by
      obtain ⟨dec', hd, hh⟩ := Score.runD_sim (alg := .g) (c := cfg) (sched := sched)
        (dec := fun t s => Score.adDecide val phi strict cfg (old t) s)
        (by
          intro t s rej h
          unfold Score.adDecide at h
          split at h
          · cases h
          · exact Score.adRejected_ok h) hin fuel
      rcases hh with hh | ⟨t', s', f, hh, hh2⟩
      · rw [hh]
        rcases Xmeans.runG_ok (c := cfg) (sched := sched) (dec := dec')
          ⟨hwc, hs.rows, hs.threads, hs.rowsLt, h.cols, by rw [e1, e2]; exact hc,
          fun t l hl => (hd t l hl).1, fun t l hl => (hd t l hl).2, (sizes (c := cfg) hs.two hs.kLt).1,
          by rw [e5]; exact hmin, by rw [e4]; exact hmi⟩ hs.two hs.kLt (hst hit) (fuel := fuel) (by rw [e3]; exact hf)
          with h1 | h1 | h1
        · exact Or.inl ⟨_, h1, by decide⟩
        · exact Or.inr (Or.inl h1)
        · exact Or.inr (Or.inr h1)
      · refine Or.inl ⟨f, hh2, ?_⟩
        rcases Score.adDecide_error hh with rfl | rfl <;> decide
    rcases hfin with ⟨f, er, hne⟩ | er | ⟨s, er, hfin⟩
    · rw [er]
      exact ⟨fun h => hne (by cases h; rfl), fun res h => by cases h⟩
    · rw [er]
      exact ⟨(fun h => nomatch h), (fun res h => nomatch h)⟩
    · obtain ⟨hnd, hids⟩ := ho.of hfin
      obtain ⟨res, f1, f2, f3, f4, f5, f6⟩ := hierFinish_ok hfin hs hnd hids
      rw [er, ← e1]
      cases bind with
      | true =>
        rw [f1]
        exact ⟨nofun, fun res' h => by cases h; exact ⟨f3, nofun⟩⟩
      | false =>
        rw [f2]
        split_ifs with hq
        · exact ⟨nofun, fun res' h => by cases h; exact ⟨f3, fun _ => hq⟩⟩
        · exact ⟨nofun, nofun⟩

/-- **C91 is violated: g-means.**  No call on equal rows returns a result, whatever the other arguments are. -/
theorem C91_violated_gmeans [Field R] [CharZero R] [LinearOrder R] (dist : Dist.Metric → Row R n → Row R n → R) (big : R)
    (c : Codec R B) (rng : Rng R S 2) (order : St R n → List Nat)
    (val : R →+* ℝ) (phi : ℝ → ℝ) (strict : Nat) (old : Nat → Nat → R)
    (sched : Nat → Nat → List Nat) (fuel kmax minSize : Nat) (a : Call R B)
    (m : Nat → Nat → R) (given : Option (Nat → Nat → R)) (h : HierReady n c rng kmax a m given)
    (hc : ∀ t i, Complete (effThreads a.nthreads a.nrow) (Kmeans.threadRows a.nrow a.nthreads) (sched t i))
    (bind : Bool) (it : InitT) (met : Dist.Metric) (hi : getInit a.init = .ok it) (hd : getDist a.dist = .ok met)
    (hk : 2 ≤ kmax) (hit : it = .forgy ∨ it = .none) (hw : MeansWithin a.nrow (matRows m) (dist met) big)
    (hg : ∀ g, it = .none → given = some g → ∀ r, r < a.nrow → ∀ i, i < 2 → dist met (matRows m r) (matRows g i) < big)
    (hmin : 2 ≤ minSize) (hmi : 1 ≤ a.maxIters) (hf : 0 < fuel) (x : Row R n)
    (hx : ∀ r, r < a.nrow → matRows m r = x) :
    gmeans bind dist big c rng order (fun cfg t s => Score.adDecide val phi strict cfg (old t) s) sched fuel kmax minSize a
      = .error .assertFail ∨
    gmeans bind dist big c rng order (fun cfg t s => Score.adDecide val phi strict cfg (old t) s) sched fuel kmax minSize a
      = .error .ub := by
  obtain ⟨cfg, hin, e, hs, e1, e2, e3, e4, e5, -, -, -, hdata, hst, -⟩ :=
    hierCall_ok (grow := true) (dist := dist) (big := big) (order := order) (minSize := minSize)
      (run := fun cfg it => Score.runD .g cfg it (fun t s => Score.adDecide val phi strict cfg (old t) s) sched fuel)
      h hk hi hd
  obtain ⟨hwc, hst⟩ := hst hw hg
  unfold gmeans
  rw [e bind]
  rcases Score.C81_limit_constant_data_fails cfg hin hs h.cols (by rw [e5]; exact hmin) (by rw [e4]; exact hmi) hwc
    (hst hit) sched (by rw [e1, e2]; exact hc) val phi strict old x
    (fun r hr => by rw [e1] at hr; rw [hdata r hr, hx r hr]) fuel hf with er | er
  · rw [er]; exact Or.inl rfl
  · rw [er]; exact Or.inr rfl

/-- The options of the three programs. -/
theorem program_options {distType : String} (hd : distType ∈ ["eucl", "taxi", "sqeucl"])
    (given : Option (Nat → Nat → R)) : (∃ met, getDist distType = .ok met ∧ met ≠ .cos) ∧
    ∃ it, getInit (if given.isSome then "none" else "forgy") = .ok it ∧ (it = .forgy ∨ it = .none) := by
  constructor
  · simp only [List.mem_cons, List.not_mem_nil, or_false] at hd
    rcases hd with rfl | rfl | rfl
    · exact ⟨.eucl, rfl, by decide⟩
    · exact ⟨.taxi, rfl, by decide⟩
    · exact ⟨.sqeucl, rfl, by decide⟩
  · cases given with
    | none => exact ⟨_, rfl, Or.inl rfl⟩
    | some g => exact ⟨_, rfl, Or.inr rfl⟩

/-- **C91, the program `xmeans`**, on a file with entries of at most `X` in size: it ends after at most 1.5 `kmax`
rounds, and either returns a clustering that accounts for every row, with as many centroids as clusters, or fails an
assertion.  Missing: the latter, the settings of `C91_xmeans_call_partial`, and the centroids (C72). -/
theorem C91_xmeans_program_partial (big X : ℝ) (h1 : 1 ≤ big) (hl : n * (2 * X) < big) (hq : n * (2 * X) ^ 2 < big)
    {c : Codec ℝ B} (hc : CodecOk c) (rng : Rng ℝ S 2) (order : St ℝ n → List Nat) (ho : Enumerates order)
    (dmin : ℝ) (pd cd : Nat → St ℝ n → Nat → ℝ) (dec : Cfg ℝ ℝ n → Nat → St ℝ n → List Nat)
    (hdec : ∀ cfg t s, (dec cfg t s).Perm (Score.bicRejected dmin cfg.nrow (pd t s) (cd t s) s))
    (sched : Nat → Nat → List Nat) (fuel kmax minSize : Nat) (datafn : List B) (centersfn : Option (List B))
    (nrow maxIters nthreads : Nat) (tol : ℝ) (distType : String)
    (hcol : 0 < n) (hn : 0 < nrow) (hnt : 0 < nthreads) (hlt : nrow < 4294967296)
    (hsz : nrow * n * c.size < 9223372036854775808) (hszk : 2 * n * c.size < 18446744073709551616)
    (hrng : RngOk rng nrow) (hk : 2 ≤ kmax) (hklt : kmax < 1073741824) (hmin : 2 ≤ minSize) (hmi : 1 ≤ maxIters)
    (hs : ∀ t i, Complete (effThreads nthreads nrow) (Kmeans.threadRows nrow nthreads) (sched t i))
    (hf : kmax + kmax / 2 ≤ fuel) :
    (datafn.length ≠ nrow * n * c.size →
      hierProg c datafn centersfn nrow n maxIters nthreads tol distType
        (xmeans false (realDist big) big c rng order (fun cfg t s => .ok (dec cfg t s)) sched fuel kmax minSize)
        = .error .throws) ∧
    ∀ (m : Nat → Nat → ℝ) (given : Option (Nat → Nat → ℝ)), Stores c datafn m nrow n →
      centersfn = given.map (fun g => (rowsFrom g n 0 2).flatMap c.enc) →
      (∀ r j, r < nrow → j < n → |m r j| ≤ X) →
      (∀ g, given = some g → ∀ i j, i < 2 → j < n → |g i j| ≤ X) → distType ∈ ["eucl", "taxi", "sqeucl"] →
      hierProg c datafn centersfn nrow n maxIters nthreads tol distType
          (xmeans false (realDist big) big c rng order (fun cfg t s => .ok (dec cfg t s)) sched fuel kmax minSize)
          = .error .assertFail ∨
      ∃ res, hierProg c datafn centersfn nrow n maxIters nthreads tol distType
          (xmeans false (realDist big) big c rng order (fun cfg t s => .ok (dec cfg t s)) sched fuel kmax minSize)
          = .ok (some res) ∧
        Conserved nrow res ∧ res.k ≤ kmax + kmax / 2 + 1 ∧ res.k = res.counts.length := by
  refine ⟨fun hne => (hierProg_ok hc datafn centersfn nrow maxIters nthreads tol distType _ hcol hsz hszk).1 hne, ?_⟩
  intro m given hst hcf hm hg hd
  have hlen : datafn.length = nrow * n * c.size := by
    unfold Stores at hst
    rw [hst, length_enc hc, length_rowsFrom]
  rw [(hierProg_ok hc datafn centersfn nrow maxIters nthreads tol distType _ hcol hsz hszk).2 given hlen hcf]
  obtain ⟨⟨met, hdm, hcos⟩, it, hit, hi⟩ := program_options hd given
  obtain ⟨hw, hgw⟩ := within_bounded big X h1 hl hq hn hcol hm hcos
  obtain ⟨res, -, e2, e3, e4⟩ := ((C91_xmeans_call_partial (realDist big) big c rng order ho dmin pd cd dec hdec sched
    fuel kmax minSize
    ⟨.file datafn, nrow, maxIters, nthreads, given.map fun g => rowsFrom g n 0 2,
            if given.isSome then "none" else "forgy", tol, distType⟩ m given
    ⟨hc, hcol, hn, hnt, hlt, hsz, hst, rfl, hrng, hklt⟩ hs hf false).2 it met hit hdm).2.2 hk hi hw
    (fun g _ hgv => hgw g (hg g hgv)) hmin hmi
  rw [e4]
  by_cases hq' : res.k = res.counts.length
  · rw [if_pos hq']
    exact Or.inr ⟨res, rfl, e2, e3, hq'⟩
  · rw [if_neg hq']
    exact Or.inl rfl

/-- **C91, the program `gmeans`**, on a file with entries of at most `X` in size: in the first `3 K - 6` rounds nothing
is thrown, and a clustering that is returned accounts for every row and has as many centroids as clusters.
Missing: as in `C91_gmeans_call_partial`. -/
theorem C91_gmeans_program_partial (big X : ℝ) (h1 : 1 ≤ big) (hl : n * (2 * X) < big) (hq : n * (2 * X) ^ 2 < big)
    {c : Codec ℝ B} (hc : CodecOk c) (rng : Rng ℝ S 2) (order : St ℝ n → List Nat) (ho : Enumerates order)
    (phi : ℝ → ℝ) (strict : Nat) (old : Nat → Nat → ℝ)
    (sched : Nat → Nat → List Nat) (fuel kmax minSize : Nat) (datafn : List B) (centersfn : Option (List B))
    (nrow maxIters nthreads : Nat) (tol : ℝ) (distType : String)
    (hcol : 0 < n) (hn : 0 < nrow) (hnt : 0 < nthreads) (hlt : nrow < 4294967296)
    (hsz : nrow * n * c.size < 9223372036854775808) (hszk : 2 * n * c.size < 18446744073709551616)
    (hrng : RngOk rng nrow) (hk : 2 ≤ kmax) (hklt : kmax < 1073741824) (hmin : 2 ≤ minSize) (hmi : 1 ≤ maxIters)
    (hs : ∀ t i, Complete (effThreads nthreads nrow) (Kmeans.threadRows nrow nthreads) (sched t i))
    (hf : fuel + 6 ≤ 3 * hclustFloor kmax) :
    (datafn.length ≠ nrow * n * c.size →
      hierProg c datafn centersfn nrow n maxIters nthreads tol distType
        (gmeans false (realDist big) big c rng order (fun cfg t s => Score.adDecide id phi strict cfg (old t) s) sched
          fuel kmax minSize) = .error .throws) ∧
    ∀ (m : Nat → Nat → ℝ) (given : Option (Nat → Nat → ℝ)), Stores c datafn m nrow n →
      centersfn = given.map (fun g => (rowsFrom g n 0 2).flatMap c.enc) →
      (∀ r j, r < nrow → j < n → |m r j| ≤ X) →
      (∀ g, given = some g → ∀ i j, i < 2 → j < n → |g i j| ≤ X) → distType ∈ ["eucl", "taxi", "sqeucl"] →
      hierProg c datafn centersfn nrow n maxIters nthreads tol distType
        (gmeans false (realDist big) big c rng order (fun cfg t s => Score.adDecide id phi strict cfg (old t) s) sched
          fuel kmax minSize) ≠ .error .throws ∧
      ∀ res, hierProg c datafn centersfn nrow n maxIters nthreads tol distType
          (gmeans false (realDist big) big c rng order (fun cfg t s => Score.adDecide id phi strict cfg (old t) s) sched
            fuel kmax minSize) = .ok (some res) →
        Conserved nrow res ∧ res.k = res.counts.length := by
  refine ⟨fun hne => (hierProg_ok hc datafn centersfn nrow maxIters nthreads tol distType _ hcol hsz hszk).1 hne, ?_⟩
  intro m given hst hcf hm hg hd
  have hlen : datafn.length = nrow * n * c.size := by
    unfold Stores at hst
    rw [hst, length_enc hc, length_rowsFrom]
  rw [(hierProg_ok hc datafn centersfn nrow maxIters nthreads tol distType _ hcol hsz hszk).2 given hlen hcf]
  obtain ⟨⟨met, hdm, hcos⟩, it, hit, hi⟩ := program_options hd given
  obtain ⟨hw, hgw⟩ := within_bounded big X h1 hl hq hn hcol hm hcos
  obtain ⟨e1, e2⟩ := ((C91_gmeans_call_partial (realDist big) big c rng order ho id phi strict old sched fuel kmax minSize
    ⟨.file datafn, nrow, maxIters, nthreads, given.map fun g => rowsFrom g n 0 2,
            if given.isSome then "none" else "forgy", tol, distType⟩ m given
    ⟨hc, hcol, hn, hnt, hlt, hsz, hst, rfl, hrng, hklt⟩ hs false).2 it met hit hdm).2.2 hk hi hw
    (fun g _ hgv => hgw g (hg g hgv)) hmin hmi hf
  exact ⟨e1, fun res h => ⟨(e2 res h).1, (e2 res h).2 rfl⟩⟩

/-- `xmeans` on the four rows. -/
example (pd cd : Nat → St ℝ 1 → Nat → ℝ) : ∃ o : Res (Option (Result ℝ 1)),
    hierProg (n := 1) (oneCell ℝ) ((rowsFrom fourRows 1 0 4).flatMap (oneCell ℝ).enc) none 4 1 100 2 (-1) "eucl"
      (xmeans false (realDist 1000) 1000 (oneCell ℝ) (counter ℝ) increasing
        (fun cfg t s => .ok (Score.bicRejected 0 cfg.nrow (pd t s) (cd t s) s)) roundSched 3 2 2) = o ∧
      (o = .error .assertFail ∨ ∃ res, o = .ok (some res) ∧
        Conserved 4 res ∧ res.k ≤ 4 ∧ res.k = res.counts.length) :=
  ⟨_, rfl, (C91_xmeans_program_partial (n := 1) 1000 12 (by norm_num) (by norm_num) (by norm_num) (oneCell_ok ℝ)
    (counter ℝ) increasing enumerates_increasing 0 pd cd
    (fun cfg t s => Score.bicRejected 0 cfg.nrow (pd t s) (cd t s) s) (fun _ _ _ => .refl _)
    roundSched 3 2 2 _ none 4 100 2 (-1) "eucl" (by decide) (by decide) (by decide) (by decide)
    (by decide) (by decide) (counter_ok ℝ) (by decide) (by decide) (by decide) (by decide) (fun _ => two_sched)
    (by decide)).2 fourRows none rfl rfl
    (fun r j _ _ => by unfold fourRows; split_ifs <;> norm_num) (fun g h => by cases h) (by simp)⟩

/-- `gmeans` on the four rows, with `kmax = 4`: six rounds. -/
example (old : Nat → Nat → ℝ) :
    hierProg (n := 1) (oneCell ℝ) ((rowsFrom fourRows 1 0 4).flatMap (oneCell ℝ).enc) none 4 1 100 2 (-1) "eucl"
      (gmeans false (realDist 1000) 1000 (oneCell ℝ) (counter ℝ) increasing
        (fun cfg t s => Score.adDecide id Phi 4 cfg (old t) s) roundSched 6 4 2) ≠ .error .throws :=
  ((C91_gmeans_program_partial (n := 1) 1000 12 (by norm_num) (by norm_num) (by norm_num) (oneCell_ok ℝ)
    (counter ℝ) increasing enumerates_increasing Phi 4 old
    roundSched 6 4 2 _ none 4 100 2 (-1) "eucl" (by decide) (by decide) (by decide) (by decide)
    (by decide) (by decide) (counter_ok ℝ) (by decide) (by decide) (by decide) (by decide) (fun _ => two_sched)
    (by decide)).2 fourRows none rfl rfl
    (fun r j _ _ => by unfold fourRows; split_ifs <;> norm_num) (fun g h => by cases h) (by simp)).1

/-- g-means on four rows at 5. -/
example (old : Nat → Nat → ℝ) :
    gmeans (n := 1) true (realDist 1000) 1000 (oneCell ℝ) (counter ℝ) increasing
        (fun cfg t s => Score.adDecide (RingHom.id ℝ) Phi 4 cfg (old t) s) roundSched 6 4 2
        ⟨.array [5, 5, 5, 5], 4, 100, 2, none, "forgy", -1, "eucl"⟩ = .error .assertFail ∨
    gmeans (n := 1) true (realDist 1000) 1000 (oneCell ℝ) (counter ℝ) increasing
        (fun cfg t s => Score.adDecide (RingHom.id ℝ) Phi 4 cfg (old t) s) roundSched 6 4 2
        ⟨.array [5, 5, 5, 5], 4, 100, 2, none, "forgy", -1, "eucl"⟩ = .error .ub :=
  C91_violated_gmeans (n := 1) (realDist 1000) 1000 (oneCell ℝ) (counter ℝ) increasing (RingHom.id ℝ) Phi 4 old roundSched 6 4 2
    ⟨.array [5, 5, 5, 5], 4, 100, 2, none, "forgy", -1, "eucl"⟩ (fun _ _ => 5) none
    ⟨oneCell_ok ℝ, by decide, by decide, by decide, by decide, by decide, rfl, rfl, counter_ok ℝ, by decide⟩
    (fun _ => two_sched) true .forgy .eucl rfl rfl (by decide) (Or.inl rfl)
    (within_bounded 1000 5 (by norm_num) (by norm_num) (by norm_num) (by decide) (by decide)
      (fun _ _ _ _ => by norm_num) (by decide)).1 (fun g h => by cases h) (by decide) (by decide) (by decide)
    (fun _ => 5) (fun r _ => rfl)

end Knor.Driver
