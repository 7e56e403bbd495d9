import Verif.Lemmas.MiniBatchDriver
import Mathlib.Algebra.Order.Field.Rat

/-!
# Property C95: a whole mini-batch call

The program `mb_knori` and the coordinator's `mb_run`.
-/

namespace Knor.Driver

open Knor Knor.Spec Knor.Io Knor.Partition Knor.Par Knor.Init

variable {R S B : Type _} {k n : Nat}

theorem frobenius_eq [Field R] (sqrt : R → R) (y : Fin k → Row R n) :
    frobenius sqrt y = sqrt (∑ c, ∑ j, y c j ^ 2) := by
  have inner : ∀ (c : Fin k) (l : List (Fin n)) (s : R),
      l.foldl (fun s j => s + y c j * y c j) s = s + (l.map fun j => y c j ^ 2).sum := by
    intro c l
    induction l with
    | nil => intro s; simp
    | cons j l ih => intro s; rw [List.foldl_cons, ih, List.map_cons, List.sum_cons]; ring
  have outer : ∀ (l : List (Fin k)) (s : R),
      l.foldl (fun s c => (List.finRange n).foldl (fun s j => s + y c j * y c j) s) s
        = s + (l.map fun c => ((List.finRange n).map fun j => y c j ^ 2).sum).sum := by
    intro l
    induction l with
    | nil => intro s; simp
    | cons c l ih => intro s; rw [List.foldl_cons, ih, inner, List.map_cons, List.sum_cons]; ring
  unfold frobenius
  rw [outer, zero_add, Fin.sum_univ_def]
  simp only [Fin.sum_univ_def]

/-- **C95.**  Unknown names throw; with one cluster the call fails an assertion.  Every other call on an `nrow × n`
matrix, in a file or in an array, returns what mini-batch k-means promises, from the centroids and the assignment
that the named initialisation promises.  This for any number of threads, any batch size, any interleavings, any draws
of the engine and any samples; `Seedable` and the last condition say that no distance overflows. -/
theorem C95_call [Field R] [LinearOrder R] [IsStrictOrderedRing R]
    (dist : Dist.Metric → Row R n → Row R n → R) (big : R) (sqrt : R → R) {c : Codec R B} (hc : CodecOk c)
    (rng : Rng R S k) (draw : Nat → Nat → R)
    (sched1 sched2 : Nat → List Nat) (schedEnd : List Nat) (mb : Nat) (a : Call R B) (m : Nat → Nat → R)
    (given : Option (Nat → Nat → R))
    (hk : 0 < k) (hcol : 0 < n) (hn : 0 < a.nrow) (hnt : 0 < a.nthreads) (hlt : a.nrow + 8192 < 4294967296)
    (hsz : a.nrow * n * c.size < 9223372036854775808) (hst : Holds c a.source m a.nrow n)
    (hgiven : a.centers = given.map fun g => rowsFrom g n 0 k) (hrng : RngOk rng a.nrow)
    (hc1 : ∀ i, Complete (effThreads a.nthreads a.nrow) (Prune.taskRows a.nrow a.nthreads) (sched1 i))
    (hc2 : ∀ i, Complete (effThreads a.nthreads a.nrow) (Prune.taskRows a.nrow a.nthreads) (sched2 i))
    (hce : Complete (effThreads a.nthreads a.nrow) (Prune.taskRows a.nrow a.nthreads) schedEnd) :
    ((a.init ∉ ["random", "forgy", "kmeanspp", "none"] ∨ a.dist ∉ ["eucl", "cos", "taxi", "sqeucl"]) →
      mbKmeans dist big sqrt c rng draw sched1 sched2 schedEnd mb a = .error .throws) ∧
    ∀ it met, getInit a.init = .ok it → getDist a.dist = .ok met →
      (k = 1 → mbKmeans dist big sqrt c rng draw sched1 sched2 schedEnd mb a = .error .assertFail) ∧
      (1 < k → (it = .plusplus → Seedable (dist met) big (matRows m) a.nrow) →
      (∀ c0, StartsAt it (dist met) (matRows m) a.nrow rng (givenCents given) c0 →
        ∀ r, r < a.nrow → ∀ c, ∀ y ∈ convexHull R ({c0 c} ∪ {x | ∃ r, r < a.nrow ∧ x = matRows m r}),
          dist met (matRows m r) y < big) →
      ∃ res, mbKmeans dist big sqrt c rng draw sched1 sched2 schedEnd mb a = .ok res ∧
        DeliversMiniBatch it (dist met) (fun y => sqrt (∑ c, ∑ j, y c j ^ 2)) (matRows m) a.nrow a.nthreads mb rng
          draw (givenCents given) a.tol a.maxIters res.1 res.2.cltrs.means (fun r => (res.2.slots r).assign)
          res.2.counts) := by
  constructor
  · intro h
    have hthrow : ∀ s : String, s ∉ ["eucl", "cos", "taxi", "sqeucl"] → getDist s = .error .throws := by
      intro s hs
      simp only [List.mem_cons, List.not_mem_nil, or_false, not_or] at hs
      simp [getDist, hs]
    have hthrow' : ∀ s : String, s ∉ ["random", "forgy", "kmeanspp", "none"] → getInit s = .error .throws := by
      intro s hs
      simp only [List.mem_cons, List.not_mem_nil, or_false, not_or] at hs
      simp [getInit, hs]
    unfold mbKmeans
    by_cases h1 : a.init ∈ ["random", "forgy", "kmeanspp", "none"]
    · have h2 := h.resolve_left fun hh => hh h1
      cases hi : getInit a.init with
      | error e =>
        exfalso
        simp only [List.mem_cons, List.not_mem_nil, or_false] at h1
        rcases h1 with h1 | h1 | h1 | h1 <;> (rw [h1] at hi; cases hi)
      | ok it => dsimp only; rw [hthrow _ h2]
    · rw [hthrow' _ h1]
  intro it met hi hm
  refine ⟨fun h1 => ?_, fun hk1 hpp hb => ?_⟩
  · obtain ⟨c0, e0, -⟩ := construct_ok (k := k) (n := n) hk it given
    unfold mbKmeans constructPruned DistMatrix.create
    rw [hi]
    dsimp only
    rw [hm]
    dsimp only
    rw [hgiven, e0]
    dsimp only
    rw [if_neg (by omega)]
  obtain ⟨ws, el, hrows⟩ := load_ok hc m a hn hnt hcol (by omega) hsz hst
  have hset : {x : Row R n | ∃ r, r < a.nrow ∧ x = rowsIn ws a.nrow a.nthreads r} =
      {x | ∃ r, r < a.nrow ∧ x = matRows m r} := by
    ext x
    exact ⟨fun ⟨r, hr, e⟩ => ⟨r, hr, by rw [← hrows r hr]; exact e⟩,
      fun ⟨r, hr, e⟩ => ⟨r, hr, by rw [hrows r hr]; exact e⟩⟩
  obtain ⟨s0, s, e0, es, hstart, hsd, _, _, hub, hsa⟩ := runInitPruned_ok (dist met) big rng
    (rowsIn ws a.nrow a.nthreads) (matRows m) a.nrow a.nthreads hrows hk1 hn hnt hlt hrng sched1 hc1 it hpp given
    (fun _ c0 hs r hr => ⟨⟨0, hk⟩, hb c0 hs r hr ⟨0, hk⟩ _ (subset_convexHull R _ (Or.inl rfl))⟩)
  obtain ⟨res, t, tr, f, er, w0, w1, w2, w3, w4, w5, w6, w7, w8, w9⟩ := MiniBatch.run_traced (dist := dist met) (big := big)
    (norm := frobenius sqrt) (data := rowsIn ws a.nrow a.nthreads) (data' := matRows m) (mb := mb) (draw := draw)
    (tol := a.tol) (maxIters := a.maxIters) (sched := sched2) (schedEnd := schedEnd) (s0 := s) hrows hn hnt hlt hk
    hc2 hce (by
      intro r hr cc y hy
      rw [hset] at hy
      rw [hrows r hr]
      exact hb _ hstart r hr cc y hy)
    (by
      intro r hr
      by_cases hit : it = .plusplus
      · right
        subst hit
        obtain ⟨cc, e, _⟩ := hsa r hr
        exact ⟨cc, e⟩
      · exact .inl (hub hit r)) hsd.rows (it ≠ .plusplus) (fun h r _ => hub h r)
  have hnorm : (frobenius sqrt : (Fin k → Row R n) → R) = fun y => sqrt (∑ c, ∑ j, y c j ^ 2) :=
    funext (frobenius_eq sqrt)
  rw [hnorm] at w3 w4
  refine ⟨res, ?_, t, tr, f, ?_, ?_, w1, w2, w3, w4, w5, ?_, w7, w8, w9⟩
  · unfold mbKmeans
    rw [hi]
    dsimp only
    rw [hm]
    dsimp only
    rw [hgiven, e0]
    dsimp only
    rw [el]
    dsimp only
    rw [es]
    exact er
  · rw [w0]; exact hstart
  · rw [w0]; exact hsa
  · rw [w0]; exact w6

/-! ### Bounded data -/

/-- The points with small entries are a convex set. -/
theorem hull_bounded {X : ℝ} {s : Set (Row ℝ n)} (h : ∀ x ∈ s, ∀ j, |x j| ≤ X) {y : Row ℝ n}
    (hy : y ∈ convexHull ℝ s) (j : Fin n) : |y j| ≤ X := by
  have hconv : Convex ℝ {x : Row ℝ n | ∀ j, |x j| ≤ X} := by
    intro x hx z hz a b ha hb hab j
    show |a * x j + b * z j| ≤ X
    calc |a * x j + b * z j| ≤ |a * x j| + |b * z j| := abs_add_le _ _
      _ = a * |x j| + b * |z j| := by rw [abs_mul, abs_mul, abs_of_nonneg ha, abs_of_nonneg hb]
      _ ≤ a * X + b * X := add_le_add (mul_le_mul_of_nonneg_left (hx j) ha) (mul_le_mul_of_nonneg_left (hz j) hb)
      _ = X := by rw [← add_mul, hab, one_mul]
  exact convexHull_min (t := {x : Row ℝ n | ∀ j, |x j| ≤ X}) (fun x hx => h x hx) hconv hy j

/-- **C95, bounded data.**  With the Euclidean, squared Euclidean or taxicab metric over the reals it is enough that
all entries are at most `X` in size. -/
theorem C95_bounded_data (big X : ℝ) (h1 : 1 ≤ big) (hl : n * (2 * X) < big) (hq : n * (2 * X) ^ 2 < big)
    {c : Codec ℝ B} (hc : CodecOk c) (rng : Rng ℝ S k) (draw : Nat → Nat → ℝ)
    (sched1 sched2 : Nat → List Nat) (schedEnd : List Nat) (mb : Nat) (a : Call ℝ B) (m : Nat → Nat → ℝ)
    (given : Option (Nat → Nat → ℝ))
    (hk : 1 < k) (hcol : 0 < n) (hn : 0 < a.nrow) (hnt : 0 < a.nthreads) (hlt : a.nrow + 8192 < 4294967296)
    (hsz : a.nrow * n * c.size < 9223372036854775808) (hst : Holds c a.source m a.nrow n)
    (hgiven : a.centers = given.map fun g => rowsFrom g n 0 k) (hrng : RngOk rng a.nrow)
    (hc1 : ∀ i, Complete (effThreads a.nthreads a.nrow) (Prune.taskRows a.nrow a.nthreads) (sched1 i))
    (hc2 : ∀ i, Complete (effThreads a.nthreads a.nrow) (Prune.taskRows a.nrow a.nthreads) (sched2 i))
    (hce : Complete (effThreads a.nthreads a.nrow) (Prune.taskRows a.nrow a.nthreads) schedEnd)
    (hm : ∀ r j, r < a.nrow → j < n → |m r j| ≤ X)
    (hg : ∀ g, given = some g → ∀ r j, r < k → j < n → |g r j| ≤ X)
    (it : InitT) (met : Dist.Metric) (hi : getInit a.init = .ok it) (hd : getDist a.dist = .ok met)
    (hcos : met ≠ .cos) :
    ∃ res : Nat × Prune.PState ℝ ℝ k n,
      mbKmeans (realDist big) big Real.sqrt c rng draw sched1 sched2 schedEnd mb a = .ok res ∧
      DeliversMiniBatch it (realDist big met) (fun y => Real.sqrt (∑ c, ∑ j, y c j ^ 2)) (matRows m) a.nrow a.nthreads
        mb rng draw (givenCents given) a.tol a.maxIters res.1 res.2.cltrs.means (fun r => (res.2.slots r).assign)
        res.2.counts := by
  have hX : 0 ≤ X := (abs_nonneg _).trans (hm 0 0 hn hcol)
  have hm' : ∀ r, r < a.nrow → ∀ j : Fin n, |(matRows m r : Row ℝ n) j| ≤ X := fun r hr j => hm r j.val hr j.isLt
  refine ((C95_call (realDist big) big Real.sqrt hc rng draw sched1 sched2 schedEnd mb a m given
    (by omega) hcol hn hnt hlt hsz hst hgiven hrng hc1 hc2 hce).2 it met hi hd).2 hk (fun _ =>
      ⟨fun q r hq' hr => (realDist_lt h1 hl hq hcos (hm' q hq') (hm' r hr)).1,
        fun r hr => realDist_self hcos _,
        fun q r hq' hr => (realDist_lt h1 hl hq hcos (hm' q hq') (hm' r hr)).2⟩) (fun c0 hs r hr cc y hy => ?_)
  have hb0 := start_bounded hX hm' (fun g hgv cc j => by
    cases given with
    | none => cases hgv
    | some g' =>
      rw [← Option.some.inj hgv]
      exact hg g' rfl cc.val j.val cc.isLt j.isLt) hrng hs
  refine (realDist_lt h1 hl hq hcos (hm' r hr) (fun j => hull_bounded ?_ hy j)).2
  rintro x (rfl | ⟨q, hq', rfl⟩) j
  · exact hb0 cc j
  · exact hm' q hq' j

/-- The default number of iterations and the default tolerance -1: the centroids never move by less than that, so
the call makes all iterations. -/
theorem C95_default_tolerance [Field R] [LinearOrder R] {it : InitT} {dist : Row R n → Row R n → R}
    {norm : (Fin k → Row R n) → R} (hnorm : ∀ y, 0 ≤ norm y) {data : Nat → Row R n} {N threads mb : Nat} {rng : Rng R S k}
    {draw : Nat → Nat → R} {given : Option (Fin k → Row R n)} {tol : R} {maxIters iters : Nat} {cents : Fin k → Row R n}
    {assign : Nat → Option (Fin k)} {sizes : Fin k → Int} (htol : tol ≤ 0)
    (h : DeliversMiniBatch it dist norm data N threads mb rng draw given tol maxIters iters cents assign sizes) :
    iters = maxIters := by
  obtain ⟨t, tr, f, _, _, _, _, _, h6, _⟩ := h
  rcases h6 with ⟨j, _, _, h, _⟩ | ⟨_, h, _⟩
  · exact absurd (lt_of_lt_of_le h htol) (not_lt.2 (hnorm _))
  · exact h

/-! ### `mb_knori` -/

/-- **C95, the program.**  `mb_knori` refuses `none` without a file of centres, and a data file whose size is not the
one that the numbers of rows and columns imply.  Otherwise, for a file that stores the matrix, it does what the call
with the same options does; a file of centres replaces the initialisation. -/
theorem C95_mb_knori (big X : ℝ) (h1 : 1 ≤ big) (hl : n * (2 * X) < big) (hq : n * (2 * X) ^ 2 < big)
    {c : Codec ℝ B} (hc : CodecOk c) (rng : Rng ℝ S k) (draw : Nat → Nat → ℝ) (sched1 sched2 : Nat → List Nat)
    (schedEnd : List Nat) (datafn : List B) (centersfn : Option (List B)) (nrow maxIters nthreads : Nat)
    (init : String) (tol : ℝ) (distType : String) (mb : Nat)
    (hk : 1 < k) (hcol : 0 < n) (hn : 0 < nrow) (hnt : 0 < nthreads) (hlt : nrow + 8192 < 4294967296)
    (hsz : nrow * n * c.size < 9223372036854775808) (hszk : k * n * c.size < 18446744073709551616)
    (hrng : RngOk rng nrow)
    (hc1 : ∀ i, Complete (effThreads nthreads nrow) (Prune.taskRows nrow nthreads) (sched1 i))
    (hc2 : ∀ i, Complete (effThreads nthreads nrow) (Prune.taskRows nrow nthreads) (sched2 i))
    (hce : Complete (effThreads nthreads nrow) (Prune.taskRows nrow nthreads) schedEnd) :
    (centersfn = none → init = "none" →
      mbKnori (n := n) (realDist big) big Real.sqrt c rng draw sched1 sched2 schedEnd datafn centersfn nrow maxIters
        nthreads init tol distType mb = .error .assertFail) ∧
    (¬ (centersfn = none ∧ init = "none") → datafn.length ≠ nrow * n * c.size →
      mbKnori (n := n) (realDist big) big Real.sqrt c rng draw sched1 sched2 schedEnd datafn centersfn nrow maxIters
        nthreads init tol distType mb = .error .throws) ∧
    ∀ (m : Nat → Nat → ℝ) (given : Option (Nat → Nat → ℝ)) it met,
      Stores c datafn m nrow n → centersfn = given.map (fun g => (rowsFrom g n 0 k).flatMap c.enc) →
      (∀ r j, r < nrow → j < n → |m r j| ≤ X) →
      (∀ g, given = some g → ∀ r j, r < k → j < n → |g r j| ≤ X) →
      (given.isSome → it = .none) → (given = none → getInit init = .ok it ∧ it ≠ .none) →
      getDist distType = .ok met → met ≠ .cos →
      ∃ res : Nat × Prune.PState ℝ ℝ k n,
        mbKnori (realDist big) big Real.sqrt c rng draw sched1 sched2 schedEnd datafn centersfn nrow maxIters nthreads
          init tol distType mb = .ok res ∧
        DeliversMiniBatch it (realDist big met) (fun y => Real.sqrt (∑ c, ∑ j, y c j ^ 2)) (matRows m) nrow nthreads
          mb rng draw (givenCents given) tol maxIters res.1 res.2.cltrs.means (fun r => (res.2.slots r).assign)
          res.2.counts := by
  have hu : u64 (u64 (c.size * nrow) * n) = nrow * n * c.size := by
    have h0 : c.size * nrow * n = nrow * n * c.size := by ring
    rw [u64_mul (by omega), h0]
  refine ⟨?_, ?_, ?_⟩
  · rintro rfl rfl
    unfold mbKnori
    simp
  · intro h hne
    unfold mbKnori
    dsimp only
    rw [if_neg, if_pos (by rw [hu]; exact hne)]
    rintro ⟨h2, h3⟩
    have h4 : centersfn = none := by simpa using h3
    subst h4
    exact h ⟨rfl, by simpa using h2⟩
  · intro m given it met hst hcf hm hg hs hnone hd hcos
    have hlen : datafn.length = nrow * n * c.size := by
      unfold Stores at hst
      rw [hst, length_enc hc, length_rowsFrom]
    unfold mbKnori
    dsimp only
    cases given with
    | none =>
      rw [Option.map_none] at hcf
      subst hcf
      obtain ⟨hi, hit⟩ := hnone rfl
      have hne : init ≠ "none" := by
        rintro rfl
        exact hit (Except.ok.inj hi).symm
      rw [if_neg (by simp [hne]), if_neg (by rw [hu]; simp [hlen])]
      simp only [Option.isSome_none, Bool.false_eq_true, if_false]
      exact C95_bounded_data big X h1 hl hq hc rng draw sched1 sched2 schedEnd mb
        ⟨.file datafn, nrow, maxIters, nthreads, none, init, tol, distType⟩ m none hk hcol hn hnt hlt hsz hst rfl hrng
        hc1 hc2 hce hm hg it met hi hd hcos
    | some g =>
      rw [Option.map_some] at hcf
      subst hcf
      obtain rfl := hs rfl
      rw [if_neg (by simp), if_neg (by rw [hu]; simp [hlen])]
      obtain ⟨y, ey⟩ := read_stored (n := n) hc g k (Nat.mul_pos (by omega) hcol) hszk rfl
      dsimp only
      rw [ey]
      simp only [Option.isSome_some, if_true]
      exact C95_bounded_data big X h1 hl hq hc rng draw sched1 sched2 schedEnd mb
        ⟨.file datafn, nrow, maxIters, nthreads, some (rowsFrom g n 0 k), "none", tol, distType⟩ m (some g) hk hcol hn
        hnt hlt hsz hst rfl hrng hc1 hc2 hce hm hg .none met rfl hd hcos

/-! ### Concrete calls -/

/-- All hypotheses hold for the default initialisation on the four rows, with batches of three rows. -/
example : ∃ res : Nat × Prune.PState ℝ ℝ 2 1,
    mbKnori (realDist 1000) 1000 Real.sqrt (oneCell ℝ) (counter ℝ) (fun i r => ((i + r) % 2 : Nat)) Kmeans.demoSched
      Kmeans.demoSched (Kmeans.demoSched 0)
      ((rowsFrom fourRows 1 0 4).flatMap (oneCell ℝ).enc) none 4 100 2 "kmeanspp" (-1) "eucl" 3 = .ok res ∧
    DeliversMiniBatch .plusplus (realDist 1000 .eucl) (fun y => Real.sqrt (∑ c, ∑ j, y c j ^ 2)) (matRows fourRows) 4 2 3
      (counter ℝ) (fun i r => ((i + r) % 2 : Nat)) none (-1) 100 res.1 res.2.cltrs.means
      (fun r => (res.2.slots r).assign) res.2.counts := by
  have hb : ∀ r j, |fourRows r j| ≤ 12 := fun r j => by unfold fourRows; split_ifs <;> norm_num
  exact (C95_mb_knori 1000 12 (by norm_num) (by norm_num) (by norm_num) (oneCell_ok ℝ) (counter ℝ) _
    Kmeans.demoSched Kmeans.demoSched (Kmeans.demoSched 0) _ _ 4 100 2 "kmeanspp" (-1) "eucl" 3
    (by decide) (by decide) (by decide) (by decide) (by decide) (by decide) (by decide) (counter_ok ℝ)
    demoSched_complete demoSched_complete (demoSched_complete 0)).2.2
    fourRows none .plusplus .eucl rfl rfl (fun r j _ _ => hb r j) (fun g h => by cases h) (fun h => by cases h)
    (fun _ => ⟨rfl, by decide⟩) rfl (by decide)

/-- What a caller sees of a mini-batch call on four rows: iterations, assignment, centroids, sizes. -/
def showMb (draw : Nat → Nat → ℚ) (file : List ℚ) (init : String) (centers : Option (List ℚ)) (maxIters mb : Nat)
    (tol : ℚ) : Except Fault (Nat × List (Option Nat) × List ℚ × List Int) :=
  (mbKnori (k := 2) (n := 1) (fun _ => Kmeans.demoDist) 1000 id (oneCell ℚ)
    (⟨0, fun s => (1, s), fun s => (0, s), fun s => (0, s)⟩ : Rng ℚ Nat 2) draw Kmeans.demoSched Kmeans.demoSched
    (Kmeans.demoSched 0) file centers 4 maxIters 2 init tol "eucl" mb).map fun res =>
      (res.1, (List.range 4).map fun r => (res.2.slots r).assign.map Fin.val,
        (List.finRange 2).map fun c => res.2.cltrs.means c 0, (List.finRange 2).map res.2.counts)

/-- Every other row is sampled. -/
def half (i r : Nat) : ℚ := ((i + r) % 2 : Nat)

-- k-means++, given centres (rates 1, then 1/2), the random partition, no iterations
example : showMb half [0, 1, 10, 12] "kmeanspp" none 3 2 (-1) =
    .ok (3, [some 1, some 1, some 0, some 0], [9, 1/4], [2, 2]) := by decide +kernel
example : showMb half [0, 1, 10, 12] "forgy" (some [0, 1]) 2 2 (-1) =
    .ok (2, [some 0, some 0, some 1, some 1], [1/2, 11], [2, 2]) := by decide +kernel
example : showMb half [0, 1, 10, 12] "random" none 2 2 (-1) =
    .ok (2, [some 1, some 1, some 0, some 0], [115/12, 1/2], [2, 2]) := by decide +kernel
example : showMb half [0, 1, 10, 12] "kmeanspp" none 0 2 (-1) =
    .ok (0, [some 1, some 0, some 0, some 0], [1, 0], [3, 1]) := by decide +kernel
-- the refusals
example : showMb half [0, 1, 10] "kmeanspp" none 3 2 (-1) = .error .throws := by decide +kernel
example : showMb half [0, 1, 10, 12] "none" none 3 2 (-1) = .error .assertFail := by decide +kernel
example : showMb half [0, 1, 10, 12] "kmedoids" none 3 2 (-1) = .error .throws := by decide +kernel

/-- One step of the specification, checked by hand: row 1 is sampled for cluster 0, which has two rows. -/
example : towards (1 / 2 : ℚ) (fun _ : Fin 1 => 0) [fun _ => 1] = fun _ => 1/2 := by
  funext j
  unfold towards
  norm_num

/-- The default tolerance: all iterations are made. -/
example (res : Nat × Prune.PState ℝ ℝ 2 1)
    (h : DeliversMiniBatch .plusplus (realDist 1000 .eucl) (fun y => Real.sqrt (∑ c, ∑ j, y c j ^ 2)) (matRows fourRows)
      4 2 3 (counter ℝ) (fun i r => ((i + r) % 2 : Nat)) none (-1) 100 res.1 res.2.cltrs.means
      (fun r => (res.2.slots r).assign) res.2.counts) : res.1 = 100 :=
  C95_default_tolerance (fun _ => Real.sqrt_nonneg _) (by norm_num) h

end Knor.Driver
