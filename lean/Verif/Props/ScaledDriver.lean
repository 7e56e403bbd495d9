import Verif.Lemmas.ScaledDriver

/-!
# Property C87: a whole scaled k-means call

From the names of the options and the caller's data to the returned clustering, and the program `skmeans`.
-/

namespace Knor.Driver

open Knor Knor.Spec Knor.Io Knor.Partition Knor.Par Knor.Kmeans Knor.Init

variable {R S B : Type _} {k n : Nat}

/-- **C87.**  A call whose option names are not among the documented ones throws.  Every other call on an `nrow × n`
matrix with no constant column returns the result of Lloyd's algorithm with the named metric on the rows that are
scaled to the unit interval column by column, from the centroids that the named initialisation promises for these
rows.  Missing from the property: given centres are used as they are, not scaled like the rows
(`C87_violated_centers`); constant columns (`Skmeans.C38_violated_constant`) and columns without an entry of at least
`tiny`, the smallest positive number (`Skmeans.C38_violated_negative`), are excluded. -/
theorem C87_call_partial [Field R] [LinearOrder R] [IsStrictOrderedRing R]
    (dist : Dist.Metric → Row R n → Row R n → R) (big tiny : R) {c : Codec R B} (hc : CodecOk c) (rng : Rng R S k)
    (s1 s2 : List Nat) (sched1 sched2 : Nat → List Nat) (a : Call R B) (m : Nat → Nat → R)
    (given : Option (Nat → Nat → R))
    (hk : 0 < k) (hcol : 0 < n) (hn : 0 < a.nrow) (hnt : 0 < a.nthreads) (hlt : a.nrow < 4294967296)
    (hsz : a.nrow * n * c.size < 9223372036854775808) (hst : Holds c a.source m a.nrow n)
    (hgiven : a.centers = given.map fun g => rowsFrom g n 0 k) (hrng : RngOk rng a.nrow)
    (hcs1 : Complete (effThreads a.nthreads a.nrow) (threadRows a.nrow a.nthreads) s1)
    (hcs2 : Complete (effThreads a.nthreads a.nrow) (threadRows a.nrow a.nthreads) s2)
    (hc1 : ∀ i, Complete (effThreads a.nthreads a.nrow) (threadRows a.nrow a.nthreads) (sched1 i))
    (hc2 : ∀ i, Complete (effThreads a.nthreads a.nrow) (threadRows a.nrow a.nthreads) (sched2 i)) :
    ((a.init ∉ ["random", "forgy", "kmeanspp", "none"] ∨ a.dist ∉ ["eucl", "cos", "taxi", "sqeucl"]) →
      skmeans dist big tiny c rng s1 s2 sched1 sched2 a = .error .throws) ∧
    ∀ it met scaled, getInit a.init = .ok it → getDist a.dist = .ok met →
      MinMaxScaled a.nrow (matRows (n := n) m) scaled → (∀ r j, r < a.nrow → j < n → m r j ≤ big) →
      (∀ j, j < n → ∃ r, r < a.nrow ∧ tiny ≤ m r j) →
      (it = .plusplus → Seedable (dist met) big scaled a.nrow) →
      (∀ c0 tr, StartsAt it (dist met) scaled a.nrow rng (givenCents given) c0 →
        LloydTrace (dist met) a.nrow scaled c0 tr →
        ∀ i r, r < a.nrow → ∃ c, dist met (scaled r) ((tr i).cents c) < big) →
      ∃ res, skmeans dist big tiny c rng s1 s2 sched1 sched2 a = .ok res ∧
        Delivers it (dist met) scaled a.nrow rng (givenCents given) a.tol a.maxIters res := by
  constructor
  · intro h
    have hnames : (∃ e, getInit a.init = .error e ∧ e = .throws) ∨
        ((∃ it, getInit a.init = .ok it) ∧ getDist a.dist = .error .throws) := by
      by_cases h1 : a.init ∈ ["random", "forgy", "kmeanspp", "none"]
      · right
        constructor
        · simp only [List.mem_cons, List.not_mem_nil, or_false] at h1
          rcases h1 with h1 | h1 | h1 | h1 <;> (rw [h1]; exact ⟨_, rfl⟩)
        · have h2 := h.resolve_left fun hh => hh h1
          simp only [List.mem_cons, List.not_mem_nil, or_false, not_or] at h2
          simp [getDist, h2]
      · left
        simp only [List.mem_cons, List.not_mem_nil, or_false, not_or] at h1
        exact ⟨.throws, by simp [getInit, h1], rfl⟩
    unfold skmeans
    rcases hnames with ⟨e, he, rfl⟩ | ⟨⟨it, hi⟩, hd⟩
    · rw [he]
    · rw [hi]
      dsimp only
      rw [hd]
  · intro it met scaled hi hm hsc hbig htiny hpp hb
    obtain ⟨ws, el, hrows⟩ := load_ok hc m a hn hnt hcol hlt hsz hst
    obtain ⟨rows, ep, hall, hval⟩ := scaled_ok big tiny (rowsIn ws a.nrow a.nthreads) (matRows m) scaled a.nrow
      a.nthreads s1 s2 hrows hn hnt hlt hcs1 hcs2 (fun r j hr => hbig r j.val hr j.isLt)
      (fun j => htiny j.val j.isLt) hsc
    obtain ⟨cl, s, res, e0, es, er, hdel⟩ := cluster_ok (dist met) big rng (fun r j => (rows r j).val) scaled a.nrow
      a.nthreads hval hk hn hnt hlt hrng sched1 sched2 hc1 hc2 it hpp given a.tol a.maxIters hb
    refine ⟨res, ?_, hdel⟩
    unfold skmeans
    rw [hi]
    dsimp only
    rw [hm]
    dsimp only
    rw [hgiven, e0]
    dsimp only
    rw [el]
    dsimp only
    rw [ep]
    dsimp only
    rw [if_pos hall, es]
    exact er

theorem scaled_unit [Field R] [LinearOrder R] [IsStrictOrderedRing R] {N : Nat} {data scaled : Nat → Row R n}
    (h : MinMaxScaled N data scaled) {r : Nat} (hr : r < N) (j : Fin n) : 0 ≤ scaled r j ∧ scaled r j ≤ 1 := by
  obtain ⟨lo, hi, hlo, hhi, hlh, e⟩ := h j
  have hp : 0 < hi - lo := sub_pos.2 hlh
  rw [e r hr]
  exact ⟨div_nonneg (sub_nonneg.2 (hlo.1 r hr)) hp.le,
    (div_le_one₀ hp).2 (sub_le_sub_right (hhi.1 r hr) _)⟩

/-- **C87, no assumption on the run.**  With the Euclidean, squared Euclidean or taxicab metric the entries of the
matrix only have to be representable: the scaled rows are in the unit cube.  `X ≥ 1` bounds the given centres. -/
theorem C87_bounded_data_partial (big tiny X : ℝ) (h1 : 1 ≤ big) (hX1 : 1 ≤ X) (hl : n * (2 * X) < big)
    (hq : n * (2 * X) ^ 2 < big) {c : Codec ℝ B} (hc : CodecOk c) (rng : Rng ℝ S k)
    (s1 s2 : List Nat) (sched1 sched2 : Nat → List Nat) (a : Call ℝ B) (m : Nat → Nat → ℝ)
    (given : Option (Nat → Nat → ℝ))
    (hk : 0 < k) (hcol : 0 < n) (hn : 0 < a.nrow) (hnt : 0 < a.nthreads) (hlt : a.nrow < 4294967296)
    (hsz : a.nrow * n * c.size < 9223372036854775808) (hst : Holds c a.source m a.nrow n)
    (hgiven : a.centers = given.map fun g => rowsFrom g n 0 k) (hrng : RngOk rng a.nrow)
    (hcs1 : Complete (effThreads a.nthreads a.nrow) (threadRows a.nrow a.nthreads) s1)
    (hcs2 : Complete (effThreads a.nthreads a.nrow) (threadRows a.nrow a.nthreads) s2)
    (hc1 : ∀ i, Complete (effThreads a.nthreads a.nrow) (threadRows a.nrow a.nthreads) (sched1 i))
    (hc2 : ∀ i, Complete (effThreads a.nthreads a.nrow) (threadRows a.nrow a.nthreads) (sched2 i))
    (hm : ∀ r j, r < a.nrow → j < n → m r j ≤ big) (htiny : ∀ j, j < n → ∃ r, r < a.nrow ∧ tiny ≤ m r j)
    (hg : ∀ g, given = some g → ∀ r j, r < k → j < n → |g r j| ≤ X)
    (it : InitT) (met : Dist.Metric) (hi : getInit a.init = .ok it) (hd : getDist a.dist = .ok met)
    (hcos : met ≠ .cos) (scaled : Nat → Row ℝ n) (hs : MinMaxScaled a.nrow (matRows m) scaled) :
    ∃ res : Kmeans.Result ℝ k n, skmeans (realDist big) big tiny c rng s1 s2 sched1 sched2 a = .ok res ∧
      Delivers it (realDist big met) scaled a.nrow rng (givenCents given) a.tol a.maxIters res := by
  have hX : 0 ≤ X := by linarith
  have hm' : ∀ r, r < a.nrow → ∀ j : Fin n, |scaled r j| ≤ X := fun r hr j => by
    obtain ⟨q1, q2⟩ := scaled_unit hs hr j
    rw [abs_of_nonneg q1]; linarith
  refine (C87_call_partial (realDist big) big tiny hc rng s1 s2 sched1 sched2 a m given hk hcol hn hnt hlt hsz hst
    hgiven hrng hcs1 hcs2 hc1 hc2).2 it met scaled hi hd hs hm htiny ?_ ?_
  · intro _
    exact ⟨fun q r hq' hr => (realDist_lt h1 hl hq hcos (hm' q hq') (hm' r hr)).1,
      fun r hr => realDist_self hcos _,
      fun q r hq' hr => (realDist_lt h1 hl hq hcos (hm' q hq') (hm' r hr)).2⟩
  · intro c0 tr hst' ht i r hr
    have hb0 := start_bounded hX hm' (fun g hgv cc j => by
      cases given with
      | none => cases hgv
      | some g' =>
        rw [← Option.some.inj hgv]
        exact hg g' rfl cc.val j.val cc.isLt j.isLt) hrng hst'
    exact ⟨⟨0, hk⟩, (realDist_lt h1 hl hq hcos (hm' r hr) (fun j => trace_bounded hX hm' hb0 ht i ⟨0, hk⟩ j)).2⟩

/-- **C87, the program.**  `skmeans` refuses a data file of the wrong size; without a file of centres it starts with
Forgy's method on the scaled rows, and with such a file at the centres in it. -/
theorem C87_program_partial (big tiny X : ℝ) (h1 : 1 ≤ big) (hX1 : 1 ≤ X) (hl : n * (2 * X) < big)
    (hq : n * (2 * X) ^ 2 < big) {c : Codec ℝ B} (hc : CodecOk c) (rng : Rng ℝ S k)
    (s1 s2 : List Nat) (sched1 sched2 : Nat → List Nat) (datafn : List B) (centersfn : Option (List B))
    (nrow maxIters nthreads : Nat) (tol : ℝ) (distType : String)
    (hk : 0 < k) (hcol : 0 < n) (hn : 0 < nrow) (hnt : 0 < nthreads) (hlt : nrow < 4294967296)
    (hsz : nrow * n * c.size < 9223372036854775808) (hszk : k * n * c.size < 18446744073709551616)
    (hrng : RngOk rng nrow)
    (hcs1 : Complete (effThreads nthreads nrow) (threadRows nrow nthreads) s1)
    (hcs2 : Complete (effThreads nthreads nrow) (threadRows nrow nthreads) s2)
    (hc1 : ∀ i, Complete (effThreads nthreads nrow) (threadRows nrow nthreads) (sched1 i))
    (hc2 : ∀ i, Complete (effThreads nthreads nrow) (threadRows nrow nthreads) (sched2 i)) :
    (datafn.length ≠ nrow * n * c.size →
      skmeansProg (n := n) (realDist big) big tiny c rng s1 s2 sched1 sched2 datafn centersfn nrow maxIters nthreads tol
        distType = .error .throws) ∧
    ∀ (m : Nat → Nat → ℝ) (given : Option (Nat → Nat → ℝ)) met scaled,
      Stores c datafn m nrow n → centersfn = given.map (fun g => (rowsFrom g n 0 k).flatMap c.enc) →
      (∀ r j, r < nrow → j < n → m r j ≤ big) → (∀ j, j < n → ∃ r, r < nrow ∧ tiny ≤ m r j) →
      (∀ g, given = some g → ∀ r j, r < k → j < n → |g r j| ≤ X) →
      getDist distType = .ok met → met ≠ .cos → MinMaxScaled nrow (matRows m) scaled →
      ∃ res : Kmeans.Result ℝ k n,
        skmeansProg (realDist big) big tiny c rng s1 s2 sched1 sched2 datafn centersfn nrow maxIters nthreads tol
          distType = .ok res ∧
        Delivers (if given.isSome then .none else .forgy) (realDist big met) scaled nrow rng (givenCents given) tol
          maxIters res := by
  constructor
  · intro hne
    unfold skmeansProg
    exact (program_ok hc datafn centersfn nrow k "forgy" _ hcol hk hsz hszk).2.1 (fun h => absurd h.2 (by decide)) hne
  · intro m given met scaled hst hcf hm htiny hg hd hcos hs
    have hlen : datafn.length = nrow * n * c.size := by
      unfold Stores at hst
      rw [hst, length_enc hc, length_rowsFrom]
    unfold skmeansProg
    obtain ⟨p1, p2⟩ := (program_ok hc datafn centersfn nrow k "forgy" (fun init centers =>
      skmeans (k := k) (n := n) (realDist big) big tiny c rng s1 s2 sched1 sched2
        ⟨.file datafn, nrow, maxIters, nthreads, centers, init, tol, distType⟩) hcol hk hsz hszk).2.2 given hlen hcf
    cases given with
    | none =>
      rw [p1 rfl (by decide)]
      exact C87_bounded_data_partial big tiny X h1 hX1 hl hq hc rng s1 s2 sched1 sched2
        ⟨.file datafn, nrow, maxIters, nthreads, none, "forgy", tol, distType⟩ m none hk hcol hn hnt hlt hsz hst rfl
        hrng hcs1 hcs2 hc1 hc2 hm htiny hg .forgy met rfl hd hcos scaled hs
    | some g =>
      rw [p2 g rfl]
      exact C87_bounded_data_partial big tiny X h1 hX1 hl hq hc rng s1 s2 sched1 sched2
        ⟨.file datafn, nrow, maxIters, nthreads, some (rowsFrom g n 0 k), "none", tol, distType⟩ m (some g) hk hcol hn
        hnt hlt hsz hst rfl hrng hcs1 hcs2 hc1 hc2 hm htiny hg .none met rfl hd hcos scaled hs

/-! ### Where it fails -/

/-- **C87 is violated by the default metric.**  If some row has the smallest entry of every column, it is scaled to the
zero vector; its cosine distances are NaN and the first iteration fails an assertion.  (With one column there
always is such a row.) -/
theorem C87_violated_cosine (big tiny : ℝ) {c : Codec ℝ B} (hc : CodecOk c) (rng : Rng ℝ S k)
    (s1 s2 : List Nat) (sched1 sched2 : Nat → List Nat) (datafn : List B) (nrow maxIters nthreads : Nat) (tol : ℝ)
    (hk : 0 < k) (hcol : 0 < n) (hn : 0 < nrow) (hnt : 0 < nthreads) (hlt : nrow < 4294967296)
    (hsz : nrow * n * c.size < 9223372036854775808) (hszk : k * n * c.size < 18446744073709551616)
    (hrng : RngOk rng nrow)
    (hcs1 : Complete (effThreads nthreads nrow) (threadRows nrow nthreads) s1)
    (hcs2 : Complete (effThreads nthreads nrow) (threadRows nrow nthreads) s2)
    (hc1 : ∀ i, Complete (effThreads nthreads nrow) (threadRows nrow nthreads) (sched1 i))
    (hc2 : ∀ i, Complete (effThreads nthreads nrow) (threadRows nrow nthreads) (sched2 i))
    (m : Nat → Nat → ℝ) (scaled : Nat → Row ℝ n) (hst : Stores c datafn m nrow n)
    (hbig : ∀ r j, r < nrow → j < n → m r j ≤ big) (htiny : ∀ j, j < n → ∃ r, r < nrow ∧ tiny ≤ m r j)
    (hs : MinMaxScaled nrow (matRows m) scaled) (hit : 0 < maxIters)
    (hmin : ∃ r, r < nrow ∧ ∀ j, IsColMin nrow (matRows (n := n) m) j (m r j)) :
    skmeansProg (n := n) (realDist big) big tiny c rng s1 s2 sched1 sched2 datafn none nrow maxIters nthreads tol "cos"
      = .error .assertFail := by
  have hlen : datafn.length = nrow * n * c.size := by
    unfold Stores at hst
    rw [hst, length_enc hc, length_rowsFrom]
  obtain ⟨r0, hr0, hmin⟩ := hmin
  have hzero : scaled r0 = 0 := by
    funext j
    obtain ⟨lo, hi, hlo, _, hlh, e⟩ := hs j
    have h0 : matRows (n := n) m r0 j = lo := by
      obtain ⟨q, hq, eq⟩ := hlo.2
      have a1 := (hmin j).1 q hq
      have a2 := hlo.1 r0 hr0
      rw [eq] at a1
      exact le_antisymm a1 a2
    rw [e r0 hr0, h0]
    simp
  obtain ⟨ws, el, hrows⟩ := load_ok (n := n) hc m
    ⟨.file datafn, nrow, maxIters, nthreads, none, "forgy", tol, "cos"⟩ hn hnt hcol hlt hsz hst
  obtain ⟨rows, ep, hall, hval⟩ := scaled_ok big tiny (rowsIn ws nrow nthreads) (matRows m) scaled nrow
    nthreads s1 s2 hrows hn hnt hlt hcs1 hcs2 (fun r j hr => hbig r j.val hr j.isLt)
    (fun j => htiny j.val j.isLt) hs
  obtain ⟨cl, s, e0, es, _⟩ := runInit_ok (realDist big .cos) big rng (fun r j => (rows r j).val) scaled nrow nthreads
    hval hk hn hnt hlt hrng sched1 hc1 .forgy (fun h => by cases h) none
  unfold skmeansProg
  rw [((program_ok hc datafn none nrow k "forgy" _ hcol hk hsz hszk).2.2 none hlen rfl).1 rfl (by decide)]
  unfold skmeans
  have hi : getInit "forgy" = .ok .forgy := rfl
  have hd : getDist "cos" = .ok .cos := rfl
  dsimp only
  rw [hi]
  dsimp only
  rw [hd]
  dsimp only
  rw [Option.map_none] at e0
  rw [e0]
  dsimp only
  rw [el]
  dsimp only
  rw [ep]
  dsimp only
  rw [if_pos hall, es]
  dsimp only
  unfold Kmeans.run
  unfold Kmeans.loop
  rw [if_pos hit]
  rw [if_pos ⟨hit, hit⟩]
  dsimp only
  rw [if_pos rfl]
  rw [iteration_aborts hnt hlt (hc2 1) hr0]
  intro cc
  dsimp only
  rw [hval r0 hr0, hzero]
  unfold realDist
  rw [(Dist.C36_dispatch _ _).2.2.2.1 (Or.inl rfl)]
  simp

/-! ### Calls that meet the hypotheses -/

/-- The four rows, scaled. -/
theorem fourRows_scaled : MinMaxScaled 4 (matRows (n := 1) fourRows) fun r _ => fourRows r 0 / 12 := by
  intro j
  have hj : j = 0 := Subsingleton.elim _ _
  subst hj
  refine ⟨0, 12, ⟨fun r _ => ?_, 0, by decide, ?_⟩, ⟨fun r _ => ?_, 3, by decide, ?_⟩, by norm_num, fun r _ => ?_⟩
  · show (0 : ℝ) ≤ fourRows r 0
    unfold fourRows; split_ifs <;> norm_num
  · show fourRows 0 0 = 0
    simp [fourRows]
  · show fourRows r 0 ≤ 12
    unfold fourRows; split_ifs <;> norm_num
  · show fourRows 3 0 = 12
    simp [fourRows]
  · show fourRows r 0 / 12 = (fourRows r 0 - 0) / (12 - 0)
    ring

theorem two_sched (i : Nat) : Complete (effThreads 2 4) (threadRows 4 2) (demoSched i) := by
  intro t ht
  have : t = 0 ∨ t = 1 := by
    have : effThreads 2 4 = 2 := by decide
    omega
  rcases this with rfl | rfl <;> (unfold demoSched; decide)

/-- The program on the four rows with the Euclidean metric. -/
example : ∃ res : Kmeans.Result ℝ 2 1,
    skmeansProg (realDist 1000) 1000 (1 / 1000) (oneCell ℝ) (counter ℝ) (demoSched 0) (demoSched 0) demoSched demoSched
      ((rowsFrom fourRows 1 0 4).flatMap (oneCell ℝ).enc) none 4 100 2 (-1) "eucl" = .ok res ∧
    Delivers .forgy (realDist 1000 .eucl) (fun r _ => fourRows r 0 / 12) 4 (counter ℝ) none (-1) 100 res :=
  (C87_program_partial 1000 (1 / 1000) 1 (by norm_num) (by norm_num) (by norm_num) (by norm_num) (oneCell_ok ℝ)
    (counter ℝ) (demoSched 0) (demoSched 0) demoSched demoSched _ none 4 100 2 (-1) "eucl" (by decide) (by decide)
    (by decide) (by decide) (by decide) (by decide) (by decide) (counter_ok ℝ) (two_sched 0) (two_sched 0) two_sched
    two_sched).2 fourRows none .eucl _ rfl rfl
    (fun r j _ _ => by unfold fourRows; split_ifs <;> norm_num)
    (fun j _ => ⟨3, by decide, by simp only [fourRows]; norm_num⟩) (fun g h => by cases h) rfl (by decide)
    fourRows_scaled

/-- The program on the same file with its default metric. -/
example : skmeansProg (k := 2) (n := 1) (realDist 1000) 1000 (1 / 1000) (oneCell ℝ) (counter ℝ) (demoSched 0)
      (demoSched 0) demoSched demoSched ((rowsFrom fourRows 1 0 4).flatMap (oneCell ℝ).enc) none 4 100 2 (-1) "cos"
    = .error .assertFail :=
  C87_violated_cosine 1000 (1 / 1000) (oneCell_ok ℝ) (counter ℝ) (demoSched 0) (demoSched 0) demoSched demoSched _ 4 100 2
    (-1) (by decide) (by decide) (by decide) (by decide) (by decide) (by decide) (by decide) (counter_ok ℝ)
    (two_sched 0) (two_sched 0) two_sched two_sched fourRows _ rfl
    (fun r j _ _ => by unfold fourRows; split_ifs <;> norm_num)
    (fun j _ => ⟨3, by decide, by simp only [fourRows]; norm_num⟩) fourRows_scaled (by decide)
    ⟨0, by decide, fun j => ⟨fun r _ => by
      show fourRows 0 j.val ≤ fourRows r j.val
      have h0 : fourRows 0 j.val = 0 := by simp [fourRows]
      rw [h0]
      unfold fourRows; split_ifs <;> norm_num, 0, by decide, rfl⟩⟩

/-- Run it on an array: iterations, assignment and centroids. -/
def showScaled (init : String) (centers : Option (List ℚ)) (maxIters : Nat) : Res SeenCall :=
  (skmeans (k := 2) (n := 1) (fun _ => demoDist) 1000 (1 / 1000) (oneCell ℚ) (counter ℚ) (demoSched 0) (demoSched 0)
    demoSched demoSched ⟨.array [0, 1, 10, 12], 4, maxIters, 2, centers, init, -1, "taxi"⟩).map fun x =>
      ⟨x.iters, (List.range 4).map x.state.assign, (List.finRange 2).map fun c => x.state.cltrs.means c 0⟩

/-- Forgy takes the scaled rows 1 and 3, and k-means++ the scaled rows 1 and 0. -/
example : showScaled "forgy" none 0 = .ok ⟨0, [none, none, none, none], [1/12, 1]⟩ ∧
    showScaled "kmeanspp" none 0 = .ok ⟨0, [some 1, some 0, some 0, some 0], [1/12, 0]⟩ ∧
    showScaled "forgy" none 100 = .ok ⟨2, [some 0, some 0, some 1, some 1], [1/24, 11/12]⟩ ∧
    showScaled "farthest" none 100 = .error .throws := by
  decide +kernel

/-- **C87 is violated for given centres.**  The centres 0 and 12 are two of the rows.  They are not scaled, so that
all rows (scaled: 0, 1/12, 10/12, 1) are nearest to the first one: after one iteration the second cluster is empty,
and at the end the two clusters are exchanged.  Unscaled k-means, or the centres scaled by hand, keep every centre's
row in its cluster. -/
theorem C87_violated_centers :
    showScaled "none" (some [0, 12]) 1 = .ok ⟨2, [some 0, some 0, some 0, some 0], [23/48, 0]⟩ ∧
    showScaled "none" (some [0, 12]) 100 = .ok ⟨3, [some 1, some 1, some 0, some 0], [11/12, 1/24]⟩ ∧
    showScaled "none" (some [0, 1]) 100 = .ok ⟨2, [some 0, some 0, some 1, some 1], [1/24, 11/12]⟩ ∧
    showCall "none" (some [0, 12]) 100 = .ok ⟨2, [some 0, some 0, some 1, some 1], [1/2, 11]⟩ := by
  decide +kernel

end Knor.Driver
