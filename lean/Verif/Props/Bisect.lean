import Verif.Props.HierDriver

/-!
# Property C93: hierarchical clustering bisects the rows by two-means

Every cluster that is returned arises from all rows by splitting: all rows by two-means from the two first centroids,
then sides of at least `min_clust_size` rows by two-means from their two lowest-numbered rows.  The specification is
in Spec/Bisect.lean.
-/

namespace Knor.Spec

open Finset

variable {R D : Type _} {n : Nat}

section
variable [Field R] [LE R] [LE D] [DecidableLE D] {dist : (Fin n → R) → (Fin n → R) → D} {data data' : Nat → Fin n → R}
  {tol : R} {maxIters minSize N : Nat} {m0 m1 : Fin n → R} {P L S : Finset Nat}

/-- Two-means has one result. -/
theorem TwoMeans.unique {L' : Finset Nat} (h : TwoMeans dist data tol maxIters P m0 m1 L)
    (h' : TwoMeans dist data tol maxIters P m0 m1 L') : L = L' := by
  obtain ⟨t, h1, h2, h3, h4⟩ := h
  obtain ⟨t', h1', h2', h3', h4'⟩ := h'
  have : t = t' := by
    rcases Nat.lt_trichotomy t t' with hlt | e | hlt
    · exact absurd (h3.resolve_left (by omega)) (h4' t hlt)
    · exact e
    · exact absurd (h3'.resolve_left (by omega)) (h4 t' hlt)
  rw [h2, h2', this]

/-- Two-means with at least one iteration has a result. -/
theorem TwoMeans.exists (h : 1 ≤ maxIters) : ∃ L, TwoMeans dist data tol maxIters P m0 m1 L := by
  classical
  by_cases hr : ∃ t, Rests dist data tol P m0 m1 t
  · by_cases hlt : Nat.find hr < maxIters
    · exact ⟨_, _, hlt, rfl, Or.inr (Nat.find_spec hr), fun t' ht' => Nat.find_min hr ht'⟩
    · exact ⟨_, maxIters - 1, by omega, rfl, Or.inl (by omega), fun t' ht' => Nat.find_min hr (by omega)⟩
  · exact ⟨_, maxIters - 1, by omega, rfl, Or.inl (by omega), fun t' _ ht => hr ⟨t', ht⟩⟩

theorem TwoMeans.subset (h : TwoMeans dist data tol maxIters P m0 m1 L) : L ⊆ P := by
  obtain ⟨t, -, rfl, -⟩ := h
  cases t <;> exact filter_subset _ _

theorem Bisected.subset (h : Bisected dist data tol maxIters minSize N m0 m1 S) : S ⊆ range N := by
  induction h with
  | first ht hS =>
    rcases hS with rfl | rfl
    · exact ht.subset
    · exact sdiff_subset
  | again _ _ _ ht hS ih =>
    rcases hS with rfl | rfl
    · exact ht.subset.trans ih
    · exact sdiff_subset.trans ih

theorem meanRows_data (h : ∀ r ∈ S, data r = data' r) : meanRows data S = meanRows data' S := by
  funext j
  unfold meanRows
  congr 2
  exact sum_congr rfl fun r hr => by rw [h r hr]

theorem nearer_data (h : ∀ r ∈ P, data r = data' r) : nearer dist data P m0 m1 = nearer dist data' P m0 m1 := by
  unfold nearer
  exact filter_congr fun r hr => by rw [h r hr]

theorem firstSide_data (h : ∀ r ∈ P, data r = data' r) (t : Nat) :
    firstSide dist data P m0 m1 t = firstSide dist data' P m0 m1 t := by
  have hsub : ∀ t, firstSide dist data' P m0 m1 t ⊆ P := fun t => by cases t <;> exact filter_subset _ _
  induction t with
  | zero => exact nearer_data h
  | succ t ih =>
    unfold firstSide
    rw [ih, meanRows_data (fun r hr => h r (hsub t hr)), meanRows_data (fun r hr => h r (sdiff_subset hr)),
      nearer_data h]

theorem rests_data (h : ∀ r ∈ P, data r = data' r) (t : Nat) :
    Rests dist data tol P m0 m1 t ↔ Rests dist data' tol P m0 m1 t := by
  have : switched dist data P m0 m1 t = switched dist data' P m0 m1 t := by
    cases t with
    | zero => rfl
    | succ t => simp only [switched, firstSide_data h]
  unfold Rests
  rw [this]

theorem TwoMeans.congr (h : ∀ r ∈ P, data r = data' r) (ht : TwoMeans dist data tol maxIters P m0 m1 L) :
    TwoMeans dist data' tol maxIters P m0 m1 L := by
  obtain ⟨t, h1, h2, h3, h4⟩ := ht
  refine ⟨t, h1, by rw [h2, firstSide_data h], ?_, fun t' ht' => ?_⟩
  · rwa [← rests_data h]
  · rw [← rests_data h]; exact h4 t' ht'

/-- Bisecting looks only at the rows. -/
theorem Bisected.congr (h : ∀ r, r < N → data r = data' r)
    (hb : Bisected dist data tol maxIters minSize N m0 m1 S) : Bisected dist data' tol maxIters minSize N m0 m1 S := by
  induction hb with
  | first ht hS => exact .first (ht.congr fun r hr => h r (mem_range.1 hr)) hS
  | @again P L S x y hP hm hl ht hS ih =>
    have hr : ∀ r ∈ P, data r = data' r := fun r hr => h r (mem_range.1 (hP.subset hr))
    have ht' := ht.congr hr
    rw [hr x hl.1, hr y hl.2.1] at ht'
    exact .again ih hm hl ht' hS

end

end Knor.Spec

namespace Knor.Hclust

open Knor Knor.Par Knor.Spec Knor.Compact

variable {R D : Type _} {n : Nat}

/-- The rows that the result object puts into the cluster of row `r` are those that the run put there. -/
theorem result_members [Field R] {m : Mode} {c : Cfg R D n} {s : St R n} (h : Finished m c s) (hs : Sane c)
    {ids : List Nat} {res : Result R n} (e : result c ids s = .ok res) {r : Nat} (hr : r < c.nrow) :
    (Finset.range c.nrow).filter (fun q => res.assignments.getD q 0 = res.assignments.getD r 0)
      = members c.nrow s.assign (s.assign r) := by
  have hM : c.maxNodes ≤ 4294967296 := by
    have := sizes (c := c) hs.two hs.kLt
    have := hs.kLt
    omega
  obtain ⟨a1, a2, -, -, -⟩ := C43_compaction_bijective _ _ _ h.hist (by rw [h.lenC]; exact hM) res e
  have hlen : res.assignments.length = c.nrow := by rw [a1]; simp
  have hass : ∀ q, q < c.nrow → ((List.range c.nrow).map s.assign)[q]? = some (s.assign q) := by
    intro q hq
    rw [List.getElem?_map, List.getElem?_range hq]
    rfl
  unfold members
  apply Finset.filter_congr
  intro q hq
  rw [Finset.mem_range] at hq
  have h2 := a2 q r (by simpa using hq) (by simpa using hr)
  have hq' : q < res.assignments.length := by omega
  have hr' : r < res.assignments.length := by omega
  rw [hass q hq, hass r hr, List.getElem?_eq_getElem hq', List.getElem?_eq_getElem hr'] at h2
  rw [List.getD_eq_getElem?_getD, List.getD_eq_getElem?_getD, List.getElem?_eq_getElem hq',
    List.getElem?_eq_getElem hr']
  simpa using h2

/-- **C93.**  Hierarchical clustering with at least one iteration and at least 2 as smallest size returns, for every
row, a cluster that arises from all rows by bisecting with two-means: all rows are split starting from the two first
centroids, and sides of at least `min_clust_size` rows may be split again, starting from their two lowest-numbered
rows; every two-means ends at the first iteration in which no row, or at most the tolerated fraction of the rows that
are being split, changed side, or after `max_iters` iterations.  Whatever the data, the metric, the threads, the
schedule and the iteration order of the centroid map. -/
theorem C93_clusters_arise_by_bisecting [Field R] [LinearOrder R] [LinearOrder D] (c : Cfg R D n)
    (hs : Sane c) (hmin : 2 ≤ c.minSize) (hmi : 1 ≤ c.maxIters)
    (hbig : MeansWithin c.nrow c.data c.dist c.big)
    (it : HInit R n) (hit : Startable c it) (m0 m1 : Row R n) (hm : startCents c it = some (m0, m1))
    (sched : Nat → Nat → List Nat)
    (hc : ∀ t i, Complete (Partition.effThreads c.reqThreads c.nrow)
      (Kmeans.threadRows c.nrow c.reqThreads) (sched t i)) :
    ∃ s, run c it sched (c.kmax + c.kmax / 2) = .ok (some s) ∧
      ∀ ids : List Nat, (∀ i, i ∈ ids ↔ (s.final i).isSome) →
        ∃ res, result c ids s = .ok res ∧ ∀ r, r < c.nrow →
          Bisected c.dist c.data c.tol c.maxIters c.minSize c.nrow m0 m1
            ((Finset.range c.nrow).filter fun q => res.assignments.getD q 0 = res.assignments.getD r 0) := by
  obtain ⟨s, e, h⟩ := run_ok hbig hs.rows hs.threads hs.rowsLt hs.two hs.kLt hmin hmi hit hc
    (Nat.le_refl _)
  refine ⟨s, e, fun ids hids => ?_⟩
  obtain ⟨res, e2, -⟩ := h.conserved hs hids
  refine ⟨res, e2, fun r hr => ?_⟩
  rw [result_members h hs e2 hr]
  exact run_bisected hbig hs.rows hs.threads hs.rowsLt hs.two hs.kLt hmin hmi hit hm hc e _ (h.named r hr)

/-- The hypotheses hold for eight rows and `kmax = 4`. -/
example : ∃ s, run (demoTop [0, 1, 10, 11, 20, 21, 30, 31] 4 3 2) (.forgy 0 4) (fun _ _ => List.replicate 8 0) 6
    = .ok (some s) := by
  obtain ⟨s, e, _⟩ := C93_clusters_arise_by_bisecting (demoTop [0, 1, 10, 11, 20, 21, 30, 31] 4 3 2)
    ⟨by decide, by decide, by decide, by decide, by decide⟩ (by decide) (by decide)
    (fun r _ a i => WithTop.coe_lt_top _) (.forgy 0 4) ⟨by decide, by decide⟩ _ _ rfl (fun _ _ => List.replicate 8 0)
    (by
      intro t i u hu
      have hu' : u < 1 := hu
      have : u = 0 := by omega
      subst this
      decide +kernel)
  exact ⟨s, e⟩

/-- What bisecting gives on the rows 0, 1, 10, 11 from the rows 0 and 10, if three rows are needed for a split: the
rows 0, 1 and the rows 10, 11, and no other set. -/
example (S : Finset Nat) : Bisected (demo [0, 1, 10, 11] 2 3 3).dist (demo [0, 1, 10, 11] 2 3 3).data 0 3 3 4
    (fun _ => 0) (fun _ => 10) S ↔ S = {0, 1} ∨ S = {2, 3} := by
  have hT : TwoMeans (demo [0, 1, 10, 11] 2 3 3).dist (demo [0, 1, 10, 11] 2 3 3).data 0 3 (Finset.range 4)
      (fun _ => 0) (fun _ => 10) {0, 1} := by
    refine ⟨1, by decide, by decide +kernel, Or.inr (Or.inl (by decide +kernel)), ?_⟩
    intro t' ht'
    have : t' = 0 := by omega
    subst this
    unfold Rests
    decide +kernel
  constructor
  · intro h
    induction h with
    | first ht hS =>
      rw [ht.unique hT] at hS
      rcases hS with rfl | rfl
      · exact Or.inl rfl
      · exact Or.inr (by decide)
    | again _ hm _ _ _ ih =>
      rcases ih with rfl | rfl <;> simp at hm
  · rintro (rfl | rfl)
    · exact .first hT (Or.inl rfl)
    · exact .first hT (Or.inr (by decide))

end Knor.Hclust

namespace Knor.Driver

open Knor Knor.Spec Knor.Io Knor.Partition Knor.Par Knor.Init Knor.Hclust Knor.Compact

variable {R S B : Type _} {n : Nat}

/-- What a call that returns a clustering has run. -/
theorem hclust_ran [Field R] [LinearOrder R] {dist : Dist.Metric → Row R n → Row R n → R} {big : R}
    {c : Codec R B} {rng : Rng R S 2} {order : St R n → List Nat}
    {sched : Nat → Nat → List Nat} {fuel kmax minSize : Nat} {a : Call R B}
    {m : Nat → Nat → R} {given : Option (Nat → Nat → R)} (h : HierReady n c rng kmax a m given)
    (hc : ∀ t i, Complete (effThreads a.nthreads a.nrow) (Kmeans.threadRows a.nrow a.nthreads) (sched t i))
    {bind : Bool} {it : InitT} {met : Dist.Metric} (hi : getInit a.init = .ok it) (hd : getDist a.dist = .ok met)
    (hk : 2 ≤ kmax) (hw : MeansWithin a.nrow (matRows m) (dist met) big)
    (hg : ∀ g, it = .none → given = some g → ∀ r, r < a.nrow → ∀ i, i < 2 → dist met (matRows m r) (matRows g i) < big)
    {res : Result R n} (e : hclust bind dist big c rng order sched fuel kmax minSize a = .ok (some res)) :
    ∃ (cfg : Cfg R R n) (hin : HInit R n) (s : St R n) (m0 m1 : Row R n),
      cfg.nrow = a.nrow ∧ cfg.maxIters = a.maxIters ∧ cfg.minSize = minSize ∧ cfg.tol = a.tol ∧ cfg.dist = dist met ∧
      cfg.kmax = kmax ∧ (∀ r, r < a.nrow → cfg.data r = matRows m r) ∧ Sane cfg ∧
      MeansWithin cfg.nrow cfg.data cfg.dist cfg.big ∧ Startable cfg hin ∧ startCents cfg hin = some (m0, m1) ∧
      HierStartsAt it (matRows m) rng given m0 m1 ∧
      (∀ t i, Complete (effThreads cfg.reqThreads cfg.nrow) (Kmeans.threadRows cfg.nrow cfg.reqThreads) (sched t i)) ∧
      Hclust.run cfg hin sched fuel = .ok (some s) ∧ result cfg (order s) s = .ok res := by
  obtain ⟨cfg, hin, ec, hs, e1, e2, e3, e4, e5, e6, e7, e8, hdata, hst, hoth, hsc⟩ :=
    hierCall_ok (grow := false) (dist := dist) (big := big) (order := order) (minSize := minSize)
      (run := fun cfg it => Hclust.run cfg it sched fuel) h hk hi hd
  unfold hclust at e
  rw [ec bind] at e
  have hit : it = .forgy ∨ it = .none := by
    by_contra hno
    have : it = .random ∨ it = .plusplus := by cases it <;> simp at hno ⊢
    rw [hoth this, run_other hs] at e
    cases e
  obtain ⟨hwc, hst⟩ := hst hw hg
  obtain ⟨m0, m1, hm, hsa⟩ := hsc hit
  cases er : Hclust.run cfg hin sched fuel with
  | error x => rw [er] at e; cases e
  | ok o =>
    cases o with
    | none => rw [er] at e; cases e
    | some s =>
      rw [er] at e
      refine ⟨cfg, hin, s, m0, m1, e1, e4, e5, e6, e7, e3, hdata, hs, hwc, hst hit, hm, hsa, by rw [e1, e2]; exact hc, er, ?_⟩
      unfold hierFinish at e
      dsimp only at e
      split at e
      · cases e
      · rename_i s' es
        have hss : s' = s := by
          cases bind with
          | true => simp at es; exact es.symm
          | false =>
            simp only [Bool.false_eq_true, if_false] at es
            unfold verify at es
            split at es
            · cases es
            · split at es
              · cases es
              · cases es; rfl
        subst hss
        split at e
        · cases e
        · rename_i r' e'
          rw [e']
          cases e; rfl

/-- **C93, for calls.**  Every clustering that a call on an `nrow × n` matrix returns consists of sets of rows that
arise by bisecting, from the two rows that Forgy's method draws or from the given centres. -/
theorem C93_call [Field R] [LinearOrder R] (dist : Dist.Metric → Row R n → Row R n → R) (big : R)
    (c : Codec R B) (rng : Rng R S 2) (order : St R n → List Nat)
    (sched : Nat → Nat → List Nat) (fuel kmax minSize : Nat) (a : Call R B)
    (m : Nat → Nat → R) (given : Option (Nat → Nat → R)) (h : HierReady n c rng kmax a m given)
    (hc : ∀ t i, Complete (effThreads a.nthreads a.nrow) (Kmeans.threadRows a.nrow a.nthreads) (sched t i))
    (bind : Bool) (it : InitT) (met : Dist.Metric) (hi : getInit a.init = .ok it) (hd : getDist a.dist = .ok met)
    (hk : 2 ≤ kmax) (hw : MeansWithin a.nrow (matRows m) (dist met) big)
    (hg : ∀ g, it = .none → given = some g → ∀ r, r < a.nrow → ∀ i, i < 2 → dist met (matRows m r) (matRows g i) < big)
    (hmin : 2 ≤ minSize) (hmi : 1 ≤ a.maxIters) (res : Result R n)
    (e : hclust bind dist big c rng order sched fuel kmax minSize a = .ok (some res)) :
    ∃ m0 m1, HierStartsAt it (matRows m) rng given m0 m1 ∧ ∀ r, r < a.nrow →
      Bisected (dist met) (matRows m) a.tol a.maxIters minSize a.nrow m0 m1
        ((Finset.range a.nrow).filter fun q => res.assignments.getD q 0 = res.assignments.getD r 0) := by
  obtain ⟨cfg, hin, s, m0, m1, e1, e4, e5, e6, e7, _, hdata, hs, hwc, hst, hm, hsa, hcc, er, hres⟩ :=
    hclust_ran h hc hi hd hk hw hg e
  refine ⟨m0, m1, hsa, fun r hr => ?_⟩
  have hfin : Finished .h cfg s := run_finished hwc hs.rows hs.threads hs.rowsLt hs.two hs.kLt
    (by rw [e5]; exact hmin) (by rw [e4]; exact hmi) hst hcc er
  rw [← e1] at hr
  have hb := run_bisected hwc hs.rows hs.threads hs.rowsLt hs.two hs.kLt (by rw [e5]; exact hmin)
    (by rw [e4]; exact hmi) hst hm hcc er _ (hfin.named r hr)
  rw [← result_members hfin hs hres hr, e1, e4, e5, e6, e7] at hb
  exact hb.congr hdata

/-- The library for the bindings on the four rows. -/
example : ∃ (res : Result ℝ 1) (m0 m1 : Row ℝ 1), hclust true (realDist 1000) 1000 (oneCell ℝ) (counter ℝ) increasing roundSched 3 2 2
      ⟨.file ((rowsFrom fourRows 1 0 4).flatMap (oneCell ℝ).enc), 4, 100, 2, none, "forgy", -1, "eucl"⟩ = .ok (some res) ∧
    HierStartsAt (n := 1) .forgy (matRows fourRows) (counter ℝ) none m0 m1 ∧ ∀ r, r < 4 →
      Bisected (realDist 1000 .eucl) (matRows fourRows) (-1) 100 2 4 m0 m1
        ((Finset.range 4).filter fun q => res.assignments.getD q 0 = res.assignments.getD r 0) := by
  have h : HierReady 1 (oneCell ℝ) (counter ℝ) 2
      ⟨.file ((rowsFrom fourRows 1 0 4).flatMap (oneCell ℝ).enc), 4, 100, 2, none, "forgy", -1, "eucl"⟩ fourRows none :=
    ⟨oneCell_ok ℝ, by decide, by decide, by decide, by decide, by decide, rfl, rfl, counter_ok ℝ, by decide⟩
  obtain ⟨hw, hgw⟩ := within_bounded (n := 1) 1000 12 (by norm_num) (by norm_num) (by norm_num) (N := 4) (by decide)
    (by decide) (m := fourRows) (fun r j _ _ => by unfold fourRows; split_ifs <;> norm_num) (met := .eucl) (by decide)
  obtain ⟨res, e, -⟩ := ((C90_call_partial (realDist 1000) 1000 (oneCell ℝ) (counter ℝ) increasing enumerates_increasing
    roundSched 3 2 2 _ fourRows none h (fun _ => two_sched) (by decide) true).2 .forgy .eucl rfl rfl).2.2 (by decide)
    (Or.inl rfl) hw (fun g hh => by cases hh) (by decide) (by decide)
  obtain ⟨m0, m1, hs, hb⟩ := C93_call (realDist 1000) 1000 (oneCell ℝ) (counter ℝ) increasing
    roundSched 3 2 2 _ fourRows none h (fun _ => two_sched) true .forgy .eucl rfl rfl (by decide) hw
    (fun g hh => by cases hh) (by decide) (by decide) res e
  exact ⟨res, m0, m1, e, hs, hb⟩

end Knor.Driver
