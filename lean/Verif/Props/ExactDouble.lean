import Verif.Props.BestDouble
import Verif.Props.SeedDriver
import Verif.Props.OmpDouble
import Verif.Props.JobPrunedDouble
import Verif.Props.MiniBatchDouble
import Verif.Props.PrunedDouble
import Verif.Props.ScaledDouble

/-!
# Properties C110 to C115, C117 and C120: the specifications on doubles contain the exact behaviour

The specifications of the calls on doubles are those of the exact calls with errors.  A call in exact
arithmetic that meets the exact specification meets them too, so they ask for nothing that contradicts it.
-/

namespace Knor.Driver

open Knor Knor.Spec Knor.Io Knor.Partition Knor.Par Knor.Init Knor.Kmeans Knor.NearLloyd Knor.Distr

variable {R S B : Type _} {k n : Nat}

/-- A start in exact arithmetic is a start up to rounding: the errors that the specification allows only widen it. -/
theorem startsAt_near {it : InitT} {met : Dist.Metric} {γ ζ e η ε ω : ℝ} (hγ : 0 ≤ γ) (hζ : 0 ≤ ζ) (he : 0 ≤ e)
    (hη : 0 ≤ η) (hε : 0 ≤ ε) (hω : 0 < ω) {data : Nat → Row ℝ n} {N : Nat} {rng : Rng ℝ S k} (hrng : RngOk rng N)
    {given : Option (Fin k → Row ℝ n)} {c0 : Fin k → Row ℝ n}
    (h : StartsAt it (metricDist met) data N rng given c0) :
    NearStartsAt (fun _ => True) id it (metricDist met) γ ζ e η ε ω data N rng given c0 := by
  cases it
  case none => exact h
  case forgy => exact h
  case random =>
    obtain ⟨a, h1, h2⟩ := h
    refine ⟨a, h1, fun c j => ⟨trivial, ?_⟩⟩
    have h3 := memberMean_nonneg N data a c j
    have h4 : (id (c0 c j) : ℝ) - memberMean N (fun r j => id (data r j)) a c j = 0 := by
      rw [id, h2 c j]; exact sub_self _
    rw [h4, abs_zero]
    exact add_nonneg (mul_nonneg he h3) hη
  case plusplus =>
    intro c
    obtain ⟨h1, h2⟩ := h c
    refine ⟨h1, fun hc => ?_⟩
    obtain ⟨r, d, u, e1, hmin, hu, hs⟩ := h2 hc
    have hd : ∀ q, q < N → 0 ≤ d q := fun q hq => by
      obtain ⟨⟨c', -, e'⟩, -⟩ := hmin q hq
      rw [e']; exact metricDist_nonneg met _ _
    refine ⟨r, d, u, e1, fun q hq => ⟨hd q hq, ?_, fun c' hc' => ⟨?_, fun he' => ?_⟩⟩, hu, ?_⟩
    · obtain ⟨⟨c', h3, e'⟩, -⟩ := hmin q hq
      have h4 := metricDist_nonneg met (data q) (c0 c')
      refine ⟨c', h3, ?_⟩
      have h5 : d q - metricDist met (fun j => id (data q j)) (fun j => id (c0 c' j)) = 0 := by
        rw [e']; exact sub_self _
      rw [h5, abs_zero]
      exact add_nonneg (mul_nonneg hγ h4) hζ
    · have h3 := (hmin q hq).2 c' hc'
      have h4 := metricDist_nonneg met (data q) (c0 c')
      have h5 := mul_nonneg hγ h4
      show d q ≤ (1 + γ) * metricDist met (data q) (c0 c') + ζ
      linarith
    · have h3 := (hmin q hq).2 c' hc'
      have he2 : data q = c0 c' := he'
      rw [he2] at h3
      have h4 : metricDist met (c0 c') (c0 c') = 0 := by
        cases met <;> simp [metricDist, sqDistance, taxiDistance]
      exact le_antisymm (h4 ▸ h3) (hd q hq)
    · obtain ⟨hr, h3, h4⟩ := hs
      have ht : 0 ≤ (∑ i ∈ Finset.range N, d i) * u / 2147483646 := by
        have hu0 : 0 ≤ u := by
          rcases Nat.lt_or_ge (c.val - 1) k with hk | hk
          · rw [outputs_get _ _ _ _ hk] at hu
            rw [← Option.some.inj hu]
            exact (hrng.unit _).1
          · exact absurd c.isLt (by omega)
        exact div_nonneg (mul_nonneg (Finset.sum_nonneg fun i hi => hd i (Finset.mem_range.1 hi)) hu0) (by norm_num)
      refine ⟨hr, ?_, fun j hj => ?_, fun ht2 => ?_⟩
      · have := mul_nonneg hε ht
        show (1 - ε) * ((∑ i ∈ Finset.range N, d i) * u / 2147483646) ≤ _
        linarith
      · have := mul_nonneg hε ht
        have := h4 j hj
        show _ ≤ (1 + ε) * ((∑ i ∈ Finset.range N, d i) * u / 2147483646) + ω
        linarith
      · have ht2' : 2 * ω ≤ (∑ i ∈ Finset.range N, d i) * u / 2147483646 := ht2
        rw [Finset.sum_range_succ] at h3
        rcases Nat.eq_zero_or_pos r with h0 | h0
        · subst h0
          rw [Finset.sum_range_zero, zero_add] at h3
          linarith
        · have := h4 (r - 1) (by omega)
          rw [Nat.sub_add_cancel h0] at this
          linarith

/-- Exact iterations are iterations up to rounding, and if no row changed in the last one, every row is with a centroid
that is nearly the nearest of the ones after it. -/
theorem trace_near {met : Dist.Metric} {γ ζ e η : ℝ} (hγ : 0 ≤ γ) (hζ : 0 ≤ ζ) (he : 0 ≤ e) (hη : 0 ≤ η)
    {data : Nat → Row ℝ n} {N : Nat} {c0 : Fin k → Row ℝ n} {tr : Nat → Snap ℝ k n}
    (ht : LloydTrace (metricDist met) N data c0 tr) :
    (∀ m, NearLloydRun (metricDist met) γ ζ e η N data c0 m tr) ∧
    ∀ m, 1 ≤ m → numChanged N (tr (m - 1)).assign (tr m).assign = 0 → ∀ r, r < N → ∃ c, (tr m).assign r = some c ∧
      NearNearest γ ζ (fun c => metricDist met (data r) ((tr m).cents c)) c := by
  have hnear : ∀ (x : Row ℝ n) (cs : Fin k → Row ℝ n) c, IsNearest (fun c => metricDist met x (cs c)) c →
      NearNearest γ ζ (fun c => metricDist met x (cs c)) c := by
    intro x cs c hn c'
    have a1 := hn c'
    have a2 := mul_nonneg hγ (metricDist_nonneg met x (cs c))
    have a3 := mul_nonneg hγ (metricDist_nonneg met x (cs c'))
    dsimp only at a1 ⊢
    linarith
  refine ⟨fun m => ⟨ht.cents, ht.unassigned, fun i _ => ⟨fun r hr => ?_, fun c j => ?_⟩⟩, fun m hm1 h0 r hr => ?_⟩
  · obtain ⟨c, g1, g2⟩ := (ht.step i).assigned r hr
    exact ⟨c, g1, hnear _ _ _ g2.1⟩
  · rw [(ht.step i).means c j, sub_self, abs_zero]
    exact add_nonneg (mul_nonneg he (memberMean_nonneg N data _ c j)) hη
  · have hsame : ∀ q, q < N → (tr (m - 1)).assign q = (tr m).assign q := by
      intro q hq
      by_contra hne
      have hpos : 0 < numChanged N (tr (m - 1)).assign (tr m).assign :=
        Finset.card_pos.2 ⟨q, Finset.mem_filter.2 ⟨Finset.mem_range.2 hq, hne⟩⟩
      omega
    obtain ⟨c, g1, g2⟩ := (ht.step (m - 1)).assigned r hr
    rw [Nat.sub_add_cancel hm1] at g1
    have hm2 : m ≠ 1 := by
      rintro rfl
      have := hsame r hr
      rw [g1, ht.unassigned] at this
      cases this
    have hcents : (tr m).cents = (tr (m - 1)).cents := by
      funext c j
      have e1 := (ht.step (m - 1)).means c j
      have e2 := (ht.step (m - 2)).means c j
      rw [Nat.sub_add_cancel hm1] at e1
      rw [show m - 2 + 1 = m - 1 by omega] at e2
      rw [e1, e2]
      exact Spec.memberMean_congr (fun q hq => (hsame q hq).symm) c j
    refine ⟨c, g1, ?_⟩
    rw [hcents]
    exact hnear _ _ _ g2.1

theorem slack_nonneg (met : Dist.Metric) : 0 ≤ metricSlack met := by
  cases met <;> first | exact (p_pos _).le | exact le_refl _

theorem cast_eps_nonneg (m : Nat) : 0 ≤ (m : ℝ) * 2 ^ (-52 : Int) := mul_nonneg (Nat.cast_nonneg m) (p_pos _).le

/-- **C110, exact calls.**  In exact arithmetic a call that delivers the result of Lloyd's algorithm delivers it up to
rounding, whatever the number of threads. -/
theorem C110_exact {it : InitT} {met : Dist.Metric} {data : Nat → Row ℝ n} {N T : Nat} {rng : Rng ℝ S k}
    (hrng : RngOk rng N) (hk : 0 < k) {given : Option (Fin k → Row ℝ n)} {tol : ℝ} {maxIters : Nat}
    {res : Kmeans.Result ℝ k n} (h : Delivers it (metricDist met) data N rng given tol maxIters res) :
    NearDelivers (fun _ => True) id it met data N T rng given tol maxIters res := by
  obtain ⟨c0, h1, h2, h3⟩ := h
  refine ⟨c0, startsAt_near (cast_eps_nonneg _) (slack_nonneg met) (cast_eps_nonneg _) (p_pos _).le (cast_eps_nonneg _)
    (p_pos _) hrng h1, h2, fun hm => ?_⟩
  obtain ⟨tr, ht⟩ := trace_exists (metricDist met) N data c0 hk
  obtain ⟨hrun, hfix⟩ := trace_near (met := met) (cast_eps_nonneg (n + 4)) (slack_nonneg met)
    (cast_eps_nonneg (N / T + N % T + T + 1)) (p_pos (-1075)).le ht
  have hend : ∀ m, 1 ≤ m → Agrees N res.state (tr (m - 1)) (tr m) →
      (∀ r, r < N → res.state.assign r = (tr m).assign r) ∧
      (∀ c, res.state.counts c = (Spec.count N res.state.assign c : Int)) ∧
      (∀ c j, True ∧ id (res.state.cltrs.means c j) = (tr m).cents c j) ∧
      (numChanged N (tr (m - 1)).assign (tr m).assign = 0 → ∀ r, r < N → ∃ c, res.state.assign r = some c ∧
        NearNearest (((n + 4 : Nat) : ℝ) * 2 ^ (-52 : Int)) (metricSlack met)
          (fun c => metricDist met (fun j => id (data r j)) fun j => id (res.state.cltrs.means c j)) c) := by
    intro m hm1 ha
    refine ⟨ha.assign, fun c => ?_, fun c j => ⟨trivial, by rw [ha.means]; rfl⟩, fun h0 r hr => ?_⟩
    · rw [ha.counts c, count_congr ha.assign]
    · rw [ha.assign r hr, ha.means]
      exact hfix m hm1 h0 r hr
  rcases h3 hm tr ht with ⟨m, m1, m2, m3, m4, m5, m6⟩ | ⟨m1, m2, m3⟩
  · obtain ⟨e1, e2, e3, e4⟩ := hend m m1 m6
    exact ⟨m, tr, m1, m2, hrun m, fun i hi1 hi2 => m4 i hi1 hi2, .inl ⟨m3, m5⟩, e1, e2, e3, e4⟩
  · obtain ⟨e1, e2, e3, e4⟩ := hend maxIters hm m3
    exact ⟨maxIters, tr, hm, le_refl _, hrun _, fun i hi1 hi2 => m1 i hi1 hi2.le,
      .inr ⟨m1 maxIters hm le_rfl, rfl, m2⟩, e1, e2, e3, e4⟩

/-- **C111, exact calls.**  The same for the OpenMP variant; in exact arithmetic the order of the additions does not
matter, so the last promise needs no proviso. -/
theorem C111_exact {it : InitT} {met : Dist.Metric} {data : Nat → Row ℝ n} {N T : Nat} {rng : Rng ℝ S k}
    (hrng : RngOk rng N) (hk : 0 < k) {given : Option (Fin k → Row ℝ n)} {tol : ℝ} {maxIters : Nat} {sameOrder : Prop}
    {rep : Omp.Report ℝ k n} (h : DeliversReport it (metricDist met) data N rng given tol maxIters rep) :
    NearDeliversOmp (fun _ => True) id it met data N T rng given tol maxIters sameOrder rep := by
  obtain ⟨c0, h1, h2, h3⟩ := h
  refine ⟨c0, startsAt_near (cast_eps_nonneg _) (slack_nonneg met) (cast_eps_nonneg _) (p_pos _).le (cast_eps_nonneg _)
    (p_pos _) hrng h1, h2, fun hm => ?_⟩
  obtain ⟨tr, ht⟩ := trace_exists (metricDist met) N data c0 hk
  obtain ⟨hrun, hfix⟩ := trace_near (met := met) (cast_eps_nonneg (n + 4)) (slack_nonneg met)
    (cast_eps_nonneg (N + T + 1)) (p_pos (-1075)).le ht
  obtain ⟨m, m1, m2, m3, m4, m5⟩ := h3 hm tr ht
  refine ⟨m, tr, m1, m2, hrun m, fun i hi1 hi2 => m4 i hi1 hi2, ?_, m3.assign, fun c => ?_,
    fun c j => ⟨trivial, by rw [m3.means]; rfl⟩, fun _ h0 r hr => ?_⟩
  · rcases m5 with ⟨a1, a2⟩ | ⟨a1, a2, a3⟩
    · exact .inl ⟨a1, a2⟩
    · exact .inr ⟨a2, a1, a3⟩
  · rw [m3.counts c, count_congr m3.assign]
  · rw [m3.assign r hr, m3.means]
    exact hfix m m1 h0 r hr

/-- **C112, exact jobs.**  The same for a distributed job, whatever the numbers of processes and threads. -/
theorem C112_exact {it : InitT} {met : Dist.Metric} {data : Nat → Row ℝ n} {N np nt : Nat} {rng : Rng ℝ S k}
    (hrng : RngOk rng N) (hk : 0 < k) {given : Option (Fin k → Row ℝ n)} {tol : ℝ} {maxIters : Nat} {sameOrder : Prop}
    {res : JobResult ℝ k n} (h : DeliversJob it (metricDist met) data N rng given tol maxIters res) :
    NearDeliversJob (fun _ => True) id it met data N np nt rng given tol maxIters sameOrder res := by
  obtain ⟨c0, h1, h2, h3⟩ := h
  refine ⟨c0, startsAt_near (cast_eps_nonneg _) (slack_nonneg met) (cast_eps_nonneg _) (p_pos _).le (cast_eps_nonneg _)
    (p_pos _) hrng h1, fun h0 => ⟨(h2 h0).1, fun c j => ⟨trivial, by rw [(h2 h0).2]⟩⟩, fun hm => ?_⟩
  obtain ⟨tr, ht⟩ := trace_exists (metricDist met) N data c0 hk
  obtain ⟨hrun, hfix⟩ := trace_near (met := met) (cast_eps_nonneg (n + 4)) (slack_nonneg met)
    (cast_eps_nonneg (addsOfJob N np nt + np)) (p_pos (-1075)).le ht
  have hj := h3 hm tr ht
  refine ⟨res.iters, tr, hj.pos, hj.le, hrun _, fun i hi1 hi2 => hj.first i hi1 hi2, hj.stops, rfl, hj.assign,
    fun p _ => ⟨fun c => ?_, rfl⟩, fun c j => ⟨trivial, by rw [hj.means]; rfl⟩, fun _ h0 r hr => ?_⟩
  · show res.sizes c = _
    rw [hj.sizes c, count_congr hj.assign]
  · rw [hj.assign r hr, hj.means]
    exact hfix _ hj.pos h0 r hr

/-- **C117, exact calls.**  Rows that are stretched to the unit interval exactly are so up to rounding, and so is the
result of clustering them. -/
theorem C117_exact {it : InitT} {met : Dist.Metric} {data scaled : Nat → Row ℝ n} {N T : Nat} {rng : Rng ℝ S k}
    (hrng : RngOk rng N) (hk : 0 < k) {given : Option (Fin k → Row ℝ n)} {tol : ℝ} {maxIters : Nat}
    {res : Kmeans.Result ℝ k n} (hs : MinMaxScaled N data scaled)
    (h : Delivers it (metricDist met) scaled N rng given tol maxIters res) :
    NearScaled (fun _ => True) id N data scaled ∧
      NearDelivers (fun _ => True) id it met scaled N T rng given tol maxIters res := by
  refine ⟨fun j => ?_, C110_exact hrng hk h⟩
  obtain ⟨lo, hi, hlo, hhi, hlh, e⟩ := hs j
  have hp : 0 < hi - lo := sub_pos.2 hlh
  refine ⟨lo, hi, hlo, hhi, hlh, fun r hr => ⟨trivial, (scaled_unit hs hr j).1, ?_, fun he => ?_⟩, fun _ => ?_⟩
  · have h0 := (scaled_unit hs hr j).1
    show |scaled r j - (data r j - lo) / (hi - lo)| ≤
      2 ^ (-51 : Int) * ((data r j - lo) / (hi - lo)) + 2 ^ (-1075 : Int)
    rw [← e r hr, sub_self, abs_zero]
    exact add_nonneg (mul_nonneg (p_pos _).le h0) (p_pos _).le
  · have he' : data r j = lo := he
    show scaled r j = 0
    rw [e r hr, he', sub_self, zero_div]
  · obtain ⟨r, hr, he⟩ := hhi.2
    refine ⟨r, hr, he, ?_⟩
    show scaled r j = 1
    rw [e r hr, he, div_self hp.ne']

theorem nearNearest_exact {met : Dist.Metric} {γ ζ : ℝ} (hγ : 0 ≤ γ) (hζ : 0 ≤ ζ) {x : Row ℝ n} {cs : Fin k → Row ℝ n}
    {c : Fin k} (h : IsNearest (fun c => metricDist met x (cs c)) c) :
    NearNearest γ ζ (fun c => metricDist met x (cs c)) c := by
  intro c'
  have a1 := h c'
  have a2 := mul_nonneg hγ (metricDist_nonneg met x (cs c))
  have a3 := mul_nonneg hγ (metricDist_nonneg met x (cs c'))
  dsimp only at a1 ⊢
  linarith

/-- Exact iterations with ties broken in any way are iterations up to rounding. -/
theorem anyTie_near {met : Dist.Metric} {ζ err : ℝ} (hζ : 0 ≤ ζ) (herr : 0 ≤ err) {data : Nat → Row ℝ n} {N m : Nat}
    {c0 : Fin k → Row ℝ n} {tr : Nat → Snap ℝ k n} (ht : LloydRunAnyTie (metricDist met) N data c0 m tr) :
    NearLloydRun (metricDist met) 0 ζ 0 err N data c0 m tr :=
  ⟨ht.cents, ht.unassigned, fun i hi => ⟨fun r hr => by
    obtain ⟨c, g1, g2⟩ := (ht.step i hi).assigned r hr
    exact ⟨c, g1, nearNearest_exact le_rfl hζ g2⟩, fun c j => by
    rw [(ht.step i hi).means c j, sub_self, abs_zero, zero_mul, zero_add]
    exact herr⟩⟩

/-- **C113, exact jobs.**  An exact pruned job that returns the result of Lloyd's algorithm returns it up to rounding. -/
theorem C113_exact {it : InitT} {data : Nat → Row ℝ n} {N np nt : Nat} {rng : Rng ℝ S k}
    (hrng : RngOk rng N) {given : Option (Fin k → Row ℝ n)} {tol X : ℝ} (hX : 0 ≤ X) {maxIters : Nat}
    {res : JobResult ℝ k n} (h : DeliversJobPruned it (metricDist .eucl) (Dist.Metric.eucl = .eucl) data N rng given tol maxIters res) :
    NearDeliversJobPruned (fun _ => True) id it data N np nt rng given tol maxIters X res := by
  obtain ⟨c0, h1, h2, -, -, h3⟩ := h
  refine ⟨c0, startsAt_near (cast_eps_nonneg _) (slack_nonneg .eucl) (cast_eps_nonneg _) (p_pos _).le
    (cast_eps_nonneg _) (p_pos _) hrng h1, fun h0 => ⟨(h2 h0).1, fun c j => ⟨trivial, by rw [(h2 h0).2]⟩⟩, fun hm => ?_⟩
  obtain ⟨tr, ht, hj⟩ := h3 hm rfl
  refine ⟨res.iters, tr, hj.pos, hj.le, anyTie_near ?_ ?_ ht, fun i hi1 hi2 => hj.first i hi1 hi2, hj.stops, rfl,
    hj.assign, fun p _ => ⟨fun c => ?_, rfl⟩, fun c j => ⟨trivial, by rw [hj.means]; rfl⟩, fun h => h.elim⟩
  · positivity
  · positivity
  · show res.sizes c = _
    rw [hj.sizes c, count_congr hj.assign]

/-- **C114, exact calls.**  An exact pruned call that delivers what C84 promises delivers it up to rounding. -/
theorem C114_exact {it : InitT} {met : Dist.Metric} {data : Nat → Row ℝ n} {N T : Nat} {rng : Rng ℝ S k}
    (hrng : RngOk rng N) {given : Option (Fin k → Row ℝ n)} {tol X : ℝ} (hX : 0 ≤ X) {maxIters : Nat}
    {res : Prune.Result ℝ ℝ k n}
    (h : DeliversPruned it (metricDist met) (met = .eucl) data N rng given tol maxIters res) :
    NearDeliversPruned (fun _ => True) id it met data N T rng given tol maxIters X res := by
  obtain ⟨c0, h1, h2, h3, h4, h5⟩ := h
  refine ⟨c0, startsAt_near (cast_eps_nonneg _) (slack_nonneg met) (cast_eps_nonneg _) (p_pos _).le
    (cast_eps_nonneg _) (p_pos _) hrng h1, fun h0 => ⟨(h4 h0).1, (h4 h0).2.1, fun hpp => ⟨fun r hr => ?_,
      ((h4 h0).2.2 hpp).2⟩⟩, fun hm => ?_, fun h0 r hr => ?_, fun hm hmet hsm => ?_⟩
  · obtain ⟨c, g1, g2⟩ := ((h4 h0).2.2 hpp).1 r hr
    exact ⟨c, g1, nearNearest_exact (cast_eps_nonneg _) (slack_nonneg met) g2⟩
  · refine ⟨(h2 hm).assigned, (h2 hm).sizes, fun c j => ⟨trivial, ?_⟩⟩
    have e : (id (res.state.cltrs.means c j) : ℝ) -
        memberMean N (fun r j => id (data r j)) (fun r => (res.state.slots r).assign) c j = 0 := by
      rw [id, (h2 hm).means c j]; exact sub_self _
    rw [e, abs_zero]
    positivity
  · obtain ⟨c, g1, g2⟩ := h3 h0 r hr
    exact ⟨c, g1, nearNearest_exact (cast_eps_nonneg _) (slack_nonneg met) g2⟩
  · subst hmet
    have e1 : 0 ≤ (maxIters : ℝ) * ((4 * (N / T + N % T + T) + 7 : Nat) * 2 ^ (-52 : Int) * (N * X)) := by positivity
    have e2 : 0 ≤ ((maxIters + 2 : Nat) : ℝ) * ((n + 8 : Nat) * 2 ^ (-52 : Int) * (2 * √n *
        (X + (maxIters : ℝ) * ((4 * (N / T + N % T + T) + 7 : Nat) * 2 ^ (-52 : Int) * (N * X))))) := by positivity
    obtain ⟨m, tr, m1, m2, ht, m3, m4, m5, m6, m7⟩ := h5 hm rfl fun tr ht c => hsm tr (anyTie_near e2 e1 ht) c
    refine ⟨m, tr, m1, m2, anyTie_near e2 e1 ht, fun i hi1 hi2 => m3 i hi1 hi2, ?_, m5, fun c => ?_,
      fun c j => ⟨trivial, by rw [m6]; rfl⟩⟩
    · rcases m4 with ⟨a1, a2, a3⟩ | ⟨a1, a2, a3⟩
      · exact .inl ⟨a2, a3, a1⟩
      · exact .inr ⟨a3, a2, a1⟩
    · rw [m7 c, count_congr m5]

/-- **C115, exact calls.**  An exact mini-batch call that delivers what C95 promises delivers it up to rounding, if the
fraction of the rows that a batch stands for is a double (otherwise the doubles sample with another fraction). -/
theorem C115_exact {it : InitT} {met : Dist.Metric} {data : Nat → Row ℝ n} {N threads mb : Nat} {rng : Rng ℝ S k}
    (hrng : RngOk rng N) (hN : 0 < N) {draw : Nat → Nat → ℝ} {given : Option (Fin k → Row ℝ n)} {tol X : ℝ} (hX : 0 ≤ X)
    {maxIters iters : Nat} {cents : Fin k → Row ℝ n} {assign : Nat → Option (Fin k)} {sizes : Fin k → Int}
    (hd : IsDouble (((if mb < min threads N then 1 else mb : Nat) : ℝ) / (N : ℝ)))
    (h : DeliversMiniBatch it (metricDist met) (fun y => √(∑ c, ∑ j, y c j ^ 2)) data N threads mb rng draw given tol
      maxIters iters cents assign sizes) :
    NearDeliversMiniBatch (fun _ => True) id it met data N (min threads N) mb rng draw given tol maxIters X iters cents
      assign sizes := by
  obtain ⟨t, tr, f, h1, h2, h3, h4, h5, h6, h7, h8, h9, h10, h11⟩ := h
  have hf : f = ((if mb < min threads N then 1 else mb : Nat) : ℝ) / (N : ℝ) := by
    rw [eq_div_iff (by exact_mod_cast hN.ne'), h3]
    split_ifs <;> simp
  have hmv : ∀ i, 0 ≤ movedFrobenius tr i := fun i => Real.sqrt_nonneg _
  refine ⟨t, tr, (tr 0).cents, f, movedFrobenius tr, startsAt_near (cast_eps_nonneg _) (slack_nonneg met)
    (cast_eps_nonneg _) (p_pos _).le (cast_eps_nonneg _) (p_pos _) hrng h1, rfl, ?_, ⟨hf ▸ hd, fun q _ => ?_⟩,
    fun i hi => ⟨fun r hr hs => ?_, (h4 i hi).others, fun c j => ?_⟩, fun i _ => ⟨trivial, hmv i, ?_⟩,
    fun i hi => not_lt.2 (h5 i hi), ?_, fun c j => ⟨trivial, by rw [h7]; rfl⟩, fun c => ⟨_, h8 c, fun j => ?_⟩,
    fun r hr => ?_, h10, h11⟩
  · cases it
    case none => exact h2
    case forgy => exact h2
    case random => exact h2
    case plusplus =>
      intro r hr
      obtain ⟨c, g1, g2⟩ := h2 r hr
      exact ⟨c, g1, nearNearest_exact (cast_eps_nonneg _) (slack_nonneg met) g2⟩
  · rw [hf, sub_self, abs_zero]
    exact abs_nonneg _
  · obtain ⟨c, g1, g2, -⟩ := (h4 i hi).assigned r hr hs
    exact ⟨c, g1, nearNearest_exact (cast_eps_nonneg _) (slack_nonneg met) g2⟩
  · have e := congrFun ((h4 i hi).moved c) j
    rw [e]
    refine le_trans (le_of_eq ?_) (show (0 : ℝ) ≤ _ by positivity)
    exact abs_eq_zero.2 (sub_self _)
  · show |movedFrobenius tr i - movedFrobenius tr i| ≤ _
    rw [sub_self, abs_zero]
    exact add_nonneg (mul_nonneg (cast_eps_nonneg _) (hmv i)) (p_pos _).le
  · rcases h6 with ⟨j, a1, a2, a3, a4⟩ | ⟨a1, a2, a3⟩
    · exact .inl ⟨j, a1, a2, a3, a4⟩
    · exact .inr ⟨a1, a2, fun i hi => not_lt.2 (a3 i hi)⟩
  · show |cents c j - cents c j| ≤ _
    rw [sub_self, abs_zero]
    positivity
  · obtain ⟨c, g1, g2, -⟩ := h9 r hr
    exact ⟨c, g1, nearNearest_exact (cast_eps_nonneg _) (slack_nonneg met) g2⟩

/-- **C120, exact calls.**  The specification is the one of C96 with errors: in exact arithmetic a call that returns
the best of the starts returns it up to rounding. -/
theorem C120_exact {met : Dist.Metric} {data : Nat → Row ℝ n} {N T : Nat} {rng : Rng ℝ S k} (hrng : RngOk rng N)
    {nstart idx : Nat} {energy : ℝ} {means : Fin k → Row ℝ n} {assign : Nat → Option (Fin k)} {sizes : Fin k → Int}
    (h : DeliversBest (metricDist met) data N rng nstart idx energy means assign sizes) :
    NearDeliversBest (fun _ => True) id met data N T rng nstart idx energy means assign sizes := by
  obtain ⟨cents, en, h1, h2, h3, h4, h5, h6, h7, h8, h9⟩ := h
  have hslack : 0 ≤ metricSlack met := by
    cases met <;> first | exact (p_pos _).le | exact le_refl _
  have hc : ∀ m : Nat, 0 ≤ (m : ℝ) * 2 ^ (-52 : Int) := fun m => mul_nonneg (Nat.cast_nonneg m) (p_pos _).le
  refine ⟨cents, en, fun i hi => ⟨?_, trivial, ?_⟩, h2, h3, h4, h5, h6, h7, fun r hr => ?_, h9⟩
  · exact startsAt_near (rng := { rng with seed := seedAt rng i }) (hc _) hslack (hc _) (p_pos _).le (hc _) (p_pos _) ⟨hrng.row, hrng.unit⟩ (h1 i hi).1
  · obtain ⟨near, g1, g2⟩ := (h1 i hi).2
    refine ⟨en i, ⟨near, g1, g2⟩, ?_⟩
    have h0 : 0 ≤ en i := by
      rw [g2]; exact Finset.sum_nonneg fun r _ => metricDist_nonneg met _ _
    show |en i - en i| ≤ _
    rw [sub_self, abs_zero]
    exact add_nonneg (mul_nonneg (hc _) h0) (by have := Nat.cast_nonneg (α := ℝ) N; positivity)
  · obtain ⟨c, g1, g2⟩ := h8 r hr
    refine ⟨c, g1, fun c' => ?_⟩
    have a1 := g2 c'
    have a2 := mul_nonneg (hc (n + 4)) (metricDist_nonneg met (data r) (means c))
    have a3 := mul_nonneg (hc (n + 4)) (metricDist_nonneg met (data r) (means c'))
    show (1 - ((n + 4 : Nat) : ℝ) * 2 ^ (-52 : Int)) * metricDist met (data r) (means c) ≤
      (1 + ((n + 4 : Nat) : ℝ) * 2 ^ (-52 : Int)) * metricDist met (data r) (means c') + 2 * metricSlack met
    dsimp only at a1
    linarith

/-! ### Calls that meet the hypotheses -/

theorem realDist_metric (big : ℝ) {met : Dist.Metric} (hm : met ≠ .cos) :
    (realDist big met : Row ℝ n → Row ℝ n → ℝ) = metricDist met := by
  funext x y
  unfold realDist
  cases met with
  | cos => exact absurd rfl hm
  | eucl => rw [(Dist.C36_dispatch x y).1]; rfl
  | sqeucl => rw [(Dist.C36_dispatch x y).2.1]; rfl
  | taxi => rw [(Dist.C36_dispatch x y).2.2.1]; rfl

/-- The exact call on four rows with k-means++ meets the specification of the calls on doubles. -/
example : ∃ res : Kmeans.Result ℝ 2 1,
    kmeans (realDist 1000) 1000 (oneCell ℝ) (counter ℝ) demoSched demoSched
      ⟨.file ((rowsFrom fourRows 1 0 4).flatMap (oneCell ℝ).enc), 4, 100, 2, none, "kmeanspp", -1, "eucl"⟩ = .ok res ∧
    NearDelivers (fun _ => True) id .plusplus .eucl (matRows fourRows) 4 2 (counter ℝ) none (-1) 100 res := by
  have hb : ∀ r j, |fourRows r j| ≤ 12 := fun r j => by unfold fourRows; split_ifs <;> norm_num
  obtain ⟨res, e, h⟩ := C82_bounded_data 1000 12 (by norm_num) (by norm_num) (by norm_num) (oneCell_ok ℝ) (counter ℝ)
    demoSched demoSched
    ⟨.file ((rowsFrom fourRows 1 0 4).flatMap (oneCell ℝ).enc), 4, 100, 2, none, "kmeanspp", -1, "eucl"⟩ fourRows none
    (by decide) (by decide) (by decide) (by decide) (by decide) (by decide) rfl rfl (counter_ok ℝ) demo_complete
    demo_complete (fun r j _ _ => hb r j) (fun g h => by cases h) .plusplus .eucl rfl rfl (by decide)
  rw [realDist_metric 1000 (by decide)] at h
  exact ⟨res, e, C110_exact (counter_ok ℝ) (by decide) h⟩

/-- The exact call of the OpenMP variant on four rows, with eight threads. -/
example : ∃ rep : Omp.Report ℝ 2 1, knoriOmp (realDist 1000) 1000 (oneCell ℝ) (counter ℝ) demoOmp true
      ((rowsFrom fourRows 1 0 4).flatMap (oneCell ℝ).enc) none 4 100 8 "kmeanspp" (-1) "eucl" = .ok rep ∧
    NearDeliversOmp (fun _ => True) id .plusplus .eucl (matRows fourRows) 4 8 (counter ℝ) none (-1) 99 True rep := by
  have hb : ∀ r j, |fourRows r j| ≤ 12 := fun r j => by unfold fourRows; split_ifs <;> norm_num
  obtain ⟨rep, e, w, -⟩ := ((C92_knori_partial (n := 1) 1000 12 (by norm_num) (by norm_num) (by norm_num) (oneCell_ok ℝ)
    (counter ℝ) demoOmp true ((rowsFrom fourRows 1 0 4).flatMap (oneCell ℝ).enc) none 4 100 8 "kmeanspp" (-1) "eucl"
    (by decide) (by decide) (by decide) (by decide) (by decide) (by decide) (counter_ok ℝ) demoOmp_ok).2.2
    fourRows none rfl rfl (by simp)).2 .plusplus (by decide) (by decide) rfl (fun r j _ _ => hb r j)
    (fun g h => by cases h) (fun h => by cases h) (fun _ => rfl)
  have h := (w rfl).1
  rw [realDist_metric 1000 (by decide)] at h
  exact ⟨rep, e, C111_exact (counter_ok ℝ) (by decide) h⟩

/-- The exact job of two processes on four rows. -/
example : ∃ res : JobResult ℝ 2 1,
    knord true (realDist 1000) 1000 (oneCell ℝ) (counter ℝ) demoScheds demoScheds
      ((rowsFrom fourRows 1 0 4).flatMap (oneCell ℝ).enc)
      [.centers (some ((rowsFrom fourRows 1 0 2).flatMap (oneCell ℝ).enc)), .init "kmeanspp"] 4 2 100 2 (-1) "eucl"
        = .ok res ∧
    NearDeliversJob (fun _ => True) id .plusplus .eucl (matRows fourRows) 4 2 2 (counter ℝ) (givenCents (some fourRows))
      (-1) 100 True res := by
  have hb : ∀ r j, |fourRows r j| ≤ 12 := fun r j => by unfold fourRows; split_ifs <;> norm_num
  obtain ⟨res, e, h⟩ := (C85_knord (n := 1) (k := 2) 1000 12 (by norm_num) (by norm_num) (by norm_num) (oneCell_ok ℝ)
    (counter ℝ) demoScheds demoScheds ((rowsFrom fourRows 1 0 4).flatMap (oneCell ℝ).enc)
    [.centers (some ((rowsFrom fourRows 1 0 2).flatMap (oneCell ℝ).enc)), .init "kmeanspp"] 4 2 100 2 (-1) "eucl" (by decide) (by decide) (by decide) (by decide) (by decide)
    (by decide) (by decide) (by decide) (counter_ok ℝ) demoScheds_ok demoScheds_ok).2.2
    fourRows (some fourRows) .plusplus .eucl rfl (by simp [centerFiles]) rfl (fun r j _ _ => hb r j) (fun g h r j _ _ => by
      rw [← Option.some.inj h]; exact hb r j) rfl (fun h => by cases h) rfl (by decide)
  rw [realDist_metric 1000 (by decide)] at h
  exact ⟨res, e, C112_exact (counter_ok ℝ) (by decide) h⟩

/-- The exact scaled call on four rows. -/
example : ∃ res : Kmeans.Result ℝ 2 1,
    skmeansProg (realDist 1000) 1000 (1 / 1000) (oneCell ℝ) (counter ℝ) (demoSched 0) (demoSched 0) demoSched demoSched
      ((rowsFrom fourRows 1 0 4).flatMap (oneCell ℝ).enc) none 4 100 2 (-1) "eucl" = .ok res ∧
    NearScaled (fun _ => True) id 4 (matRows (n := 1) fourRows) (fun r _ => fourRows r 0 / 12) ∧
    NearDelivers (fun _ => True) id .forgy .eucl (fun r _ => fourRows r 0 / 12) 4 2 (counter ℝ) none (-1) 100 res := by
  obtain ⟨res, e, h⟩ := (C87_program_partial (n := 1) (k := 2) 1000 (1 / 1000) 1 (by norm_num) (by norm_num)
    (by norm_num) (by norm_num) (oneCell_ok ℝ) (counter ℝ) (demoSched 0) (demoSched 0) demoSched demoSched
    ((rowsFrom fourRows 1 0 4).flatMap (oneCell ℝ).enc) none 4 100 2 (-1) "eucl" (by decide) (by decide)
    (by decide) (by decide) (by decide) (by decide) (by decide) (counter_ok ℝ) (two_sched 0) (two_sched 0) two_sched
    two_sched).2 fourRows none .eucl _ rfl rfl
    (fun r j _ _ => by unfold fourRows; split_ifs <;> norm_num)
    (fun j _ => ⟨3, by decide, by simp only [fourRows]; norm_num⟩) (fun g h => by cases h) rfl (by decide)
    fourRows_scaled
  rw [realDist_metric 1000 (by decide)] at h
  exact ⟨res, e, C117_exact (counter_ok ℝ) (by decide) fourRows_scaled h⟩

/-- The exact pruned job of two processes on four rows. -/
example : ∃ res : JobResult ℝ 2 1,
    knord false (realDist 1000) 1000 (oneCell ℝ) (counter ℝ) demoScheds demoScheds
      ((rowsFrom fourRows 1 0 4).flatMap (oneCell ℝ).enc) [] 4 2 100 2 (-1) "eucl" = .ok res ∧
    NearDeliversJobPruned (fun _ => True) id .plusplus (matRows fourRows) 4 2 2 (counter ℝ) none (-1) 100 12 res := by
  have hb : ∀ r j, |fourRows r j| ≤ 12 := fun r j => by unfold fourRows; split_ifs <;> norm_num
  obtain ⟨res, e, h⟩ := (C86_knord_partial (n := 1) (k := 2) 1000 12 (by norm_num) (by norm_num) (by norm_num)
    (oneCell_ok ℝ) (counter ℝ) demoScheds demoScheds ((rowsFrom fourRows 1 0 4).flatMap (oneCell ℝ).enc) [] 4 2 100 2
    (-1) "eucl" (by decide) (by decide) (by decide) (by decide) (by decide) (by decide)
    (by decide) (by decide) (counter_ok ℝ) demoScheds_task demoScheds_task).2.2
    fourRows none .plusplus .eucl rfl (by simp [centerFiles]) rfl (fun r j _ _ => hb r j) (fun g h => by cases h) rfl
    (fun h => by cases h) rfl (by decide)
  rw [realDist_metric 1000 (by decide)] at h
  exact ⟨res, e, C113_exact (counter_ok ℝ) (by norm_num) h⟩

/-- The exact pruned call on four rows. -/
example : ∃ res : Prune.Result ℝ ℝ 2 1,
    kmeansPruned (realDist 1000) 1000 (oneCell ℝ) (counter ℝ) Kmeans.demoSched Kmeans.demoSched
      ⟨.file ((rowsFrom fourRows 1 0 4).flatMap (oneCell ℝ).enc), 4, 100, 2, none, "kmeanspp", -1, "eucl"⟩ = .ok res ∧
    NearDeliversPruned (fun _ => True) id .plusplus .eucl (matRows fourRows) 4 2 (counter ℝ) none (-1) 100 12 res := by
  obtain ⟨res, e, h⟩ := C84_bounded_data_partial (n := 1) (k := 2) 1000 12 (by norm_num) (by norm_num) (by norm_num)
    (oneCell_ok ℝ) (counter ℝ) Kmeans.demoSched Kmeans.demoSched
    ⟨.file ((rowsFrom fourRows 1 0 4).flatMap (oneCell ℝ).enc), 4, 100, 2, none, "kmeanspp", -1, "eucl"⟩ fourRows none
    (by decide) (by decide) (by decide) (by decide) (by decide) (by decide) rfl rfl (counter_ok ℝ) demoSched_complete
    demoSched_complete (fun r j _ _ => by unfold fourRows; split_ifs <;> norm_num) (fun g h => by cases h)
    .plusplus .eucl rfl rfl (by decide)
  rw [realDist_metric 1000 (by decide)] at h
  exact ⟨res, e, C114_exact (counter_ok ℝ) (by norm_num) h⟩

/-- The exact mini-batch call on four rows: three of the four rows are a fraction that is a double. -/
example : ∃ res : Nat × Prune.PState ℝ ℝ 2 1,
    mbKnori (realDist 1000) 1000 Real.sqrt (oneCell ℝ) (counter ℝ) (fun i r => ((i + r) % 2 : Nat)) Kmeans.demoSched
      Kmeans.demoSched (Kmeans.demoSched 0)
      ((rowsFrom fourRows 1 0 4).flatMap (oneCell ℝ).enc) none 4 100 2 "kmeanspp" (-1) "eucl" 3 = .ok res ∧
    NearDeliversMiniBatch (fun _ => True) id .plusplus .eucl (matRows fourRows) 4 2 3 (counter ℝ)
      (fun i r => ((i + r) % 2 : Nat)) none (-1) 100 12 res.1 res.2.cltrs.means
      (fun r => (res.2.slots r).assign) res.2.counts := by
  have hb : ∀ r j, |fourRows r j| ≤ 12 := fun r j => by unfold fourRows; split_ifs <;> norm_num
  obtain ⟨res, e, h⟩ := (C95_mb_knori (n := 1) (k := 2) 1000 12 (by norm_num) (by norm_num) (by norm_num) (oneCell_ok ℝ)
    (counter ℝ) (fun i r => ((i + r) % 2 : Nat)) Kmeans.demoSched Kmeans.demoSched (Kmeans.demoSched 0)
    ((rowsFrom fourRows 1 0 4).flatMap (oneCell ℝ).enc) none 4 100 2 "kmeanspp" (-1) "eucl" 3
    (by decide) (by decide) (by decide) (by decide) (by decide) (by decide) (by decide) (counter_ok ℝ)
    demoSched_complete demoSched_complete (demoSched_complete 0)).2.2
    fourRows none .plusplus .eucl rfl rfl (fun r j _ _ => hb r j) (fun g h => by cases h) (fun h => by cases h)
    (fun _ => ⟨rfl, by decide⟩) rfl (by decide)
  rw [realDist_metric 1000 (by decide)] at h
  have hd : IsDouble (((if 3 < min 2 4 then 1 else 3 : Nat) : ℝ) / ((4 : Nat) : ℝ)) := by
    rw [if_neg (by decide)]
    exact ⟨3, -2, by norm_num, by norm_num, by norm_num, by norm_num⟩
  exact ⟨res, e, C115_exact (threads := 2) (counter_ok ℝ) (by decide) (by norm_num) hd h⟩

/-- The exact multi-start call on four rows meets the specification of the calls on doubles. -/
example : ∃ res : Nat × ℝ × MultiStart.Copy ℝ 2 1,
    kmeansppMain true (realDist 1000) 1000 (oneCell ℝ) (counter ℝ) (fun _ => Kmeans.demoSched)
      ((rowsFrom fourRows 1 0 4).flatMap (oneCell ℝ).enc) 4 10 2 "eucl" = .ok res ∧
    NearDeliversBest (fun _ => True) id .eucl (matRows fourRows) 4 2 (counter ℝ) 10 res.1 res.2.1 res.2.2.means
      res.2.2.assign res.2.2.counts := by
  have hb : ∀ r j, |fourRows r j| ≤ 12 := fun r j => by unfold fourRows; split_ifs <;> norm_num
  obtain ⟨res, e, h⟩ := (C96_kmeanspp_partial (n := 1) (k := 2) true 1000 12 (by norm_num) (by norm_num) (by norm_num) (oneCell_ok ℝ)
    (counter ℝ) (fun _ => Kmeans.demoSched) _ 4 10 2 "eucl" (by decide) (by decide) (by decide) (by decide) (by decide)
    (by decide) (counter_ok ℝ) (fun _ => demoSched_complete)).2 fourRows .eucl rfl (fun r j _ _ => hb r j) rfl
    (by decide) (.inl rfl)
  rw [realDist_metric 1000 (by decide)] at h
  exact ⟨res, e, C120_exact (counter_ok ℝ) h⟩

end Knor.Driver
