import Verif.Lemmas.PruneCallRun
import Verif.Props.DistrPrunedNear
import Verif.Props.DoubleDriver
import Verif.Props.DistrDriver
import Verif.Props.PrunedDriver
import Verif.Spec.NearMiniBatch

/-!
# Property C114: a whole pruned k-means call on doubles

C84 is about exact arithmetic.  Here is the whole call of `knori` without `-P`, which is the default and what the
bindings call, from the names of the options and the data to what is returned, on IEEE doubles.
-/

namespace Knor.Driver

open Knor Knor.Par Knor.Partition Knor.Spec Knor.NearLloyd Knor.Kmeans Knor.Distr Knor.Init Knor.Io

variable {R S B : Type _} {k n : Nat} [Zero R] [Add R] [Sub R] [Mul R] [Div R] [IntCast R] [NatCast R] [LT R] [LE R]
  {fin : R → Prop} {val : R → ℝ} {sqrt abs' : R → R} {big : R}

/-! ### Weaker errors, other rows outside the matrix -/

omit [Zero R] [Add R] [Sub R] [Mul R] [Div R] [IntCast R] [NatCast R] [LT R] [LE R] in
theorem run_data {dist : (Fin n → ℝ) → (Fin n → ℝ) → ℝ} {ζ ζ' err err' : ℝ} (hζ : ζ ≤ ζ') (he : err ≤ err') {N : Nat}
    {data data' : Nat → Row R n} (hd : ∀ r, r < N → data r = data' r) {c0 : Fin k → Fin n → ℝ} {m : Nat}
    {tr : Nat → Snap ℝ k n} (h : NearLloydRun dist 0 ζ 0 err N (fun r j => val (data r j)) c0 m tr) :
    NearLloydRun dist 0 ζ' 0 err' N (fun r j => val (data' r j)) c0 m tr := by
  refine ⟨h.cents, h.unassigned, fun i hi => ⟨fun r hr => ?_, fun c j => ?_⟩⟩
  · obtain ⟨c, h1, h2⟩ := (h.step i hi).assigned r hr
    refine ⟨c, h1, fun c' => ?_⟩
    rw [← hd r hr]
    exact (h2 c').trans (by linarith)
  · have := (h.step i hi).means c j
    rw [memberMean_data (data := fun r j => val (data r j)) (data' := fun r j => val (data' r j))
      (fun r hr => by rw [hd r hr])] at this
    rw [zero_mul, zero_add] at this ⊢
    exact this.trans he

omit [Zero R] [Add R] [Sub R] [Mul R] [Div R] [IntCast R] [NatCast R] [LT R] [LE R] in
theorem partition_near_data {err err' : ℝ} (he : err ≤ err') {N : Nat}
    {data data' : Nat → Row R n} (hd : ∀ r, r < N → data r = data' r) {assign : Nat → Option (Fin k)}
    {counts : Fin k → Int} {cents : Fin k → Fin n → R} (h : NearPartition fin val err N data assign counts cents) :
    NearPartition fin val err' N data' assign counts cents := by
  refine ⟨h.assigned, h.sizes, fun c j => ⟨(h.means c j).1, ?_⟩⟩
  have := (h.means c j).2
  rw [memberMean_data (data := fun r j => val (data r j)) (data' := fun r j => val (data' r j))
    (fun r hr => by rw [hd r hr])] at this
  exact this.trans he

/-! ### The initialisation -/

omit [Zero R] [Add R] [Sub R] [Mul R] [IntCast R] [LT R] [Div R] [NatCast R] [LE R] in
/-- The smallest computed distance belongs to a nearest centroid, up to the error of a distance. -/
theorem nearNearest_of_min {B γ ζ : ℝ} {dist : Row R n → Row R n → R} {dG : (Fin n → ℝ) → (Fin n → ℝ) → ℝ}
    (hR : DistRounds fin val B dist big dG γ ζ) {x : Row R n} {cents : Fin k → Row R n} (hx : InBox fin val B x)
    (hb : ∀ c, InBox fin val B (cents c)) {a : Fin k} (h : ∀ c, val (dist x (cents a)) ≤ val (dist x (cents c))) :
    NearNearest γ ζ (fun c => dG (fun j => val (x j)) fun j => val (cents c j)) a := by
  intro c
  have h1 := (abs_le.1 (hR.near _ _ hx (hb a)).2.2).1
  have h2 := (abs_le.1 (hR.near _ _ hx (hb c)).2.2).2
  have h3 := h c
  dsimp only
  linarith

/-- The initialisation of a pruned call on doubles. -/
theorem runInitPruned_near [DecidableLT R] [DecidableLE R] (hI : IeeeDouble fin val sqrt abs')
    (hbig : fin big ∧ val big = maxDouble) (cosd : Row R n → Row R n → R) {met : Dist.Metric} (hcos : met ≠ .cos)
    (rng : Rng R S k) (data data' : Nat → Row R n) (N nt : Nat) (hdata : ∀ r, r < N → data r = data' r)
    (hk : 1 < k) (hn : 0 < N) (hnt : 0 < nt) (hlt : N + 8192 < 4294967296)
    (hcol : n ≤ 4294967296) {X E : ℝ} (hX0 : 0 ≤ X) (hX2 : X + E ≤ 2 ^ (400 : Int))
    (hE : ((N + 1 : Nat) : ℝ) * 2 ^ (-52 : Int) * X + 2 ^ (-1075 : Int) ≤ E)
    (hrows : ∀ r, r < N → InBox fin val X (data' r)) (hrng : RngFin fin val rng N)
    (sched : Nat → List Nat) (hc : ∀ i, Complete (effThreads nt N) (Prune.taskRows N nt) (sched i))
    (it : InitT) (given : Option (Nat → Nat → R))
    (hgiven : ∀ g, givenCents (k := k) (n := n) given = some g → ∀ c, InBox fin val X (g c))
    (T L : Nat) (hT : T = effThreads nt N) (hL : L = N / T + N % T) :
    ∃ s0 s, constructPruned big it (given.map fun g => rowsFrom g n 0 k) = .ok s0 ∧
      runInitPruned (anyDist sqrt abs' cosd met) big rng data N nt sched it s0 = .ok s ∧
      DistMatrix.WF k s.dm ∧ (s.prevMeans = fun _ _ => 0) ∧ (∀ c, s.counts c = 0) ∧
      (∀ c, InBox fin val (X + E) (s.cltrs.means c)) ∧
      (∀ r, r < N → Prune.OwnSlot fin val (anyDist sqrt abs' cosd met) big (data r) s.cltrs.means (s.slots r)) ∧
      (it = .plusplus → ∀ r, r < N → ∃ c, (s.slots r).assign = some c ∧
        NearNearest (((n + 4 : Nat) : ℝ) * 2 ^ (-52 : Int)) (metricSlack met)
          (fun c => metricDist met (fun j => val (data' r j)) fun j => val (s.cltrs.means c j)) c) ∧
      NearStartAssign it (metricDist met) (((n + 4 : Nat) : ℝ) * 2 ^ (-52 : Int)) (metricSlack met)
        (fun r j => val (data' r j)) N rng (fun c j => val (s.cltrs.means c j)) (fun r => (s.slots r).assign) ∧
      NearStartsAt fin val it (metricDist met) ((n + 4 : Nat) * 2 ^ (-52 : Int)) (metricSlack met)
        ((N + 1 : Nat) * 2 ^ (-52 : Int)) (2 ^ (-1075 : Int)) ((L + T + N + 2 : Nat) * 2 ^ (-52 : Int))
        (2 ^ (-1073 : Int)) data' N rng (givenCents given) s.cltrs.means := by
  subst hT hL
  have hE0 : 0 ≤ E := by
    refine le_trans ?_ hE
    have h1 := p_pos (-52)
    have h2 := p_pos (-1075)
    positivity
  have hrows' : ∀ r, r < N → InBox fin val X (data r) := fun r hr => by
    rw [hdata r hr]; exact hrows r hr
  have hX4 : X ≤ 2 ^ (400 : Int) := by linarith
  have hrows4 : ∀ r, r < N → InBox fin val (2 ^ (400 : Int)) (data r) := fun r hr => Kmeans.InBox.mono (hrows' r hr) hX4
  have h42 : ∀ {x : Row R n}, InBox fin val (X + E) x → InBox fin val (2 ^ (402 : Int)) x := fun h =>
    Kmeans.InBox.mono h (hX2.trans (p_le (by norm_num)))
  have hXE : ∀ {x : Row R n}, InBox fin val X x → InBox fin val (X + E) x := fun h =>
    Kmeans.InBox.mono h (by linarith)
  obtain ⟨s0, e0, ec, em, h1, h2, h3, h4⟩ := constructPruned_ok (k := k) (n := n) big hk it given
  obtain ⟨m', em', wf, -⟩ := DistMatrix.create_wf (big := big) (k := k) hk
  rw [em] at em'
  obtain rfl := Except.ok.inj em'
  obtain ⟨cl, ec', k0, k1⟩ := construct_ok (k := k) (n := n) (by omega) it given
  rw [ec] at ec'
  obtain rfl := Except.ok.inj ec'
  refine ⟨s0, ?_⟩
  cases it with
  | none =>
    obtain ⟨w1, w2⟩ := k1 rfl
    refine ⟨s0, e0, rfl, wf, h1, h4, fun c => ?_, fun r _ => .inl (by rw [h3]), fun h => (by cases h),
      fun r _ => (by dsimp only; rw [h3]), fun g hg => ?_,
      fun hg => w2 (by unfold givenCents at hg; simpa using hg)⟩
    · cases given with
      | none =>
        intro j
        rw [w2 rfl c j, hI.zero.2, abs_zero]
        exact ⟨hI.zero.1, by linarith⟩
      | some g' =>
        rw [w1 g' rfl]
        exact hXE (hgiven _ rfl c)
    · cases given with
      | none => cases hg
      | some g' =>
        rw [← Option.some.inj hg]
        exact w1 g' rfl
  | forgy =>
    obtain ⟨c', e, h⟩ := C27_forgy_picks_rows rng.row rng.seed data N nt hnt (by omega) hrng.row s0.cltrs
    refine ⟨{ s0 with cltrs := c' }, e0, by unfold runInitPruned; dsimp only; rw [e], wf, h1, h4, fun c => ?_,
      fun r _ => .inl (by dsimp only; rw [h3]), fun h => (by cases h), fun r _ => (by dsimp only; rw [h3]), fun c => ?_⟩
    · obtain ⟨r, hr, _, q2⟩ := h c
      show InBox fin val _ (c'.means c)
      rw [q2]
      exact hXE (hrows' r hr)
    · obtain ⟨r, hr, q1, q2⟩ := h c
      exact ⟨r, hr, q1, by rw [← hdata r hr]; exact q2⟩
  | random =>
    have hemp := k0 (by decide)
    obtain ⟨c', a', e, q1, q2, q3⟩ := random_near hI rng.clust rng.seed hn hnt (show N < 4294967296 by omega) hrows4
      fun r => (s0.slots r).assign
    refine ⟨{ s0 with cltrs := c', slots := fun r => { s0.slots r with assign := a' r } }, e0, by
        unfold runInitPruned; dsimp only; rw [hemp, e], wf, h1, h4, fun c j => ?_,
      fun r _ => .inl (by dsimp only; rw [h3]), fun h => (by cases h), q1, a', q1, fun c j => ⟨(q2 c j).1, ?_⟩⟩
    · refine ⟨(q2 c j).1, Driver.mean_box (P := 1 + (N + 1 : Nat) * 2 ^ (-52 : Int)) hX0 ?_ hrows'
        (a := a') (c := c) (j := j) (η := 2 ^ (-1075 : Int)) ?_ ?_⟩
      · have := p_pos (-52); positivity
      · rw [add_sub_cancel_left]
        exact q3 c j
      · rw [add_mul, one_mul]
        linarith
    · have hm : ∀ f : R → ℝ, memberMean N (fun r j => f (data r j)) a' c j =
          memberMean N (fun r j => f (data' r j)) a' c j := fun f =>
        memberMean_data (fun r hr => by rw [hdata r hr]) a' c j
      rw [← hm val, ← hm fun x => |val x|]
      exact q3 c j
  | plusplus =>
    have hf := hrng.row rng.seed
    have hsp := Prune.split_taskRows hn hnt hlt
    have hlen := len_le (nt := nt) hn hnt (show N < 4294967296 by omega)
    obtain ⟨s', e, ⟨qf, qp⟩, q1, q2⟩ := kpp_near_slots hI (seed_double hI hbig hcol cosd hcos hrows4) (by omega : 0 < k) hn
      hnt (by omega) hsp (taskRows_length hn hnt hlt) (by omega) hc
      (u := fun i => (rng.unit (skip rng.unit i (rng.row rng.seed).2)).1) (fun i => hrng.unit _) hf
      ⟨s0.cltrs, fun r => ⟨(s0.slots r).ub, (s0.slots r).assign⟩⟩ (fun r _ => by dsimp only; rw [h3])
    have hbox : ∀ c, InBox fin val (X + E) (s'.cltrs.means c) := fun c => by
      obtain ⟨r, hr, w⟩ := q1 c
      rw [w]
      exact hXE (hrows' r hr)
    have hnn : ∀ r, r < N → ∃ c, (s'.slots r).assign = some c ∧
        NearNearest (((n + 4 : Nat) : ℝ) * 2 ^ (-52 : Int)) (metricSlack met)
          (fun c => metricDist met (fun j => val (data' r j)) fun j => val (s'.cltrs.means c j)) c := by
      intro r hr
      obtain ⟨c, _, w1, w2⟩ := qp.val r hr
      refine ⟨c, w1, ?_⟩
      rw [← hdata r hr]
      refine nearNearest_of_min (dist_double hI hbig hcol cosd hcos).1 (h42 (hXE (hrows' r hr))) (fun c => h42 (hbox c))
        fun c' => ?_
      have h5 := qp.le r hr c' (by simp)
      rw [w2] at h5
      exact h5
    refine ⟨{ s0 with
      cltrs := s'.cltrs
      slots := fun r => { s0.slots r with assign := (s'.slots r).assign, ub := (s'.slots r).dist } }, e0, by
        unfold runInitPruned; dsimp only; rw [e], wf, h1, h4, hbox, fun r hr => ?_, fun _ => hnn, hnn,
        fun c => ⟨fun h => by rw [← hdata _ hf]; exact (q2 c).1 h, fun h => ?_⟩⟩
    · obtain ⟨c, _, w1, w2⟩ := qp.val r hr
      exact .inr ⟨c, w1, qf r hr, w2⟩
    · obtain ⟨r, d, w1, w2, w3⟩ := (q2 c).2 h
      refine ⟨r, d, _, ?_, ?_, outputs_get _ _ _ _ (by have := c.isLt; omega), w3⟩
      · rw [← hdata r w3.1]; exact w1
      · intro q hq
        have := w2 q hq
        dsimp only at this ⊢
        rw [hdata q hq] at this
        exact this

/-! ### The run -/

/-- The run of a pruned call on doubles, from a state that an initialisation leaves. -/
theorem runPruned_double [DecidableLT R] [DecidableLE R] (hI : IeeeDouble fin val sqrt abs')
    (hbig : fin big ∧ val big = maxDouble) (cosd : Row R n → Row R n → R) {met : Dist.Metric} (hcos : met ≠ .cos)
    {data data' : Nat → Row R n} {N nt : Nat} (hdata : ∀ r, r < N → data r = data' r)
    (hk : 1 < k) (hn : 0 < N) (hnt : 0 < nt) (hlt : N + 8192 < 4294967296) (hcol0 : 0 < n)
    (hcol : n ≤ 4294967296) {X : ℝ} (hX1 : 2 ^ (-400 : Int) ≤ X) (hX2 : X ≤ 2 ^ (368 : Int))
    (hrows : ∀ r, r < N → InBox fin val X (data' r)) (tol : R) {maxIters : Nat} (hm : 0 < maxIters)
    (sched : Nat → List Nat) (hc : ∀ i, Complete (effThreads nt N) (Prune.taskRows N nt) (sched i))
    (W : Nat) (hW : W = N / effThreads nt N + N % effThreads nt N + effThreads nt N)
    (hit : maxIters * (4 * W + 7) ≤ 2 ^ 52) (err errD : ℝ)
    (herr : err = (maxIters : ℝ) * ((4 * W + 7 : Nat) * 2 ^ (-52 : Int) * (N * X)))
    (herrD : errD = ((maxIters + 2 : Nat) : ℝ) * ((n + 8 : Nat) * 2 ^ (-52 : Int) * (2 * √n * (X + err))))
    (s : Prune.PState R R k n) (hwf : DistMatrix.WF k s.dm)
    (hbox : ∀ c, InBox fin val (X + err) (s.cltrs.means c)) (hprev : s.prevMeans = fun _ _ => 0)
    (hrow : ∀ r, r < N → Prune.OwnSlot fin val (anyDist sqrt abs' cosd met) big (data r) s.cltrs.means (s.slots r)) :
    ∃ res, Prune.run (anyDist sqrt abs' cosd met) (anyDist sqrt abs' cosd .eucl) big data N nt tol maxIters sched s
        = .ok res ∧ 1 < res.iters ∧
      NearPartition fin val err N data' (fun r => (res.state.slots r).assign) res.state.counts res.state.cltrs.means ∧
      (maxIters = 1 → ∀ r, r < N → ∃ c, (res.state.slots r).assign = some c ∧
        NearNearest (((n + 4 : Nat) : ℝ) * 2 ^ (-52 : Int)) (metricSlack met)
          (fun c => metricDist met (fun j => val (data' r j)) fun j => val (s.cltrs.means c j)) c) ∧
      (met = .eucl →
        NearSmallFirstMoves (metricDist .eucl) errD err N (fun r j => val (data' r j))
          (fun c j => val (s.cltrs.means c j)) →
        NearPrunedResult fin val (metricDist .eucl) errD err N data' s.cltrs.means tol maxIters res.iters
          (fun r => (res.state.slots r).assign) res.state.counts res.state.cltrs.means) := by
  have hX0 : 0 < X := (p_pos _).trans_le hX1
  have hgX : 0 ≤ (N : ℝ) * X := mul_nonneg (Nat.cast_nonneg _) hX0.le
  have hlen := len_le (nt := nt) hn hnt (show N < 4294967296 by omega)
  rw [← hW] at hlen
  obtain ⟨hp1, hp2⟩ := pow_rounds (m := W) (by omega)
  have h53 : (2 : ℝ) ^ (-53 : Int) = 2 ^ (-52 : Int) / 2 := by
    rw [show (-53 : Int) = -52 + -1 by norm_num, zpow_add₀ (by norm_num)]; norm_num
  set κ : ℝ := (4 * ((1 + 2 ^ (-53 : Int)) ^ W - 1) + 13 * 2 ^ (-53 : Int)) * (N * X) with hκ
  have hκle : κ ≤ (4 * W + 7 : Nat) * 2 ^ (-52 : Int) * (N * X) := by
    rw [hκ]
    refine mul_le_mul_of_nonneg_right ?_ hgX
    rw [h53] at hp1 ⊢
    have hw0 : (0 : ℝ) < 2 ^ (-52 : Int) := p_pos _
    have e : ((4 * W + 7 : Nat) : ℝ) * 2 ^ (-52 : Int) = 4 * ((W : ℝ) * 2 ^ (-52 : Int)) + 7 * 2 ^ (-52 : Int) := by
      push_cast; ring
    rw [e]
    generalize ((1 : ℝ) + 2 ^ (-52 : Int) / 2) ^ W = q at *
    generalize (2 : ℝ) ^ (-52 : Int) = w at *
    linarith
  have hηle : maxIters * κ ≤ err := by
    rw [herr]
    exact mul_le_mul_of_nonneg_left hκle (Nat.cast_nonneg _)
  have hηG : err ≤ N * X := by
    have h1 : ((maxIters * (4 * W + 7) : Nat) : ℝ) ≤ ((2 ^ 52 : Nat) : ℝ) := by exact_mod_cast hit
    have h2 := mul_le_mul_of_nonneg_right h1 (p_pos (-52)).le
    have h3 : ((2 ^ 52 : Nat) : ℝ) * 2 ^ (-52 : Int) = 1 := by norm_num
    rw [h3] at h2
    have h4 := mul_le_mul_of_nonneg_right h2 hgX
    rw [herr]
    push_cast at h4 ⊢
    linarith
  have hη0 : 0 ≤ err := by
    have := p_pos (-52)
    rw [herr]
    positivity
  have hg32 : ((N : ℝ) + 1) * X ≤ 2 ^ (400 : Int) := by
    have h1 : ((N + 1 : Nat) : ℝ) ≤ 2 ^ (32 : Int) := nat_p (by omega)
    have h2 := mul_le_mul h1 hX2 hX0.le (p_pos _).le
    rw [p_mul] at h2
    push_cast at h2
    exact h2.trans (p_le (by norm_num))
  set B := X + err with hB
  have hB1 : 2 ^ (-400 : Int) ≤ B := hX1.trans (by linarith)
  have hB2 : B ≤ 2 ^ (402 : Int) := by
    refine le_trans ?_ (hg32.trans (p_le (by norm_num)))
    linarith
  set D := 2 * √(n : ℝ) * B with hD
  have hB0 : 0 ≤ B := (p_pos _).le.trans hB1
  have hD0 : 0 ≤ D := by positivity
  have hmet := metricRounds_double hI hbig hcol0 hcol hB1 hB2 hD
  have hD2 : 2 * (2 * D) ≤ maxDouble := by
    have h1 := mul_le_mul (sqrt_n_le hcol) hB2 hB0 (p_pos _).le
    rw [p_mul] at h1
    have h2 : (2 : ℝ) ^ (421 : Int) = 8 * 2 ^ ((16 : Int) + 402) := by
      rw [show (421 : Int) = 3 + (16 + 402) by norm_num, zpow_add₀ (by norm_num) 3]; norm_num
    refine le_trans ?_ ((p_le (show (421 : Int) ≤ 1023 by norm_num)).trans p_le_max)
    rw [hD, h2]
    linarith
  have hgX2 : 8 * ((N : ℝ) * X) ≤ maxDouble := by
    refine le_trans ?_ ((p_le (show (403 : Int) ≤ 1023 by norm_num)).trans p_le_max)
    have h2 : (2 : ℝ) ^ (403 : Int) = 8 * 2 ^ (400 : Int) := by
      rw [show (403 : Int) = 3 + 400 by norm_num, zpow_add₀ (by norm_num) 3]; norm_num
    rw [h2]
    have h400 := p_pos 400
    generalize (2 : ℝ) ^ (400 : Int) = b at *
    nlinarith only [hg32, hgX, hX0, h400]
  have hS : Prune.OSizes fin val X (2 ^ 53) N nt W data :=
    ⟨hn, hnt, hlt, le_trans (by omega) (by norm_num : 4294967296 ≤ 2 ^ 53), hW.ge, fun r hr => by
      rw [hdata r hr]; exact hrows r hr⟩
  have hE : Prune.OErr (2 ^ (-53 : Int)) (2 ^ (-1075 : Int)) maxDouble X (N * X) κ N W maxIters :=
    ⟨by norm_num, hp2, le_rfl, by
        have h1 : (2 : ℝ) ^ (-1075 : Int) ≤ 2 ^ (-53 : Int) * 2 ^ (-400 : Int) := by
          rw [p_mul]; exact p_le (by norm_num)
        have h2 := h1.trans (mul_le_mul_of_nonneg_left hX1 (p_pos (-53)).le)
        have h3 := mul_le_mul_of_nonneg_left h2 (Nat.cast_nonneg (α := ℝ) N)
        linarith, hgX2, rfl, hηle.trans hηG⟩
  have hDR : DistRounds fin val B (anyDist sqrt abs' cosd met) big (metricDist (n := n) met)
      ((n + 4 : Nat) * 2 ^ (-52 : Int)) (metricSlack met) := by
    have h := (dist_double hI hbig hcol cosd hcos).1
    exact ⟨h.big_fin, fun x y hx hy => h.near x y (Kmeans.InBox.mono hx hB2) (Kmeans.InBox.mono hy hB2)⟩
  have hθ : ((maxIters + 2 : Nat) : ℝ) * (((n + 6 : Nat) : ℝ) * 2 ^ (-52 : Int) * D + 2 ^ (-53 : Int) * (2 * (2 * D))) =
      errD := by
    rw [herrD, h53]
    push_cast
    ring
  obtain ⟨res, e, h1, h2, h3, h4⟩ := Prune.run_near hI.rounds hI.le (dist := anyDist sqrt abs' cosd met) (tol := tol)
    hk hmet hD2 (by linarith) (mul_nonneg (gamma_le (m := n + 6) (by omega)).2 hD0) hDR hX0.le
    (add_le_add le_rfl hηle) hS hE hm hc hwf hbox hprev hrow
  rw [hθ] at h4
  refine ⟨res, e, h2, partition_near_data hηle hdata h1, fun h r hr => ?_, ?_⟩
  · obtain ⟨c, w1, w2⟩ := h3 h r hr
    refine ⟨c, w1, ?_⟩
    rw [← hdata r hr]
    exact w2
  · rintro rfl hsm
    obtain ⟨m, tr, q1, q2, q3, q4⟩ := h4 ⟨rfl, fun tr htr => hsm tr (run_data le_rfl hηle hdata htr)⟩
    exact ⟨m, tr, q1, q2, run_data le_rfl hηle hdata q3, q4⟩


/-! ### The call -/

/-- **C114.**  On IEEE doubles, for every initialisation, every number of threads, all interleavings and all draws of
the engine, a pruned call with at least two clusters and the Euclidean, squared Euclidean or taxicab metric never
fails, and returns what it owes up to rounding: a partition whose centroids are the means of its clusters, and, under
the Euclidean metric and if the first moves are small, Lloyd's algorithm.  Without that condition it is false in exact
arithmetic already (`C84_violated`). -/
theorem C114_call_partial [DecidableLT R] [DecidableLE R] (hI : IeeeDouble fin val sqrt abs')
    (hbig : fin big ∧ val big = maxDouble) (cosd : Row R n → Row R n → R) {c : Codec R B} (hc : CodecOk c)
    (rng : Rng R S k) (sched1 sched2 : Nat → List Nat) (a : Call R B) (m : Nat → Nat → R)
    (given : Option (Nat → Nat → R)) (hk : 0 < k) (hcol : 0 < n) (hcol' : n ≤ 4294967296) (hn : 0 < a.nrow)
    (hnt : 0 < a.nthreads) (hlt : a.nrow + 8192 < 4294967296) (hsz : a.nrow * n * c.size < 9223372036854775808)
    (hst : Holds c a.source m a.nrow n) (hgiven : a.centers = given.map fun g => rowsFrom g n 0 k)
    (hrng : RngFin fin val rng a.nrow)
    (hc1 : ∀ i, Complete (effThreads a.nthreads a.nrow) (Prune.taskRows a.nrow a.nthreads) (sched1 i))
    (hc2 : ∀ i, Complete (effThreads a.nthreads a.nrow) (Prune.taskRows a.nrow a.nthreads) (sched2 i))
    (T : Nat) (hT : T = min a.nthreads a.nrow)
    (hit : a.maxIters * (4 * (a.nrow / T + a.nrow % T + T) + 7) ≤ 2 ^ 52)
    (X : ℝ) (hX1 : 2 ^ (-400 : Int) ≤ X) (hX2 : X ≤ 2 ^ (368 : Int))
    (hm : ∀ r j, r < a.nrow → j < n → fin (m r j) ∧ |val (m r j)| ≤ X)
    (hg : ∀ g, given = some g → ∀ r j, r < k → j < n → fin (g r j) ∧ |val (g r j)| ≤ X) :
    ((a.init ∉ ["random", "forgy", "kmeanspp", "none"] ∨ a.dist ∉ ["eucl", "cos", "taxi", "sqeucl"]) →
      kmeansPruned (anyDist sqrt abs' cosd) big c rng sched1 sched2 a = .error .throws) ∧
    ∀ it met, getInit a.init = .ok it → getDist a.dist = .ok met →
      (k = 1 → kmeansPruned (anyDist sqrt abs' cosd) big c rng sched1 sched2 a = .error .assertFail) ∧
      (1 < k → met ≠ .cos → ∃ res, kmeansPruned (anyDist sqrt abs' cosd) big c rng sched1 sched2 a = .ok res ∧
        NearDeliversPruned fin val it met (matRows m) a.nrow T rng (givenCents given) a.tol a.maxIters X res) := by
  constructor
  · intro h
    unfold kmeansPruned
    by_cases h1 : a.init ∈ ["random", "forgy", "kmeanspp", "none"]
    · obtain ⟨it, e⟩ := (names_ok a.init a.dist).2.2 h1
      rw [e]
      dsimp only
      rw [(names_ok a.init a.dist).2.1 (h.resolve_left fun hh => hh h1)]
    · rw [(names_ok a.init a.dist).1 h1]
  intro it met hi hd
  refine ⟨fun h1 => ?_, fun hk1 hcos => ?_⟩
  · obtain ⟨c0, e0, -⟩ := construct_ok (k := k) (n := n) hk it given
    unfold kmeansPruned constructPruned DistMatrix.create
    rw [hi]
    dsimp only
    rw [hd]
    dsimp only
    rw [hgiven, e0]
    dsimp only
    rw [if_neg (by omega)]
  have hTe : T = effThreads a.nthreads a.nrow := hT
  obtain ⟨ws, el, hrows⟩ := load_ok hc m a hn hnt hcol (by omega) hsz hst
  have hbox : ∀ r, r < a.nrow → InBox (n := n) fin val X (matRows m r) := fun r hr j => hm r j.val hr j.isLt
  have hgbox : ∀ g, givenCents (k := k) (n := n) given = some g → ∀ c, InBox fin val X (g c) := by
    intro g h c j
    cases given with
    | none => cases h
    | some g' =>
      rw [← Option.some.inj h]
      exact hg g' rfl c.val j.val c.isLt j.isLt
  have hX0 : 0 < X := (p_pos _).trans_le hX1
  have hgN : ((a.nrow + 1 : Nat) : ℝ) * X ≤ 2 ^ (400 : Int) := by
    have h1 : ((a.nrow + 1 : Nat) : ℝ) ≤ 2 ^ (32 : Int) := nat_p (by omega)
    have h2 := mul_le_mul h1 hX2 hX0.le (p_pos _).le
    rw [p_mul] at h2
    exact h2.trans (p_le (by norm_num))
  have hsmall : (2 : ℝ) ^ (-1075 : Int) ≤ 2 ^ (-52 : Int) * X := by
    have h1 : (2 : ℝ) ^ (-1075 : Int) ≤ 2 ^ (-52 : Int) * 2 ^ (-400 : Int) := by
      rw [p_mul]; exact p_le (by norm_num)
    exact h1.trans (mul_le_mul_of_nonneg_left hX1 (p_pos (-52)).le)
  have hN1 : (1 : ℝ) ≤ a.nrow := by exact_mod_cast (show 1 ≤ a.nrow by omega)
  have hwX : 0 < (2 : ℝ) ^ (-52 : Int) * X := mul_pos (p_pos _) hX0
  have hcall : ∀ s0 s res,
      constructPruned big it (given.map fun g => rowsFrom g n 0 k) = .ok s0 →
      runInitPruned (anyDist sqrt abs' cosd met) big rng (rowsIn ws a.nrow a.nthreads) a.nrow a.nthreads sched1 it s0
        = .ok s →
      Prune.run (anyDist sqrt abs' cosd met) (anyDist sqrt abs' cosd .eucl) big (rowsIn ws a.nrow a.nthreads) a.nrow
        a.nthreads a.tol a.maxIters sched2 s = .ok res →
      kmeansPruned (anyDist sqrt abs' cosd) big c rng sched1 sched2 a = finish it a.nrow res := by
    intro s0 s res e0 es er
    unfold kmeansPruned
    rw [hi]
    dsimp only
    rw [hd]
    dsimp only
    rw [hgiven, e0]
    dsimp only
    rw [el]
    dsimp only
    rw [es]
    dsimp only
    rw [er]
  rcases Nat.eq_zero_or_pos a.maxIters with h0 | hpos
  · obtain ⟨s0, s, e0, es, -, -, hz, -, -, hkp, -, hstart⟩ := runInitPruned_near hI hbig cosd hcos rng
      (rowsIn ws a.nrow a.nthreads) (matRows m) a.nrow a.nthreads hrows hk1 hn hnt hlt hcol' hX0.le
      (E := ((a.nrow + 1 : Nat) : ℝ) * 2 ^ (-52 : Int) * X + 2 ^ (-1075 : Int)) (by
        refine le_trans ?_ hgN
        have e : ((a.nrow + 1 : Nat) : ℝ) * 2 ^ (-52 : Int) * X = ((a.nrow + 1 : Nat) : ℝ) * (2 ^ (-52 : Int) * X) := by ring
        have h2 : (2 : ℝ) ^ (-52 : Int) * X ≤ X / 4 := by
          have : (2 : ℝ) ^ (-52 : Int) ≤ 1 / 4 := by norm_num
          have := mul_le_mul_of_nonneg_right this hX0.le
          linarith
        rw [e]
        have h3 : (((a.nrow + 1 : Nat) : ℝ)) * (2 ^ (-52 : Int) * X) ≤ ((a.nrow + 1 : Nat) : ℝ) * (X / 4) :=
          mul_le_mul_of_nonneg_left h2 (Nat.cast_nonneg _)
        push_cast at h3 ⊢
        generalize (2 : ℝ) ^ (-52 : Int) * X = w at *
        generalize (2 : ℝ) ^ (-1075 : Int) = w' at *
        have h4 : 1 * X ≤ (a.nrow : ℝ) * X := mul_le_mul_of_nonneg_right hN1 hX0.le
        generalize (a.nrow : ℝ) = N at *
        nlinarith only [h3, h4, h2, hsmall, hX0])
      le_rfl hbox hrng sched1 hc1 it given hgbox T _ hTe rfl
    have er : Prune.run (anyDist sqrt abs' cosd met) (anyDist sqrt abs' cosd .eucl) big (rowsIn ws a.nrow a.nthreads) a.nrow
        a.nthreads a.tol a.maxIters sched2 s = .ok ⟨0, false, { s with changed := 0 }⟩ := by
      unfold Prune.run
      rw [if_neg (by omega)]
    by_cases hpp : it = .plusplus
    · obtain ⟨out, et, hout⟩ := tally_ok s.slots (List.range a.nrow) (fun r hr => by
        obtain ⟨c, h, _⟩ := hkp hpp r (List.mem_range.1 hr)
        exact ⟨c, h⟩) s.counts
      refine ⟨⟨0, false, { s with changed := 0, counts := out }⟩, ?_, s.cltrs.means, hstart,
        fun _ => ⟨rfl, rfl, fun _ => ⟨hkp hpp, fun c => ?_⟩⟩, fun h => by omega, fun h => by omega, fun h => by omega⟩
      · rw [hcall _ _ _ e0 es er]
        unfold finish
        rw [if_pos ⟨rfl, hpp⟩]
        dsimp only
        rw [et]
      · dsimp only
        rw [hout, hz, zero_add, filter_range_count a.nrow (fun r => (s.slots r).assign) c]
    · refine ⟨⟨0, false, { s with changed := 0 }⟩, ?_, s.cltrs.means, hstart,
        fun _ => ⟨rfl, rfl, fun h => absurd h hpp⟩, fun h => by omega, fun h => by omega, fun h => by omega⟩
      rw [hcall _ _ _ e0 es er]
      exact if_neg (by rintro ⟨-, h⟩; exact hpp h)
  · obtain ⟨W, hW⟩ : ∃ W, W = a.nrow / T + a.nrow % T + T := ⟨_, rfl⟩
    rw [← hW] at hit
    obtain ⟨err, herr⟩ : ∃ err : ℝ, err = (a.maxIters : ℝ) * ((4 * W + 7 : Nat) * 2 ^ (-52 : Int) * (a.nrow * X)) :=
      ⟨_, rfl⟩
    have hηG : err ≤ a.nrow * X := by
      have h1 : ((a.maxIters * (4 * W + 7) : Nat) : ℝ) ≤ ((2 ^ 52 : Nat) : ℝ) := by exact_mod_cast hit
      have h2 := mul_le_mul_of_nonneg_right h1 (p_pos (-52)).le
      have h3 : ((2 ^ 52 : Nat) : ℝ) * 2 ^ (-52 : Int) = 1 := by norm_num
      rw [h3] at h2
      have h4 := mul_le_mul_of_nonneg_right h2 (show (0 : ℝ) ≤ a.nrow * X by positivity)
      rw [herr]
      push_cast at h4 ⊢
      linarith
    have hE : ((a.nrow + 1 : Nat) : ℝ) * 2 ^ (-52 : Int) * X + 2 ^ (-1075 : Int) ≤ err := by
      rw [herr]
      have h1 : (3 : ℝ) ≤ (a.maxIters : ℝ) * ((4 * W + 7 : Nat) : ℝ) := by
        have : 3 ≤ a.maxIters * (4 * W + 7) := le_trans (by omega) (Nat.le_mul_of_pos_left _ hpos)
        exact_mod_cast this
      have e : (a.maxIters : ℝ) * (((4 * W + 7 : Nat) : ℝ) * 2 ^ (-52 : Int) * (a.nrow * X)) =
          (a.maxIters : ℝ) * ((4 * W + 7 : Nat) : ℝ) * (a.nrow * (2 ^ (-52 : Int) * X)) := by ring
      rw [e]
      have h2 := mul_le_mul_of_nonneg_right h1 (show (0 : ℝ) ≤ a.nrow * (2 ^ (-52 : Int) * X) by positivity)
      refine le_trans ?_ h2
      have h3 : 1 * ((2 : ℝ) ^ (-52 : Int) * X) ≤ (a.nrow : ℝ) * (2 ^ (-52 : Int) * X) :=
        mul_le_mul_of_nonneg_right hN1 hwX.le
      have e2 : ((a.nrow + 1 : Nat) : ℝ) * 2 ^ (-52 : Int) * X =
        (a.nrow : ℝ) * (2 ^ (-52 : Int) * X) + 2 ^ (-52 : Int) * X := by push_cast; ring
      rw [e2]
      linarith
    obtain ⟨s0, s, e0, es, hwf, hprev, -, hb, hrow, -, -, hstart⟩ := runInitPruned_near hI hbig cosd hcos rng
      (rowsIn ws a.nrow a.nthreads) (matRows m) a.nrow a.nthreads hrows hk1 hn hnt hlt hcol' hX0.le
      (E := err) (by
        refine le_trans ?_ hgN
        push_cast
        linarith) hE hbox hrng sched1 hc1 it given hgbox T _ hTe rfl
    obtain ⟨res, er, h1, h2, h3, h4⟩ := runPruned_double hI hbig cosd hcos hrows hk1 hn hnt hlt hcol hcol' hX1 hX2 hbox
      a.tol hpos sched2 hc2 W (by rw [hW, hTe]) hit err _ herr rfl s hwf hb hprev hrow
    refine ⟨res, ?_, s.cltrs.means, hstart, fun h => by omega, fun _ => ?_, fun h => h3 h, fun _ he hs => ?_⟩
    · rw [hcall _ _ _ e0 es er]
      exact if_neg (by rintro ⟨h, -⟩; omega)
    · rw [← hW, ← herr]
      exact h2
    · rw [← hW, ← herr] at hs ⊢
      exact h4 he hs

/-! ### Separated data -/

omit [Zero R] [Add R] [Sub R] [Mul R] [IntCast R] [LT R] [Div R] [NatCast R] [LE R] in
/-- On separated data whose exact first moves are small by a margin, the first moves are small. -/
theorem small_of_separated {errD err X : ℝ} {N : Nat} {data : Nat → Fin n → R} {c0 : Fin k → Fin n → R}
    (he : 0 ≤ err) (hX0 : 0 ≤ X) (hX : ∀ r, r < N → ∀ j, |val (data r j)| ≤ X)
    {tr : Nat → Snap ℝ k n} (hl : LloydTrace (metricDist .eucl) N (fun r j => val (data r j)) (fun c j => val (c0 c j)) tr)
    (hs : Separated (metricDist .eucl) 0 errD (√n * err) N (fun r j => val (data r j)) (tr 0) (tr 1))
    (hmv : ∀ c, (∀ j, val (c0 c j) = 0) ∨
      metricDist .eucl (fun j => val (c0 c j)) ((tr 1).cents c) + 2 * (√n * err) ≤
        metricDist .eucl ((tr 1).cents c) fun _ => 0) :
    NearSmallFirstMoves (metricDist .eucl) errD err N (fun r j => val (data r j)) (fun c j => val (c0 c j)) := by
  intro tr' hn c
  have hsymm : ∀ x y : Fin n → ℝ, metricDist .eucl x y = metricDist .eucl y x := by
    intro x y
    have : sqDistance x y = sqDistance y x := Finset.sum_congr rfl fun j _ => by ring
    show √(sqDistance x y) = √(sqDistance y x)
    rw [this]
  rcases hmv c with h | h
  · have e : (fun j => val (c0 c j)) = fun _ => (0 : ℝ) := funext h
    dsimp only
    rw [e]
    exact (hsymm _ _).le
  · have hf := (near_follows (Λ := √n * err) zero_le_one le_rfl le_rfl he hX0 hX
      (fun i _ r _ c h => by rw [zero_mul, zero_add] at h; exact eucl_lip h) hn hl
      (fun i hi => by obtain rfl : i = 0 := by omega
                      exact hs) 1 le_rfl).2 c
    rw [zero_mul, zero_add] at hf
    have h1 := (abs_le.1 (eucl_lip (x := fun j => val (c0 c j)) hf)).2
    have h2 := (abs_le.1 (eucl_lip (x := fun _ => 0) hf)).1
    have h3 : ∀ x y : Fin n → ℝ, metricDist .eucl x y = √(sqDistance x y) := fun _ _ => rfl
    rw [hsymm _ fun _ => 0, h3, h3] at h ⊢
    linarith

omit [Zero R] [Add R] [Sub R] [Mul R] [IntCast R] [LT R] in
/-- **C114, separated data.**  If the exact iterations from that start are separated by more than the errors, and no
centroid other than those at the origin moves, in the first of them, nearly as far as it is away from the origin then,
the call returns exactly the clusters of Lloyd's algorithm. -/
theorem C114_separated_partial [Zero R] [DecidableLE R] {it : InitT} {data : Nat → Fin n → R} {N T : Nat}
    {rng : Rng R S k} {given : Option (Fin k → Fin n → R)} {tol : R} {maxIters : Nat} {X : ℝ}
    {res : Prune.Result R R k n}
    (h : NearDeliversPruned fin val it .eucl data N T rng given tol maxIters X res) (hm : 0 < maxIters)
    (hX0 : 0 ≤ X) (hX : ∀ r, r < N → ∀ j, |val (data r j)| ≤ X) (err errD : ℝ)
    (herr : err = (maxIters : ℝ) * ((4 * (N / T + N % T + T) + 7 : Nat) * 2 ^ (-52 : Int) * (N * X)))
    (herrD : errD = ((maxIters + 2 : Nat) : ℝ) * ((n + 8 : Nat) * 2 ^ (-52 : Int) * (2 * √n * (X + err)))) :
    ∃ c0, NearStartsAt fin val it (metricDist .eucl) ((n + 4 : Nat) * 2 ^ (-52 : Int)) (metricSlack .eucl)
        ((N + 1 : Nat) * 2 ^ (-52 : Int)) (2 ^ (-1075 : Int)) ((N / T + N % T + T + N + 2 : Nat) * 2 ^ (-52 : Int))
        (2 ^ (-1073 : Int)) data N rng given c0 ∧
      ∀ tr, LloydTrace (metricDist .eucl) N (fun r j => val (data r j)) (fun c j => val (c0 c j)) tr →
        (∀ i, i < maxIters → Separated (metricDist .eucl) 0 errD (√n * err) N (fun r j => val (data r j)) (tr i)
          (tr (i + 1))) →
        (∀ c, (∀ j, val (c0 c j) = 0) ∨
          metricDist .eucl (fun j => val (c0 c j)) ((tr 1).cents c) + 2 * (√n * err) ≤
            metricDist .eucl ((tr 1).cents c) fun _ => 0) →
        SameClustersPruned val err N tol maxIters tr res.iters (fun r => (res.state.slots r).assign) res.state.counts
          res.state.cltrs.means := by
  obtain ⟨c0, h1, _, _, _, h5⟩ := h
  have hη0 : 0 ≤ err := by
    have := p_pos (-52)
    rw [herr]
    positivity
  refine ⟨c0, h1, fun tr hl hs hmv => ?_⟩
  have h5' := h5 hm rfl
  rw [← herr, ← herrD] at h5'
  obtain ⟨m, tr', q1, q2, q3, q4, q5, q6, q7, q8⟩ := h5' (small_of_separated hη0 hX0 hX hl (hs 0 hm) hmv)
  have hf := near_follows (Λ := √n * err) zero_le_one le_rfl le_rfl hη0 hX0 hX
    (fun i _ r _ c h => by rw [zero_mul, zero_add] at h; exact eucl_lip h) q3 hl fun i hi => hs i (by omega)
  have hch : ∀ i, i ≤ m → numChanged N (tr' (i - 1)).assign (tr' i).assign =
      numChanged N (tr (i - 1)).assign (tr i).assign := fun i hi =>
    NearLloyd.numChanged_congr (hf (i - 1) (by omega)).1 (hf i hi).1
  have hassign : ∀ r, r < N → (res.state.slots r).assign = (tr m).assign r := by
    intro r hr
    have := q6 r hr
    dsimp only at this
    rw [this, (hf m le_rfl).1 r hr]
  refine ⟨m, q1, q2, fun i hi hi' => ?_, ?_, hassign, fun c => ?_, fun c j => ?_⟩
  · have := q4 i hi hi'
    dsimp only at this ⊢
    rw [hch i (by omega)] at this
    exact this
  · dsimp only at q5 ⊢
    rw [hch m le_rfl] at q5
    exact q5
  · rw [q7 c, Kmeans.count_congr hassign]
  · rw [(q8 c j).2]
    have := (hf m le_rfl).2 c j
    rw [zero_mul, zero_add] at this
    exact this

omit [Add R] [Sub R] [Mul R] [IntCast R] [LT R] in
/-- **C114, pruned and unpruned.**  The pruned call and the unpruned one (C110), each with its own number of threads,
from the same given centres on data that is separated as in `C114_separated_partial` and `C110_separated`: unless the
unpruned one stops after the very first iteration, in which every row changes, they report the same number of
iterations and return the same assignment and the same sizes; their centroids differ by the errors only. -/
theorem C114_same_as_unpruned_partial [DecidableLE R] {data : Nat → Fin n → R} {N T T' : Nat} {rng rng' : Rng R S k}
    {g : Fin k → Fin n → R} {tol : R} {maxIters : Nat} {X : ℝ} {res : Prune.Result R R k n}
    {res' : Kmeans.Result R k n}
    (h : NearDeliversPruned fin val .none .eucl data N T rng (some g) tol maxIters X res)
    (h' : NearDelivers fin val .none .eucl data N T' rng' (some g) tol maxIters res')
    (hm : 0 < maxIters) (hcol : n ≤ 4294967296) (hn : 0 < N) (hT' : 0 < T') (hTN' : T' ≤ N) (hlt : N < 4294967296)
    (hX0 : 0 ≤ X) (hX : ∀ r, r < N → ∀ j, |val (data r j)| ≤ X) (htol : ¬ (N : R) / (N : R) ≤ tol)
    (err errD δ : ℝ)
    (herr : err = (maxIters : ℝ) * ((4 * (N / T + N % T + T) + 7 : Nat) * 2 ^ (-52 : Int) * (N * X)))
    (herrD : errD = ((maxIters + 2 : Nat) : ℝ) * ((n + 8 : Nat) * 2 ^ (-52 : Int) * (2 * √n * (X + err))))
    (hδ : δ = (N / T' + N % T' + T' + 1 : Nat) * 2 ^ (-52 : Int) * X + 2 ^ (-1075 : Int))
    (tr : Nat → Snap ℝ k n)
    (hl : LloydTrace (metricDist .eucl) N (fun r j => val (data r j)) (fun c j => val (g c j)) tr)
    (hs : ∀ i, i < maxIters → Separated (metricDist .eucl) 0 errD (√n * err) N (fun r j => val (data r j)) (tr i)
      (tr (i + 1)))
    (hs' : ∀ i, i < maxIters → Separated (metricDist .eucl) ((n + 4 : Nat) * 2 ^ (-52 : Int)) (metricSlack .eucl) (√n * δ)
      N (fun r j => val (data r j)) (tr i) (tr (i + 1)))
    (hmv : ∀ c, (∀ j, val (g c j) = 0) ∨
      metricDist .eucl (fun j => val (g c j)) ((tr 1).cents c) + 2 * (√n * err) ≤
        metricDist .eucl ((tr 1).cents c) fun _ => 0) :
    res.iters = res'.iters ∧ (∀ r, r < N → (res.state.slots r).assign = res'.state.assign r) ∧
      (∀ c, res.state.counts c = res'.state.counts c) ∧
      ∀ c j, |val (res.state.cltrs.means c j) - val (res'.state.cltrs.means c j)| ≤ err + δ := by
  obtain ⟨c0, h1, h2⟩ := C114_separated_partial h hm hX0 hX err errD herr herrD
  obtain ⟨c0', h1', h2'⟩ := C110_separated (.inl rfl) hcol hn hT' hTN' hlt h' hm X hX0 hX δ hδ
  have e := h1.1 g rfl
  have e' := h1'.1 g rfl
  subst e
  subst e'
  obtain ⟨m, a1, a2, a3, a4, a5, a6, a7⟩ := h2 tr hl hs hmv
  obtain ⟨m', b1, b2, b3, b4, b5, b6, b7⟩ := h2' tr hl (by rw [if_pos rfl]; exact hs')
  have hone : ¬ (numChanged N (tr (1 - 1)).assign (tr 1).assign = 0 ∨
      ((numChanged N (tr (1 - 1)).assign (tr 1).assign : Nat) : R) / (N : R) ≤ tol) := by
    have : numChanged N (tr (1 - 1)).assign (tr 1).assign = N := by
      unfold numChanged
      rw [Finset.filter_true_of_mem, Finset.card_range]
      intro r hr
      obtain ⟨c, hc, _⟩ := (hl.step 0).assigned r (Finset.mem_range.1 hr)
      rw [hc]
      simp [hl.unassigned]
    rw [this]
    rintro (h | h)
    · omega
    · exact htol h
  have hmm : m = m' := by
    rcases Nat.lt_trichotomy m m' with hlt | heq | hgt
    · rcases a4 with ⟨w1, w2, _⟩ | ⟨_, w, _⟩
      · exact absurd w2 (b3 m a1 hlt)
      · omega
    · exact heq
    · rcases b4 with ⟨w, _⟩ | ⟨_, w, _⟩
      · by_cases h2 : 2 ≤ m'
        · exact absurd w (a3 m' h2 hgt)
        · obtain rfl : m' = 1 := by omega
          exact absurd w hone
      · omega
  subst hmm
  refine ⟨?_, fun r hr => by rw [b5 r hr]; exact a5 r hr, fun c => by rw [a6 c, b6 c], fun c j => ?_⟩
  · rcases a4 with ⟨w1, w2, w3⟩ | ⟨w1, w2, w3⟩
    · rcases b4 with ⟨_, v⟩ | ⟨v, _⟩
      · omega
      · exact absurd w2 v
    · rcases b4 with ⟨v, _⟩ | ⟨_, _, v⟩
      · by_cases h2 : 2 ≤ m
        · exact absurd v (w1 h2)
        · obtain rfl : m = 1 := by omega
          exact absurd v hone
      · omega
  · have w1 := abs_le.1 (a7 c j)
    have w2 := abs_le.1 (b7 c j)
    rw [abs_le]
    constructor <;> linarith [w1.1, w1.2, w2.1, w2.2]

/-! ### The program -/

/-- **C114, the program.**  What `knori` without `-P` does on doubles: `none` without a file of centres is refused, and
a data file whose size does not fit; otherwise a file of centres replaces the initialisation, and with at least two
clusters the program returns what the pruned call owes. -/
theorem C114_knori_partial [DecidableLT R] [DecidableLE R] (hI : IeeeDouble fin val sqrt abs')
    (hbig : fin big ∧ val big = maxDouble) (cosd : Row R n → Row R n → R) {c : Codec R B} (hc : CodecOk c)
    (rng : Rng R S k) (sched1 sched2 : Nat → List Nat) (datafn : List B) (centersfn : Option (List B))
    (nrow maxIters nthreads : Nat) (init : String) (tol : R) (distType : String)
    (hk : 0 < k) (hcol : 0 < n) (hcol' : n ≤ 4294967296) (hn : 0 < nrow) (hnt : 0 < nthreads)
    (hlt : nrow + 8192 < 4294967296)
    (hsz : nrow * n * c.size < 9223372036854775808) (hszk : k * n * c.size < 18446744073709551616)
    (hrng : RngFin fin val rng nrow)
    (hc1 : ∀ i, Complete (effThreads nthreads nrow) (Prune.taskRows nrow nthreads) (sched1 i))
    (hc2 : ∀ i, Complete (effThreads nthreads nrow) (Prune.taskRows nrow nthreads) (sched2 i))
    (T : Nat) (hT : T = min nthreads nrow)
    (hit : maxIters * (4 * (nrow / T + nrow % T + T) + 7) ≤ 2 ^ 52)
    (X : ℝ) (hX1 : 2 ^ (-400 : Int) ≤ X) (hX2 : X ≤ 2 ^ (368 : Int)) :
    let prog := knoriPruned (n := n) (anyDist sqrt abs' cosd) big c rng sched1 sched2 datafn centersfn nrow maxIters
      nthreads init tol distType
    (centersfn = none → init = "none" → prog = .error .assertFail) ∧
    (¬ (centersfn = none ∧ init = "none") → datafn.length ≠ nrow * n * c.size → prog = .error .throws) ∧
    ∀ (m : Nat → Nat → R) (given : Option (Nat → Nat → R)) it met,
      Stores c datafn m nrow n → centersfn = given.map (fun g => (rowsFrom g n 0 k).flatMap c.enc) →
      (∀ r j, r < nrow → j < n → fin (m r j) ∧ |val (m r j)| ≤ X) →
      (∀ g, given = some g → ∀ r j, r < k → j < n → fin (g r j) ∧ |val (g r j)| ≤ X) →
      (given.isSome → it = .none) → (given = none → getInit init = .ok it ∧ it ≠ .none) →
      getDist distType = .ok met →
      (k = 1 → prog = .error .assertFail) ∧
      (1 < k → met ≠ .cos → ∃ res : Prune.Result R R k n, prog = .ok res ∧
        NearDeliversPruned fin val it met (matRows m) nrow T rng (givenCents given) tol maxIters X res) := by
  have hu : u64 (u64 (c.size * nrow) * n) = nrow * n * c.size := by
    have h0 : c.size * nrow * n = nrow * n * c.size := by ring
    rw [u64_mul (by omega), h0]
  dsimp only
  refine ⟨?_, ?_, ?_⟩
  · rintro rfl rfl
    unfold knoriPruned
    simp
  · intro h hne
    unfold knoriPruned
    dsimp only
    rw [if_neg, if_pos (by rw [hu]; exact hne)]
    rintro ⟨h2, h3⟩
    have h4 : centersfn = none := by simpa using h3
    subst h4
    exact h ⟨rfl, by simpa using h2⟩
  · intro m given it met hst hcf hm hg hs hnone hd
    have hlen : datafn.length = nrow * n * c.size := by
      unfold Stores at hst
      rw [hst, length_enc hc, length_rowsFrom]
    unfold knoriPruned
    dsimp only
    cases given with
    | none =>
      rw [Option.map_none] at hcf
      subst hcf
      obtain ⟨hi, hit'⟩ := hnone rfl
      have hne : init ≠ "none" := by
        rintro rfl
        exact hit' (Except.ok.inj hi).symm
      rw [if_neg (by simp [hne]), if_neg (by rw [hu]; simp [hlen])]
      simp only [Option.isSome_none, Bool.false_eq_true, if_false]
      exact (C114_call_partial hI hbig cosd hc rng sched1 sched2
        ⟨.file datafn, nrow, maxIters, nthreads, none, init, tol, distType⟩ m none hk hcol hcol' hn hnt hlt hsz hst rfl hrng
        hc1 hc2 T hT hit X hX1 hX2 hm hg).2 it met hi hd
    | some g =>
      rw [Option.map_some] at hcf
      subst hcf
      obtain rfl := hs rfl
      rw [if_neg (by simp), if_neg (by rw [hu]; simp [hlen])]
      obtain ⟨y, ey⟩ := read_stored (n := n) hc g k (Nat.mul_pos hk hcol) hszk rfl
      dsimp only
      rw [ey]
      simp only [Option.isSome_some, if_true]
      exact (C114_call_partial hI hbig cosd hc rng sched1 sched2
        ⟨.file datafn, nrow, maxIters, nthreads, some (rowsFrom g n 0 k), "none", tol, distType⟩ m (some g) hk hcol hcol' hn
        hnt hlt hsz hst rfl hrng hc1 hc2 T hT hit X hX1 hX2 hm hg).2 .none met rfl hd

/-! ### Calls that meet the hypotheses -/

theorem dbl_budget {m : Nat} (h : m ≤ 1000) : m * (4 * (4 / 2 + 4 % 2 + 2) + 7) ≤ 2 ^ 52 := by
  have : m * 23 ≤ 2 ^ 52 := by omega
  simpa using this

/-- Every initialisation and every treated metric on the four rows 0, 1, 2, 3, with two threads. -/
theorem dbl_call_pruned (init dist : String) (maxIters : Nat) (hmx : maxIters ≤ 1000) (it : InitT) (met : Dist.Metric)
    (hi : getInit init = .ok it) (hd : getDist dist = .ok met) (hcos : met ≠ .cos) :
    ∃ res, kmeansPruned (n := 1) (anyDist (fun x => Dbl.rnd (√x.v)) (fun x => ⟨|x.v|⟩) fun _ _ => 0) ⟨maxDouble⟩
        (oneCell Dbl) dblRng Kmeans.demoSched Kmeans.demoSched (dblCall init dist maxIters) = .ok res ∧
      NearDeliversPruned Dbl.Fin' Dbl.v it met (matRows fun r _ => ⟨(r : ℝ)⟩) 4 2 dblRng none ⟨0⟩ maxIters 16 res := by
  have hx1 : (2 : ℝ) ^ (-400 : Int) ≤ 16 := by
    have : (2 : ℝ) ^ (-400 : Int) ≤ 2 ^ (4 : Int) := p_le (by norm_num)
    exact this.trans (by norm_num)
  have hx2 : (16 : ℝ) ≤ 2 ^ (368 : Int) := by
    have : (2 : ℝ) ^ (4 : Int) ≤ 2 ^ (368 : Int) := p_le (by norm_num)
    exact le_trans (by norm_num) this
  have hrow : ∀ r j : Nat, r < 4 → j < 1 → Dbl.Fin' ⟨(r : ℝ)⟩ ∧ |((r : Nat) : ℝ)| ≤ 16 := by
    intro r _ hr _
    refine ⟨(dbl_small r (by omega)).1, ?_⟩
    have h4 : r ≤ 16 := by omega
    have : ((r : Nat) : ℝ) ≤ ((16 : Nat) : ℝ) := by exact_mod_cast h4
    simpa using this
  have hh : Holds (oneCell Dbl) (dblCall init dist maxIters).source (fun r _ => ⟨(r : ℝ)⟩) 4 1 := by
    simp [Holds, dblCall, Stores, oneCell, rowsFrom, rowOf, List.range', List.range_succ]
  have hit : (dblCall init dist maxIters).maxIters * (4 * ((dblCall init dist maxIters).nrow / 2 +
      (dblCall init dist maxIters).nrow % 2 + 2) + 7) ≤ 2 ^ 52 := by
    have e1 : (dblCall init dist maxIters).maxIters = maxIters := rfl
    have e2 : (dblCall init dist maxIters).nrow = 4 := rfl
    rw [e1, e2]
    exact dbl_budget hmx
  have hlt : (dblCall init dist maxIters).nrow + 8192 < 4294967296 := by
    have e2 : (dblCall init dist maxIters).nrow = 4 := rfl
    rw [e2]
    norm_num
  have h := (C114_call_partial (k := 2) (n := 1) Dbl.ieee dbl_input.big (fun _ _ => 0) (oneCell_ok Dbl) dblRng
    Kmeans.demoSched Kmeans.demoSched (dblCall init dist maxIters) (fun r _ => ⟨(r : ℝ)⟩) none (by norm_num) (by norm_num)
    (by norm_num) (by simp [dblCall]) (by simp [dblCall]) hlt (by simp [dblCall, oneCell])
    hh rfl dblRng_fin demoSched_complete demoSched_complete 2 rfl hit 16 hx1 hx2 hrow
    (fun g h => by cases h)).2 it met hi hd
  exact h.2 (by norm_num) hcos

/-- k-means++, which leaves distances in the upper bounds of the rows, with the Euclidean metric. -/
example : ∃ res, kmeansPruned (n := 1) (anyDist (fun x => Dbl.rnd (√x.v)) (fun x => ⟨|x.v|⟩) fun _ _ => 0) ⟨maxDouble⟩
      (oneCell Dbl) dblRng Kmeans.demoSched Kmeans.demoSched (dblCall "kmeanspp" "eucl" 5) = .ok res ∧
    NearDeliversPruned Dbl.Fin' Dbl.v .plusplus .eucl (matRows fun r _ => ⟨(r : ℝ)⟩) 4 2 dblRng none ⟨0⟩ 5 16 res :=
  dbl_call_pruned "kmeanspp" "eucl" 5 (by norm_num) .plusplus .eucl rfl rfl (by decide)

/-- The errors of five iterations on four rows no larger than 16 with two threads. -/
noncomputable def sepErr : ℝ := (5 : Nat) * ((4 * (4 / 2 + 4 % 2 + 2) + 7 : Nat) * 2 ^ (-52 : Int) * ((4 : Nat) * 16))

noncomputable def sepErrD : ℝ :=
  ((5 + 2 : Nat) : ℝ) * ((1 + 8 : Nat) * 2 ^ (-52 : Int) * (2 * √(1 : Nat) * (16 + sepErr)))

theorem sepErr_le : 0 ≤ sepErr ∧ sepErr ≤ 1 / 1000 ∧ 0 ≤ sepErrD ∧ sepErrD ≤ 1 / 1000 := by
  have h : 0 ≤ sepErr ∧ sepErr ≤ 1 / 1000 := by
    unfold sepErr
    constructor <;> norm_num
  refine ⟨h.1, h.2, ?_⟩
  obtain ⟨h1, h2⟩ := h
  unfold sepErrD
  generalize sepErr = e at *
  simp only [Nat.cast_one, Real.sqrt_one]
  norm_num
  constructor <;> linarith

theorem sep_separated_call (i : Nat) : Separated (metricDist .eucl) 0 sepErrD (√(1 : Nat) * sepErr) 4
    (fun r j => (sepData r j).v) (sepTrace i) (sepTrace (i + 1)) := by
  intro r hr c c' hc hne
  have hd := sep_gap hr hc hne
  obtain ⟨e1, e2, e3, e4⟩ := sepErr_le
  have h : ∀ x y : Fin 1 → ℝ, metricDist .eucl x y = √(sqDistance x y) := fun _ _ => rfl
  rw [h, h]
  generalize sepErr = a at *
  generalize sepErrD = b at *
  simp only [Nat.cast_one, Real.sqrt_one, one_mul, add_zero, sub_zero]
  linarith [hd.1, hd.2]

/-- Centroid 0 starts at the origin, centroid 10 moves by 1/2. -/
theorem sep_moves (c : Fin 2) : (∀ j, (sepInit.cltrs.means c j).v = 0) ∨
    metricDist .eucl (fun j => (sepInit.cltrs.means c j).v) ((sepTrace 1).cents c) + 2 * (√(1 : Nat) * sepErr) ≤
      metricDist .eucl ((sepTrace 1).cents c) fun _ => 0 := by
  obtain ⟨e1, e2, -, -⟩ := sepErr_le
  have h : ∀ x y : Fin 1 → ℝ, metricDist .eucl x y = √(sqDistance x y) := fun _ _ => rfl
  have hc : c = 0 ∨ c = 1 := by omega
  rcases hc with rfl | rfl
  · left
    intro j
    show ((if (0 : Fin 2) = 0 then 0 else 10 : Nat) : ℝ) = 0
    simp
  · right
    have w1 : (fun j => (sepInit.cltrs.means 1 j).v) = fun _ : Fin 1 => (10 : ℝ) := by
      funext j
      show ((if (1 : Fin 2) = 0 then 0 else 10 : Nat) : ℝ) = 10
      simp
    have w2 : (sepTrace 1).cents 1 = fun _ => (21 / 2 : ℝ) := by
      unfold sepTrace
      funext j
      simp
    rw [h, h, w1, w2, sqrt_one, sqrt_one]
    simp only [Nat.cast_one, Real.sqrt_one, one_mul]
    norm_num
    linarith

/-- The default program on the rows 0, 1, 10, 11 with a file of centres 0 and 10, and the exact clusters that it
returns. -/
example (tol : Dbl) : ∃ res,
    knoriPruned (anyDist (fun x => Dbl.rnd (√x.v)) (fun x => ⟨|x.v|⟩) fun _ _ => 0) ⟨maxDouble⟩ (oneCell Dbl) dblRng
      Kmeans.demoSched Kmeans.demoSched ((rowsFrom (fun r _ => (⟨(sepRow r : ℝ)⟩ : Dbl)) 1 0 4).flatMap (oneCell Dbl).enc)
      (some ((rowsFrom (fun r _ => (⟨((if r = 0 then 0 else 10 : Nat) : ℝ)⟩ : Dbl)) 1 0 2).flatMap (oneCell Dbl).enc))
      4 5 2 "kmeanspp" tol "eucl" = .ok res ∧
    SameClustersPruned Dbl.v sepErr 4 tol 5 sepTrace res.iters (fun r => (res.state.slots r).assign) res.state.counts
      res.state.cltrs.means := by
  have h4 : ∀ r, r < 4 → sepRow r ≤ 11 := by
    intro r hr
    have : r = 0 ∨ r = 1 ∨ r = 2 ∨ r = 3 := by omega
    rcases this with rfl | rfl | rfl | rfl <;> decide
  have hle : ∀ r, r < 4 → |((sepRow r : Nat) : ℝ)| ≤ 16 := by
    intro r hr
    have : ((sepRow r : Nat) : ℝ) ≤ ((11 : Nat) : ℝ) := by exact_mod_cast h4 r hr
    rw [abs_of_nonneg (Nat.cast_nonneg _)]
    exact this.trans (by norm_num)
  obtain ⟨res, er, h⟩ := ((C114_knori_partial (k := 2) (n := 1) Dbl.ieee dbl_input.big (fun _ _ => 0) (oneCell_ok Dbl)
    dblRng Kmeans.demoSched Kmeans.demoSched
    ((rowsFrom (fun r _ => (⟨(sepRow r : ℝ)⟩ : Dbl)) 1 0 4).flatMap (oneCell Dbl).enc)
      (some ((rowsFrom (fun r _ => (⟨((if r = 0 then 0 else 10 : Nat) : ℝ)⟩ : Dbl)) 1 0 2).flatMap (oneCell Dbl).enc))
      4 5 2 "kmeanspp" tol "eucl"
    (by decide) (by decide) (by decide) (by decide) (by decide) (by decide) (by decide) (by decide) dblRng_fin
    demoSched_complete demoSched_complete 2 rfl (by norm_num) 16
    ((p_le (by norm_num : (-400 : Int) ≤ (4 : Int))).trans (by norm_num))
    (le_trans (by norm_num) (p_le (by norm_num : (4 : Int) ≤ 368)))).2.2 _
    (some fun r _ => ⟨((if r = 0 then 0 else 10 : Nat) : ℝ)⟩) .none .eucl rfl rfl
    (fun r j hr _ => ⟨(dbl_small (sepRow r) (by have := h4 r hr; omega)).1, hle r hr⟩)
    (fun g h r j _ _ => by
      rw [← Option.some.inj h]
      refine ⟨(dbl_small _ (by split_ifs <;> norm_num)).1, ?_⟩
      dsimp only
      split_ifs <;> norm_num) (fun _ => rfl) (fun h => by cases h) rfl).2 (by norm_num) (by decide)
  refine ⟨res, er, ?_⟩
  obtain ⟨c0, h1, h2⟩ := C114_separated_partial h (by norm_num) (by norm_num) (fun r hr j => hle r hr) sepErr sepErrD rfl
    rfl
  have e0 := h1.1 _ rfl
  subst e0
  have e1 : (fun (c : Fin 2) (_ : Fin 1) => (sepInit.cltrs.means c 0).v) =
      fun c _ => ((if c.val = 0 then 0 else 10 : Nat) : ℝ) := by
    funext c _
    fin_cases c <;> rfl
  refine h2 sepTrace ?_ (fun i _ => sep_separated_call i) fun c => ?_
  · have := sep_lloyd
    exact ⟨this.cents.trans e1, this.unassigned, this.step⟩
  · have w : (fun j : Fin 1 => (sepInit.cltrs.means c j).v) = fun _ => ((if c.val = 0 then 0 else 10 : Nat) : ℝ) := by
      fin_cases c <;> rfl
    have := sep_moves c
    rw [w] at this
    rcases this with h | h
    · left
      intro j
      have := h j
      rw [congrFun w j] at this
      exact this
    · exact .inr h

/-- Whatever a pruned call and an unpruned call owe on these rows from these centres, they return the same clusters. -/
example (res : Prune.Result Dbl Dbl 2 1) (res' : Kmeans.Result Dbl 2 1)
    (h : NearDeliversPruned Dbl.Fin' Dbl.v .none .eucl sepData 4 2 dblRng (some sepInit.cltrs.means) ⟨0⟩ 5 16 res)
    (h' : NearDelivers Dbl.Fin' Dbl.v .none .eucl sepData 4 2 dblRng (some sepInit.cltrs.means) ⟨0⟩ 5 res') :
    res.iters = res'.iters ∧ (∀ r, r < 4 → (res.state.slots r).assign = res'.state.assign r) ∧
      ∀ c, res.state.counts c = res'.state.counts c := by
  obtain ⟨q1, q2, q3, _⟩ := C114_same_as_unpruned_partial h h' (by norm_num) (by norm_num) (by norm_num) (by norm_num)
    (by norm_num) (by norm_num) (by norm_num) (fun r hr j => (sep_pruned.rows r hr j).2)
    (by
      have h4 : ((4 : Nat) : Dbl).v = ((4 : Nat) : ℝ) :=
        nearest_of_double (Dbl.rnd_ok _).2 (nat_isDouble (by norm_num))
      have h1 : (((4 : Nat) : Dbl) / ((4 : Nat) : Dbl)).v = ((1 : Nat) : ℝ) := by
        refine nearest_of_double (x := ((1 : Nat) : ℝ)) ?_ (nat_isDouble (by norm_num))
        have := (Dbl.rnd_ok (((4 : Nat) : Dbl).v / ((4 : Nat) : Dbl).v)).2
        have e : ((4 : Nat) : Dbl).v / ((4 : Nat) : Dbl).v = ((1 : Nat) : ℝ) := by
          rw [h4]; norm_num
        rw [e] at this
        have e' : (((4 : Nat) : Dbl) / ((4 : Nat) : Dbl)) = Dbl.rnd ((1 : Nat) : ℝ) := by
          rw [← e]; rfl
        rw [e']
        exact this
      intro h
      have h' : (((4 : Nat) : Dbl) / ((4 : Nat) : Dbl)).v ≤ (0 : ℝ) := h
      rw [h1] at h'
      norm_num at h') sepErr sepErrD _ rfl rfl rfl
    sepTrace sep_lloyd (fun i _ => sep_separated_call i) (fun i _ => by
      intro r hr c c' hc hne
      have hd := sep_gap hr hc hne
      have b2 : (2 : ℝ) ^ (-1075 : Int) ≤ 1 / 1000 :=
        (p_le (show (-1075 : Int) ≤ -10 by norm_num)).trans (by norm_num)
      have b3 : (2 : ℝ) ^ (-520 : Int) ≤ 1 / 1000 :=
        (p_le (show (-520 : Int) ≤ -10 by norm_num)).trans (by norm_num)
      have b4 : (2 : ℝ) ^ (-52 : Int) ≤ 1 / 100000 := by norm_num
      have b5 := p_pos (-52)
      have hsl : metricSlack .eucl = (2 : ℝ) ^ (-520 : Int) := rfl
      rw [hsl]
      have hd1 : metricDist .eucl (fun j => (sepData r j).v) ((sepTrace i).cents c) ≤ 1 := hd.1
      have hd2 : 9 ≤ metricDist .eucl (fun j => (sepData r j).v) ((sepTrace i).cents c') := hd.2
      have hd0 := metricDist_nonneg .eucl (fun j => (sepData r j).v) ((sepTrace i).cents c)
      generalize metricDist .eucl (fun j => (sepData r j).v) ((sepTrace i).cents c) = x at *
      generalize metricDist .eucl (fun j => (sepData r j).v) ((sepTrace i).cents c') = y at *
      simp only [Nat.cast_one, Real.sqrt_one, one_mul]
      push_cast
      generalize (2 : ℝ) ^ (-52 : Int) = w at *
      generalize (2 : ℝ) ^ (-520 : Int) = w1 at *
      generalize (2 : ℝ) ^ (-1075 : Int) = w2 at *
      nlinarith) sep_moves
  exact ⟨q1, q2, q3⟩

end Knor.Driver
