import Verif.Lemmas.MiniBatchNearRun

/-!
# Property C115: a whole mini-batch call on doubles

C95 is about exact arithmetic.  Here is the whole mini-batch call, from the names of the options and the data to what
is returned, on IEEE doubles.
-/

namespace Knor.Driver

open Knor Knor.Par Knor.Partition Knor.Spec Knor.NearLloyd Knor.Kmeans Knor.Distr Knor.Init Knor.Io Knor.MiniBatch

variable {R S B : Type _} {k n : Nat} [Zero R] [One R] [Add R] [Sub R] [Mul R] [Div R] [IntCast R] [NatCast R] [LT R]
  [LE R] {fin : R → Prop} {val : R → ℝ} {sqrt abs' : R → R} {big : R}

/-- **C115.**  On doubles unknown names throw and one cluster fails an assertion.  Every other call with a metric other
than the cosine, on an `nrow × n` matrix of finite doubles no larger than `X`, in a file or in an array, returns what
mini-batch k-means promises up to rounding. -/
theorem C115_call [DecidableLT R] [DecidableLE R] (hI : IeeeDouble fin val sqrt abs')
    (hone : fin (1 : R) ∧ val (1 : R) = 1)
    (hbig : fin big ∧ val big = maxDouble) (cosd : Row R n → Row R n → R) {c : Codec R B} (hc : CodecOk c)
    (rng : Rng R S k) (draw : Nat → Nat → R) (sched1 sched2 : Nat → List Nat) (schedEnd : List Nat) (mb : Nat)
    (a : Call R B) (m : Nat → Nat → R)
    (given : Option (Nat → Nat → R)) (hk : 0 < k) (hcol : 0 < n) (hkn : k * n ≤ 4294967296) (hn : 0 < a.nrow)
    (hnt : 0 < a.nthreads) (hlt : a.nrow + 8192 < 4294967296) (hsz : a.nrow * n * c.size < 9223372036854775808)
    (hst : Holds c a.source m a.nrow n) (hgiven : a.centers = given.map fun g => rowsFrom g n 0 k)
    (hrng : RngFin fin val rng a.nrow) (hdraw : ∀ i r, fin (draw i r)) (hmb : mb < 4294967296)
    (hc1 : ∀ i, Complete (effThreads a.nthreads a.nrow) (Prune.taskRows a.nrow a.nthreads) (sched1 i))
    (hc2 : ∀ i, Complete (effThreads a.nthreads a.nrow) (Prune.taskRows a.nrow a.nthreads) (sched2 i))
    (hce : Complete (effThreads a.nthreads a.nrow) (Prune.taskRows a.nrow a.nthreads) schedEnd)
    (T : Nat) (hT : T = min a.nthreads a.nrow) (hit : 24 * (a.maxIters * a.nrow) ≤ 2 ^ 52)
    (X : ℝ) (hX1 : 2 ^ (-400 : Int) ≤ X) (hX2 : X ≤ 2 ^ (368 : Int))
    (hm : ∀ r j, r < a.nrow → j < n → fin (m r j) ∧ |val (m r j)| ≤ X)
    (hg : ∀ g, given = some g → ∀ r j, r < k → j < n → fin (g r j) ∧ |val (g r j)| ≤ X) :
    ((a.init ∉ ["random", "forgy", "kmeanspp", "none"] ∨ a.dist ∉ ["eucl", "cos", "taxi", "sqeucl"]) →
      mbKmeans (anyDist sqrt abs' cosd) big sqrt c rng draw sched1 sched2 schedEnd mb a = .error .throws) ∧
    ∀ it met, getInit a.init = .ok it → getDist a.dist = .ok met →
      (k = 1 → mbKmeans (anyDist sqrt abs' cosd) big sqrt c rng draw sched1 sched2 schedEnd mb a = .error .assertFail) ∧
      (1 < k → met ≠ .cos → ∃ res : Nat × Prune.PState R R k n,
        mbKmeans (anyDist sqrt abs' cosd) big sqrt c rng draw sched1 sched2 schedEnd mb a = .ok res ∧
        NearDeliversMiniBatch fin val it met (matRows m) a.nrow T mb rng draw (givenCents given) a.tol a.maxIters X
          res.1 res.2.cltrs.means (fun r => (res.2.slots r).assign) res.2.counts) := by
  constructor
  · intro h
    unfold mbKmeans
    by_cases h1 : a.init ∈ ["random", "forgy", "kmeanspp", "none"]
    · obtain ⟨it, e⟩ := (names_ok a.init a.dist).2.2 h1
      rw [e]
      dsimp only
      rw [(names_ok a.init a.dist).2.1 (h.resolve_left fun hh => hh h1)]
    · rw [(names_ok a.init a.dist).1 h1]
  intro it met hi hd
  refine ⟨fun h1 => ?_, fun hk1 hcos => ?_⟩
  · obtain ⟨c0, e0, -⟩ := construct_ok (k := k) (n := n) hk it given
    unfold mbKmeans constructPruned DistMatrix.create
    rw [hi]
    dsimp only
    rw [hd]
    dsimp only
    rw [hgiven, e0]
    dsimp only
    rw [if_neg (by omega)]
  have hcol' : n ≤ 4294967296 := (Nat.le_mul_of_pos_left n hk).trans hkn
  have hTe : T = effThreads a.nthreads a.nrow := hT
  obtain ⟨ws, el, hrows⟩ := load_ok hc m a hn hnt hcol (by omega) hsz hst
  have hbox : ∀ r, r < a.nrow → InBox (n := n) fin val X (matRows m r) := fun r hr j => hm r j.val hr j.isLt
  have hgbox : ∀ g, givenCents (k := k) (n := n) given = some g → ∀ c, InBox fin val X (g c) := by
    intro g h c j
    cases given with
    | none => cases h
    | some g' =>
      rw [← Option.some.inj h]
      exact hg g' rfl c.val j.val c.isLt j.isLt
  have hX0 : 0 < X := (p_pos _).trans_le hX1
  obtain ⟨E, hE⟩ : ∃ E : ℝ, E = ((a.nrow + 1 : Nat) : ℝ) * 2 ^ (-52 : Int) * X + 2 ^ (-1075 : Int) := ⟨_, rfl⟩
  have hE0 : 0 ≤ E := by
    have h1 := p_pos (-52)
    have h2 := p_pos (-1075)
    rw [hE]; positivity
  have hE4 : E ≤ 1 / 4 * X := by
    have h1 : ((a.nrow + 1 : Nat) : ℝ) ≤ 2 ^ (32 : Int) := nat_p (by omega)
    have h2 := mul_le_mul_of_nonneg_right h1 (p_pos (-52)).le
    rw [p_mul] at h2
    have h3 : (2 : ℝ) ^ ((32 : Int) + -52) ≤ 1 / 8 := by norm_num
    have h4 := mul_le_mul_of_nonneg_right (h2.trans h3) hX0.le
    have h5 : (2 : ℝ) ^ (-1075 : Int) ≤ 1 / 8 * X := by
      have w1 : (2 : ℝ) ^ (-1075 : Int) ≤ 2 ^ (-3 : Int) * 2 ^ (-400 : Int) := by
        rw [p_mul]; exact p_le (by norm_num)
      refine w1.trans ((mul_le_mul_of_nonneg_left hX1 (p_pos (-3)).le).trans (le_of_eq ?_))
      norm_num
    rw [hE]
    linarith only [h4, h5]
  obtain ⟨s0, s, e0, es, -, -, -, hb, hrow, -, hsa, hstart⟩ := runInitPruned_near hI hbig cosd hcos rng
    (rowsIn ws a.nrow a.nthreads) (matRows m) a.nrow a.nthreads hrows hk1 hn hnt hlt hcol' hX0.le
    (E := E) (by
      have h1 : X + E ≤ 2 * X := by linarith only [hE4, hX0]
      refine h1.trans ((mul_le_mul_of_nonneg_left hX2 (by norm_num)).trans ?_)
      have e : (2 : ℝ) * 2 ^ (368 : Int) = 2 ^ (369 : Int) := by
        rw [show (369 : Int) = 1 + 368 by norm_num, zpow_add₀ (by norm_num) 1, zpow_one]
      rw [e]
      exact p_le (by norm_num)) hE.ge hbox hrng sched1 hc1 it given hgbox T _ hTe rfl
  obtain ⟨res, t, tr, f, moves, er, w0, w1, w2, w3, w4, w5, w6, w7, w8, w9, w10⟩ := run_double hI hone hbig cosd hcos
    hrows hk hn hnt hlt hcol' hkn hX1 hX2 (by linarith only [hE0] : X ≤ X + E) (by linarith only [hE4]) hbox hmb hdraw a.tol
    hit hc2 hce _ rfl hb hrow
  refine ⟨res, ?_, t, tr, s.cltrs.means, f, moves, hstart, ?_, ?_, ?_, w2, w3, w4, w5, w6, w7, w8, w9, w10⟩
  · unfold mbKmeans
    rw [hi]
    dsimp only
    rw [hd]
    dsimp only
    rw [hgiven, e0]
    dsimp only
    rw [el]
    dsimp only
    rw [es]
    exact er
  · rw [w0]; rfl
  · rw [w0]; exact hsa
  · rw [hTe]; exact w1

omit [One R] [Add R] [Sub R] [Mul R] [Div R] [IntCast R] [NatCast R] [LE R] in
/-- **C115, the default tolerance.**  With a tolerance that is not positive the call makes all iterations. -/
theorem C115_default_tolerance (hlt : ∀ x y, fin x → fin y → (x < y ↔ val x < val y)) {it : InitT}
    {met : Dist.Metric} {data : Nat → Fin n → R} {N T mb : Nat} {rng : Rng R S k} {draw : Nat → Nat → R}
    {given : Option (Fin k → Fin n → R)} {tol : R} {maxIters iters : Nat} {X : ℝ} {cents : Fin k → Fin n → R}
    {assign : Nat → Option (Fin k)} {sizes : Fin k → Int} (htol : fin tol ∧ val tol ≤ 0)
    (h : NearDeliversMiniBatch fin val it met data N T mb rng draw given tol maxIters X iters cents assign sizes) :
    iters = maxIters := by
  obtain ⟨t, tr, c0, f, moves, -, -, -, -, -, hm, -, h6, -⟩ := h
  rcases h6 with ⟨j, rfl, _, h, _⟩ | ⟨_, h, _⟩
  · obtain ⟨h1, h2, _⟩ := hm j (by omega)
    rw [hlt _ _ h1 htol.1] at h
    linarith [htol.2]
  · exact h

/-! ### Separated data -/

omit [Zero R] [One R] [Add R] [Sub R] [Mul R] [Div R] [IntCast R] [NatCast R] [LT R] [LE R] in
/-- A row that is closer to a centroid by more than the errors goes to it. -/
theorem near_decides {d d' : Fin k → ℝ} {γ ζ Λ : ℝ} (hγ0 : 0 ≤ γ) (hγ : γ ≤ 1) (h : ∀ c, |d' c - d c| ≤ Λ) {c a : Fin k}
    (hs : ∀ c', c' ≠ c → (1 + γ) * (d c + Λ) + ζ < (1 - γ) * (d c' - Λ) - ζ) (ha : NearNearest γ ζ d' a) : a = c := by
  by_contra hne
  have hsep := hs a hne
  have hnear := ha c
  have b1 := (abs_le.1 (h c)).2
  have b2 := (abs_le.1 (h a)).1
  have g1 := mul_le_mul_of_nonneg_left (show d a - Λ ≤ d' a by linarith) (sub_nonneg.2 hγ)
  have g2 := mul_le_mul_of_nonneg_left (show d' c ≤ d c + Λ by linarith) (show (0 : ℝ) ≤ 1 + γ by linarith)
  linarith

/-- Iterations on rounded numbers follow the exact ones, as long as these leave no sampled row near a border. -/
theorem mb_follows {dist : (Fin n → ℝ) → (Fin n → ℝ) → ℝ} {γ ζ δ Λ : ℝ} {N t : Nat} {data : Nat → Fin n → ℝ}
    {sampled : Nat → Nat → Prop} {first : Nat → Prop} {tr tr' : Nat → Snap ℝ k n} (hγ0 : 0 ≤ γ) (hγ : γ ≤ 1) (hδ : 0 ≤ δ)
    (hΛ : ∀ x y y' : Fin n → ℝ, (∀ j, |y' j - y j| ≤ t * (N * δ)) → |dist x y' - dist x y| ≤ Λ)
    (h0 : tr' 0 = tr 0)
    (hn : ∀ i, i < t → NearMbStep dist γ ζ δ N data (sampled i) (tr' i) (tr' (i + 1)))
    (he : ∀ i, i < t → MbStep dist N data (sampled i) (first i) (tr i) (tr (i + 1)))
    (hs : ∀ i, i < t → ∀ r, r < N → sampled i r → ∀ c c', (tr (i + 1)).assign r = some c → c' ≠ c →
      (1 + γ) * (dist (data r) ((tr i).cents c) + Λ) + ζ < (1 - γ) * (dist (data r) ((tr i).cents c') - Λ) - ζ) :
    ∀ i, i ≤ t → (∀ r, r < N → (tr' i).assign r = (tr i).assign r) ∧
      ∀ c j, |(tr' i).cents c j - (tr i).cents c j| ≤ i * (N * δ) := by
  classical
  have hNδ : 0 ≤ (N : ℝ) * δ := by positivity
  intro i
  induction i with
  | zero =>
    intro _
    rw [h0]
    exact ⟨fun _ _ => rfl, fun c j => by rw [sub_self, abs_zero, Nat.cast_zero, zero_mul]⟩
  | succ i ih =>
    intro hi
    obtain ⟨ih1, ih2⟩ := ih (by omega)
    have hit : (i : ℝ) * (N * δ) ≤ t * (N * δ) :=
      mul_le_mul_of_nonneg_right (by exact_mod_cast (by omega : i ≤ t)) hNδ
    have hassign : ∀ r, r < N → (tr' (i + 1)).assign r = (tr (i + 1)).assign r := by
      intro r hr
      by_cases hsm : sampled i r
      · obtain ⟨c, e1, _⟩ := (he i (by omega)).assigned r hr hsm
        obtain ⟨a, e2, e3⟩ := (hn i (by omega)).assigned r hr hsm
        rw [e1, e2]
        exact congrArg some (near_decides hγ0 hγ (fun c => hΛ _ _ _ fun j => (ih2 c j).trans hit)
          (fun c' hne => hs i (by omega) r hr hsm c c' e1 hne) e3)
      · rw [(he i (by omega)).others r hr hsm, (hn i (by omega)).others r hr hsm, ih1 r hr]
    refine ⟨hassign, fun c j => ?_⟩
    have hcnt : Spec.count N (tr' (i + 1)).assign c = Spec.count N (tr (i + 1)).assign c := by
      unfold Spec.count
      congr 1
      refine Finset.filter_congr fun r hr => ?_
      rw [hassign r (Finset.mem_range.1 hr)]
    obtain ⟨L, hL⟩ : ∃ L, L = @List.filter Nat (fun r => @decide (sampled i r ∧ (tr (i + 1)).assign r = some c)
      (Classical.propDecidable _)) (List.range N) := ⟨_, rfl⟩
    have hfil : ∀ i1 : DecidablePred fun r => sampled i r ∧ (tr' (i + 1)).assign r = some c,
        @List.filter Nat (fun r => @decide (sampled i r ∧ (tr' (i + 1)).assign r = some c) (i1 r)) (List.range N) = L := by
      intro i1
      rw [hL]
      refine List.filter_congr fun r hr => ?_
      have := hassign r (List.mem_range.1 hr)
      rw [decide_eq_decide, this]
    have hfil2 : ∀ i1 : DecidablePred fun r => sampled i r ∧ (tr (i + 1)).assign r = some c,
        @List.filter Nat (fun r => @decide (sampled i r ∧ (tr (i + 1)).assign r = some c) (i1 r)) (List.range N) = L := by
      intro i1
      rw [hL]
      exact List.filter_congr fun r _ => by rw [decide_eq_decide]
    have h1 := (hn i (by omega)).moved c j
    rw [hcnt, hfil _] at h1
    have h2 := congrFun ((he i (by omega)).moved c) j
    rw [hfil2 _] at h2
    have h3 : ∀ l : List (Fin n → ℝ), (l = [] ∨ 0 < Spec.count N (tr (i + 1)).assign c) →
        |towards (1 / (Spec.count N (tr (i + 1)).assign c : ℝ)) ((tr' i).cents c) l j -
          towards (1 / (Spec.count N (tr (i + 1)).assign c : ℝ)) ((tr i).cents c) l j| ≤ i * (N * δ) := by
      rintro l (rfl | hpos)
      · exact ih2 c j
      · have hc1 : (1 : ℝ) ≤ (Spec.count N (tr (i + 1)).assign c : ℝ) := by exact_mod_cast hpos
        exact (towards_close (by positivity) (by rw [div_le_one (by linarith)]; exact hc1) _ _ _ j).trans (ih2 c j)
    rw [h2]
    have hL' : L = [] ∨ 0 < Spec.count N (tr (i + 1)).assign c := by
      by_cases h : L = []
      · exact .inl h
      · right
        obtain ⟨r, hr⟩ := List.exists_mem_of_ne_nil _ h
        rw [hL, List.mem_filter, List.mem_range] at hr
        have hr2 : sampled i r ∧ (tr (i + 1)).assign r = some c := (@decide_eq_true_iff _ (Classical.propDecidable _)).1 hr.2
        unfold Spec.count
        exact Finset.card_pos.2 ⟨r, Finset.mem_filter.2 ⟨Finset.mem_range.2 hr.1, hr2.2⟩⟩
    have h4 := h3 (L.map data) (hL'.imp_left fun h => by rw [h, List.map_nil])
    have hlen' : (L.length : ℝ) ≤ N := by
      have : L.length ≤ N := by
        rw [hL]; exact (List.length_filter_le _ _).trans (by rw [List.length_range])
      exact_mod_cast this
    have h5 := mul_le_mul_of_nonneg_right hlen' hδ
    have h6 := abs_sub_le ((tr' (i + 1)).cents c j)
      (towards (1 / (Spec.count N (tr (i + 1)).assign c : ℝ)) ((tr' i).cents c) (L.map data) j)
      (towards (1 / (Spec.count N (tr (i + 1)).assign c : ℝ)) ((tr i).cents c) (L.map data) j)
    rw [Nat.cast_succ, add_mul, one_mul]
    linarith

omit [One R] [Add R] [Sub R] [Mul R] [Div R] [IntCast R] [NatCast R] [LE R] in
/-- **C115, separated data.**  With the Euclidean metric and a tolerance that is not positive: if the exact mini-batch
iterations, from that start and with those samples, leave no sampled row near a border, then the returned centroids
are, up to rounding, those of the exact iterations, and every row that is not near a border in the end is with the
exact nearest centroid. -/
theorem C115_separated (hlt : ∀ x y, fin x → fin y → (x < y ↔ val x < val y)) {it : InitT}
    {data : Nat → Fin n → R} {N T mb : Nat} {rng : Rng R S k} {draw : Nat → Nat → R}
    {given : Option (Fin k → Fin n → R)} {tol : R} {maxIters iters : Nat} {X : ℝ} {cents : Fin k → Fin n → R}
    {assign : Nat → Option (Fin k)} {sizes : Fin k → Int} (htol : fin tol ∧ val tol ≤ 0) (hX : 0 ≤ X)
    (hcol : n ≤ 4294967296)
    (h : NearDeliversMiniBatch fin val it .eucl data N T mb rng draw given tol maxIters X iters cents assign sizes)
    (γ δ Λ : ℝ) (hγ : γ = ((n + 4 : Nat) : ℝ) * 2 ^ (-52 : Int)) (hδ : δ = 12 * 2 ^ (-52 : Int) * X)
    (hΛ : Λ = √n * (maxIters * (N * δ))) :
    ∃ (c0 : Fin k → Fin n → R) (a0 : Nat → Option (Fin k)) (f : ℝ),
      NearStartsAt fin val it (metricDist .eucl) γ (metricSlack .eucl) ((N + 1 : Nat) * 2 ^ (-52 : Int))
        (2 ^ (-1075 : Int)) ((N / T + N % T + T + N + 2 : Nat) * 2 ^ (-52 : Int)) (2 ^ (-1073 : Int)) data N rng given c0 ∧
      NearStartAssign it (metricDist .eucl) γ (metricSlack .eucl) (fun r j => val (data r j)) N rng
        (fun c j => val (c0 c j)) a0 ∧
      NearestDouble (((if mb < T then 1 else mb : Nat) : ℝ) / (N : ℝ)) f ∧
      ∀ tr : Nat → Snap ℝ k n, tr 0 = ⟨fun c j => val (c0 c j), a0⟩ →
        (∀ i, i < maxIters → MbStep (metricDist .eucl) N (fun r j => val (data r j)) (fun r => val (draw i r) ≤ f) True
          (tr i) (tr (i + 1))) →
        (∀ i, i < maxIters → ∀ r, r < N → val (draw i r) ≤ f → ∀ c c', (tr (i + 1)).assign r = some c → c' ≠ c →
          (1 + γ) * (metricDist .eucl (fun j => val (data r j)) ((tr i).cents c) + Λ) + metricSlack .eucl <
            (1 - γ) * (metricDist .eucl (fun j => val (data r j)) ((tr i).cents c') - Λ) - metricSlack .eucl) →
        iters = maxIters ∧ (∀ c j, |val (cents c j) - (tr maxIters).cents c j| ≤ maxIters * (N * δ)) ∧
        ∀ r, r < N → ∀ c, (∀ c', c' ≠ c →
          (1 + γ) * (metricDist .eucl (fun j => val (data r j)) ((tr maxIters).cents c) + Λ) + metricSlack .eucl <
            (1 - γ) * (metricDist .eucl (fun j => val (data r j)) ((tr maxIters).cents c') - Λ) - metricSlack .eucl) →
          assign r = some c := by
  have hiters := C115_default_tolerance hlt htol h
  obtain ⟨t, tr', c0, f, moves, h1, h2, h3, h4, h5, hm, -, h6, h7, -, h8, -, -⟩ := h
  have ht : t = maxIters := by
    rcases h6 with ⟨j, e1, e2, _, e3⟩ | ⟨e, _, _⟩
    · omega
    · exact e
  subst ht
  rw [← hγ] at h1 h3 h8 h5
  rw [← hδ] at h5
  rw [h2] at h3
  have hγ1 : 0 ≤ γ ∧ γ ≤ 1 := by
    rw [hγ]
    exact (gamma_le (by omega)).symm
  have hδ0 : 0 ≤ δ := by
    have := p_pos (-52)
    rw [hδ]; positivity
  have hlip : ∀ x y y' : Fin n → ℝ, (∀ j, |y' j - y j| ≤ t * (N * δ)) →
      |metricDist .eucl x y' - metricDist .eucl x y| ≤ Λ := fun x y y' hh => by
    rw [hΛ]
    exact eucl_lip hh
  refine ⟨c0, (tr' 0).assign, f, h1, h3, h4, fun tr e0 he hs => ?_⟩
  have e0' : tr' 0 = tr 0 := by
    rw [e0, ← h2]
  have key := mb_follows (first := fun _ => True) hγ1.1 hγ1.2 hδ0 hlip e0' h5 he hs t le_rfl
  refine ⟨hiters, fun c j => ?_, fun r hr c hsep => ?_⟩
  · rw [(h7 c j).2]
    exact key.2 c j
  · obtain ⟨a, e1, e2⟩ := h8 r hr
    rw [e1]
    refine congrArg some (near_decides hγ1.1 hγ1.2 (fun c => hlip _ _ _ fun j => ?_) hsep e2)
    rw [(h7 c j).2]
    exact key.2 c j

/-! ### `mb_knori` -/

/-- **C115, the program.**  On doubles `mb_knori` refuses `none` without a file of centres, and a data file whose size
is not the one that the numbers of rows and columns imply.  Otherwise, for a file that stores the matrix, it does what
the call with the same options does; a file of centres replaces the initialisation. -/
theorem C115_mb_knori [DecidableLT R] [DecidableLE R] (hI : IeeeDouble fin val sqrt abs')
    (hone : fin (1 : R) ∧ val (1 : R) = 1)
    (hbig : fin big ∧ val big = maxDouble) (cosd : Row R n → Row R n → R) {c : Codec R B} (hc : CodecOk c)
    (rng : Rng R S k) (draw : Nat → Nat → R) (sched1 sched2 : Nat → List Nat) (schedEnd : List Nat)
    (datafn : List B) (centersfn : Option (List B)) (nrow maxIters nthreads : Nat)
    (init : String) (tol : R) (distType : String) (mb : Nat)
    (hk : 0 < k) (hcol : 0 < n) (hkn : k * n ≤ 4294967296) (hn : 0 < nrow) (hnt : 0 < nthreads)
    (hlt : nrow + 8192 < 4294967296)
    (hsz : nrow * n * c.size < 9223372036854775808) (hszk : k * n * c.size < 18446744073709551616)
    (hrng : RngFin fin val rng nrow) (hdraw : ∀ i r, fin (draw i r)) (hmb : mb < 4294967296)
    (hc1 : ∀ i, Complete (effThreads nthreads nrow) (Prune.taskRows nrow nthreads) (sched1 i))
    (hc2 : ∀ i, Complete (effThreads nthreads nrow) (Prune.taskRows nrow nthreads) (sched2 i))
    (hce : Complete (effThreads nthreads nrow) (Prune.taskRows nrow nthreads) schedEnd)
    (T : Nat) (hT : T = min nthreads nrow) (hit : 24 * (maxIters * nrow) ≤ 2 ^ 52)
    (X : ℝ) (hX1 : 2 ^ (-400 : Int) ≤ X) (hX2 : X ≤ 2 ^ (368 : Int)) :
    let prog := mbKnori (n := n) (anyDist sqrt abs' cosd) big sqrt c rng draw sched1 sched2 schedEnd datafn centersfn nrow
      maxIters nthreads init tol distType mb
    (centersfn = none → init = "none" → prog = .error .assertFail) ∧
    (¬ (centersfn = none ∧ init = "none") → datafn.length ≠ nrow * n * c.size → prog = .error .throws) ∧
    ∀ (m : Nat → Nat → R) (given : Option (Nat → Nat → R)) it met,
      Stores c datafn m nrow n → centersfn = given.map (fun g => (rowsFrom g n 0 k).flatMap c.enc) →
      (∀ r j, r < nrow → j < n → fin (m r j) ∧ |val (m r j)| ≤ X) →
      (∀ g, given = some g → ∀ r j, r < k → j < n → fin (g r j) ∧ |val (g r j)| ≤ X) →
      (given.isSome → it = .none) → (given = none → getInit init = .ok it ∧ it ≠ .none) →
      getDist distType = .ok met →
      (k = 1 → prog = .error .assertFail) ∧
      (1 < k → met ≠ .cos → ∃ res : Nat × Prune.PState R R k n, prog = .ok res ∧
        NearDeliversMiniBatch fin val it met (matRows m) nrow T mb rng draw (givenCents given) tol maxIters X
          res.1 res.2.cltrs.means (fun r => (res.2.slots r).assign) res.2.counts) := by
  have hu : u64 (u64 (c.size * nrow) * n) = nrow * n * c.size := by
    have h0 : c.size * nrow * n = nrow * n * c.size := by ring
    rw [u64_mul (by omega), h0]
  dsimp only
  refine ⟨?_, ?_, ?_⟩
  · rintro rfl rfl
    unfold mbKnori
    simp
  · intro h hne
    unfold mbKnori
    dsimp only
    rw [if_neg, if_pos (by rw [hu]; exact hne)]
    rintro ⟨h2, h3⟩
    have h4 : centersfn = none := by simpa using h3
    subst h4
    exact h ⟨rfl, by simpa using h2⟩
  · intro m given it met hst hcf hm hg hs hnone hd
    have hlen : datafn.length = nrow * n * c.size := by
      unfold Stores at hst
      rw [hst, length_enc hc, length_rowsFrom]
    unfold mbKnori
    dsimp only
    cases given with
    | none =>
      rw [Option.map_none] at hcf
      subst hcf
      obtain ⟨hi, hit'⟩ := hnone rfl
      have hne : init ≠ "none" := by
        rintro rfl
        exact hit' (Except.ok.inj hi).symm
      rw [if_neg (by simp [hne]), if_neg (by rw [hu]; simp [hlen])]
      simp only [Option.isSome_none, Bool.false_eq_true, if_false]
      exact (C115_call hI hone hbig cosd hc rng draw sched1 sched2 schedEnd mb
        ⟨.file datafn, nrow, maxIters, nthreads, none, init, tol, distType⟩ m none hk hcol hkn hn hnt hlt hsz hst rfl hrng
        hdraw hmb hc1 hc2 hce T hT hit X hX1 hX2 hm hg).2 it met hi hd
    | some g =>
      rw [Option.map_some] at hcf
      subst hcf
      obtain rfl := hs rfl
      rw [if_neg (by simp), if_neg (by rw [hu]; simp [hlen])]
      obtain ⟨y, ey⟩ := read_stored (n := n) hc g k (Nat.mul_pos hk hcol) hszk rfl
      dsimp only
      rw [ey]
      simp only [Option.isSome_some, if_true]
      exact (C115_call hI hone hbig cosd hc rng draw sched1 sched2 schedEnd mb
        ⟨.file datafn, nrow, maxIters, nthreads, some (rowsFrom g n 0 k), "none", tol, distType⟩ m (some g) hk hcol hkn hn
        hnt hlt hsz hst rfl hrng hdraw hmb hc1 hc2 hce T hT hit X hX1 hX2 hm hg).2 .none met rfl hd

/-! ### Calls that meet the hypotheses -/

noncomputable instance : One Dbl := ⟨⟨1⟩⟩

theorem dbl_one : Dbl.Fin' (1 : Dbl) ∧ Dbl.v (1 : Dbl) = 1 := ⟨isDouble_one, rfl⟩

/-- Every other row is sampled. -/
noncomputable def dblHalf (i r : Nat) : Dbl := ⟨((i + r) % 2 : Nat)⟩

theorem dblHalf_fin (i r : Nat) : Dbl.Fin' (dblHalf i r) :=
  (dbl_small ((i + r) % 2) (by omega)).1

/-- Every initialisation and every treated metric on the four rows 0, 1, 2, 3, with two threads, batches of three rows
and up to a million iterations. -/
theorem dbl_call_mb (init dist : String) (maxIters : Nat) (hmx : maxIters ≤ 1000000) (it : InitT) (met : Dist.Metric)
    (hi : getInit init = .ok it) (hd : getDist dist = .ok met) (hcos : met ≠ .cos) :
    ∃ res : Nat × Prune.PState Dbl Dbl 2 1,
      mbKmeans (n := 1) (anyDist (fun x => Dbl.rnd (√x.v)) (fun x => ⟨|x.v|⟩) fun _ _ => 0) ⟨maxDouble⟩
        (fun x => Dbl.rnd (√x.v)) (oneCell Dbl) dblRng dblHalf Kmeans.demoSched Kmeans.demoSched (Kmeans.demoSched 0) 3
        (dblCall init dist maxIters) = .ok res ∧
      NearDeliversMiniBatch Dbl.Fin' Dbl.v it met (matRows fun r _ => ⟨(r : ℝ)⟩) 4 2 3 dblRng dblHalf none ⟨0⟩ maxIters 16
        res.1 res.2.cltrs.means (fun r => (res.2.slots r).assign) res.2.counts := by
  have hx1 : (2 : ℝ) ^ (-400 : Int) ≤ 16 := by
    have : (2 : ℝ) ^ (-400 : Int) ≤ 2 ^ (4 : Int) := p_le (by norm_num)
    exact this.trans (by norm_num)
  have hx2 : (16 : ℝ) ≤ 2 ^ (368 : Int) := by
    have : (2 : ℝ) ^ (4 : Int) ≤ 2 ^ (368 : Int) := p_le (by norm_num)
    exact le_trans (by norm_num) this
  have hrow : ∀ r j : Nat, r < 4 → j < 1 → Dbl.Fin' ⟨(r : ℝ)⟩ ∧ |((r : Nat) : ℝ)| ≤ 16 := by
    intro r _ hr _
    refine ⟨(dbl_small r (by omega)).1, ?_⟩
    have h4 : r ≤ 16 := by omega
    have : ((r : Nat) : ℝ) ≤ ((16 : Nat) : ℝ) := by exact_mod_cast h4
    simpa using this
  have hh : Holds (oneCell Dbl) (dblCall init dist maxIters).source (fun r _ => ⟨(r : ℝ)⟩) 4 1 := by
    simp [Holds, dblCall, Stores, oneCell, rowsFrom, rowOf, List.range', List.range_succ]
  have hit : 24 * ((dblCall init dist maxIters).maxIters * (dblCall init dist maxIters).nrow) ≤ 2 ^ 52 := by
    have e1 : (dblCall init dist maxIters).maxIters = maxIters := rfl
    have e2 : (dblCall init dist maxIters).nrow = 4 := rfl
    rw [e1, e2]
    omega
  have hlt : (dblCall init dist maxIters).nrow + 8192 < 4294967296 := by
    have e2 : (dblCall init dist maxIters).nrow = 4 := rfl
    rw [e2]
    norm_num
  have h := (C115_call (k := 2) (n := 1) Dbl.ieee dbl_one dbl_input.big (fun _ _ => 0) (oneCell_ok Dbl) dblRng dblHalf
    Kmeans.demoSched Kmeans.demoSched (Kmeans.demoSched 0) 3 (dblCall init dist maxIters) (fun r _ => ⟨(r : ℝ)⟩) none
    (by norm_num) (by norm_num)
    (by norm_num) (by simp [dblCall]) (by simp [dblCall]) hlt (by simp [dblCall, oneCell])
    hh rfl dblRng_fin dblHalf_fin (by norm_num) demoSched_complete demoSched_complete (demoSched_complete 0) 2 rfl hit 16
    hx1 hx2 hrow (fun g h => by cases h)).2 it met hi hd
  exact h.2 (by norm_num) hcos

/-- k-means++ with the Euclidean metric; the tolerance is 0, so that all five iterations are made. -/
example : ∃ res : Nat × Prune.PState Dbl Dbl 2 1,
    mbKmeans (n := 1) (anyDist (fun x => Dbl.rnd (√x.v)) (fun x => ⟨|x.v|⟩) fun _ _ => 0) ⟨maxDouble⟩
      (fun x => Dbl.rnd (√x.v)) (oneCell Dbl) dblRng dblHalf Kmeans.demoSched Kmeans.demoSched (Kmeans.demoSched 0) 3
      (dblCall "kmeanspp" "eucl" 5) = .ok res ∧ res.1 = 5 ∧ ∑ c, res.2.counts c = 4 := by
  obtain ⟨res, e, h⟩ := dbl_call_mb "kmeanspp" "eucl" 5 (by norm_num) .plusplus .eucl rfl rfl (by decide)
  refine ⟨res, e, C115_default_tolerance Dbl.ieee.lt ⟨isDouble_zero, le_rfl⟩ h, ?_⟩
  obtain ⟨_, _, _, _, _, _, _, _, _, _, _, _, _, _, _, _, _, h⟩ := h
  exact h

theorem towards_self (eta : ℝ) (x : Fin n → ℝ) (ps : List (Fin n → ℝ)) (h : ∀ p ∈ ps, p = x) : towards eta x ps = x := by
  induction ps with
  | nil => rfl
  | cons p ps ih =>
    have e : towards eta x (p :: ps) = towards eta (fun j => x j + eta * (p j - x j)) ps := rfl
    rw [e, h p (by simp)]
    have e2 : (fun j => x j + eta * (x j - x j)) = x := by funext j; ring
    rw [e2]
    exact ih fun q hq => h q (by simp [hq])

/-- One iteration on the rows 0, 1, 10, 11 from the centres 0 and 10, in which the rows 0 and 10 are sampled: whatever the
call does within its promises, the rows 0 and 1 end up together, and so do 10 and 11. -/
example {iters : Nat} {cents : Fin 2 → Fin 1 → Dbl} {assign : Nat → Option (Fin 2)} {sizes : Fin 2 → Int}
    (h : NearDeliversMiniBatch Dbl.Fin' Dbl.v .none .eucl sepData 4 2 3 dblRng dblHalf (some sepInit.cltrs.means) ⟨0⟩ 1 16
      iters cents assign sizes) :
    iters = 1 ∧ ∀ r, r < 4 → assign r = if r < 2 then some 0 else some 1 := by
  obtain ⟨c0, a0, f, h1, h2, h3, h4⟩ := C115_separated Dbl.ieee.lt ⟨isDouble_zero, le_rfl⟩ (by norm_num) (by norm_num) h
    _ _ _ rfl rfl rfl
  obtain rfl : c0 = sepInit.cltrs.means := h1.1 _ rfl
  have hf : f = 3 / 4 := by
    have hd : IsDouble (3 / 4) := ⟨3, -2, by norm_num, by norm_num, by norm_num, by norm_num⟩
    have h3' : NearestDouble (3 / 4) f := by
      have e : (((if 3 < 2 then 1 else 3 : Nat) : ℝ) / ((4 : Nat) : ℝ)) = 3 / 4 := by norm_num
      rwa [e] at h3
    exact nearest_of_double h3' hd
  have hsam : ∀ r, (dblHalf 0 r).v ≤ f ↔ r % 2 = 0 := by
    intro r
    rw [hf]
    unfold dblHalf
    rw [Nat.zero_add]
    rcases Nat.mod_two_eq_zero_or_one r with h | h <;> rw [h] <;> norm_num
  have hcents : (sepTrace 0).cents = fun c j => (sepInit.cltrs.means c j).v := by
    funext c j
    show ((if c = 0 then 0 else 10 : Nat) : ℝ) = ((if c = 0 then 0 else 10 : Nat) : ℝ)
    rfl
  have hgap := fun r (hr : r < 4) c c' (hc : (if r < 2 then some 0 else some 1) = some c) (hne : c' ≠ c) =>
    sep_gap (i := 0) (r := r) hr (c := c) (c' := c') hc hne
  rw [hcents] at hgap
  have hsep : ∀ r, r < 4 → ∀ c c' : Fin 2, (if r < 2 then some 0 else some 1) = some c → c' ≠ c →
      (1 + ((1 + 4 : Nat) : ℝ) * 2 ^ (-52 : Int)) * (metricDist .eucl (fun j => (sepData r j).v)
          (fun j => (sepInit.cltrs.means c j).v) + √(1 : Nat) * (((1 : Nat) : ℝ) * (((4 : Nat) : ℝ) * (12 * 2 ^ (-52 : Int) * 16)))) +
          metricSlack .eucl <
        (1 - ((1 + 4 : Nat) : ℝ) * 2 ^ (-52 : Int)) * (metricDist .eucl (fun j => (sepData r j).v)
          (fun j => (sepInit.cltrs.means c' j).v) - √(1 : Nat) * (((1 : Nat) : ℝ) * (((4 : Nat) : ℝ) * (12 * 2 ^ (-52 : Int) * 16)))) -
          metricSlack .eucl := by
    intro r hr c c' hc hne
    have hd := hgap r hr c c' hc hne
    have b3 : (2 : ℝ) ^ (-520 : Int) ≤ 1 / 1000 :=
      (p_le (show (-520 : Int) ≤ -10 by norm_num)).trans (by norm_num)
    have b4 : (2 : ℝ) ^ (-52 : Int) ≤ 1 / 100000 := by norm_num
    have b5 := p_pos (-52)
    have hsl : metricSlack .eucl = (2 : ℝ) ^ (-520 : Int) := rfl
    rw [hsl]
    have hd1 : metricDist .eucl (fun j => (sepData r j).v) (fun j => (sepInit.cltrs.means c j).v) ≤ 1 := hd.1
    have hd2 : 9 ≤ metricDist .eucl (fun j => (sepData r j).v) (fun j => (sepInit.cltrs.means c' j).v) := hd.2
    have hd0 := metricDist_nonneg .eucl (fun j => (sepData r j).v) (fun j => (sepInit.cltrs.means c j).v)
    generalize metricDist .eucl (fun j => (sepData r j).v) (fun j => (sepInit.cltrs.means c j).v) = x at *
    generalize metricDist .eucl (fun j => (sepData r j).v) (fun j => (sepInit.cltrs.means c' j).v) = y at *
    simp only [Nat.cast_one, Real.sqrt_one, one_mul]
    push_cast
    generalize (2 : ℝ) ^ (-52 : Int) = w at *
    generalize (2 : ℝ) ^ (-520 : Int) = w1 at *
    nlinarith
  have hzero : ∀ r, r < 4 → r % 2 = 0 → ∀ c, (if r = 0 then some 0 else if r = 2 then some 1 else a0 r) = some c →
      (fun j => (sepData r j).v) = fun j => (sepInit.cltrs.means c j).v := by
    intro r hr h2 c hc
    have : r = 0 ∨ r = 2 := by omega
    rcases this with rfl | rfl
    · obtain rfl : 0 = c := Option.some.inj hc
      funext j
      show ((sepRow 0 : Nat) : ℝ) = ((if (0 : Fin 2) = 0 then 0 else 10 : Nat) : ℝ)
      rfl
    · obtain rfl : 1 = c := Option.some.inj hc
      funext j
      show ((sepRow 2 : Nat) : ℝ) = ((if (1 : Fin 2) = 0 then 0 else 10 : Nat) : ℝ)
      rfl
  have hnear : ∀ r, r < 4 → ∀ c : Fin 2, (if r < 2 then some 0 else some 1) = some c → ∀ c', c' ≠ c →
      metricDist .eucl (fun j => (sepData r j).v) (fun j => (sepInit.cltrs.means c j).v) <
        metricDist .eucl (fun j => (sepData r j).v) (fun j => (sepInit.cltrs.means c' j).v) := by
    intro r hr c hc c' hne
    have hd := hgap r hr c c' hc hne
    exact lt_of_le_of_lt hd.1 (lt_of_lt_of_le (by norm_num) hd.2)
  have key := h4 (fun i => if i = 0 then ⟨fun c j => (sepInit.cltrs.means c j).v, a0⟩ else
    ⟨fun c j => (sepInit.cltrs.means c j).v, fun r => if r = 0 then some 0 else if r = 2 then some 1 else a0 r⟩) rfl
    (fun i hi => by
      obtain rfl : i = 0 := by omega
      refine ⟨fun r hr hs => ?_, fun r hr hs => ?_, fun c => ?_⟩
      · have hs' := (hsam r).1 hs
        have e : (if r < 2 then some (0 : Fin 2) else some 1) = if r = 0 then some 0 else if r = 2 then some 1 else a0 r := by
          have : r = 0 ∨ r = 2 := by omega
          rcases this with rfl | rfl <;> rfl
        obtain ⟨c, hc⟩ : ∃ c, (if r < 2 then some (0 : Fin 2) else some 1) = some c := by
          split_ifs <;> exact ⟨_, rfl⟩
        refine ⟨c, e.symm.trans hc, fun c' => ?_, fun _ => ⟨fun c' => ?_, fun c' hc' => ?_⟩⟩
        · by_cases hne : c' = c
          · rw [hne]
          · exact (hnear r hr c hc c' hne).le
        · by_cases hne : c' = c
          · rw [hne]
          · exact (hnear r hr c hc c' hne).le
        · by_cases hne : c' = c
          · rw [hne]
          · exact absurd (hc' c) (not_le.2 (hnear r hr c hc c' hne))
      · have hs' : ¬ r % 2 = 0 := fun hh => hs ((hsam r).2 hh)
        show (if r = 0 then some 0 else if r = 2 then some 1 else a0 r) = a0 r
        rw [if_neg (by rintro rfl; exact hs' rfl), if_neg (by rintro rfl; exact hs' rfl)]
      · refine (towards_self _ _ _ fun p hp => ?_).symm
        obtain ⟨r, hr, rfl⟩ := List.mem_map.1 hp
        rw [List.mem_filter, List.mem_range] at hr
        obtain ⟨h1, h2⟩ := (@decide_eq_true_iff _ _).1 hr.2
        exact hzero r hr.1 ((hsam r).1 h1) c h2)
    (fun i hi => by
      obtain rfl : i = 0 := by omega
      intro r hr hs c c' hc hne
      have hs' := (hsam r).1 hs
      refine hsep r hr c c' ?_ hne
      have : r = 0 ∨ r = 2 := by omega
      rcases this with rfl | rfl <;> exact hc)
  refine ⟨key.1, fun r hr => ?_⟩
  obtain ⟨c, hc⟩ : ∃ c, (if r < 2 then some (0 : Fin 2) else some 1) = some c := by
    split_ifs <;> exact ⟨_, rfl⟩
  rw [hc]
  exact key.2.2 r hr c fun c' hne => hsep r hr c c' hc hne

end Knor.Driver
