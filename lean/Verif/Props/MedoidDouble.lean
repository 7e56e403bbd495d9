import Verif.Lemmas.MedoidNear
import Verif.Props.MiniBatchDouble

/-!
# Property C118: a whole k-medoids call on doubles

C89 is about exact arithmetic.  Here are the call and the program `medoids` on IEEE doubles.
-/

namespace Knor.Driver

open Knor Knor.Par Knor.Partition Knor.Spec Knor.NearLloyd Knor.Kmeans Knor.Init Knor.Io

section Transfer

variable {R : Type _} {k n : Nat}

/-- A result on rows that agree with other rows. -/
theorem nearMedoid_data [Div R] [NatCast R] [LE R] {val : R → ℝ} {dist : (Fin n → ℝ) → (Fin n → ℝ) → ℝ}
    {γ ζ ε κ : ℝ} {N : Nat} {data data' : Nat → Row R n} (h : ∀ r, r < N → data r = data' r)
    {sampled : Nat → Nat → Prop} {tol : R} {maxIters : Nat} {y0 : Fin k → Row R n} {iters : Nat} {last : Snap R k n}
    {sizes : Fin k → Int} (hr : NearMedoidResult val dist γ ζ ε κ N data sampled tol maxIters y0 iters last sizes) :
    NearMedoidResult val dist γ ζ ε κ N data' sampled tol maxIters y0 iters last sizes := by
  obtain ⟨t, tr, ⟨h0, h1⟩, hl, hm, hs, h3, h4, h5, h6⟩ := hr
  have h' : ∀ r, r < N → (fun j => val (data r j)) = fun j => val (data' r j) := fun r hr => by rw [h r hr]
  refine ⟨t, tr, ⟨h0, fun r hr => by rw [← h r hr]; exact h1 r hr⟩, hl, hm, fun i hi => ⟨fun c => ?_, fun c r hr ha hsm => ?_,
    fun r hr => by rw [← h r hr]; exact (hs i hi).near r hr⟩, h3, h4, fun c => ?_, h6⟩
  · rcases (hs i hi).kept c with q | ⟨r, q1, q2, q3, q4, q5⟩
    · exact Or.inl q
    · refine Or.inr ⟨r, q1, q2, q3, by rw [← h r q1]; exact q4, ?_⟩
      rw [← energyAt_data h', ← energyAt_data h']
      exact q5
  · rw [← energyAt_data h', ← energyAt_data h', ← h r hr]
    exact (hs i hi).best c r hr ha hsm
  · obtain ⟨r, q1, q2⟩ := h5 c
    exact ⟨r, q1, by rw [← h r q1]; exact q2⟩

/-- **C118, energy.**  An iteration does not make the sum of the distances to the medoids larger, up to rounding: with
exact numbers it does not make it larger at all. -/
theorem C118_energy {val : R → ℝ} {dist : (Fin n → ℝ) → (Fin n → ℝ) → ℝ} {γ ζ ε κ : ℝ} {N : Nat}
    {data : Nat → Row R n} {sampled : Nat → Prop} {s s' : Snap R k n}
    (hs : NearMedoidStep val dist γ ζ ε κ N data sampled s s') (ha : ∀ r, r < N → ∃ c, s.assign r = some c)
    (hd : ∀ x y, 0 ≤ dist x y) (hε : 0 ≤ ε) (hε1 : ε ≤ 1) (hγ : 0 ≤ γ) (hζ : 0 ≤ ζ) (hκ : 0 ≤ κ) :
    (1 - ε) * (1 - γ) * totalEnergy dist N (fun r j => val (data r j)) s'.assign (fun c j => val (s'.cents c j)) ≤
      (1 + γ) * (1 + ε) * totalEnergy dist N (fun r j => val (data r j)) s.assign (fun c j => val (s.cents c j)) +
        (2 * (1 + γ) * (k * κ) + 2 * (N * ζ)) := by
  have hstep : ∀ c, (1 - ε) * energyAt dist N (fun r j => val (data r j)) s.assign c (fun j => val (s'.cents c j)) ≤
      (1 + ε) * energyAt dist N (fun r j => val (data r j)) s.assign c (fun j => val (s.cents c j)) + 2 * κ := by
    intro c
    rcases hs.kept c with h | ⟨_, _, _, _, _, h⟩
    · rw [h]
      have : 0 ≤ energyAt dist N (fun r j => val (data r j)) s.assign c (fun j => val (s.cents c j)) :=
        Finset.sum_nonneg fun r _ => hd _ _
      have := mul_nonneg hε this
      linarith
    · exact h.le
  have hmid : (1 - γ) * totalEnergy dist N (fun r j => val (data r j)) s'.assign (fun c j => val (s'.cents c j)) ≤
      (1 + γ) * totalEnergy dist N (fun r j => val (data r j)) s.assign (fun c j => val (s'.cents c j)) + 2 * (N * ζ) := by
    unfold totalEnergy
    rw [Finset.mul_sum, Finset.mul_sum]
    have hc : (2 * (N * ζ) : ℝ) = ∑ _r ∈ Finset.range N, 2 * ζ := by
      rw [Finset.sum_const, Finset.card_range, nsmul_eq_mul]; ring
    rw [hc, ← Finset.sum_add_distrib]
    refine Finset.sum_le_sum fun r hr => ?_
    obtain ⟨c, e⟩ := ha r (Finset.mem_range.1 hr)
    obtain ⟨c', e', h⟩ := hs.near r (Finset.mem_range.1 hr)
    rw [e, e']
    have := h c
    linarith
  have hsum : (1 - ε) * totalEnergy dist N (fun r j => val (data r j)) s.assign (fun c j => val (s'.cents c j)) ≤
      (1 + ε) * totalEnergy dist N (fun r j => val (data r j)) s.assign (fun c j => val (s.cents c j)) + 2 * (k * κ) := by
    rw [Medoid.total_eq_sum, Medoid.total_eq_sum, Finset.mul_sum, Finset.mul_sum]
    have hc : (2 * (k * κ) : ℝ) = ∑ _c : Fin k, 2 * κ := by
      rw [Finset.sum_const, Finset.card_univ, Fintype.card_fin, nsmul_eq_mul]; ring
    rw [hc, ← Finset.sum_add_distrib]
    exact Finset.sum_le_sum fun c _ => hstep c
  have h1 := mul_le_mul_of_nonneg_left hmid (sub_nonneg.2 hε1)
  have h2 := mul_le_mul_of_nonneg_left hsum (by linarith : 0 ≤ 1 + γ)
  have h3 : 0 ≤ ε * (2 * (N * ζ)) := mul_nonneg hε (by positivity)
  nlinarith

/-- An iteration without rounding (C89) is one of C118 with errors 0. -/
theorem C118_exact {dist : Row ℝ n → Row ℝ n → ℝ} {N : Nat} {data : Nat → Row ℝ n} {sampled : Nat → Prop}
    {s s' : Snap ℝ k n} (hs : MedoidStep dist N data sampled s s') :
    NearMedoidStep id dist 0 0 0 0 N data sampled s s' where
  kept c := by
    rcases hs.kept c with h | ⟨r, h1, h2, h3, h4, h5⟩
    · exact .inl h
    · exact .inr ⟨r, h1, h2, h3, h4, by simpa using h5⟩
  best c r hr ha hsm := by simpa using hs.best c r hr ha hsm
  near r hr := by
    obtain ⟨c, e, h, -⟩ := hs.near r hr
    exact ⟨c, e, fun c' => by simpa using h c'⟩

/-- The rows 0, 1, 2 in one cluster: row 1 replaces row 0 as its medoid. -/
theorem demo_medoidStep : MedoidStep (k := 1) (n := 1) (fun x y : Row ℝ 1 => |x 0 - y 0|) 3 (fun r _ => (r : ℝ))
    (fun _ => True) ⟨fun _ _ => 0, fun _ => some 0⟩ ⟨fun _ _ => 1, fun _ => some 0⟩ := by
  refine ⟨fun c => .inr ⟨1, by decide, by simp [Subsingleton.elim c 0], trivial, by simp, ?_⟩, fun c r hr _ _ => ?_,
    fun r _ => ⟨0, rfl, fun c' => by simp, fun c' _ => Fin.zero_le c'⟩⟩
  · simp [energyAt, Finset.sum_range_succ, Subsingleton.elim c 0]
    norm_num
  · have : r = 0 ∨ r = 1 ∨ r = 2 := by omega
    rcases this with rfl | rfl | rfl <;> simp [energyAt, Finset.sum_range_succ, Subsingleton.elim c 0] <;> norm_num

example : (1 - 0) * (1 - 0) * totalEnergy (fun x y : Row ℝ 1 => |x 0 - y 0|) 3 (fun r _ => (r : ℝ)) (fun _ => some (0 : Fin 1))
      (fun _ _ => 1) ≤
    (1 + 0) * (1 + 0) * totalEnergy (fun x y : Row ℝ 1 => |x 0 - y 0|) 3 (fun r _ => (r : ℝ)) (fun _ => some (0 : Fin 1))
      (fun _ _ => 0) + (2 * (1 + 0) * ((1 : Nat) * 0) + 2 * ((3 : Nat) * 0)) :=
  C118_energy (C118_exact demo_medoidStep) (fun _ _ => ⟨0, rfl⟩) (fun _ _ => abs_nonneg _) le_rfl zero_le_one le_rfl
    le_rfl le_rfl

end Transfer

variable {R S B : Type _} {k n : Nat} [Zero R] [One R] [Add R] [Sub R] [Mul R] [Div R] [IntCast R] [NatCast R] [LT R]
  [LE R] {fin : R → Prop} {val : R → ℝ} {sqrt abs' : R → R} {big : R}

/-- The sampling rate. -/
theorem effRate_val [DecidableLT R] (hI : IeeeDouble fin val sqrt abs') (h1 : fin 1 ∧ val (1 : R) = 1) :
    fin (1 / 5 : R) ∧ NearestDouble (1 / 5) (val (1 / 5 : R)) ∧
    ∀ rate : R, fin rate → fin (Medoid.effRate rate) ∧ val (Medoid.effRate rate) = max (val (1 / 5 : R)) (val rate) := by
  have h8 : (8 : ℝ) ≤ maxDouble := by
    refine le_trans ?_ p_le_max
    have := p_le (show (3 : Int) ≤ 1023 by norm_num)
    have h8 : (2 : ℝ) ^ (3 : Int) = 8 := by norm_num
    rwa [h8] at this
  obtain ⟨f5, n5⟩ := hI.nat 5 (by rw [abs_of_nonneg (by positivity)]; push_cast; linarith)
  have v5 : val ((5 : Nat) : R) = 5 := by
    have := nearest_of_double n5 (nat_isDouble (by norm_num))
    rw [this]; norm_num
  have hdiv := hI.div 1 ((5 : Nat) : R) h1.1 f5 (by rw [v5]; norm_num) (by
    rw [h1.2, v5, abs_of_nonneg (by norm_num)]; linarith)
  rw [h1.2, v5] at hdiv
  have e : (1 / 5 : R) = 1 / ((5 : Nat) : R) := rfl
  rw [e]
  refine ⟨hdiv.1, hdiv.2, fun rate hr => ?_⟩
  have he : Medoid.effRate rate = if (1 / ((5 : Nat) : R)) < rate then rate else 1 / ((5 : Nat) : R) := rfl
  rw [he]
  by_cases hlt : (1 / ((5 : Nat) : R)) < rate
  · rw [if_pos hlt, max_eq_right ((hI.lt _ _ hdiv.1 hr).1 hlt).le]
    exact ⟨hr, rfl⟩
  · rw [if_neg hlt, max_eq_left (not_lt.1 fun h => hlt ((hI.lt _ _ hdiv.1 hr).2 h))]
    exact ⟨hdiv.1, rfl⟩

omit [One R] in
/-- Distances between small rows. -/
theorem good_dist (hI : IeeeDouble fin val sqrt abs') (hbig : fin big ∧ val big = maxDouble) (hcol' : n ≤ 4294967296)
    (cosd : Row R n → Row R n → R) {N : Nat} {data : Nat → Row R n}
    (hm : ∀ r, r < N → ∀ j, fin (data r j) ∧ |val (data r j)| ≤ 2 ^ (402 : Int)) :
    Medoid.GoodDist fin val (anyDist sqrt abs' cosd .eucl) (metricDist .eucl) ((n + 4 : Nat) * 2 ^ (-52 : Int))
      (metricSlack .eucl) N data where
  near r q hr hq := by
    obtain ⟨h1, h2⟩ := dist_double hI hbig hcol' cosd (met := .eucl) (by decide)
    obtain ⟨g1, -, g3⟩ := h1.near _ _ (hm r hr) (hm q hq)
    obtain ⟨g4, g5, -⟩ := h2 _ _ (hm r hr) (hm q hq)
    exact ⟨g1, g4, g5, g3⟩
  nonneg x y := metricDist_nonneg .eucl x y
  symm x y := by
    show Real.sqrt _ = Real.sqrt _
    congr 1
    exact Finset.sum_congr rfl fun j _ => by ring
  self x := by
    simp [metricDist, sqDistance]
  gamma1 := Medoid.p52_le (by omega)
  zeta0 := (p_pos _).le

/-- **C118.**  A call whose option names are not among the documented ones throws; so does every call with the
documented initialisations other than `forgy`, and with `numa_opt`.  With `forgy`, a call on a matrix of doubles of at
most `2^402` never fails, for every number of threads, interleaving and draws, and returns the result of k-medoids with
the **Euclidean** distance up to rounding, from rows drawn at random; in iteration `i` the rows with a draw of at most
the rate, or the double next to a fifth, are sampled.  Missing: the requested metric (`C89_violated_metric`), the other
initialisations. -/
theorem C118_call_partial [DecidableLT R] [DecidableLE R] (hI : IeeeDouble fin val sqrt abs')
    (h1 : fin 1 ∧ val (1 : R) = 1) (hbig : fin big ∧ val big = maxDouble) (cosd : Row R n → Row R n → R)
    {c : Codec R B} (hc : CodecOk c) (rng : Rng R S k)
    (draw : Nat → Nat → R) (s0 : List Nat) (s1 s2 : Nat → List Nat) (rate : R) (a : Call R B) (m : Nat → Nat → R)
    (given : Option (Nat → Nat → R))
    (hk : 0 < k) (hcol : 0 < n) (hcol' : n ≤ 4294967296) (hn : 0 < a.nrow) (hnt : 0 < a.nthreads)
    (hlt : a.nrow < 4294967296)
    (hsz : a.nrow * n * c.size < 9223372036854775808) (hst : Holds c a.source m a.nrow n)
    (hgiven : a.centers = given.map fun g => rowsFrom g n 0 k) (hrng : RngFin fin val rng a.nrow)
    (hdraw : ∀ i r, fin (draw i r)) (hrate : fin rate)
    (hc0 : Complete (effThreads a.nthreads a.nrow) (threadRows a.nrow a.nthreads) s0)
    (hc1 : ∀ i, Complete (effThreads a.nthreads a.nrow) (threadRows a.nrow a.nthreads) (s1 i))
    (hc2 : ∀ i, Complete (effThreads a.nthreads a.nrow) (threadRows a.nrow a.nthreads) (s2 i))
    (hm : ∀ r j, r < a.nrow → j < n → fin (m r j) ∧ |val (m r j)| ≤ 2 ^ (402 : Int)) :
    ((a.init ≠ "forgy" ∨ a.dist ∉ ["eucl", "cos", "taxi", "sqeucl"] ∨ ∃ l nodes, a.source = .numa l nodes) →
      medoids (anyDist sqrt abs' cosd) big c rng draw s0 s1 s2 rate a = .error .throws) ∧
    (a.init = "forgy" → a.dist ∈ ["eucl", "cos", "taxi", "sqeucl"] → (∀ l nodes, a.source ≠ .numa l nodes) →
      ∃ res y0 fifth, medoids (anyDist sqrt abs' cosd) big c rng draw s0 s1 s2 rate a = .ok res ∧
        (∀ cc : Fin k, ∃ r, r < a.nrow ∧ (outputs rng.row k rng.seed)[cc.val]? = some r ∧ y0 cc = matRows m r) ∧
        NearestDouble (1 / 5) fifth ∧
        NearMedoidResult val (metricDist .eucl) ((n + 4 : Nat) * 2 ^ (-52 : Int)) (metricSlack .eucl)
          ((n + 2 * a.nrow + 6 : Nat) * 2 ^ (-52 : Int)) (2 * (a.nrow * metricSlack .eucl)) a.nrow (matRows m)
          (fun i r => val (draw i r) ≤ max fifth (val rate)) a.tol a.maxIters y0
          res.iters (medoidSnap res.state) res.state.counts) := by
  refine ⟨medoids_throws _ big hc rng draw s0 s1 s2 rate a m given hk hcol hn hnt hlt hsz hst hgiven, ?_⟩
  intro hi hd hnn
  obtain ⟨ws, el, hrows⟩ := load_ok (n := n) hc m a hn hnt hcol hlt hsz hst
  obtain ⟨cl, ecl⟩ : ∃ cl : Clusters R k n, construct .forgy a.centers = .ok cl := by
    rw [hgiven]
    exact ⟨_, (construct_ok (k := k) (n := n) hk .forgy given).choose_spec.1⟩
  obtain ⟨met, hmet⟩ : ∃ met, getDist a.dist = .ok met := by
    simp only [List.mem_cons, List.not_mem_nil, or_false] at hd
    rcases hd with h1 | h1 | h1 | h1 <;> (rw [h1]; exact ⟨_, rfl⟩)
  have hload : loadMedoid c a n = .ok ws := by
    unfold loadMedoid
    cases hs : a.source with
    | numa l nodes => exact absurd hs (hnn l nodes)
    | file b => exact el
    | array b => exact el
  obtain ⟨-, hf, hr⟩ := effRate_val hI h1
  obtain ⟨hr1, hr2⟩ := hr rate hrate
  obtain ⟨res, e, h⟩ := Medoid.run_near (draw := draw) (rate := rate) (tol := a.tol) (maxIters := a.maxIters) hI hbig hk
    hn hnt hlt (good_dist (data := rowsIn (n := n) ws a.nrow a.nthreads) hI hbig hcol' cosd fun r hr j => by
      rw [hrows r hr]; exact hm r j.val hr j.isLt)
    (medoidPick rng) (fun c => hrng.row _) hc0 hc1 hc2
  refine ⟨res, fun cc => rowsIn (n := n) ws a.nrow a.nthreads (medoidPick rng cc), _, ?_, fun cc => ⟨medoidPick rng cc, hrng.row _, outputs_get _ _ _ _ cc.isLt, ?_⟩, hf, ?_⟩
  · unfold medoids
    rw [show getInit a.init = .ok .forgy by rw [hi]; rfl]; dsimp only
    rw [hmet]; dsimp only
    rw [ecl]; dsimp only
    rw [hload]
    exact e
  · exact hrows _ (hrng.row _)
  · have h := nearMedoid_data hrows h
    have hsam : (fun i r => ¬ Medoid.effRate rate < draw i r) =
        fun i r => val (draw i r) ≤ max (val (1 / 5 : R)) (val rate) := by
      funext i r
      rw [hI.lt _ _ hr1 (hdraw i r), not_lt, hr2]
    rw [hsam] at h
    have he : ((n + 4 : Nat) : ℝ) * 2 ^ (-52 : Int) + 2 * ((a.nrow + 1 : Nat) * 2 ^ (-52 : Int)) =
        ((n + 2 * a.nrow + 6 : Nat) : ℝ) * 2 ^ (-52 : Int) := by
      push_cast; ring
    rw [he] at h
    exact h

/-- **C118, the program.**  `medoids` on doubles: a data file whose size does not fit is refused; without a file of
centres the program returns the result of k-medoids up to rounding, from rows drawn at random.  Missing: the requested
metric, and centres (`C89_violated_centers`). -/
theorem C118_program_partial [DecidableLT R] [DecidableLE R] (hI : IeeeDouble fin val sqrt abs')
    (h1 : fin 1 ∧ val (1 : R) = 1) (hbig : fin big ∧ val big = maxDouble) (cosd : Row R n → Row R n → R)
    {c : Codec R B} (hc : CodecOk c) (rng : Rng R S k)
    (draw : Nat → Nat → R) (s0 : List Nat) (s1 s2 : Nat → List Nat) (rate : R) (datafn : List B) (hasCenters : Bool)
    (nrow maxIters nthreads : Nat) (tol : R) (distType : String)
    (hk : 0 < k) (hcol : 0 < n) (hcol' : n ≤ 4294967296) (hn : 0 < nrow) (hnt : 0 < nthreads) (hlt : nrow < 4294967296)
    (hsz : nrow * n * c.size < 9223372036854775808) (hrng : RngFin fin val rng nrow)
    (hdraw : ∀ i r, fin (draw i r)) (hrate : fin rate)
    (hc0 : Complete (effThreads nthreads nrow) (threadRows nrow nthreads) s0)
    (hc1 : ∀ i, Complete (effThreads nthreads nrow) (threadRows nrow nthreads) (s1 i))
    (hc2 : ∀ i, Complete (effThreads nthreads nrow) (threadRows nrow nthreads) (s2 i)) :
    (datafn.length ≠ nrow * n * c.size →
      medoidsProg (n := n) (anyDist sqrt abs' cosd) big c rng draw s0 s1 s2 rate datafn hasCenters nrow maxIters nthreads
        tol distType = .error .throws) ∧
    ∀ m : Nat → Nat → R, Stores c datafn m nrow n →
      (∀ r j, r < nrow → j < n → fin (m r j) ∧ |val (m r j)| ≤ 2 ^ (402 : Int)) →
      distType ∈ ["eucl", "cos", "taxi", "sqeucl"] → hasCenters = false →
      ∃ res y0 fifth, medoidsProg (n := n) (anyDist sqrt abs' cosd) big c rng draw s0 s1 s2 rate datafn hasCenters nrow
          maxIters nthreads tol distType = .ok res ∧
        (∀ cc : Fin k, ∃ r, r < nrow ∧ (outputs rng.row k rng.seed)[cc.val]? = some r ∧ y0 cc = matRows m r) ∧
        NearestDouble (1 / 5) fifth ∧
        NearMedoidResult val (metricDist .eucl) ((n + 4 : Nat) * 2 ^ (-52 : Int)) (metricSlack .eucl)
          ((n + 2 * nrow + 6 : Nat) * 2 ^ (-52 : Int)) (2 * (nrow * metricSlack .eucl)) nrow (matRows m)
          (fun i r => val (draw i r) ≤ max fifth (val rate)) tol maxIters y0
          res.iters (medoidSnap res.state) res.state.counts := by
  have hu : u64 (u64 (c.size * nrow) * n) = nrow * n * c.size := by
    have h0 : c.size * nrow * n = nrow * n * c.size := by ring
    rw [u64_mul (by omega), h0]
  constructor
  · intro hne
    unfold medoidsProg
    dsimp only
    rw [if_pos (by rw [hu]; exact hne)]
  · rintro m hst hm hd rfl
    have hlen : datafn.length = nrow * n * c.size := by
      unfold Stores at hst
      rw [hst, length_enc hc, length_rowsFrom]
    unfold medoidsProg
    dsimp only
    rw [if_neg (by rw [hu]; simp [hlen])]
    obtain ⟨y, ey⟩ := read_stored (n := n) hc m nrow (Nat.mul_pos hn hcol) (by omega) hst
    rw [ey]
    exact (C118_call_partial hI h1 hbig cosd hc rng draw s0 s1 s2 rate
      ⟨.array (rowsFrom m n 0 nrow), nrow, maxIters, nthreads, none, "forgy", tol, distType⟩ m none hk hcol hcol' hn
      hnt hlt hsz rfl rfl hrng hdraw hrate hc0 hc1 hc2 hm).2 rfl hd (fun l nodes h => by cases h)

/-! ### Calls that meet the hypotheses -/

/-- The rows 0, 1, 2, 3 in a file, with two threads. -/
example (rate : Dbl) (hrate : Dbl.Fin' rate) : ∃ (res : Medoid.Result Dbl Dbl 2 1) (y0 : Fin 2 → Row Dbl 1) (fifth : ℝ),
    medoids (anyDist (fun x => Dbl.rnd (√x.v)) (fun x => ⟨|x.v|⟩) fun _ _ => 0) ⟨maxDouble⟩ (oneCell Dbl) dblRng dblHalf
      (demoSched 0) demoSched demoSched rate (dblCall "forgy" "eucl" 5) = .ok res ∧
    (∀ cc : Fin 2, ∃ r, r < 4 ∧ (outputs dblRng.row 2 dblRng.seed)[cc.val]? = some r ∧
      y0 cc = matRows (fun r _ => ⟨(r : ℝ)⟩) r) ∧
    NearestDouble (1 / 5) fifth ∧
    NearMedoidResult Dbl.v (metricDist .eucl) ((1 + 4 : Nat) * 2 ^ (-52 : Int)) (metricSlack .eucl)
      ((1 + 2 * 4 + 6 : Nat) * 2 ^ (-52 : Int)) (2 * ((4 : Nat) * metricSlack .eucl)) 4 (matRows fun r _ => ⟨(r : ℝ)⟩)
      (fun i r => (dblHalf i r).v ≤ max fifth rate.v) ⟨0⟩ 5 y0 res.iters (medoidSnap res.state) res.state.counts := by
  have := (C118_call_partial (k := 2) (n := 1) Dbl.ieee dbl_one dbl_input.big (fun _ _ => 0) (oneCell_ok Dbl) dblRng
    dblHalf (demoSched 0) demoSched demoSched rate (dblCall "forgy" "eucl" 5) (fun r _ => ⟨(r : ℝ)⟩) none (by norm_num)
    (by norm_num) (by norm_num) (by simp [dblCall]) (by simp [dblCall]) (by simp [dblCall]) (by simp [dblCall, oneCell])
    (by simp [Holds, dblCall, Stores, oneCell, rowsFrom, rowOf, List.range', List.range_succ]) rfl dblRng_fin dblHalf_fin
    hrate (demo_complete 0) demo_complete demo_complete
    (fun r j hr _ => by
      obtain ⟨h1, h2⟩ := dbl_small r (by have : r < 4 := hr; omega)
      exact ⟨h1, h2.trans (p_le (by norm_num))⟩)).2 rfl (by simp [dblCall]) (fun l nodes h => by cases h)
  exact this

/-- The program on those rows, and the metric `taxi`. -/
example (tol rate : Dbl) (hrate : Dbl.Fin' rate) :
    ∃ (res : Medoid.Result Dbl Dbl 2 1) (y0 : Fin 2 → Row Dbl 1) (fifth : ℝ),
    medoidsProg (anyDist (fun x => Dbl.rnd (√x.v)) (fun x => ⟨|x.v|⟩) fun _ _ => 0) ⟨maxDouble⟩ (oneCell Dbl) dblRng
      dblHalf (demoSched 0) demoSched demoSched rate
      ((rowsFrom (fun r _ => (⟨(r : ℝ)⟩ : Dbl)) 1 0 4).flatMap (oneCell Dbl).enc) false 4 5 2 tol "taxi" = .ok res ∧
    (∀ cc : Fin 2, ∃ r, r < 4 ∧ (outputs dblRng.row 2 dblRng.seed)[cc.val]? = some r ∧
      y0 cc = matRows (fun r _ => ⟨(r : ℝ)⟩) r) ∧
    NearestDouble (1 / 5) fifth ∧
    NearMedoidResult Dbl.v (metricDist .eucl) ((1 + 4 : Nat) * 2 ^ (-52 : Int)) (metricSlack .eucl)
      ((1 + 2 * 4 + 6 : Nat) * 2 ^ (-52 : Int)) (2 * ((4 : Nat) * metricSlack .eucl)) 4 (matRows fun r _ => ⟨(r : ℝ)⟩)
      (fun i r => (dblHalf i r).v ≤ max fifth rate.v) tol 5 y0 res.iters (medoidSnap res.state) res.state.counts :=
  (C118_program_partial (k := 2) (n := 1) Dbl.ieee dbl_one dbl_input.big (fun _ _ => 0) (oneCell_ok Dbl) dblRng
    dblHalf (demoSched 0) demoSched demoSched rate _ false 4 5 2 tol "taxi" (by decide) (by decide) (by decide) (by decide)
    (by decide) (by decide) (by decide) dblRng_fin dblHalf_fin hrate (demo_complete 0) demo_complete demo_complete).2
    _ rfl (fun r j hr _ => by
      obtain ⟨h1, h2⟩ := dbl_small r (by omega)
      exact ⟨h1, h2.trans (p_le (by norm_num))⟩) (by simp) rfl

end Knor.Driver
