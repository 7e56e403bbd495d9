import Verif.Lemmas.DoubleDriver

/-!
# Property C110: a whole k-means call on doubles

C82 is about exact arithmetic and C97 about a run on doubles from given centroids.  Here is the whole call, from the
names of the options and the caller's data to the returned clustering, on IEEE doubles and for every initialisation.
-/

namespace Knor.Driver

open Knor Knor.Par Knor.Partition Knor.Spec Knor.NearLloyd Knor.Kmeans Knor.Distr Knor.Init Knor.Io

variable {R S B : Type _} {k n : Nat} [Zero R] [Add R] [Sub R] [Mul R] [Div R] [IntCast R] [NatCast R] [LT R] [LE R]
  {fin : R → Prop} {val : R → ℝ} {sqrt abs' : R → R} {big : R}

omit [Zero R] [Add R] [Sub R] [Mul R] [IntCast R] [LT R] in
/-- A result only depends on the rows that exist. -/
theorem near_data {dist : (Fin n → ℝ) → (Fin n → ℝ) → ℝ} {γ ζ e η : ℝ} {N : Nat} {data data' : Nat → Row R n}
    (hd : ∀ r, r < N → data r = data' r) {cents0 : Fin k → Fin n → R} {tol : R} {maxIters iters : Nat}
    {assign : Nat → Option (Fin k)} {counts : Fin k → Int} {cents : Fin k → Fin n → R}
    (h : NearLloydResult fin val dist γ ζ e η N data cents0 tol maxIters iters assign counts cents) :
    NearLloydResult fin val dist γ ζ e η N data' cents0 tol maxIters iters assign counts cents := by
  have hm : ∀ (f : R → ℝ) (a : Nat → Option (Fin k)) c j, memberMean N (fun r j => f (data r j)) a c j =
      memberMean N (fun r j => f (data' r j)) a c j := fun f a c j =>
    memberMean_data (fun r hr => by rw [hd r hr]) a c j
  obtain ⟨m, tr, h1, h2, h3, h4, h5, h6, h7, h8, h9⟩ := h
  refine ⟨m, tr, h1, h2, ⟨h3.cents, h3.unassigned, fun i hi => ⟨fun r hr => ?_, fun c j => ?_⟩⟩, h4, h5, h6, h7, h8,
    fun hch r hr => ?_⟩
  · rw [← hd r hr]; exact (h3.step i hi).assigned r hr
  · rw [← hm val, ← hm fun x => |val x|]; exact (h3.step i hi).means c j
  · rw [← hd r hr]; exact h9 hch r hr

/-- The initialisation on doubles. -/
theorem runInit_near [DecidableLT R] [DecidableLE R] (hI : IeeeDouble fin val sqrt abs')
    (hbig : fin big ∧ val big = maxDouble) (cosd : Row R n → Row R n → R) {met : Dist.Metric} (hcos : met ≠ .cos)
    (rng : Rng R S k) (data data' : Nat → Row R n) (N nt : Nat) (hdata : ∀ r, r < N → data r = data' r)
    (hk : 0 < k) (hn : 0 < N) (hnt : 0 < nt) (hlt : N < 4294967296) (hcol : n ≤ 4294967296)
    (hrows : ∀ r, r < N → InBox fin val (2 ^ (400 : Int)) (data' r)) (hrng : RngFin fin val rng N)
    (sched : Nat → List Nat) (hc : ∀ i, Complete (effThreads nt N) (threadRows N nt) (sched i))
    (it : InitT) (given : Option (Nat → Nat → R))
    (hgiven : ∀ g, givenCents (k := k) (n := n) given = some g → ∀ c, InBox fin val (2 ^ (400 : Int)) (g c))
    (T L : Nat) (hT : T = effThreads nt N) (hL : L = N / T + N % T) :
    ∃ c0 s, construct it (given.map fun g => rowsFrom g n 0 k) = .ok c0 ∧
      runInit (anyDist sqrt abs' cosd met) big rng data N nt sched it c0 = .ok s ∧
      (∀ c, InBox fin val (2 ^ (402 : Int)) (s.cltrs.means c)) ∧
      NearStartsAt fin val it (metricDist met) ((n + 4 : Nat) * 2 ^ (-52 : Int)) (metricSlack met)
        ((N + 1 : Nat) * 2 ^ (-52 : Int)) (2 ^ (-1075 : Int)) ((L + T + N + 2 : Nat) * 2 ^ (-52 : Int))
        (2 ^ (-1073 : Int)) data' N rng (givenCents given) s.cltrs.means := by
  subst hT hL
  have hrows' : ∀ r, r < N → InBox fin val (2 ^ (400 : Int)) (data r) := fun r hr => by
    rw [hdata r hr]; exact hrows r hr
  have h42 : ∀ {x : Row R n}, InBox fin val (2 ^ (400 : Int)) x → InBox fin val (2 ^ (402 : Int)) x := fun h =>
    Kmeans.InBox.mono h (p_le (by norm_num))
  obtain ⟨c0, e0, h0, h1⟩ := construct_ok (k := k) (n := n) hk it given
  refine ⟨c0, ?_⟩
  cases it with
  | none =>
    obtain ⟨w1, w2⟩ := h1 rfl
    refine ⟨_, e0, rfl, ?_, fun g hg => ?_, fun hg => w2 (by unfold givenCents at hg; simpa using hg)⟩
    · intro c
      cases given with
      | none =>
        intro j
        show fin (c0.means c j) ∧ |val (c0.means c j)| ≤ _
        rw [w2 rfl c j, hI.zero.2, abs_zero]
        exact ⟨hI.zero.1, (p_pos _).le⟩
      | some g' =>
        show InBox fin val _ (c0.means c)
        rw [w1 g' rfl]
        exact h42 (hgiven _ rfl c)
    · cases given with
      | none => cases hg
      | some g' =>
        rw [← Option.some.inj hg]
        exact w1 g' rfl
  | forgy =>
    obtain ⟨c', e, h⟩ := C27_forgy_picks_rows rng.row rng.seed data N nt hnt hlt hrng.row c0
    refine ⟨⟨c', fun _ => none, fun _ => 0, 0⟩, e0, ?_, fun c => ?_, fun c => ?_⟩
    · unfold runInit; dsimp only; rw [e]
    · obtain ⟨r, hr, _, q2⟩ := h c
      show InBox fin val _ (c'.means c)
      rw [q2]
      exact h42 (hrows' r hr)
    · obtain ⟨r, hr, q1, q2⟩ := h c
      exact ⟨r, hr, q1, by rw [← hdata r hr]; exact q2⟩
  | random =>
    obtain rfl := h0 (by decide)
    obtain ⟨c', a', e, q1, q2, q3⟩ := random_near hI rng.clust rng.seed hn hnt hlt hrows' fun _ => none
    refine ⟨⟨c', a', fun _ => 0, 0⟩, e0, ?_, q2, a', q1, fun c j => ⟨(q2 c j).1, ?_⟩⟩
    · unfold runInit; dsimp only; rw [e]
    · have hm : ∀ f : R → ℝ, memberMean N (fun r j => f (data r j)) a' c j =
          memberMean N (fun r j => f (data' r j)) a' c j := fun f =>
        memberMean_data (fun r hr => by rw [hdata r hr]) a' c j
      rw [← hm val, ← hm fun x => |val x|]
      exact q3 c j
  | plusplus =>
    have hf := hrng.row rng.seed
    have hsp := split_threadRows hn hnt hlt
    have hlen := len_le hn hnt hlt
    obtain ⟨s', e, q1, q2⟩ := kpp_near hI (seed_double hI hbig hcol cosd hcos hrows') hk hn hnt hlt hsp threadRows_length
      (by omega) hc (u := fun i => (rng.unit (skip rng.unit i (rng.row rng.seed).2)).1) (fun i => hrng.unit _) hf
      ⟨c0, fun _ => ⟨big, none⟩⟩ (fun _ _ => rfl)
    refine ⟨⟨s'.cltrs, fun r => (s'.slots r).assign, fun _ => 0, 0⟩, e0, ?_, fun c => ?_, fun c => ?_⟩
    · unfold runInit; dsimp only; rw [e]
    · obtain ⟨r, hr, w⟩ := q1 c
      show InBox fin val _ (s'.cltrs.means c)
      rw [w]
      exact h42 (hrows' r hr)
    · refine ⟨fun h => by rw [← hdata _ hf]; exact (q2 c).1 h, fun h => ?_⟩
      obtain ⟨r, d, w1, w2, w3⟩ := (q2 c).2 h
      refine ⟨r, d, _, ?_, ?_, outputs_get _ _ _ _ (by have := c.isLt; omega), w3⟩
      · rw [← hdata r w3.1]; exact w1
      · intro q hq
        have := w2 q hq
        dsimp only at this ⊢
        rw [hdata q hq] at this
        exact this

/-- **C110.**  On IEEE doubles, for every initialisation, every number of threads, all interleavings and all draws of
the engine, a call with the Euclidean, squared Euclidean or taxicab metric on rows and given centres no larger than
`2^400` never fails, and it returns what it owes: Lloyd's algorithm up to rounding, from the start that the
initialisation promises up to rounding. -/
theorem C110_call [DecidableLT R] [DecidableLE R] (hI : IeeeDouble fin val sqrt abs')
    (hbig : fin big ∧ val big = maxDouble) (cosd : Row R n → Row R n → R) {c : Codec R B} (hc : CodecOk c)
    (rng : Rng R S k) (sched1 sched2 : Nat → List Nat) (a : Call R B) (m : Nat → Nat → R)
    (given : Option (Nat → Nat → R)) (hk : 0 < k) (hcol : 0 < n) (hcol' : n ≤ 4294967296) (hn : 0 < a.nrow)
    (hnt : 0 < a.nthreads) (hlt : a.nrow < 4294967296) (hsz : a.nrow * n * c.size < 9223372036854775808)
    (hst : Holds c a.source m a.nrow n) (hgiven : a.centers = given.map fun g => rowsFrom g n 0 k)
    (hrng : RngFin fin val rng a.nrow)
    (hc1 : ∀ i, Complete (effThreads a.nthreads a.nrow) (threadRows a.nrow a.nthreads) (sched1 i))
    (hc2 : ∀ i, Complete (effThreads a.nthreads a.nrow) (threadRows a.nrow a.nthreads) (sched2 i))
    (hm : ∀ r j, r < a.nrow → j < n → fin (m r j) ∧ |val (m r j)| ≤ 2 ^ (400 : Int))
    (hg : ∀ g, given = some g → ∀ r j, r < k → j < n → fin (g r j) ∧ |val (g r j)| ≤ 2 ^ (400 : Int))
    (it : InitT) (met : Dist.Metric) (hi : getInit a.init = .ok it) (hd : getDist a.dist = .ok met) (hcos : met ≠ .cos) :
    ∃ res, kmeans (anyDist sqrt abs' cosd) big c rng sched1 sched2 a = .ok res ∧
      NearDelivers fin val it met (matRows m) a.nrow (min a.nthreads a.nrow) rng (givenCents given) a.tol a.maxIters
        res := by
  obtain ⟨ws, el, hrows⟩ := load_ok hc m a hn hnt hcol hlt hsz hst
  have hbox : ∀ r, r < a.nrow → InBox (n := n) fin val (2 ^ (400 : Int)) (matRows m r) := fun r hr j =>
    hm r j.val hr j.isLt
  have hgbox : ∀ g, givenCents (k := k) (n := n) given = some g → ∀ c, InBox fin val (2 ^ (400 : Int)) (g c) := by
    intro g h c j
    cases given with
    | none => cases h
    | some g' =>
      rw [← Option.some.inj h]
      exact hg g' rfl c.val j.val c.isLt j.isLt
  have hT : min a.nthreads a.nrow = effThreads a.nthreads a.nrow := rfl
  rw [hT]
  obtain ⟨cl, s, e0, es, hb, hstart⟩ := runInit_near hI hbig cosd hcos rng (rowsIn ws a.nrow a.nthreads) (matRows m)
    a.nrow a.nthreads hrows hk hn hnt hlt hcol' hbox hrng sched1 hc1 it given hgbox _ _ rfl rfl
  have hkm : ∀ x, Kmeans.run (anyDist sqrt abs' cosd met) big (rowsIn ws a.nrow a.nthreads) a.nrow a.nthreads a.tol
      a.maxIters sched2 s = .ok x → kmeans (anyDist sqrt abs' cosd) big c rng sched1 sched2 a = .ok x := by
    intro x hx
    unfold kmeans
    rw [hi]
    dsimp only
    rw [hd]
    dsimp only
    rw [hgiven, e0]
    dsimp only
    rw [el]
    dsimp only
    rw [es]
    exact hx
  rcases Nat.eq_zero_or_pos a.maxIters with h0 | hpos
  · refine ⟨⟨0, s⟩, hkm _ ?_, s.cltrs.means, hstart, fun _ => ⟨rfl, rfl⟩, fun h => by omega⟩
    unfold Kmeans.run
    rw [if_neg (by omega)]
    unfold Kmeans.loop
    rw [if_neg (by omega)]
  · have hin : DoubleInput fin val big (rowsIn (n := n) ws a.nrow a.nthreads) a.nrow a.nthreads
        (fun (_ : Fin k) (_ : Fin n) => (0 : R)) :=
      ⟨hk, hn, hnt, hlt, hcol', hbig, fun r hr => by rw [hrows r hr]; exact hbox r hr, fun _ _ => by
        rw [hI.zero.2, abs_zero]; exact ⟨hI.zero.1, (p_pos _).le⟩⟩
    have hsz : Sizes fin val (2 ^ (-53 : Int)) (2 ^ (-1075 : Int)) maxDouble (2 ^ (400 : Int)) (2 ^ (402 : Int)) (2 ^ 53)
        a.nrow a.nthreads (rowsIn (n := n) ws a.nrow a.nthreads) :=
      DoubleInput.sizes (s0 := ⟨⟨fun _ _ => 0, fun _ => 0, fun _ => false⟩, fun _ => none, fun _ => 0, 0⟩) hin
    obtain ⟨res, er, h⟩ := run_near hI.rounds hk (dist_double hI hbig hcol' cosd hcos).1 hsz hb hpos hc2 (tol := a.tol)
    refine ⟨res, hkm _ er, s.cltrs.means, hstart, fun h => by omega, fun _ => near_data hrows ?_⟩
    exact h.mono (metricDist_nonneg met) le_rfl le_rfl
      (pow_rounds (m := _) ((len_le hn hnt hlt).trans (by norm_num))).1

omit [Add R] [Sub R] [Mul R] [IntCast R] [LT R] in
/-- **C110, separated data.**  If the exact iterations from that start are separated by more than the errors, the
call returns exactly the clusters of Lloyd's algorithm (`δ` bounds the distance of the centroids to the exact ones). -/
theorem C110_separated [DecidableLE R] {it : InitT} {met : Dist.Metric} (hmet : met = .eucl ∨ met = .taxi)
    {data : Nat → Fin n → R} {N T : Nat} {rng : Rng R S k} {given : Option (Fin k → Fin n → R)} {tol : R}
    {maxIters : Nat} {res : Kmeans.Result R k n} (hcol : n ≤ 4294967296) (hn : 0 < N) (hT : 0 < T) (hTN : T ≤ N)
    (hlt : N < 4294967296) (h : NearDelivers fin val it met data N T rng given tol maxIters res) (hm : 0 < maxIters)
    (X : ℝ) (hX0 : 0 ≤ X) (hX : ∀ r, r < N → ∀ j, |val (data r j)| ≤ X)
    (δ : ℝ) (hδ : δ = (N / T + N % T + T + 1 : Nat) * 2 ^ (-52 : Int) * X + 2 ^ (-1075 : Int)) :
    ∃ c0, NearStartsAt fin val it (metricDist met) ((n + 4 : Nat) * 2 ^ (-52 : Int)) (metricSlack met)
        ((N + 1 : Nat) * 2 ^ (-52 : Int)) (2 ^ (-1075 : Int)) ((N / T + N % T + T + N + 2 : Nat) * 2 ^ (-52 : Int))
        (2 ^ (-1073 : Int)) data N rng given c0 ∧
      ∀ tr, LloydTrace (metricDist met) N (fun r j => val (data r j)) (fun c j => val (c0 c j)) tr →
        (∀ i, i < maxIters → Separated (metricDist met) ((n + 4 : Nat) * 2 ^ (-52 : Int)) (metricSlack met)
          (if met = .eucl then √n * δ else n * δ) N (fun r j => val (data r j)) (tr i) (tr (i + 1))) →
        SameClusters val δ N tol maxIters tr res.iters res.state.assign res.state.counts res.state.cltrs.means := by
  obtain ⟨c0, h1, _, h3⟩ := h
  have hdiv : N / T ≤ N := Nat.div_le_self _ _
  have hmod : N % T < T := Nat.mod_lt _ hT
  refine ⟨c0, h1, fun tr hl hs => ?_⟩
  rw [hδ]
  refine C98_near_lloyd_is_lloyd (gamma_le (by omega)).1 (gamma_le (by omega)).2 (gamma_le (by omega)).2 (p_pos _).le
    hX0 hX ?_ (h3 hm) tr hl hs
  intro x y y' hy
  rw [← hδ] at hy
  rcases hmet with rfl | rfl
  · rw [if_pos rfl]; exact eucl_lip hy
  · rw [if_neg (by decide)]; exact taxi_lip hy

/-- **C110, the program.**  What `knori -P` does on doubles: `none` without a file of centres is refused, and a data
file whose size does not fit; otherwise a file of centres replaces the initialisation, and the program returns what
the call owes. -/
theorem C110_knori [DecidableLT R] [DecidableLE R] (hI : IeeeDouble fin val sqrt abs')
    (hbig : fin big ∧ val big = maxDouble) (cosd : Row R n → Row R n → R) {c : Codec R B} (hc : CodecOk c)
    (rng : Rng R S k) (sched1 sched2 : Nat → List Nat) (datafn : List B) (centersfn : Option (List B))
    (nrow maxIters nthreads : Nat) (init : String) (tol : R) (distType : String)
    (hk : 0 < k) (hcol : 0 < n) (hcol' : n ≤ 4294967296) (hn : 0 < nrow) (hnt : 0 < nthreads) (hlt : nrow < 4294967296)
    (hsz : nrow * n * c.size < 9223372036854775808) (hszk : k * n * c.size < 18446744073709551616)
    (hrng : RngFin fin val rng nrow)
    (hc1 : ∀ i, Complete (effThreads nthreads nrow) (threadRows nrow nthreads) (sched1 i))
    (hc2 : ∀ i, Complete (effThreads nthreads nrow) (threadRows nrow nthreads) (sched2 i)) :
    (centersfn = none → init = "none" →
      knori (anyDist sqrt abs' cosd) big c rng sched1 sched2 datafn centersfn nrow maxIters nthreads init tol distType
        = .error .assertFail) ∧
    (¬ (centersfn = none ∧ init = "none") → datafn.length ≠ nrow * n * c.size →
      knori (anyDist sqrt abs' cosd) big c rng sched1 sched2 datafn centersfn nrow maxIters nthreads init tol distType
        = .error .throws) ∧
    ∀ (m : Nat → Nat → R) (given : Option (Nat → Nat → R)) it met,
      Stores c datafn m nrow n → centersfn = given.map (fun g => (rowsFrom g n 0 k).flatMap c.enc) →
      (∀ r j, r < nrow → j < n → fin (m r j) ∧ |val (m r j)| ≤ 2 ^ (400 : Int)) →
      (∀ g, given = some g → ∀ r j, r < k → j < n → fin (g r j) ∧ |val (g r j)| ≤ 2 ^ (400 : Int)) →
      (given.isSome → it = .none) → (given = none → getInit init = .ok it ∧ it ≠ .none) →
      getDist distType = .ok met → met ≠ .cos →
      ∃ res : Kmeans.Result R k n,
        knori (anyDist sqrt abs' cosd) big c rng sched1 sched2 datafn centersfn nrow maxIters nthreads init tol distType
          = .ok res ∧
        NearDelivers fin val it met (matRows m) nrow (min nthreads nrow) rng (givenCents given) tol maxIters res := by
  have hu : u64 (u64 (c.size * nrow) * n) = nrow * n * c.size := by
    have h0 : c.size * nrow * n = nrow * n * c.size := by ring
    rw [u64_mul (by omega), h0]
  refine ⟨?_, ?_, ?_⟩
  · rintro rfl rfl
    unfold knori
    simp
  · intro h hne
    unfold knori
    dsimp only
    rw [if_neg, if_pos (by rw [hu]; exact hne)]
    rintro ⟨h2, h3⟩
    have h4 : centersfn = none := by simpa using h3
    subst h4
    exact h ⟨rfl, by simpa using h2⟩
  · intro m given it met hst hcf hm hg hs hnone hd hcos
    have hlen : datafn.length = nrow * n * c.size := by
      unfold Stores at hst
      rw [hst, length_enc hc, length_rowsFrom]
    unfold knori
    dsimp only
    cases given with
    | none =>
      rw [Option.map_none] at hcf
      subst hcf
      obtain ⟨hi, hit⟩ := hnone rfl
      have hne : init ≠ "none" := by
        rintro rfl
        exact hit (Except.ok.inj hi).symm
      rw [if_neg (by simp [hne]), if_neg (by rw [hu]; simp [hlen])]
      simp only [Option.isSome_none, Bool.false_eq_true, if_false]
      exact C110_call hI hbig cosd hc rng sched1 sched2
        ⟨.file datafn, nrow, maxIters, nthreads, none, init, tol, distType⟩ m none hk hcol hcol' hn hnt hlt hsz hst rfl hrng
        hc1 hc2 hm hg it met hi hd hcos
    | some g =>
      rw [Option.map_some] at hcf
      subst hcf
      obtain rfl := hs rfl
      rw [if_neg (by simp), if_neg (by rw [hu]; simp [hlen])]
      obtain ⟨y, ey⟩ := read_stored (n := n) hc g k (Nat.mul_pos hk hcol) hszk rfl
      dsimp only
      rw [ey]
      simp only [Option.isSome_some, if_true]
      exact C110_call hI hbig cosd hc rng sched1 sched2
        ⟨.file datafn, nrow, maxIters, nthreads, some (rowsFrom g n 0 k), "none", tol, distType⟩ m (some g) hk hcol hcol' hn
        hnt hlt hsz hst rfl hrng hc1 hc2 hm hg .none met rfl hd hcos

/-! ### Calls that meet the hypotheses -/

instance : Inhabited Dbl := ⟨⟨0⟩⟩

/-- The engine of Props/Driver.lean with draws 1/2. -/
noncomputable def dblRng : Rng Dbl Nat 2 :=
  ⟨0, fun s => ((2 * s + 1) % 4, s + 1), fun s => (⟨s % 2, Nat.mod_lt _ (by decide)⟩, s + 1), fun s => (⟨1 / 2⟩, s + 1)⟩

theorem dblRng_fin : RngFin Dbl.Fin' Dbl.v dblRng 4 := by
  refine ⟨fun _ => Nat.mod_lt _ (by decide), fun s => ⟨⟨1, -1, by norm_num, by norm_num, by norm_num, ?_⟩, ?_, ?_⟩⟩ <;>
    simp only [dblRng] <;> norm_num

/-- The rows 0, 1, 2, 3 in a file. -/
def dblCall (init dist : String) (maxIters : Nat) : Call Dbl Dbl :=
  ⟨.file [⟨0⟩, ⟨1⟩, ⟨2⟩, ⟨3⟩], 4, maxIters, 2, none, init, ⟨0⟩, dist⟩

theorem dbl_small (r : Nat) (hr : r ≤ 16) : Dbl.Fin' ⟨(r : ℝ)⟩ ∧ |(r : ℝ)| ≤ 2 ^ (400 : Int) := by
  refine ⟨nat_isDouble (hr.trans (by norm_num)), ?_⟩
  rw [abs_of_nonneg (Nat.cast_nonneg r)]
  have h1 : (r : ℝ) ≤ ((16 : Nat) : ℝ) := by exact_mod_cast hr
  have h2 : ((16 : Nat) : ℝ) = 2 ^ (4 : Int) := by norm_num
  rw [h2] at h1
  exact h1.trans (p_le (by norm_num))

/-- Every initialisation and every treated metric on the four rows, with two threads. -/
theorem dbl_call (init dist : String) (maxIters : Nat) (it : InitT) (met : Dist.Metric)
    (hi : getInit init = .ok it) (hd : getDist dist = .ok met) (hcos : met ≠ .cos) :
    ∃ res, kmeans (n := 1) (anyDist (fun x => Dbl.rnd (√x.v)) (fun x => ⟨|x.v|⟩) fun _ _ => 0) ⟨maxDouble⟩ (oneCell Dbl)
        dblRng demoSched demoSched (dblCall init dist maxIters) = .ok res ∧
      NearDelivers Dbl.Fin' Dbl.v it met (matRows fun r _ => ⟨(r : ℝ)⟩) 4 2 dblRng none ⟨0⟩ maxIters res := by
  have := C110_call (n := 1) Dbl.ieee dbl_input.big (fun _ _ => 0) (oneCell_ok Dbl) dblRng demoSched demoSched
    (dblCall init dist maxIters) (fun r _ => ⟨(r : ℝ)⟩) none (by norm_num) (by norm_num) (by norm_num) (by simp [dblCall])
    (by simp [dblCall]) (by simp [dblCall]) (by simp [dblCall, oneCell])
    (by simp [Holds, dblCall, Stores, oneCell, rowsFrom, rowOf, List.range', List.range_succ]) rfl dblRng_fin demo_complete demo_complete
    (fun r j hr _ => dbl_small r (by have : r < 4 := hr; omega)) (fun g h => by cases h) it met hi hd hcos
  exact this

/-- k-means++ with the Euclidean metric. -/
example : ∃ res, kmeans (n := 1) (anyDist (fun x => Dbl.rnd (√x.v)) (fun x => ⟨|x.v|⟩) fun _ _ => 0) ⟨maxDouble⟩
      (oneCell Dbl) dblRng demoSched demoSched (dblCall "kmeanspp" "eucl" 5) = .ok res ∧
    NearDelivers Dbl.Fin' Dbl.v .plusplus .eucl (matRows fun r _ => ⟨(r : ℝ)⟩) 4 2 dblRng none ⟨0⟩ 5 res :=
  dbl_call "kmeanspp" "eucl" 5 .plusplus .eucl rfl rfl (by decide)

/-- The program on the rows 0, 1, 10, 11 with a file of centres 0 and 10, and the exact clusters that it returns. -/
example (tol : Dbl) : ∃ res,
    knori (anyDist (fun x => Dbl.rnd (√x.v)) (fun x => ⟨|x.v|⟩) fun _ _ => 0) ⟨maxDouble⟩ (oneCell Dbl) dblRng demoSched
      demoSched ((rowsFrom (fun r _ => (⟨(sepRow r : ℝ)⟩ : Dbl)) 1 0 4).flatMap (oneCell Dbl).enc)
      (some ((rowsFrom (fun r _ => (⟨((if r = 0 then 0 else 10 : Nat) : ℝ)⟩ : Dbl)) 1 0 2).flatMap (oneCell Dbl).enc))
      4 5 2 "kmeanspp" tol "eucl" = .ok res ∧
    SameClusters Dbl.v ((5 : Nat) * 2 ^ (-52 : Int) * 11 + 2 ^ (-1075 : Int)) 4 tol 5 sepTrace res.iters
      res.state.assign res.state.counts res.state.cltrs.means := by
  have h4 : ∀ r, r < 4 → sepRow r ≤ 11 := by
    intro r hr
    have : r = 0 ∨ r = 1 ∨ r = 2 ∨ r = 3 := by omega
    rcases this with rfl | rfl | rfl | rfl <;> decide
  obtain ⟨res, er, h⟩ := (C110_knori (k := 2) (n := 1) Dbl.ieee dbl_input.big (fun _ _ => 0) (oneCell_ok Dbl) dblRng demoSched
    demoSched ((rowsFrom (fun r _ => (⟨(sepRow r : ℝ)⟩ : Dbl)) 1 0 4).flatMap (oneCell Dbl).enc)
      (some ((rowsFrom (fun r _ => (⟨((if r = 0 then 0 else 10 : Nat) : ℝ)⟩ : Dbl)) 1 0 2).flatMap (oneCell Dbl).enc))
      4 5 2 "kmeanspp" tol "eucl"
    (by decide) (by decide) (by decide) (by decide) (by decide) (by decide) (by decide) (by decide) dblRng_fin
    demo_complete demo_complete).2.2 _ (some fun r _ => ⟨((if r = 0 then 0 else 10 : Nat) : ℝ)⟩) .none .eucl rfl rfl
    (fun r j hr _ => dbl_small (sepRow r) (by have := h4 r hr; omega))
    (fun g h r j _ _ => by
      rw [← Option.some.inj h]
      exact dbl_small _ (by split_ifs <;> norm_num)) (fun _ => rfl) (fun h => by cases h) rfl (by decide)
  refine ⟨res, er, ?_⟩
  obtain ⟨c0, h1, h2⟩ := C110_separated (.inl rfl) (by norm_num) (by norm_num) (by norm_num) (by norm_num) (by norm_num) h
    (by norm_num) 11 (by norm_num) (fun r hr j => by
      have : ((sepRow r : Nat) : ℝ) ≤ ((11 : Nat) : ℝ) := by exact_mod_cast h4 r hr
      simpa [matRows] using this) _ rfl
  have e0 := h1.1 _ rfl
  subst e0
  refine h2 sepTrace ?_ fun i _ => ?_
  · have e1 : (fun (c : Fin 2) (_ : Fin 1) => (sepInit.cltrs.means c 0).v) =
        fun c _ => ((if c.val = 0 then 0 else 10 : Nat) : ℝ) := by
      funext c _
      fin_cases c <;> rfl
    have := sep_lloyd
    refine ⟨this.cents.trans e1, this.unassigned, this.step⟩
  · have := sep_separated i
    rw [if_pos rfl]
    exact this

end Knor.Driver
